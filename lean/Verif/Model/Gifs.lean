import Verif.Model.Cmaes
import Verif.Model.Text

/-!
# The gifs of a search (yuca/cmaes.py, yuca/utils.py)

Which calls of `save_fig_sequence` the process that runs `mantle` makes, in order.  What one such
call draws is in Verif/Model/Render.lean.
-/

namespace Yuca

/-- One call of `save_fig_sequence`.  `rule` holds the parameters the automaton was given
just before (`none`: `set_params` was not called), `start` the network weights behind the starting
grid (`none`: a random grid), `warm` tells whether the automaton was called once before the first
frame. -/
structure Shot where
  rule : Option (List ℝ)
  start : Option (List ℝ)
  warm : Bool
  steps : Nat
  dir : Str
  tag : Str

/-- The attributes that name and limit the gifs; `weights` is the number of network weights of a
`CPPNPlus`. -/
structure GifArgs where
  expId : Str
  seed : Nat
  predictionMode : Nat
  caSteps : Nat
  weights : Nat

/-- The first entry of the tag (yuca/cmaes.py:451-452, 458-459, 574-575, 583-584), the directory of
the gifs. -/
def GifArgs.dir (a : GifArgs) : Str :=
  a.expId ++ ("_seed".toList ++ (decimal a.seed ++ ("_immode".toList ++ decimal a.predictionMode)))

/-- The second entry of the tag, `f"gen{0}"` and `f"gen{generation}"` (yuca/cmaes.py:453, 460,
576). -/
def genTag (g : Nat) : Str := "gen".toList ++ decimal g

/-- `f"gen{generation}_elite{elite_idx}"` (yuca/cmaes.py:585). -/
def eliteTag (g i : Nat) : Str := genTag g ++ ("_elite".toList ++ decimal i)

/-- The file a gif is written to (yuca/utils.py:209-213, 167-174) when the clock shows `ms`
milliseconds after the full second. -/
def gifPath (dir tag : Str) (ms : Nat) : Str :=
  "./assets/".toList ++ (dir ++ ("/gif_".toList ++ (tag ++ ('_' :: (padZero 4 ms ++ ".gif".toList)))))

/-- `CMAES.save_gif` (yuca/cmaes.py:324-351): one step of the automaton, then 256 frames. -/
def saveGif (a : GifArgs) (rule start : Option (List ℝ)) (tag : Str) : Shot :=
  ⟨rule, start, true, 256, a.dir, tag⟩

/-- The random starting grid of `CMAES.save_gif` (yuca/cmaes.py:326-333), one cell: `-half:`
is the whole axis if `half` is 0. -/
noncomputable def gifStart (dim : Nat) (rand : Nat → Nat → ℝ) (i j : Nat) : ℝ :=
  let half := dim / 4
  let tail := if half = 0 then 0 else dim - half
  if i < half ∨ j < half ∨ tail ≤ i ∨ tail ≤ j then rand i j * 0 else rand i j

variable {n : Nat}

/-- One round of `CMACES.save_gif` (yuca/cmaes.py:685-700) for agent `v`: the rule is set to its
last parameters, the grid drawn by its network. -/
def coevoShot (a : GifArgs) (tag : Str) (v : Vec n) : Shot :=
  ⟨some ((List.ofFn v).drop a.weights), some ((List.ofFn v).take a.weights), false,
    min a.caSteps 512, a.dir, tag⟩

/-- The parameters agent `i` is given by `CMACES.save_gif` (yuca/cmaes.py:686-687), if any, or
those it has. -/
def gifParams (c : Cma n) (i : Nat) (v : Vec n) : Except PyErr (Vec n) :=
  match c.elite with
  | none => .ok v
  | some E =>
    match E[i]? with
    | none => .error .index
    | some e => .ok e

/-- A loop over positions of the population that makes gifs. -/
def gifLoop (body : Nat → Cma n → Vec n → Except PyErr (Cma n × List Shot)) :
    List Nat → Cma n → Except PyErr (Cma n × List Shot)
  | [], c => .ok (c, [])
  | i :: is, c =>
    match c.population[i]? with
    | none => .error .index
    | some v =>
      match body i c v with
      | .error e => .error e
      | .ok (c', l) =>
        match gifLoop body is c' with
        | .error e => .error e
        | .ok (c'', l') => .ok (c'', l ++ l')

/-- One round of `CMACES.save_gif` (yuca/cmaes.py:685-700). -/
def coevoBody (a : GifArgs) (tag : Str) (i : Nat) (c : Cma n) (v : Vec n) :
    Except PyErr (Cma n × List Shot) :=
  match gifParams c i v with
  | .error e => .error e
  | .ok w => .ok ({ c with population := c.population.set i w }, [coevoShot a tag w])

/-- `CMACES.save_gif` (yuca/cmaes.py:683-700). -/
def coevoSaveGif (a : GifArgs) (tag : Str) (c : Cma n) : Except PyErr (Cma n × List Shot) :=
  gifLoop (coevoBody a tag) (List.range (eliteKeep c.popSize)) c

/-- One round of the gifs before the first generation (yuca/cmaes.py:449-454, 456-461); `uni` says
that "pattern" is not in `exp_id`, `coevo` that the search is a `CMACES`, whose `save_gif` knows no
`starting_grid`.  The parameters `mantle` itself gives to the automaton of a coevolution are
replaced in `save_gif` before they are used (simplification: they are taken to be accepted). -/
def earlyBody (uni coevo : Bool) (a : GifArgs) (_i : Nat) (c : Cma n) (v : Vec n) :
    Except PyErr (Cma n × List Shot) :=
  if uni then
    if coevo then coevoSaveGif a (genTag 0) c
    else .ok (c, [saveGif a (some (List.ofFn v)) none (genTag 0)])
  else if coevo then .error .type
  else .ok (c, [saveGif a none (some (List.ofFn v)) (genTag 0)])

/-- The gifs before the first generation (yuca/cmaes.py:448-461). -/
def earlyGifs (uni coevo : Bool) (a : GifArgs) (c : Cma n) : Except PyErr (Cma n × List Shot) :=
  gifLoop (earlyBody uni coevo a) (List.range (min (eliteKeep c.popSize) 4)) c

/-- One round of the gifs after the last generation `g` (yuca/cmaes.py:572-577, 579-586); `logged`
is `progress["elite_params"][-1]`. -/
def lateBody (uni coevo : Bool) (a : GifArgs) (g : Nat) (logged : List (Vec n)) (i : Nat)
    (c : Cma n) (v : Vec n) : Except PyErr (Cma n × List Shot) :=
  if uni then
    if coevo then coevoSaveGif a (genTag g) c
    else .ok (c, [saveGif a (some (List.ofFn v)) none (genTag g)])
  else
    match logged[i]? with
    | none => .error .index
    | some e =>
      if coevo then .error .type
      else .ok ({ c with population := c.population.set i e },
        [saveGif a none (some (List.ofFn e)) (eliteTag g i)])

/-- The gifs after the last generation `g` (yuca/cmaes.py:571-586). -/
def lateGifs (uni coevo : Bool) (a : GifArgs) (g : Nat) (logged : List (Vec n)) (c : Cma n) :
    Except PyErr (Cma n × List Shot) :=
  gifLoop (lateBody uni coevo a g logged) (List.range (eliteKeep c.popSize)) c

/-- One seed of `mantle` with its gifs (yuca/cmaes.py:439-586), as `runSeed`.  The variable
`generation` is the number of generations that were run less one. -/
noncomputable def filmSeed (uni coevo : Bool) (a : GifArgs) (argsort : List Fit → List Nat) (G : Nat)
    (fit : Nat → Vec n → Fit) (draw : Nat → Draw n) (build : Build n)
    (noise₁ noise₂ : Nat → Vec n) (s : Run n) : Except PyErr (Run n × List Shot × List Shot) :=
  match earlyGifs uni coevo a (Cma.initialize build noise₂ (Cma.reset build noise₁ s.cma)) with
  | .error e => .error e
  | .ok (c, early) =>
    match runGens uni argsort G fit draw G 0 { s with cma := c } with
    | .error e => .error e
    | .ok s' =>
      if G = 0 then .error (if uni then .unbound else .index)
      else
        match lateGifs uni coevo a (s'.logs.length - s.logs.length - 1)
            ((s'.logs.getLast?.map GenLog.elite).getD []) s'.cma with
        | .error e => .error e
        | .ok (c', late) => .ok ({ s' with cma := c' }, early, late)

end Yuca
