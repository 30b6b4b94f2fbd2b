import Verif.Model.Librarian
import Mathlib.Algebra.Order.Field.Rat

/-!
# The pattern browser (gecco_bokeh_app/main.py)

A web page with six buttons.  `from yuca.multiverse import CA` (line 11) names a module this
version of yuca does not contain, so `CA` is whatever automaton is installed in its place.
Buttons and the timer run one handler at a time, and an exception in a handler leaves the page
open, so a handler is a function from the state to the state and perhaps an exception.
-/

namespace Yuca

variable {σ K : Type} [Zero K]

/-- The shape and the cells of a stored array with four axes. -/
structure Cells (K : Type) where
  shape : List Nat
  cell : Nat → Nat → Nat → Nat → K

/-- The grid of the page, `torch.zeros(1, 1, 96, 96)` (lines 34, 137, 181, 224). -/
abbrev PageGrid (K : Type) := Fin 96 → Fin 96 → K

/-- `(grid.shape[-2] - pattern.shape[-2]) // 2 - 3` (lines 49-50, 150-151, 192-193, 237-238). -/
def placeAt (n : Nat) : Int := (96 - (n : Int)) / 2 - 3

/-- Where the slice `place:place+n` starts. -/
def sliceFrom (n : Nat) : Nat := sliceBound 96 (placeAt n)

/-- Where the slice `place:place+n` ends. -/
def sliceTo (n : Nat) : Nat := sliceBound 96 (placeAt n + n)

/-- An axis of length `n` can be assigned to its slice, by equal length or by broadcasting. -/
def sliceTakes (n : Nat) : Prop := sliceTo n - sliceFrom n = n ∨ n = 1

instance (n : Nat) : Decidable (sliceTakes n) := inferInstanceAs (Decidable (_ ∨ _))

/-- `grid[:,:, place_h:..., place_w:...] = torch.tensor(pattern[:,:,:,:])` on a grid of zeros
(lines 49-53, 150-154, 192-196, 237-241).  Fewer than four axes raise IndexError, sizes that do
not fit RuntimeError; arrays with more than four axes are taken to raise as well. -/
def paste (p : Cells K) : Except PyErr (PageGrid K) :=
  match p.shape with
  | [] => .error .index
  | [_] => .error .index
  | [_, _] => .error .index
  | [_, _, _] => .error .index
  | [a, b, h, w] =>
    if a = 1 ∧ b = 1 ∧ sliceTakes h ∧ sliceTakes w then
      .ok fun i j =>
        if (sliceFrom h ≤ i ∧ (i : Nat) < sliceTo h) ∧ sliceFrom w ≤ j ∧ (j : Nat) < sliceTo w then
          p.cell 0 0 (if h = 1 then 0 else i - sliceFrom h) (if w = 1 then 0 else j - sliceFrom w)
        else 0
    else .error .runtime
  | _ => .error .runtime

/-- What the page works with: the zoo directory, `ca.restore_config` (which may change the
automaton and then raise) and `ca(grid)`. -/
structure Backend (σ K : Type) where
  dir : Dir (Cells K)
  restore : σ → Str → σ × Option PyErr
  call : σ → PageGrid K → Except PyErr (PageGrid K × σ)

/-- The state of the page: the global names, what was last sent to the figure and to the
paragraphs, whether `button_go` reads "Pause", and the periods of the callbacks of the document
(lines 28-81). -/
structure Page (σ K : Type) where
  index : List Str
  ca : σ
  grid : PageGrid K
  image : PageGrid K
  step : Nat
  period : ℚ
  running : Bool
  callbacks : List ℚ
  caption : Str
  config : Str
  entry : Str
  git : Str
  message : Option (Nat × ℚ)

/-- `update` (lines 83-103). -/
def Page.update (B : Backend σ K) (s : Page σ K) : Page σ K × Option PyErr :=
  match B.call s.ca s.grid with
  | .error e => (s, some e)
  | .ok (g, c) =>
    ({ s with ca := c, grid := g, image := g, step := s.step + 1
              message := some (s.step + 1, s.period) }, none)

/-- The timer of a registered callback goes off. -/
def Page.fire (B : Backend σ K) (s : Page σ K) : Page σ K × Option PyErr :=
  if s.callbacks = [] then (s, none) else s.update B

/-- `go` (lines 105-113).  Removing the first of no callbacks raises IndexError. -/
def Page.go (s : Page σ K) : Page σ K × Option PyErr :=
  if s.running = false then
    ({ s with callbacks := s.callbacks ++ [s.period], running := true }, none)
  else
    match s.callbacks with
    | [] => (s, some .index)
    | _ :: l => ({ s with callbacks := l, running := false }, none)

/-- `go(); time.sleep(...); go()` (lines 118-120, 125-127): the server does nothing else
meanwhile. -/
def Page.goTwice (s : Page σ K) : Page σ K × Option PyErr :=
  match s.go with
  | (s, some e) => (s, some e)
  | (s, none) => s.go

/-- `faster` (lines 115-120). -/
def Page.faster (s : Page σ K) : Page σ K × Option PyErr :=
  ({ s with period := max (s.period / 2) 128 } : Page σ K).goTwice

/-- `slower` (lines 122-127). -/
def Page.slower (s : Page σ K) : Page σ K × Option PyErr :=
  ({ s with period := min (s.period * 2) 8192 } : Page σ K).goTwice

/-- `ca.restore_config(rule_string)` and the placement on the zeroed grid (lines 149-154,
191-196, 236-241). -/
def Page.put (B : Backend σ K) (s : Page σ K) (p : Cells K) (m : PatternMeta) :
    Page σ K × Option PyErr :=
  match B.restore s.ca m.caConfig with
  | (c, some e) => ({ s with ca := c }, some e)
  | (c, none) =>
    match paste p with
    | .error e => ({ s with ca := c }, some e)
    | .ok g => ({ s with ca := c, grid := g }, none)

/-- The figure and the paragraphs (lines 156-165, 200-208, 245-253). -/
def Page.publish (s : Page σ K) (name : Str) (m : PatternMeta) : Page σ K :=
  { s with image := s.grid
           caption := "alias: ".toList ++ name
           config := "\nCA config: ".toList ++ stem m.caConfig ++ " ".toList
           entry := "\nevolved with: ".toList ++ m.entryPoint
           git := "\nat git commit hash: \n ".toList ++ m.commitHash }

/-- The other wording of `reset_this_pattern` (lines 165-171), with the notes. -/
def Page.publishThis (s : Page σ K) (name : Str) (m : PatternMeta) : Page σ K :=
  { s.publish name m with
    entry := "\nevolved with: \n".toList ++ m.entryPoint
    git := "\nat git commit hash: \n".toList ++ m.commitHash ++
      (if m.notes = [] then [] else "\n\nnote: ".toList ++ m.notes) }

/-- `reset_this_pattern` (lines 129-171).  `my_step = 0` makes a local name and changes
nothing. -/
def Page.resetThis (B : Backend σ K) (s : Page σ K) : Page σ K × Option PyErr :=
  match s.index.getLast? with
  | none => ({ s with grid := fun _ _ => 0 }, some .index)
  | some name =>
    match load B.dir name with
    | .error e => ({ s with grid := fun _ _ => 0, index := s.index.dropLast }, some e)
    | .ok (p, m) =>
      match ({ s with grid := fun _ _ => 0
                      index := s.index.dropLast ++ [name] } : Page σ K).put B p m with
      | (s', some e) => (s', some e)
      | (s', none) => (s'.publishThis name m, none)

/-- The common part of the other two (lines 185-208, 230-253): `l` is the index once `name` has
been taken from it. -/
def Page.present (B : Backend σ K) (s : Page σ K) (l : List Str) (name : Str) :
    Page σ K × Except PyErr PatternMeta :=
  match load B.dir name with
  | .error e => ({ s with grid := fun _ _ => 0, index := l }, .error e)
  | .ok (p, m) =>
    match ({ s with grid := fun _ _ => 0, index := l } : Page σ K).put B p m with
    | (s', some e) => (s', .error e)
    | (s', none) => (({ s' with index := l ++ [name] } : Page σ K).publish name m, .ok m)

/-- `"none"`. -/
def noneHash : Str := ['n', 'o', 'n', 'e']

/-- `reset_next_pattern` (lines 173-212).  The first argument is the number of stack frames
left; `my_step` as above. -/
def Page.resetNext (B : Backend σ K) : Nat → Page σ K → Page σ K × Option PyErr
  | 0, s => (s, some .recursion)
  | k + 1, s =>
    match s.index with
    | [] => ({ s with grid := fun _ _ => 0 }, some .index)
    | name :: l =>
      match s.present B l name with
      | (s', .error e) => (s', some e)
      | (s', .ok m) => if m.commitHash = noneHash then Page.resetNext B k s' else (s', none)

/-- `reset_prev_pattern` (lines 216-257): the last name goes to the front, then the new last name
is taken. -/
def Page.resetPrev (B : Backend σ K) : Nat → Page σ K → Page σ K × Option PyErr
  | 0, s => (s, some .recursion)
  | k + 1, s =>
    match s.index.getLast? with
    | none => ({ s with grid := fun _ _ => 0 }, some .index)
    | some cur =>
      let turned := cur :: s.index.dropLast
      match s.present B turned.dropLast (turned.getLast?.getD cur) with
      | (s', .error e) => (s', some e)
      | (s', .ok m) => if m.commitHash = noneHash then Page.resetPrev B k s' else (s', none)

/-- What can happen on the page (lines 262-268). -/
inductive Click where
  | go | faster | slower | prev | this | next | timer
  deriving DecidableEq

/-- One event; `frames` is the depth of the Python stack. -/
def Page.click (B : Backend σ K) (frames : Nat) (s : Page σ K) : Click → Page σ K × Option PyErr
  | .go => s.go
  | .faster => s.faster
  | .slower => s.slower
  | .prev => s.resetPrev B frames
  | .this => s.resetThis B
  | .next => s.resetNext B frames
  | .timer => s.fire B

/-- A session: exceptions are logged by the server and the page stays open. -/
def Page.clicks (B : Backend σ K) (frames : Nat) (s : Page σ K) (l : List Click) : Page σ K :=
  l.foldl (fun s c => (s.click B frames c).1) s

/-- `"orbium_orbium000"`. -/
def firstPattern : Str := "orbium_orbium000".toList

/-- The top level of the script (lines 28-81, 260): an orbium is placed, then `reset_this_pattern`
runs.  `index` is `lib.index`, `ca` the new automaton.  An exception ends the script. -/
def Page.start (B : Backend σ K) (index : List Str) (ca : σ) : Except PyErr (Page σ K) :=
  match load B.dir firstPattern with
  | .error e => .error e
  | .ok (p, m) =>
    match paste p with
    | .error e => .error e
    | .ok g =>
      match B.restore ca m.caConfig with
      | (_, some e) => .error e
      | (c, none) =>
        match ({ index := index, ca := c, grid := g, image := g, step := 0, period := 512
                 running := false, callbacks := [], caption := [], config := [], entry := []
                 git := [], message := none } : Page σ K).resetThis B with
        | (_, some e) => .error e
        | (s, none) => .ok s

/-- The patterns in yuca/zoo with the shapes in the headers of their `.npy` files. -/
def shippedZoo : List (String × List Nat) := [
  ("discutium_solidus_6wide_waveglider000", [1, 1, 82, 32]),
  ("discutium_valvatus_5wide_waveglider000", [1, 1, 68, 32]),
  ("frog000", [1, 1, 36, 36]),
  ("geminium000", [51, 55]),
  ("geminium2_wobble_glider000", [1, 1, 68, 42]),
  ("geminium_hydrogeminium_natans000", [51, 55]),
  ("gol_25P3H1V0_1000", [7, 18]),
  ("gol_large_spaceship000", [1, 1, 6, 9]),
  ("gol_medium_spaceship000", [1, 1, 6, 8]),
  ("gol_reflex_glider000", [1, 1, 5, 5]),
  ("gol_small_spaceship000", [1, 1, 6, 7]),
  ("neuroo_bicaudatus_ignis000", [1, 1, 22, 22]),
  ("neurop_sinus_labens_waveglider000", [1, 1, 100, 28]),
  ("neurorbium000", [1, 1, 20, 20]),
  ("neuroreflex_glider000", [1, 1, 5, 5]),
  ("neurosingle_glider000", [1, 1, 22, 22]),
  ("neurosynorbium000", [1, 1, 20, 20]),
  ("neurowobble_glider000", [1, 1, 40, 30]),
  ("o_bicaudatus_ignis_orbium000", [1, 1, 20, 23]),
  ("o_bicaudatus_orbium000", [1, 1, 22, 22]),
  ("orbium_orbium000", [1, 1, 22, 22]),
  ("p_arcus_labens_fixed_5wide_waveglider000", [1, 1, 120, 60]),
  ("p_arcus_saliens_ignis_5wide_waveglider000", [1, 1, 68, 36]),
  ("p_cavus_labens_4wide_waveglider000", [1, 1, 50, 28]),
  ("p_sinus_labens_6wide_waveglider000", [1, 1, 82, 30]),
  ("s113_amorphous_changing_glider000", [1, 1, 54, 28]),
  ("s11_config_evolved_ca_slow_glider000", [1, 1, 26, 26]),
  ("s613_fast_wobble_glider000", [1, 1, 84, 51]),
  ("s613_s613_frog000", [1, 1, 30, 32]),
  ("s643_s643_3wide_wobble_glider000", [1, 1, 62, 38]),
  ("s643_s643_frog000", [1, 1, 24, 28]),
  ("s7_config_semistable_frog000", [1, 1, 26, 28]),
  ("s7_config_spiky_frog_egg000", [1, 1, 34, 30]),
  ("scutium_gravidus_4wide_waveglider000", [1, 1, 46, 18]),
  ("scutium_gravidus_single000", [1, 1, 20, 20]),
  ("scutium_gravidus_superwide_000", [1, 1, 140, 70]),
  ("scutium_solidus_5wide_waveglider000", [1, 1, 66, 26]),
  ("scutium_valvatus_3wide_glider000", [1, 1, 38, 24]),
  ("smoothlife_single_glider000", [1, 1, 23, 23]),
  ("synorbium_orbium000", [1, 1, 20, 18]),
  ("triscutium_solidus_triscutium000", [1, 1, 40, 26]),
  ("uskate_berrycup000", [1, 2, 130, 140]),
  ("uskate_berrycup001", [1, 2, 106, 106]),
  ("uskate_daedalus000", [1, 2, 130, 80]),
  ("uskate_daedalus001", [1, 2, 127, 82]),
  ("uskate_glider000", [1, 2, 70, 75]),
  ("uskate_glider001", [1, 2, 40, 40]),
  ("vagoptera_duorbium000", [1, 1, 72, 48]),
  ("wobbler000", [1, 1, 74, 46])]

/-- The names in that directory: two files for each pattern, and yuca/zoo/__init__.py and
yuca/zoo/librarian.py. -/
def shippedFiles : List Str :=
  shippedZoo.map (fun x => npyName x.1.toList) ++ (shippedZoo.map (fun x => csvName x.1.toList) ++
    ["__init__.py".toList, "librarian.py".toList])

end Yuca
