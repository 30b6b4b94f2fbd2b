import Verif.Model.Object
import Verif.Model.Wrappers
import Verif.Model.Dyn

/-!
# Evaluating a population (yuca/cmaes.py `get_fitness`, the serial loop of `mantle`)

The environment `self.env` and the global random generators are shared by all evaluations of one
process, so both are passed from one evaluation to the next here.  `G` is the state of the global
generators of torch and numpy together; `seed_all` (yuca/utils.py:19-22) sets both.
-/

namespace Yuca

/-- An environment as `get_fitness` uses it.  `step` gives the reward and
`info["active_grid"]`. -/
structure Env (σ A G : Type) where
  reset : σ → G → σ × G
  step : σ → A → G → Except PyErr ((ℝ × ℝ) × σ × G)

variable {σ A G : Type}

/-- The inner loop of `get_fitness` (yuca/cmaes.py:167-172): the sum of the rewards and of the
active proportions. -/
noncomputable def Env.steps (E : Env σ A G) (a : A) : Nat → σ → G →
    Except PyErr ((ℝ × ℝ) × σ × G)
  | 0, s, g => .ok ((0, 0), s, g)
  | k + 1, s, g =>
    match E.step s a g with
    | .error e => .error e
    | .ok (r, s, g) =>
      match E.steps a k s g with
      | .error e => .error e
      | .ok (r', s, g) => .ok ((r.1 + r'.1, r.2 + r'.2), s, g)

/-- The loop over the replicates (yuca/cmaes.py:159-175): the fitness of each, and the sum of the
active proportions. -/
noncomputable def Env.replicates (E : Env σ A G) (a : A) (steps : Nat) : Nat → σ → G →
    Except PyErr ((List ℝ × ℝ) × σ × G)
  | 0, s, g => .ok (([], 0), s, g)
  | k + 1, s, g =>
    match E.steps a steps (E.reset s g).1 (E.reset s g).2 with
    | .error e => .error e
    | .ok (r, s, g) =>
      if steps = 0 then .error .zeroDiv
      else match E.replicates a steps k s g with
      | .error e => .error e
      | .ok (r', s, g) => .ok ((r.1 / steps :: r'.1, r.2 + r'.2), s, g)

/-- `get_fitness` (yuca/cmaes.py:153-181): the seed is set once, before the replicates. -/
noncomputable def Env.getFitness (E : Env σ A G) (seedAll : Nat → G) (steps reps seed : Nat)
    (s : σ) (a : A) : Except PyErr ((ℝ × ℝ) × σ × G) :=
  match E.replicates a steps reps s (seedAll seed) with
  | .error e => .error e
  | .ok (r, s, g) =>
    if reps = 0 then .error .zeroDiv
    else .ok ((r.1.sum / r.1.length, r.2 / (steps * reps)), s, g)

/-- The serial loop of `mantle` (yuca/cmaes.py:471-479) and the loop of an arm
(yuca/cmaes.py:610-616): fitness and active proportion of each agent in turn. -/
noncomputable def Env.evalAll (E : Env σ A G) (seedAll : Nat → G) (reps seed : Nat) :
    List A → σ → G → Except PyErr (List (ℝ × ℝ) × σ × G)
  | [], s, g => .ok ([], s, g)
  | a :: as, s, _ =>
    match E.getFitness seedAll 1 reps seed s a with
    | .error e => .error e
    | .ok (r, s, g) =>
      match E.evalAll seedAll reps seed as s g with
      | .error e => .error e
      | .ok (rs, s, g) => .ok (r :: rs, s, g)

/-! ## Automata as objects that are called again and again -/

/-- An automaton object on universes of `C` channels. -/
structure Automaton (σ G : Type) (C : Nat) where
  setParams : σ → List ℝ → σ × Option PyErr
  call : ∀ {N D : Nat}, σ → G → Univ ℝ N C D D → Except PyErr (Univ ℝ N C D D × σ × G)

/-- A universe seen with an equal number of channels (typing only). -/
def Univ.recast {N a b H W : Nat} (h : a = b) (u : Univ ℝ N a H W) : Univ ℝ N b H W :=
  fun n c => u n (Fin.cast h.symm c)

/-- The same for a momentum (typing only). -/
def Momentum.recast {a b : Nat} (h : a = b) (m : Momentum ℝ a) : Momentum ℝ b := h ▸ m

/-- `CCA.forward` (yuca/ca/continuous.py:541-564) of an object, on a universe with `C` channels;
another number of channels than the layers were built for is refused. -/
noncomputable def CCADyn.call {N C D : Nat} (d : CCADyn) (t : ℝ) (u : Univ ℝ N C D D) :
    Except PyErr (Univ ℝ N C D D × ℝ) :=
  if h : d.ext = C then
    match CCA.forward (d.toCCA t) (u.recast h.symm) with
    | .error e => .error e
    | .ok (u', ca) => .ok (u'.recast h, ca.t)
  else .error .runtime

/-- A `CCA` object; it draws no random numbers while it runs. -/
noncomputable def ccaAutomaton (G : Type) (C : Nat) : Automaton CCAObj G C where
  setParams := CCAObj.setParams
  call o g u :=
    match o.dynamics.call o.t u with
    | .error e => .error e
    | .ok (u', t) => .ok (u', { o with t := t }, g)

/-- A `RandomStepCA` object (yuca/random_step_ca.py:48-51); `set_params` is inherited. -/
structure RandomStepObj where
  o : CCAObj
  prevDt : ℝ
  maxDt : ℝ
  minDt : ℝ

/-- `RandomStepCA.forward` (yuca/random_step_ca.py:71-93); `rand` is `np.random.rand()`. -/
noncomputable def randomStepAutomaton {G : Type} (rand : G → ℝ × G) (C : Nat) :
    Automaton RandomStepObj G C where
  setParams s v := ({ s with o := (s.o.setParams v).1 }, (s.o.setParams v).2)
  call s g u :=
    if h : s.o.dynamics.ext = C then
      match RandomStepCA.forward ⟨s.o.dynamics.toCCA s.o.t, s.prevDt, s.maxDt, s.minDt⟩ (rand g).1
          (u.recast h.symm) with
      | .error e => .error e
      | .ok (u', r) =>
        .ok (u'.recast h, { s with o := { s.o with dt := r.ca.dt, t := r.ca.t }, prevDt := r.prevDt },
          (rand g).2)
    else .error .runtime

/-- A `MetaCA` object (yuca/metaca.py:48-52, 74-76). -/
structure MetaObj (C : Nat) where
  o : CCAObj
  ddt : ℝ
  dgrid : Momentum ℝ C

/-- `MetaCA.forward` (yuca/metaca.py:54-72). -/
noncomputable def metaAutomaton (G : Type) (C : Nat) : Automaton (MetaObj C) G C where
  setParams s v := ({ s with o := (s.o.setParams v).1 }, (s.o.setParams v).2)
  call s g u :=
    if h : s.o.dynamics.ext = C then
      match MetaCA.forward ⟨s.o.dynamics.toCCA s.o.t, s.ddt, s.dgrid.recast h.symm⟩ (u.recast h.symm) with
      | .error e => .error e
      | .ok (u', r) => .ok (u'.recast h, { s with dgrid := r.dgrid.recast h }, g)
    else .error .runtime

/-- A `CODE` object (yuca/code.py:45-58). -/
structure CodeObj where
  o : CCAObj
  prevDt : ℝ
  maxDt : ℝ
  minDt : ℝ
  errThr : ℝ

/-- `CODE.forward` (yuca/code.py:60-118, 146-150).  `fuel` bounds the search for a step size;
when it runs out (which it does not if it is large enough and `min_dt > 0`) the model reports
`.recursion`. -/
noncomputable def codeAutomaton (fuel : Nat) (G : Type) (C : Nat) : Automaton CodeObj G C where
  setParams s v := ({ s with o := (s.o.setParams v).1 }, (s.o.setParams v).2)
  call s g u :=
    if h : s.o.dynamics.ext = C then
      match CODE.forward ⟨s.o.dynamics.toCCA s.o.t, s.prevDt, s.maxDt, s.minDt, s.errThr⟩ fuel
          (u.recast h.symm) with
      | none => .error .recursion
      | some (.error e) => .error e
      | some (.ok (u', r)) =>
        .ok (u'.recast h, { s with o := { s.o with dt := r.ca.dt, t := r.ca.t }, prevDt := r.prevDt }, g)
    else .error .runtime

/-! ## The environments -/

/-- `SimpleHaltingWrapper` (yuca/wrappers/halting_wrapper.py:46-101): `reset` does nothing;
`rand` is `torch.rand(batch_size, external_channels, dim, dim)`.  `self.ca.reset()` is not
called. -/
noncomputable def simpleHalting {C : Nat} (M : Automaton σ G C) (batch dim caSteps : Nat)
    (rand : G → Univ ℝ batch C dim dim × G) : Env σ (List ℝ) G where
  reset s g := (s, g)
  step s v g :=
    match M.setParams s v with
    | (_, some e) => .error e
    | (s, none) =>
      match haltingRollout (fun p u =>
          match M.call p.1 p.2 u with
          | .error e => .error e
          | .ok (u', s', g') => .ok (u', (s', g'))) caSteps (s, (rand g).2)
          (startGrid dim (rand g).1) with
      | .error e => .error e
      | .ok (u, s, g) => .ok ((haltingReward (activeGrid u), activeGrid u), s, g)

/-- `RandomWrapper` (yuca/wrappers/random_wrapper.py:23-29): the action is ignored, the
generators are seeded from the clock.  `G` carries the number of clock readings so far;
`clock` tells the time in seconds at each reading, `rand` is `torch.rand(1)`. -/
noncomputable def randomWrapper {R : Type} (clock : Nat → ℚ) (seedAll : Nat → R) (rand : R → ℝ × R) :
    Env σ A (Nat × R) where
  reset s g := (s, g)
  step s _ g :=
    let r := rand (seedAll ⌊Int.fract (clock g.1) * 1000⌋₊)
    .ok ((r.1, -1), s, (g.1 + 1, r.2))

end Yuca
