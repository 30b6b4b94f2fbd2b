import Verif.Model.Conv

/-!
# The step functions of the automata

One `forward` per class, over lawless arithmetic.  `dt` is a scalar (a 0-d or
one-element tensor in the code).  The `float16` branches of `CA.forward` and
`CCA.forward` only insert extra casts, i.e. extra roundings inside the lawless
operations, and are not separate cases here.
-/

namespace Yuca

open Arith Transc

variable {α : Type} [Arith α] {ext int N H W : Nat}

/-- `CA.alive_mask` (yuca/ca/common.py:304-313): a mask that is 1.0 where channel 3
exceeds the threshold and 0.0 elsewhere, multiplied into every channel. -/
def aliveMask (thr : α) (h : 4 ≤ ext) (u : Univ α N ext H W) : Univ α N ext H W :=
  fun n c i j => mul (u n c i j) (if lt thr (u n ⟨3, by omega⟩ i j) then one else zero)

/-- `if universe.shape[1] >= 4: universe = self.alive_mask(universe)`
(yuca/ca/common.py:318-319, yuca/ca/continuous.py:543-544, yuca/metaca.py:60-61,
yuca/code.py:134-135, yuca/random_step_ca.py:73-74). -/
def maskIf (thr : α) (u : Univ α N ext H W) : Univ α N ext H W :=
  if h : 4 ≤ ext then aliveMask thr h u else u

/-- `torch.clamp(universe + dt * update, 0, 1.0)` (yuca/ca/common.py:332,
yuca/ca/continuous.py:560 and the other lines listed at `clamp01`). -/
def eulerClamp (dt : α) (u upd : Univ α N ext H W) : Univ α N ext H W :=
  fun n c i j => clamp01 (add (u n c i j) (mul dt (upd n c i j)))

/-! ## CA (base class) -/

/-- The base class with as many internal as external channels (with different
counts `universe + dt * update` has mismatched shapes). -/
structure BaseCA (α : Type) (ch : Nat) where
  idL : ConvLayer α ch ch
  nbL : ConvLayer α ch ch
  thr : α
  dt : α
  t : α

/-- `CA.update_universe` (yuca/ca/common.py:232-234): identity + neighborhoods. -/
def BaseCA.updateUniverse (idn nb : Univ α N ext H W) : Univ α N ext H W :=
  fun n c i j => add (idn n c i j) (nb n c i j)

/-- `CA.forward` (yuca/ca/common.py:316-336). -/
def BaseCA.forward (ca : BaseCA α ext) (u : Univ α N ext H W) :
    Except PyErr (Univ α N ext H W × BaseCA α ext) := do
  let u := maskIf ca.thr u
  let idn ← ca.idL.apply u
  let nb ← ca.nbL.apply u
  let upd := BaseCA.updateUniverse idn nb
  return (eulerClamp ca.dt u upd, { ca with t := add ca.t ca.dt })

/-! ## CCA -/

/-- `CCA.weights_layer` (yuca/ca/continuous.py:396-424): a 1x1 convolution in
"functional" mode, otherwise conv, ReLU, conv. -/
inductive Weights (α : Type) (ext int : Nat) where
  | functional (w : Fin ext → Fin int → α)
  | sequential (w₁ : Fin int → Fin int → α) (w₂ : Fin ext → Fin int → α)

/-- A bias-free 1x1 convolution (yuca/ca/continuous.py:403-406). -/
def conv1x1 {a b : Nat} (w : Fin b → Fin a → α) (x : Univ α N a H W) : Univ α N b H W :=
  fun n e i j => dot ((List.finRange a).map fun o => (w e o, x n o i j))

/-- `nn.ReLU` on one value: `max(x, 0)`, NaN passes through. -/
def relu (x : α) : α := if lt x zero then zero else x

/-- Applying `self.weights_layer` (yuca/ca/continuous.py:537). -/
def Weights.apply (l : Weights α ext int) (x : Univ α N int H W) : Univ α N ext H W :=
  match l with
  | .functional w => conv1x1 w x
  | .sequential w₁ w₂ => conv1x1 w₂ (fun n o i j => relu (conv1x1 w₁ x n o i j))

/-- The part of a `CCA` object its step function reads.  The growth functions are
scalar functions (all activations of yuca/activations.py act cell by cell). -/
structure CCA (α : Type) (ext int : Nat) where
  idL : ConvLayer α ext int
  nbL : ConvLayer α ext int
  genesis : List (α → α)
  persistence : List (α → α)
  weights : Weights α ext int
  thr : α
  dt : α
  t : α

/-- `CCA.genesis` / `CCA.persistence` (yuca/ca/continuous.py:486-520): assert one
function per neighborhood channel, then apply function `ii` to channel `ii`. -/
def perChannel (fns : List (α → α)) (x : Univ α N int H W) :
    Except PyErr (Univ α N int H W) :=
  if h : fns.length = int then .ok fun n o i j => fns.get (Fin.cast h.symm o) (x n o i j)
  else .error .assertion

/-- `CCA.update_universe` (yuca/ca/continuous.py:523-539), also
`RandomStepCA.update_universe` (yuca/random_step_ca.py:60-69) and
`CODE.update_universe` (yuca/code.py:121-130). -/
def CCA.updateUniverse (ca : CCA α ext int) (idn nb : Univ α N int H W) :
    Except PyErr (Univ α N ext H W) := do
  let gen ← perChannel ca.genesis nb
  let generate : Univ α N int H W := fun n o i j => mul (sub one (idn n o i j)) (gen n o i j)
  let per ← perChannel ca.persistence nb
  let persist : Univ α N int H W := fun n o i j => mul (idn n o i j) (per n o i j)
  let genper : Univ α N int H W := fun n o i j => add (generate n o i j) (persist n o i j)
  return ca.weights.apply genper

/-- `CCA.forward` (yuca/ca/continuous.py:541-564). -/
def CCA.forward (ca : CCA α ext int) (u : Univ α N ext H W) :
    Except PyErr (Univ α N ext H W × CCA α ext int) := do
  let u := maskIf ca.thr u
  let idn ← ca.idL.apply u
  let nb ← ca.nbL.apply u
  let upd ← ca.updateUniverse idn nb
  return (eulerClamp ca.dt u upd, { ca with t := add ca.t ca.dt })

/-- What `get_frame` can return (yuca/ca/continuous.py:575-585). -/
inductive Frame (α : Type) (N ext int H W : Nat) where
  | new (u : Univ α N ext H W)
  | newNb (u : Univ α N ext H W) (nb : Univ α N int H W)
  | newUpd (u upd : Univ α N ext H W)
  | newNbUpd (u : Univ α N ext H W) (nb : Univ α N int H W) (upd : Univ α N ext H W)
  | all (u old : Univ α N ext H W) (nb : Univ α N int H W) (upd : Univ α N ext H W)
  | none

/-- `CCA.get_frame` (yuca/ca/continuous.py:566-585): no alive mask, no `t_count`. -/
def CCA.getFrame (ca : CCA α ext int) (u : Univ α N ext H W) (mode : Int) :
    Except PyErr (Frame α N ext int H W) := do
  let idn ← ca.idL.apply u
  let nb ← ca.nbL.apply u
  let upd ← ca.updateUniverse idn nb
  let new := eulerClamp ca.dt u upd
  return (
    if mode = 0 then .new new
    else if mode = 1 then .newNb new nb
    else if mode = 2 then .newUpd new upd
    else if mode = 3 then .newNbUpd new nb upd
    else if mode = 4 then .all new u nb upd
    else .none)

/-- `CCA.reset` / `CA.reset` (yuca/ca/continuous.py:98-100). -/
def CCA.reset (ca : CCA α ext int) : CCA α ext int := { ca with t := zero }

/-- `CA.set_dt` (yuca/ca/common.py:293-298). -/
def CCA.setDt (ca : CCA α ext int) (dt : α) : CCA α ext int := { ca with dt := dt }

/-! ## Lenia -/

/-- `Lenia.update_universe` (yuca/lenia.py:55-60): growth only, identity unused. -/
def CCA.leniaUpdateUniverse (ca : CCA α ext int) (nb : Univ α N int H W) :
    Except PyErr (Univ α N ext H W) := do
  let growth ← perChannel ca.genesis nb
  return ca.weights.apply growth

/-- `Lenia.forward`: inherited `CCA.forward` (yuca/ca/continuous.py:541-564) with
Lenia's `update_universe`. -/
def CCA.leniaForward (ca : CCA α ext int) (u : Univ α N ext H W) :
    Except PyErr (Univ α N ext H W × CCA α ext int) := do
  let u := maskIf ca.thr u
  let _idn : Univ α N int H W ← ca.idL.apply u
  let nb ← ca.nbL.apply u
  let upd ← ca.leniaUpdateUniverse nb
  return (eulerClamp ca.dt u upd, { ca with t := add ca.t ca.dt })

/-! ## RandomStepCA -/

/-- Extra attributes of `RandomStepCA` (yuca/random_step_ca.py:48-51). -/
structure RandomStepCA (α : Type) (ext int : Nat) where
  ca : CCA α ext int
  prevDt : α
  maxDt : α
  minDt : α

/-- `RandomStepCA.forward` (yuca/random_step_ca.py:71-93); `r` is the value drawn by
`np.random.rand()`. -/
def RandomStepCA.forward (s : RandomStepCA α ext int) (r : α) (u : Univ α N ext H W) :
    Except PyErr (Univ α N ext H W × RandomStepCA α ext int) := do
  let u := maskIf s.ca.thr u
  let idn ← s.ca.idL.apply u
  let nb ← s.ca.nbL.apply u
  let upd ← s.ca.updateUniverse idn nb
  let dt := add (mul r (sub s.maxDt s.minDt)) s.minDt
  let new := eulerClamp dt u upd
  return (new, { s with ca := { s.ca with dt := dt, t := add s.ca.t dt },
                        prevDt := mul one dt })

/-! ## MetaCA -/

/-- The momentum `self.dgrid` (yuca/metaca.py:57-58, 68, 74-76): `none` is the
one-element tensor `reset` installs (no 4-d grid has its shape), otherwise a tensor
together with its shape `(N, H, W)`. -/
abbrev Momentum (α : Type) (ext : Nat) :=
  Option (Σ s : Nat × Nat × Nat, Univ α s.1 ext s.2.1 s.2.2)

/-- Extra attributes of `MetaCA` (yuca/metaca.py:51, 76).  `t` of the inner `CCA` is
unused: `MetaCA.reset` never sets `t_count` and `forward` does not touch it. -/
structure MetaCA (α : Type) (ext int : Nat) where
  ca : CCA α ext int
  ddt : α
  dgrid : Momentum α ext

/-- `if grid.shape != self.dgrid.shape: self.dgrid = torch.zeros_like(grid)`
(yuca/metaca.py:57-58). -/
def Momentum.forShape (m : Momentum α ext) (N H W : Nat) : Univ α N ext H W :=
  match m with
  | none => fun _ _ _ _ => zero
  | some ⟨s, d⟩ =>
    if h : s = (N, H, W) then by subst h; exact d else fun _ _ _ _ => zero

/-- `MetaCA.forward` (yuca/metaca.py:54-72). -/
def MetaCA.forward (s : MetaCA α ext int) (u : Univ α N ext H W) :
    Except PyErr (Univ α N ext H W × MetaCA α ext int) := do
  let d := Momentum.forShape s.dgrid N H W
  let u := maskIf s.ca.thr u
  let idn ← s.ca.idL.apply u
  let nb ← s.ca.nbL.apply u
  let upd ← s.ca.updateUniverse idn nb
  let d' : Univ α N ext H W := fun n c i j => add (d n c i j) (mul s.ddt (upd n c i j))
  let new := eulerClamp s.ca.dt u d'
  return (new, { s with dgrid := some ⟨(N, H, W), d'⟩ })

/-- `MetaCA.reset` (yuca/metaca.py:74-76). -/
def MetaCA.reset (s : MetaCA α ext int) : MetaCA α ext int := { s with dgrid := none }

/-! ## CODE -/

/-- Extra attributes of `CODE` (yuca/code.py:48-52; `static_dt` is never used). -/
structure CODE (α : Type) (ext int : Nat) where
  ca : CCA α ext int
  prevDt : α
  maxDt : α
  minDt : α
  errThr : α

/-- `CODE.get_new_grid` (yuca/code.py:132-144) with the current `self.dt`. -/
def CODE.getNewGrid (s : CODE α ext int) (dt : α) (u : Univ α N ext H W) :
    Except PyErr (Univ α N ext H W) := do
  let u := maskIf s.ca.thr u
  let idn ← s.ca.idL.apply u
  let nb ← s.ca.nbL.apply u
  let upd ← s.ca.updateUniverse idn nb
  return eulerClamp dt u upd

/-- The per-cell relative error (yuca/code.py:78-80). -/
def CODE.cellError (big small : α) : α :=
  let e := mul (abs (sub big small)) (mul one (if lt zero small then one else zero))
  if lt zero e then div e small else e

/-- One test of a candidate step (yuca/code.py:69-85): the two half steps are
compared with the full step and `mean_error.max() < error_threshold` is evaluated.
The maximum of a non-empty tensor is below the threshold iff every entry is (a NaN
entry makes both sides false).  Empty tensors (where `max()` raises) are not
distinguished. -/
def CODE.accept (s : CODE α ext int) (u : Univ α N ext H W) (step : α) :
    Except PyErr Bool := do
  let big ← s.getNewGrid step u
  let half := mul step (lit (1/2))
  let small ← s.getNewGrid half u
  let small ← s.getNewGrid half small
  return decide (∀ n c i j, lt (CODE.cellError (big n c i j) (small n c i j)) s.errThr = true)

/-- Result of the `while` loop of `adaptive_euler` (yuca/code.py:68-89) when run for
at most `fuel` iterations. -/
inductive LoopResult (α : Type) where
  | outOfFuel
  | raised (e : PyErr)
  | done (keep : Bool) (step : α) (tested : Bool)

/-- The `while (not keep) and current_step >= self.min_dt` loop (yuca/code.py:68-89).
`tested` records whether the body ran at least once (it binds `step_mse`).  The test
of a candidate is an arbitrary function here; `CODE.adaptiveEuler` passes
`CODE.accept`. -/
def adaptLoop (minDt : α) (accept : α → Except PyErr Bool) :
    Nat → α → Bool → LoopResult α
  | 0, _, _ => .outOfFuel
  | fuel + 1, step, tested =>
    if le minDt step then
      match accept step with
      | .error e => .raised e
      | .ok true => .done true step true
      | .ok false => adaptLoop minDt accept fuel (mul step (lit (3/4))) true
    else .done false step tested

/-- `min([self.prev_dt * 2, self.max_dt])` (yuca/code.py:64); Python's `min` keeps
the first minimal element. -/
def CODE.firstStep (s : CODE α ext int) : α :=
  if lt s.maxDt (mul s.prevDt (lit 2)) then s.maxDt else mul s.prevDt (lit 2)

/-- Result of `adaptive_euler`; `none` means the loop had not finished within `fuel`
iterations. -/
abbrev CODE.Result (α : Type) (N ext int H W : Nat) :=
  Option (Except PyErr (Univ α N ext H W × CODE α ext int))

/-- `CODE.adaptive_euler` and `CODE.forward` (yuca/code.py:60-118, 146-150). -/
def CODE.forward (s : CODE α ext int) (fuel : Nat) (u : Univ α N ext H W) :
    CODE.Result α N ext int H W :=
  match adaptLoop s.minDt (s.accept u) fuel s.firstStep false with
  | .outOfFuel => none
  | .raised e => some (.error e)
  | .done keep step tested =>
    let dt := if keep then step else s.minDt
    if tested then
      some (do
        let new ← s.getNewGrid dt u
        return (new, { s with ca := { s.ca with dt := dt, t := add s.ca.t dt },
                              prevDt := dt }))
    else some (.error .unbound)   -- `self.nmse = step_mse` (line 101)

/-! ## NCA -/

/-- The part of an `NCA` object its step function reads; `w₁`, `w₂`, `w₃` are the
three 1x1 convolutions of `initialize_weight_layer` (yuca/ca/neural.py:265-286), `act₁` and `act₂`
the activations after the first two; these are separate modules with parameters of their own, which
`set_params` writes. -/
structure NCA (α : Type) (ext int hid : Nat) where
  idL : ConvLayer α ext int
  nbL : ConvLayer α ext int
  w₁ : Fin hid → Fin (ext + int) → α
  act₁ : α → α
  w₂ : Fin hid → Fin hid → α
  act₂ : α → α
  w₃ : Fin ext → Fin hid → α
  thr : α
  dt : α
  t : α

/-- `torch.cat([identity, neighborhoods], dim=1)` (yuca/ca/neural.py:306). -/
def catChannels {a b : Nat} (x : Univ α N a H W) (y : Univ α N b H W) :
    Univ α N (a + b) H W :=
  fun n c i j => Fin.addCases (fun c => x n c i j) (fun c => y n c i j) c

/-- `NCA.update_universe` (yuca/ca/neural.py:303-309).  The first convolution expects
`ext + int` channels but receives `int + int`, so torch raises unless they agree.
`drop` is the dropout mask (0 or 1/(1-p) per entry) in training mode, `none` in
evaluation mode. -/
def NCA.updateUniverse [Transc α] {hid : Nat} (ca : NCA α ext int hid)
    (drop : Option (Univ α N hid H W)) (idn nb : Univ α N int H W) :
    Except PyErr (Univ α N ext H W) :=
  if h : ext = int then
    let x := catChannels idn nb
    let h₁ : Univ α N hid H W := fun n c i j =>
      ca.act₁ (conv1x1 (fun e o => ca.w₁ e (Fin.cast (by omega) o)) x n c i j)
    let h₁' : Univ α N hid H W := match drop with
      | none => h₁
      | some m => fun n c i j => mul (h₁ n c i j) (m n c i j)
    let h₂ : Univ α N hid H W := fun n c i j => ca.act₂ (conv1x1 ca.w₂ h₁' n c i j)
    .ok fun n c i j => tanh (conv1x1 ca.w₃ h₂ n c i j)
  else .error .runtime

/-- `NCA.forward`: inherited `CA.forward` (yuca/ca/common.py:316-336). -/
def NCA.forward [Transc α] {hid : Nat} (ca : NCA α ext int hid)
    (drop : Option (Univ α N hid H W)) (u : Univ α N ext H W) :
    Except PyErr (Univ α N ext H W × NCA α ext int hid) := do
  let u := maskIf ca.thr u
  let idn ← ca.idL.apply u
  let nb ← ca.nbL.apply u
  let upd ← ca.updateUniverse drop idn nb
  return (eulerClamp ca.dt u upd, { ca with t := add ca.t ca.dt })

/-! ## RxnDfn (Gray-Scott) -/

/-- The part of a `RxnDfn` object its step function reads
(yuca/ca/reaction_diffusion.py:228-238). -/
structure RxnDfn (α : Type) where
  idL : ConvLayer α 2 2
  nbL : ConvLayer α 2 2
  diffU : α
  diffV : α
  f : α
  k : α
  dx : α
  dt : α
  t : α

/-- `RxnDfn.update_universe` (yuca/ca/reaction_diffusion.py:324-353). -/
def RxnDfn.updateUniverse (ca : RxnDfn α) (idn nb : Univ α N 2 H W) : Univ α N 2 H W :=
  fun n c i j =>
    let dx2 := mul ca.dx ca.dx
    let nablaU := div (nb n 0 i j) dx2
    let nablaV := div (nb n 1 i j) dx2
    let u := idn n 0 i j
    let v := idn n 1 i j
    let uvv := mul (mul u v) v
    if c = 0 then add (sub (mul ca.diffU nablaU) uvv) (mul ca.f (sub one u))
    else sub (add (mul ca.diffV nablaV) uvv) (mul (add ca.f ca.k) v)

/-- `RxnDfn.forward` (yuca/ca/reaction_diffusion.py:360-375); its `alive_mask` is the
identity (356-358) and there are only two channels anyway. -/
def RxnDfn.forward (ca : RxnDfn α) (u : Univ α N 2 H W) :
    Except PyErr (Univ α N 2 H W × RxnDfn α) := do
  let idn ← ca.idL.apply u
  let nb ← ca.nbL.apply u
  let upd := ca.updateUniverse idn nb
  return (eulerClamp ca.dt u upd, { ca with t := add ca.t ca.dt })

/-- `RxnDfn.get_frame`: inherited `CA.get_frame`, mode 0 (yuca/ca/common.py:338-348). -/
def RxnDfn.getFrame0 (ca : RxnDfn α) (u : Univ α N 2 H W) :
    Except PyErr (Univ α N 2 H W) := do
  let idn ← ca.idL.apply u
  let nb ← ca.nbL.apply u
  let upd := ca.updateUniverse idn nb
  return eulerClamp ca.dt u upd

/-! ## Trajectories -/

/-- Call a step function `n` times, feeding universe and automaton state back in (the
loops `for step in range(n): grid = ca(grid)` used throughout). -/
def iterate {σ β : Type} (f : σ → β → Except PyErr (β × σ)) :
    Nat → σ → β → Except PyErr (β × σ)
  | 0, s, b => .ok (b, s)
  | n + 1, s, b => do
    let (b', s') ← f s b
    iterate f n s' b'

end Yuca
