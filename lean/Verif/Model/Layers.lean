import Verif.Model.Dyn

/-!
# Layers built from kernels, frames of the other classes, shapes, call histories
-/

namespace Yuca

open Arith

variable {α : Type} [Arith α] {ext int N H W : Nat}

/-- A layer whose weight tensor is one square kernel broadcast to every output and
in-group channel: `param[1][:] = self.id_kernel` / `... = self.neighborhood_kernels` with
a kernel of shape `(1, 1, k, k)` (yuca/ca/common.py:139-141, 218-220). -/
def ConvLayer.ofKernel (ext int : Nat) (mode : PadMode) (k : Nat) (κ : Fin k → Fin k → α) :
    ConvLayer α ext int := ⟨k, mode, fun _ _ => κ⟩

/-- The default identity kernel `[[0,0,0],[0,1,0],[0,0,0]]`
(yuca/ca/common.py:100-103, yuca/ca/continuous.py:373-376). -/
def identityKernel : Fin 3 → Fin 3 → α := fun a b => if a = 1 ∧ b = 1 then one else zero

/-- The identity layer of a default automaton (yuca/ca/common.py:122-141). -/
def identityLayer (ext int : Nat) (mode : PadMode) : ConvLayer α ext int :=
  .ofKernel ext int mode 3 identityKernel

/-! ## `get_frame` of the other classes -/

/-- `Lenia.get_frame(universe, mode=0)`: inherited `CCA.get_frame`
(yuca/ca/continuous.py:566-576) with Lenia's `update_universe`. -/
def CCA.leniaGetFrame0 (ca : CCA α ext int) (u : Univ α N ext H W) :
    Except PyErr (Univ α N ext H W) := do
  let _idn : Univ α N int H W ← ca.idL.apply u
  let nb ← ca.nbL.apply u
  let upd ← ca.leniaUpdateUniverse nb
  return eulerClamp ca.dt u upd

/-- `NCA.get_frame(universe, mode=0)`: inherited `CA.get_frame`
(yuca/ca/common.py:338-348). -/
def NCA.getFrame0 [Transc α] {hid : Nat} (ca : NCA α ext int hid)
    (drop : Option (Univ α N hid H W)) (u : Univ α N ext H W) :
    Except PyErr (Univ α N ext H W) := do
  let idn ← ca.idL.apply u
  let nb ← ca.nbL.apply u
  let upd ← ca.updateUniverse drop idn nb
  return eulerClamp ca.dt u upd

/-- `MetaCA.get_frame`, `RandomStepCA.get_frame`, `CODE.get_frame` (mode 0): inherited
`CCA.get_frame` (yuca/ca/continuous.py:566-576); momentum and step control are ignored. -/
def MetaCA.getFrame0 (s : MetaCA α ext int) (u : Univ α N ext H W) :
    Except PyErr (Frame α N ext int H W) := s.ca.getFrame u 0

/-- The universe part of what `get_frame` returned (yuca/ca/continuous.py:575-585). -/
def Frame.universe : Frame α N ext int H W → Option (Univ α N ext H W)
  | .new u => some u
  | .newNb u _ => some u
  | .newUpd u _ => some u
  | .newNbUpd u _ _ => some u
  | .all u _ _ _ => some u
  | .none => Option.none

/-! ## Shapes, including even kernels -/

/-- Length of one axis after `nn.Conv2d(.., k, padding=(k-1)//2)` (yuca/ca/common.py:124,
134-137, 206, 211-215).  torch raises when the kernel is empty or larger than the padded
input.  The limits of circular and reflect padding are in `padOK`, not here. -/
def convAxis (n k : Nat) : Except PyErr Nat :=
  if k = 0 ∨ n + 2 * ((k - 1) / 2) < k then .error .runtime
  else .ok (outDim n k ((k - 1) / 2))

/-- Broadcasting of one axis of two tensors in an elementwise operation. -/
def broadcastAxis (a b : Nat) : Except PyErr Nat :=
  if a = b then .ok a else if a = 1 then .ok b else if b = 1 then .ok a else .error .runtime

/-- Length of one spatial axis of the result of `CCA.forward` on an axis of length `n`,
for kernels of side `kid` and `knb` of either parity (yuca/ca/continuous.py:533-536,
555-560): `identity * persistence(neighborhoods)`, then `universe + dt * update`. -/
def forwardAxis (n kid knb : Nat) : Except PyErr Nat := do
  let i ← convAxis n kid
  let b ← convAxis n knb
  let genper ← broadcastAxis i b
  broadcastAxis n genper

/-! ## Call histories and simulated time -/

/-- Calls that concern simulated time; `β` is the argument of `forward`. -/
inductive Op (α β : Type) where
  | reset
  | setDt (d : α)
  | forward (b : β)
  | getFrame (b : β)

/-- What a class does with its clock: the attributes `dt` and `t_count` and the calls
that may touch them.  `forward` gives the object after a call that returned, `none` if
the call raised (then neither attribute is changed: in every `forward` the `t_count`
statement is the last before `return`). -/
structure Clock (α σ β : Type) where
  dt : σ → α
  t : σ → α
  reset : σ → σ
  setDt : σ → α → σ
  forward : σ → β → Option σ

/-- Run a history; also record for every call whether it returned. -/
def Clock.run {σ β : Type} (K : Clock α σ β) : σ → List (Op α β) → σ × List Bool
  | s, [] => (s, [])
  | s, .reset :: ops => let r := K.run (K.reset s) ops; (r.1, true :: r.2)
  | s, .setDt d :: ops => let r := K.run (K.setDt s d) ops; (r.1, true :: r.2)
  | s, .forward b :: ops =>
    match K.forward s b with
    | some s' => let r := K.run s' ops; (r.1, true :: r.2)
    | none => let r := K.run s ops; (r.1, false :: r.2)
  | s, .getFrame _ :: ops => let r := K.run s ops; (r.1, true :: r.2)

/-- A universe of any batch and grid size. -/
abbrev AnyUniv (α : Type) (ext : Nat) := Σ s : Nat × Nat × Nat, Univ α s.1 ext s.2.1 s.2.2

/-- The object part of the outcome of a call. -/
def afterCall {β σ : Type} : Except PyErr (β × σ) → Option σ
  | .ok r => some r.2
  | .error _ => none

/-- Clock of `CCA`: reset (yuca/ca/continuous.py:98-100), set_dt (yuca/ca/common.py:293-298),
forward (yuca/ca/continuous.py:541-564). -/
def CCA.clock (ext int : Nat) : Clock α (CCA α ext int) (AnyUniv α ext) where
  dt := CCA.dt
  t := CCA.t
  reset := CCA.reset
  setDt := CCA.setDt
  forward s b := afterCall (s.forward b.2)

/-- Clock of `Lenia` (same methods with Lenia's update, yuca/lenia.py:55-60). -/
def CCA.leniaClock (ext int : Nat) : Clock α (CCA α ext int) (AnyUniv α ext) where
  dt := CCA.dt
  t := CCA.t
  reset := CCA.reset
  setDt := CCA.setDt
  forward s b := afterCall (s.leniaForward b.2)

/-- Clock of `NCA` (reset: yuca/ca/common.py:80-82; forward: 316-336); evaluation mode. -/
def NCA.clock [Transc α] (ext int hid : Nat) :
    Clock α (NCA α ext int hid) (AnyUniv α ext) where
  dt := NCA.dt
  t := NCA.t
  reset s := { s with t := zero }
  setDt s d := { s with dt := d }
  forward s b := afterCall (s.forward none b.2)

/-- Clock of `RxnDfn` (forward: yuca/ca/reaction_diffusion.py:360-375). -/
def RxnDfn.clock : Clock α (RxnDfn α) (AnyUniv α 2) where
  dt := RxnDfn.dt
  t := RxnDfn.t
  reset s := { s with t := zero }
  setDt s d := { s with dt := d }
  forward s b := afterCall (s.forward b.2)

/-- Clock of `RandomStepCA` (yuca/random_step_ca.py:71-93); the argument of `forward`
includes the random draw. -/
def RandomStepCA.clock (ext int : Nat) :
    Clock α (RandomStepCA α ext int) (α × AnyUniv α ext) where
  dt s := s.ca.dt
  t s := s.ca.t
  reset s := { s with ca := s.ca.reset }
  setDt s d := { s with ca := s.ca.setDt d }
  forward s b := afterCall (s.forward b.1 b.2.2)

/-- Clock of `CODE` (yuca/code.py:60-118, 146-150); the argument includes the fuel of the
loop.  Simplification: when the call raises, the candidate step size left in `self.dt` is
not recorded (every later step overwrites it). -/
def CODE.clock (ext int : Nat) : Clock α (CODE α ext int) (Nat × AnyUniv α ext) where
  dt s := s.ca.dt
  t s := s.ca.t
  reset s := { s with ca := s.ca.reset }
  setDt s d := { s with ca := s.ca.setDt d }
  forward s b := (s.forward b.1 b.2.2).bind afterCall

end Yuca
