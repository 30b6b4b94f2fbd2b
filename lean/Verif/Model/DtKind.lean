import Verif.Model.Layers

/-!
# What kind of Python object `self.dt` is

`get_dt` calls `self.dt.item()`, which exists on a torch tensor and not on a Python float.
The other model files only track the value of `dt`; here its kind is tracked as well.
-/

namespace Yuca

variable {α : Type} [Arith α] {ext int : Nat}

/-- The two kinds of objects assigned to `self.dt`. -/
inductive DtKind where
  | tensor
  | pyFloat
  deriving DecidableEq, Repr

/-- An automaton together with the kind of its `dt` attribute. -/
structure Kinded (σ : Type) where
  obj : σ
  kind : DtKind

/-- `CA.get_dt` (yuca/ca/common.py:250-253). -/
def getDt {σ β : Type} (K : Clock α σ β) (s : Kinded σ) : Except PyErr α :=
  match s.kind with
  | .tensor => .ok (K.dt s.obj)
  | .pyFloat => .error .attribute

/-- How `forward` of a class changes the kind, given whether the call returned. -/
abbrev KindRule := Bool → DtKind → DtKind

/-- `CCA`, `Lenia`, `NCA` and `RxnDfn` do not assign `self.dt` in `forward`
(yuca/ca/continuous.py:541-564, yuca/ca/common.py:316-336,
yuca/ca/reaction_diffusion.py:360-375). -/
def keepsKind : KindRule := fun _ k => k

/-- `CODE.forward` assigns Python floats on every path, also when it raises
(yuca/code.py:69, 73, 87, 96). -/
def codeKind : KindRule := fun _ _ => .pyFloat

/-- `RandomStepCA.forward` assigns a Python float after the tensor operations that can raise
(yuca/random_step_ca.py:81). -/
def randomStepKind : KindRule := fun returned k => if returned then .pyFloat else k

/-- One call: `set_dt` always installs a tensor (yuca/ca/common.py:293-298), `reset` and
`get_frame` leave `dt` alone. -/
def kindedCall {σ β : Type} (K : Clock α σ β) (rule : KindRule) (s : Kinded σ) :
    Op α β → Kinded σ
  | .reset => ⟨K.reset s.obj, s.kind⟩
  | .setDt d => ⟨K.setDt s.obj d, .tensor⟩
  | .forward b =>
    match K.forward s.obj b with
    | some o => ⟨o, rule true s.kind⟩
    | none => ⟨s.obj, rule false s.kind⟩
  | .getFrame _ => s

/-- A history of calls. -/
def kindedRun {σ β : Type} (K : Clock α σ β) (rule : KindRule) (s : Kinded σ)
    (ops : List (Op α β)) : Kinded σ := ops.foldl (kindedCall K rule) s

end Yuca
