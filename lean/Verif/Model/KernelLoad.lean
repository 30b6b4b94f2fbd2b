import Verif.Model.Layers

/-!
# Giving an automaton its kernels

`add_identity_kernel`, `add_neighborhood_kernel`, `initialize_id_layer`,
`initialize_neighborhood_layer` on tensors of any shape.  An exception leaves behind what was
assigned before it, so each method returns the new state together with its outcome.  Kernel sides
are taken to be positive; devices, data types and the printed warning are left out.
-/

namespace Yuca

variable {α : Type} {ext int : Nat}

/-- A tensor: its shape, and its entries by index list. -/
structure Tensor (α : Type) where
  shape : List Nat
  val : List Nat → α

/-- Position of an index list in row-major order. -/
def flatIdx : List Nat → List Nat → Nat
  | _ :: ds, i :: is => i * ds.prod + flatIdx ds is
  | _, _ => 0

/-- Index list of a position in row-major order. -/
def unflatIdx : List Nat → Nat → List Nat
  | [], _ => []
  | _ :: ds, n => n / ds.prod :: unflatIdx ds (n % ds.prod)

/-- `torch.reshape`: RuntimeError unless the number of entries stays the same
(yuca/ca/common.py:90-97, 160-167, yuca/ca/continuous.py:362-369). -/
def Tensor.reshape (t : Tensor α) (s : List Nat) : Except PyErr (Tensor α) :=
  if t.shape.prod = s.prod then .ok ⟨s, fun idx => t.val (unflatIdx t.shape (flatIdx s idx))⟩
  else .error .runtime

/-- The `if len(shape) == 2 … elif len(shape) == 3 …` in front of the checks
(yuca/ca/common.py:89-97, 159-167, yuca/ca/continuous.py:361-369). -/
def Tensor.toFour (t : Tensor α) : Except PyErr (Tensor α) :=
  match t.shape with
  | [a, b] => t.reshape [1, 1, a, b]
  | [a, b, _] => t.reshape [1, a, b]
  | _ => .ok t

/-- The two assertions: four axes, and the last two alike; the result is the side
(yuca/ca/common.py:105-119, 169-184, yuca/ca/continuous.py:379-393,
yuca/ca/reaction_diffusion.py:250-262). -/
def Tensor.side (t : Tensor α) : Except PyErr Nat :=
  match t.shape with
  | [_, _, y, x] => if x = y then .ok x else .error .assertion
  | _ => .error .assertion

/-- Leading axes of length 1 that the target has no room for are dropped. -/
def stripOnes (n : Nat) : List Nat → List Nat
  | 1 :: ds => if n < (1 :: ds).length then stripOnes n ds else 1 :: ds
  | ds => ds

/-- Axis by axis, from the last one: equal, or 1 in the source. -/
def fitsInto : List Nat → List Nat → Bool
  | [], _ => true
  | _ :: _, [] => false
  | d :: ds, e :: es => (d == 1 || d == e) && fitsInto ds es

/-- `param[1][:] = kernel`: copy with broadcasting; RuntimeError if the shapes do not fit
(yuca/ca/common.py:141, 220, yuca/ca/reaction_diffusion.py:322). -/
def Tensor.copyInto (t : Tensor α) (target : List Nat) : Except PyErr (List Nat → α) :=
  let s := stripOnes target.length t.shape
  if fitsInto s.reverse target.reverse then
    .ok fun idx => t.val (List.replicate (t.shape.length - s.length) 0 ++
      List.zipWith (fun d i => if d = 1 then 0 else i) s (idx.drop (idx.length - s.length)))
  else .error .runtime

/-- The kernels and layers of an automaton (yuca/ca/common.py:65-66, 87-119, 134-141, 183-184,
211-220).  `idKernel`, `idDim`, `idLayer` and `nbLayer` do not exist before they are first
assigned; `nbKernel` and `nbDim` are `None` at first. -/
structure Kernels (α : Type) (ext int : Nat) where
  mode : PadMode
  idKernel : Option (Tensor α) := none
  idDim : Option Nat := none
  idLayer : Option (ConvLayer α ext int) := none
  nbKernel : Option (Tensor α) := none
  nbDim : Option Nat := none
  nbLayer : Option (ConvLayer α ext int) := none

/-- The default identity kernel as a tensor of shape (1,1,3,3)
(yuca/ca/common.py:100-103, yuca/ca/continuous.py:373-376). -/
def defaultId [Arith α] : Tensor α :=
  ⟨[1, 1, 3, 3], fun idx => if idx = [0, 0, 1, 1] then Arith.one else Arith.zero⟩

/-- `add_identity_kernel(kernel=…)` (yuca/ca/common.py:84-119, yuca/ca/continuous.py:356-393).
`self.id_kernel` is assigned before the reshape, after it, and before the assertions. -/
def Kernels.addIdentity [Arith α] (s : Kernels α ext int) (kernel : Option (Tensor α)) :
    Kernels α ext int × Except PyErr Unit :=
  let k := kernel.getD defaultId
  match k.toFour with
  | .error e => ({ s with idKernel := some k }, .error e)
  | .ok k4 =>
    match k4.side with
    | .error e => ({ s with idKernel := some k4 }, .error e)
    | .ok d => ({ s with idKernel := some k4, idDim := some d }, .ok ())

/-- `CA.add_neighborhood_kernel` (yuca/ca/common.py:144-184): works on a copy and assigns last. -/
def Kernels.addNeighborhood (s : Kernels α ext int) (k : Tensor α) :
    Kernels α ext int × Except PyErr Unit :=
  match k.toFour with
  | .error e => (s, .error e)
  | .ok k4 =>
    match k4.side with
    | .error e => (s, .error e)
    | .ok d => ({ s with nbKernel := some k4, nbDim := some d }, .ok ())

/-- `torch.cat([kernel, kernel], dim=0)` on a tensor with four axes
(yuca/ca/reaction_diffusion.py:264). -/
def Tensor.twice (t : Tensor α) : Tensor α :=
  match t.shape with
  | a :: s => ⟨(a + a) :: s, fun idx => match idx with
    | i :: is => t.val ((if i < a then i else i - a) :: is)
    | [] => t.val []⟩
  | [] => t

/-- The nine-point stencil (yuca/kernels.py:59-63), its entries given by `lap`. -/
def stencil (lap : Nat → Nat → α) : Tensor α :=
  ⟨[1, 1, 3, 3], fun idx => match idx with
    | [_, _, i, j] => lap i j
    | _ => lap 0 0⟩

/-- `RxnDfn.add_neighborhood_kernel` (yuca/ca/reaction_diffusion.py:241-266): no reshape, and the
kernel is doubled along the first axis. -/
def Kernels.addRxnNeighborhood (lap : Nat → Nat → α) (s : Kernels α 2 2) (kernel : Option (Tensor α)) :
    Kernels α 2 2 × Except PyErr Unit :=
  let k := kernel.getD (stencil lap)
  match k.side with
  | .error e => (s, .error e)
  | .ok d => ({ s with nbKernel := some k.twice, nbDim := some d }, .ok ())

/-- A new layer and the copy of the kernel into it (yuca/ca/common.py:124-141, 206-220,
yuca/ca/reaction_diffusion.py:308-322).  The layer exists, with the random weights `init` torch
gives it, before the copy is tried.  `internal % external` raises ZeroDivisionError. -/
def buildLayer (ext int : Nat) (mode : PadMode) (k : Nat)
    (init : Fin int → Fin (ext / groups ext int) → Fin k → Fin k → α) (t : Tensor α) :
    Option (ConvLayer α ext int) × Except PyErr Unit :=
  if ext = 0 then (none, .error .zeroDiv)
  else match t.copyInto [int, ext / groups ext int, k, k] with
    | .error e => (some ⟨k, mode, init⟩, .error e)
    | .ok w => (some ⟨k, mode, fun o c i j => w [o.val, c.val, i.val, j.val]⟩, .ok ())

/-- `initialize_id_layer` (yuca/ca/common.py:122-141); `init` are the random weights by side.
AttributeError if no identity kernel was ever accepted (or none ever given). -/
def Kernels.initId (s : Kernels α ext int)
    (init : ∀ k, Fin int → Fin (ext / groups ext int) → Fin k → Fin k → α) :
    Kernels α ext int × Except PyErr Unit :=
  match s.idDim, s.idKernel with
  | some k, some t =>
    let (l, r) := buildLayer ext int s.mode k (init k) t
    ({ s with idLayer := l.or s.idLayer }, r)
  | _, _ => (s, .error .attribute)

/-- `initialize_neighborhood_layer` (yuca/ca/common.py:201-220,
yuca/ca/reaction_diffusion.py:303-322); `None - 1` raises TypeError. -/
def Kernels.initNb (s : Kernels α ext int)
    (init : ∀ k, Fin int → Fin (ext / groups ext int) → Fin k → Fin k → α) :
    Kernels α ext int × Except PyErr Unit :=
  match s.nbDim, s.nbKernel with
  | some k, some t =>
    let (l, r) := buildLayer ext int s.mode k (init k) t
    ({ s with nbLayer := l.or s.nbLayer }, r)
  | _, _ => (s, .error .type)

end Yuca
