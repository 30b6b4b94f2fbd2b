import Verif.Model.Arith
import Mathlib.Data.List.FinRange

/-!
# Grids, padding and grouped 2-d convolution
-/

namespace Yuca

open Arith

variable {α : Type}

/-- One channel of one sample: `H` rows, `W` columns. -/
abbrev Grid (α : Type) (H W : Nat) := Fin H → Fin W → α

/-- A universe, torch shape `(N, C, H, W)`. -/
abbrev Univ (α : Type) (N C H W : Nat) := Fin N → Fin C → Grid α H W

/-- The values `nn.Conv2d(padding_mode=...)` accepts for `conv_mode`
(yuca/ca/common.py:52; passed on at 137 and 215). -/
inductive PadMode where
  | circular | zeros | reflect | replicate
  deriving DecidableEq, Repr

/-- Which cell of an axis of length `n` a (possibly out of range) index reads after
padding; `none` is a padded zero.  Mirrors `F.pad` as `nn.Conv2d` uses it for the
`padding_mode` given at yuca/ca/common.py:134-137, 211-215. -/
def padIdx (m : PadMode) (n : Nat) (i : Int) : Option (Fin n) :=
  match m with
  | .circular =>
    if h : 0 < n then
      some ⟨(i % (n : Int)).toNat, by
        have h1 := Int.emod_lt_of_pos i (b := (n : Int)) (by omega)
        have h2 := Int.emod_nonneg i (b := (n : Int)) (by omega)
        omega⟩
    else none
  | .zeros => if h : 0 ≤ i ∧ i < n then some ⟨i.toNat, by omega⟩ else none
  | .reflect =>
    let i' := if i < 0 then -i else if (n : Int) ≤ i then 2 * ((n : Int) - 1) - i else i
    if h : 0 ≤ i' ∧ i' < n then some ⟨i'.toNat, by omega⟩ else none
  | .replicate =>
    if h : 0 < n then
      some ⟨(min (max i 0) ((n : Int) - 1)).toNat, by omega⟩
    else none

/-- Whether torch accepts a padding of `p` on an axis of length `n`: circular
padding may wrap at most once, reflection needs `p < n`. -/
def padOK (m : PadMode) (p n : Nat) : Bool :=
  match m with
  | .circular => decide (p ≤ n)
  | .reflect => decide (p < n)
  | _ => true

/-- `groups = 1 if internal % external else external`
(yuca/ca/common.py:126-127, 208-209; yuca/ca/reaction_diffusion.py:310-311). -/
def groups (ext int : Nat) : Nat := if int % ext ≠ 0 then 1 else ext

theorem inChan_lt {ext int : Nat} (o : Fin int) (c : Fin (ext / groups ext int)) :
    o.val / (int / groups ext int) * (ext / groups ext int) + c.val < ext := by
  have hc := c.isLt
  have ho := o.isLt
  generalize hcv : c.val = cv at hc ⊢
  unfold groups at hc ⊢
  split at hc
  · rename_i h
    simp only [if_pos h, Nat.div_one] at hc ⊢
    rw [Nat.div_eq_of_lt ho]; omega
  · rename_i h
    simp only [if_neg h] at hc ⊢
    have hd : ext ∣ int := Nat.dvd_of_mod_eq_zero (not_not.mp h)
    have hext : 0 < ext := by
      rcases Nat.eq_zero_or_pos ext with h0 | h0
      · subst h0; simp at hc
      · exact h0
    rw [Nat.div_self hext] at hc ⊢
    have h2 : o.val / (int / ext) < ext := by
      rw [Nat.div_lt_iff_lt_mul (Nat.div_pos (Nat.le_of_dvd (by omega) hd) hext),
        Nat.mul_div_cancel' hd]
      exact ho
    omega

/-- Input channel read by output channel `o` through in-group index `c` of a grouped
convolution (torch semantics of `nn.Conv2d(groups=...)`). -/
def inChan {ext int : Nat} (o : Fin int) (c : Fin (ext / groups ext int)) : Fin ext :=
  ⟨_, inChan_lt o c⟩

/-- A bias-free `nn.Conv2d(ext, int, k, padding=(k-1)//2, groups=..., padding_mode=...)`
as built by `initialize_id_layer` and `initialize_neighborhood_layer`
(yuca/ca/common.py:122-141, 201-220).  `w` is the weight tensor of shape
`(int, ext/groups, k, k)` after the kernel has been broadcast into it. -/
structure ConvLayer (α : Type) (ext int : Nat) where
  k : Nat
  mode : PadMode
  w : Fin int → Fin (ext / groups ext int) → Fin k → Fin k → α

/-- `padding = (dim - 1) // 2` (yuca/ca/common.py:124, 206). -/
def ConvLayer.pad {ext int : Nat} (L : ConvLayer α ext int) : Nat := (L.k - 1) / 2

/-- Output side length of a stride-1 convolution with kernel side `k`, padding `p`
on an axis of length `n` (torch: `n + 2p - k + 1`). -/
def outDim (n k p : Nat) : Nat := n + 2 * p + 1 - k

variable [Arith α] {ext int N H W : Nat}

/-- Value read at the (possibly out of range) position `(i, j)` of a padded grid. -/
def padRead (m : PadMode) (g : Grid α H W) (i j : Int) : α :=
  match padIdx m H i, padIdx m W j with
  | some r, some s => g r s
  | _, _ => zero

/-- The (weight, input) pairs multiplied together for output channel `o` at `(i, j)`:
cross-correlation, in-group channel outermost, then kernel rows, then columns. -/
def ConvLayer.taps (L : ConvLayer α ext int) (x : Fin ext → Grid α H W)
    (o : Fin int) (i : Fin H) (j : Fin W) : List (α × α) :=
  (List.finRange (ext / groups ext int)).flatMap fun c =>
    (List.finRange L.k).flatMap fun a =>
      (List.finRange L.k).map fun b =>
        (L.w o c a b,
         padRead L.mode (x (inChan o c))
          ((i.val : Int) + a.val - L.pad) ((j.val : Int) + b.val - L.pad))

/-- Applying the layer to a batch (`id_conv`, `neighborhood_conv`:
yuca/ca/common.py:222-230).  A too large padding raises in torch.  For an even
kernel side the output is one cell smaller than the input (`outDim`), and the later
`universe + dt * update` raises; the model raises here already (simplification: for
2-cell axes torch would broadcast the single output cell instead). -/
def ConvLayer.apply (L : ConvLayer α ext int) (x : Univ α N ext H W) :
    Except PyErr (Univ α N int H W) :=
  if L.k % 2 = 1 ∧ padOK L.mode L.pad H ∧ padOK L.mode L.pad W then
    .ok fun n o i j => dot (L.taps (x n) o i j)
  else .error .runtime

end Yuca
