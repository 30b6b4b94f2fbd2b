import Verif.Model.Dyn

/-!
# Specifications about universes

Stated on cells and integer arithmetic only, without the convolution helpers.
-/

namespace Yuca.Spec

open Arith

variable {α : Type} {N C H W : Nat}

/-- `(i - d) mod n`, the index `np.roll(x, d)` reads at `i`. -/
def rollIdx {n : Nat} (i : Fin n) (d : Int) : Fin n :=
  ⟨(((i.val : Int) - d) % (n : Int)).toNat, by
    have hn : 0 < (n : Int) := by have := i.isLt; omega
    have h1 := Int.emod_lt_of_pos ((i.val : Int) - d) hn
    have h2 := Int.emod_nonneg ((i.val : Int) - d) (b := (n : Int)) (by omega)
    omega⟩

/-- Shift a universe by `(dy, dx)` around the torus (`torch.roll(u, (dy, dx), (2, 3))`). -/
def roll (dy dx : Int) (u : Univ α N C H W) : Univ α N C H W :=
  fun n c i j => u n c (rollIdx i dy) (rollIdx j dx)

/-- No cell below 0 and none above 1 (a NaN cell satisfies this). -/
def NotOutside [Arith α] (u : Univ α N C H W) : Prop :=
  ∀ n c i j, lt (u n c i j) zero = false ∧ lt one (u n c i j) = false

/-- The two universes agree on every cell (of sample `n`) within torus Chebyshev
distance `r` of `(i, j)`. -/
def AgreeNear (r : Nat) (u v : Univ α N C H W) (n : Fin N) (i : Fin H) (j : Fin W) : Prop :=
  ∀ (a b : Int), |a| ≤ r → |b| ≤ r → ∀ c, 
    u n c (rollIdx i a) (rollIdx j b) = v n c (rollIdx i a) (rollIdx j b)

/-- A universe that is constant in space (each sample and channel has one value). -/
def Homogeneous (u : Univ α N C H W) : Prop :=
  ∀ n c i j i' j', u n c i j = u n c i' j'

/-- Sample `m` of a batch, as a batch of one. -/
def member (m : Fin N) (u : Univ α N C H W) : Univ α 1 C H W := fun _ c i j => u m c i j

/-- Swap rows and columns. -/
def transpose (u : Univ α N C H W) : Univ α N C W H := fun n c i j => u n c j i

/-- Mirror the rows (`torch.flip(u, [2])`). -/
def flipRows (u : Univ α N C H W) : Univ α N C H W := fun n c i j => u n c i.rev j

/-- Mirror the columns (`torch.flip(u, [3])`). -/
def flipCols (u : Univ α N C H W) : Univ α N C H W := fun n c i j => u n c i j.rev

/-- Quarter turn of a square universe (`torch.rot90(u, 1, (2, 3))`). -/
def rot90 (u : Univ α N C H H) : Univ α N C H H := fun n c i j => u n c j i.rev

end Yuca.Spec
