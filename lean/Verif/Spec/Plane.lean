import Verif.Spec.Life

/-!
# Life-like automata on the infinite plane, and finite lists of cells on a torus
-/

namespace Yuca.Spec

variable {H W : Nat}

/-- One generation of the rule B`birth`/S`survival` on the plane. -/
def planeStep (birth survival : List Nat) (s : ℤ → ℤ → Bool) : ℤ → ℤ → Bool :=
  fun i j =>
    if s i j then decide ((mooreOffsets.countP fun d => s (i - d.1) (j - d.2)) ∈ survival)
    else decide ((mooreOffsets.countP fun d => s (i - d.1) (j - d.2)) ∈ birth)

/-- The plane with exactly these cells alive. -/
def plane (cells : List (ℤ × ℤ)) : ℤ → ℤ → Bool := fun i j => decide ((i, j) ∈ cells)

/-- The plane moved by `(dy, dx)`. -/
def moved (dy dx : ℤ) (s : ℤ → ℤ → Bool) : ℤ → ℤ → Bool := fun i j => s (i - dy) (j - dx)

/-- Everything alive is in rows `r0` to `r1` and columns `c0` to `c1`. -/
def Within (r0 r1 c0 c1 : ℤ) (s : ℤ → ℤ → Bool) : Prop :=
  ∀ i j, s i j = true → r0 ≤ i ∧ i ≤ r1 ∧ c0 ≤ j ∧ j ≤ c1

/-- On the torus, exactly the cells of the list are alive, counted from row `a` and column `b`
and around the edges. -/
def onTorus (cells : List (ℤ × ℤ)) (a b : ℤ) : Fin H → Fin W → Bool := fun i j =>
  cells.any fun c => decide ((i.val : ℤ) = (a + c.1) % H ∧ (j.val : ℤ) = (b + c.2) % W)

end Yuca.Spec
