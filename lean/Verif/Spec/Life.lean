import Verif.Spec.Dyn

/-!
# Life-like cellular automata, the textbook definition on a torus
-/

namespace Yuca.Spec

variable {H W : Nat}

/-- The eight neighbour offsets. -/
def mooreOffsets : List (Int × Int) :=
  [(-1, -1), (-1, 0), (-1, 1), (0, -1), (0, 1), (1, -1), (1, 0), (1, 1)]

/-- How many of the eight neighbours of `(i, j)` are alive (on tori narrower than three cells
a cell may be its own neighbour and is counted as often as it occurs). -/
def aliveNeighbours (s : Fin H → Fin W → Bool) (i : Fin H) (j : Fin W) : Nat :=
  mooreOffsets.countP fun d => s (rollIdx i d.1) (rollIdx j d.2)

/-- One generation of the rule B`birth`/S`survival`. -/
def lifeStep (birth survival : List Nat) (s : Fin H → Fin W → Bool) : Fin H → Fin W → Bool :=
  fun i j =>
    if s i j then decide (aliveNeighbours s i j ∈ survival)
    else decide (aliveNeighbours s i j ∈ birth)

/-- A list of neighbour counts as it occurs in a rule: distinct and at most eight. -/
def RuleList (l : List Nat) : Prop := l.Nodup ∧ ∀ b ∈ l, b ≤ 8

/-- Alive is 1, dead is 0. -/
def bit (b : Bool) : ℝ := if b then 1 else 0

end Yuca.Spec
