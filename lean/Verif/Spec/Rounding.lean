import Verif.Model.Life
import Verif.Spec.Life

/-!
# Arithmetic with rounding errors
-/

namespace Yuca.Spec

open Arith

/-- A machine arithmetic: some of the machine numbers stand for real numbers (`Num`; the others
are NaN and the infinities), 0, 1 and comparisons are exact, and on numbers of absolute value at
most 2 sums, differences and products are off by at most `1/1000`, inner products (in whatever
order they are computed) by at most `1/500`.  Rounding to nearest with eleven
significant bits (half precision) or more is off by at most `2⁻¹⁰` below 4. -/
structure Machine (α : Type) [Arith α] where
  Num : α → Prop
  val : α → ℝ
  zero : Num zero ∧ val zero = 0
  one : Num one ∧ val one = 1
  lt : ∀ x y, Num x → Num y → (lt x y = true ↔ val x < val y)
  add : ∀ x y, Num x → Num y → |val x| ≤ 2 → |val y| ≤ 2 →
    Num (add x y) ∧ |val (add x y) - (val x + val y)| ≤ 1 / 1000
  sub : ∀ x y, Num x → Num y → |val x| ≤ 2 → |val y| ≤ 2 →
    Num (sub x y) ∧ |val (sub x y) - (val x - val y)| ≤ 1 / 1000
  mul : ∀ x y, Num x → Num y → |val x| ≤ 2 → |val y| ≤ 2 →
    Num (mul x y) ∧ |val (mul x y) - val x * val y| ≤ 1 / 1000
  dot : ∀ l : List (α × α), l.length ≤ 9 → (∀ p ∈ l, Num p.1 ∧ Num p.2) →
    (l.map fun p => |val p.1 * val p.2|).sum ≤ 2 →
    Num (dot l) ∧ |val (dot l) - (l.map fun p => val p.1 * val p.2).sum| ≤ 1 / 500

/-- `g` computes the growth function of a rule list: near a multiple of 1/8 (within 1/32) it is
off by at most 1/200. -/
def Machine.Growth {α : Type} [Arith α] (M : Machine α) (rules : List Nat) (g : α → α) : Prop :=
  ∀ x (k : Nat), k ≤ 8 → M.Num x → |M.val x - k / 8| ≤ 1 / 32 →
    M.Num (g x) ∧
      |M.val (g x) - (Act.smoothIntervals (smoothInterval rules) 0.0125 true).eval (M.val x)| ≤ 1 / 200

/-- The automaton of a life-like rule (`lifeCA`) as it is on a machine: kernel (1/8 around a 0),
weight 1 and step size 1 are machine numbers, the growth functions are computed. -/
structure Machine.Life {α : Type} [Arith α] (M : Machine α) (birth survival : List Nat)
    (ca : CCA α 1 1) where
  κ : Fin 3 → Fin 3 → α
  g : α → α
  p : α → α
  w : α
  idL : ca.idL = identityLayer 1 1 .circular
  nbL : ca.nbL = .ofKernel 1 1 .circular 3 κ
  genesis : ca.genesis = [g]
  persistence : ca.persistence = [p]
  weights : ca.weights = .functional fun _ _ => w
  kernel : ∀ a b, M.Num (κ a b) ∧ M.val (κ a b) = if a.val = 1 ∧ b.val = 1 then 0 else 1 / 8
  growth : M.Growth birth g
  persist : M.Growth survival p
  weight : M.Num w ∧ M.val w = 1
  dt : M.Num ca.dt ∧ M.val ca.dt = 1

/-- All cells of a machine universe are numbers in `[0, 1]` within `ε` of the 0/1 state. -/
def Machine.Near {α : Type} [Arith α] (M : Machine α) {N H W : Nat} (ε : ℝ) (u : Univ α N 1 H W)
    (s : Fin N → Fin H → Fin W → Bool) : Prop :=
  ∀ n i j, M.Num (u n 0 i j) ∧ 0 ≤ M.val (u n 0 i j) ∧ M.val (u n 0 i j) ≤ 1 ∧
    |M.val (u n 0 i j) - bit (s n i j)| ≤ ε

end Yuca.Spec
