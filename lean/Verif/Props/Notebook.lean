import Verif.Model.Notebook
import Verif.Props.Life
import Verif.Lemmas.Text
import Mathlib.Analysis.Complex.ExponentialBounds
import Mathlib.Tactic.FinCases

/-!
# The helpers of the notebooks (C99)

Exact real arithmetic.
-/

namespace Yuca

open Spec

variable {H W : Nat}

/-! ## Intervals -/

/-- The closed interval of neighbour count `b`. -/
def Spec.InInterval (b : Nat) (x : ℝ) : Prop :=
  ∃ e ∈ nbInterval [b], e.1 ≤ x ∧ x ≤ e.2

theorem inInterval_iff (b : Nat) (x : ℝ) : Spec.InInterval b x ↔ |9 * x - b| ≤ 1 / 2 := by
  unfold Spec.InInterval nbInterval
  simp only [List.map_cons, List.map_nil, List.mem_singleton, exists_eq_left, abs_le]
  constructor
  · rintro ⟨h1, h2⟩
    rw [div_le_iff₀ (by norm_num)] at h1
    rw [le_div_iff₀ (by norm_num)] at h2
    constructor <;> linarith
  · rintro ⟨h1, h2⟩
    rw [div_le_iff₀ (by norm_num), le_div_iff₀ (by norm_num)]
    constructor <;> linarith

/-- C99: over the mean of a block of nine cells the interval of `b` holds exactly the count `b`. -/
theorem interval_nine (b k : Nat) : Spec.InInterval b ((k : ℝ) / 9) ↔ b = k := by
  rw [inInterval_iff, show 9 * ((k : ℝ) / 9) - b = ((k : ℤ) - b : ℤ) by push_cast; ring]
  rw [← Int.cast_abs]
  constructor
  · intro h
    have h1 : ((|(k : ℤ) - b| : ℤ) : ℝ) < 1 := by linarith
    have h2 : |(k : ℤ) - b| < 1 := by exact_mod_cast h1
    have := Int.abs_lt_one_iff.1 h2
    omega
  · rintro rfl
    simp

/-- C99, where it fails: over the mean of the eight neighbours, which the notebook uses, counts up
to 3 are read right, 4 is on the edge between 4 and 5, and the counts 5 to 8 are read one too
high. -/
theorem interval_eight_refuted (b k : Nat) (hk : k ≤ 8) :
    Spec.InInterval b ((k : ℝ) / 8) ↔ (k ≤ 4 ∧ b = k) ∨ (4 ≤ k ∧ b = k + 1) := by
  rw [inInterval_iff, abs_le]
  have e1 : (-(1 / 2 : ℝ) ≤ 9 * ((k : ℝ) / 8) - b) ↔ ((8 * b : ℕ) : ℝ) ≤ ((9 * k + 4 : ℕ) : ℝ) := by
    push_cast
    constructor <;> intro h <;> linarith
  have e2 : (9 * ((k : ℝ) / 8) - b ≤ 1 / 2) ↔ ((9 * k : ℕ) : ℝ) ≤ ((8 * b + 4 : ℕ) : ℝ) := by
    push_cast
    constructor <;> intro h <;> linarith
  rw [e1, e2, Nat.cast_le, Nat.cast_le]
  omega

/-! ## Kernels -/

/-- C99: the kernel function that is passed makes no difference. -/
theorem kernel_fn_unused (f g : ℝ → ℝ) (mu sigma : ℝ) (r : Nat) :
    nbKernel f mu sigma r = nbKernel g mu sigma r := rfl

/-- C99: kernels are positive and sum to 1. -/
theorem nbKernel_mean (f : ℝ → ℝ) (mu sigma : ℝ) (r : Nat) :
    (∀ y x, 0 < nbKernel f mu sigma r y x) ∧ ∑ y, ∑ x, nbKernel f mu sigma r y x = 1 := by
  have hp : ∀ y x, 0 < nbGaussian mu sigma (nbDistance r y x) := fun _ _ => Real.exp_pos _
  have hs : 0 < ∑ a, ∑ b, nbGaussian mu sigma (nbDistance r a b) :=
    Finset.sum_pos (fun a _ => Finset.sum_pos (fun b _ => hp a b) ⟨0, Finset.mem_univ _⟩)
      ⟨0, Finset.mem_univ _⟩
  constructor
  · intro y x
    exact div_pos (hp y x) hs
  · unfold nbKernel
    simp only [← Finset.sum_div]
    exact div_self hs.ne'

/-- C99: and symmetric. -/
theorem nbKernel_symm (f : ℝ → ℝ) (mu sigma : ℝ) (r : Nat) (y x : Fin (2 * r + 1)) :
    nbKernel f mu sigma r y x = nbKernel f mu sigma r x y ∧
      nbKernel f mu sigma r y x = nbKernel f mu sigma r y.rev x := by
  have h1 : nbDistance r y x = nbDistance r x y := by unfold nbDistance; rw [add_comm]
  have h2 : nbDistance r y x = nbDistance r y.rev x := by
    unfold nbDistance
    have : ((y.rev.val : ℕ) : ℝ) - r = -((y.val : ℝ) - r) := by
      rw [Fin.val_rev]
      have := y.isLt
      rw [Nat.cast_sub (by omega)]
      push_cast
      ring
    rw [this, neg_sq]
  unfold nbKernel
  dsimp only
  rw [← h1, ← h2]
  exact ⟨rfl, rfl⟩

theorem nbDistance_one (y x : Fin 3) : nbDistance 1 y x =
    if y = 1 ∧ x = 1 then 0 else if y = 1 ∨ x = 1 then 1 else Real.sqrt 2 := by
  fin_cases y <;> fin_cases x <;> norm_num [nbDistance]

theorem exp_bounds : Real.exp (-5) < 1 / 140 ∧ 36 / 100 < Real.exp (-1.005) := by
  have h1 : (2.7182818283 : ℝ) < Real.exp 1 := Real.exp_one_gt_d9
  have h2 : Real.exp 1 < 2.7182818286 := Real.exp_one_lt_d9
  constructor
  · have h : Real.exp 5 = Real.exp 1 ^ 5 := by rw [← Real.exp_nat_mul]; norm_num
    have h3 : (140 : ℝ) < Real.exp 5 := by
      rw [h]
      calc (140 : ℝ) < 2.7182818283 ^ 5 := by norm_num
        _ ≤ _ := pow_le_pow_left₀ (by norm_num) h1.le 5
    rw [Real.exp_neg, ← one_div]
    exact one_div_lt_one_div_of_lt (by norm_num) h3
  · have h3 : Real.exp (-1.005) = Real.exp (-1) * Real.exp (-0.005) := by
      rw [← Real.exp_add]; norm_num
    have h4 : (0.995 : ℝ) ≤ Real.exp (-0.005) := by
      have := Real.add_one_le_exp (-0.005 : ℝ)
      linarith
    have h5 : (1 / 2.7182818286 : ℝ) < Real.exp (-1) := by
      rw [Real.exp_neg, ← one_div]
      exact one_div_lt_one_div_of_lt (Real.exp_pos _) h2
    rw [h3]
    calc (36 / 100 : ℝ) < 1 / 2.7182818286 * 0.995 := by norm_num
      _ ≤ Real.exp (-1) * Real.exp (-0.005) :=
        mul_le_mul h5.le h4 (by norm_num) (Real.exp_pos _).le

theorem moore_values : nbGaussian 0.99 0.3 0 < 1 / 140 ∧ 0 < nbGaussian 0.99 0.3 0 ∧
    99 / 100 < nbGaussian 0.99 0.3 1 ∧ nbGaussian 0.99 0.3 1 ≤ 1 ∧
    36 / 100 < nbGaussian 0.99 0.3 (Real.sqrt 2) ∧ nbGaussian 0.99 0.3 (Real.sqrt 2) ≤ 1 := by
  have hle : ∀ u, nbGaussian 0.99 0.3 u ≤ 1 := by
    intro u
    unfold nbGaussian
    rw [Real.exp_le_one_iff]
    have := sq_nonneg ((u - 0.99) / 0.3)
    linarith
  refine ⟨?_, Real.exp_pos _, ?_, hle _, ?_, hle _⟩
  · unfold nbGaussian
    refine lt_of_le_of_lt (Real.exp_le_exp.2 ?_) exp_bounds.1
    norm_num
  · unfold nbGaussian
    have := Real.add_one_le_exp (-((1 - 0.99) / 0.3) ^ 2 / 2 : ℝ)
    norm_num at this ⊢
    linarith
  · unfold nbGaussian
    refine lt_of_lt_of_le exp_bounds.2 (Real.exp_le_exp.2 ?_)
    have h0 : (0 : ℝ) ≤ Real.sqrt 2 := Real.sqrt_nonneg _
    have h1 : Real.sqrt 2 ^ 2 = 2 := Real.sq_sqrt (by norm_num)
    have h2 : Real.sqrt 2 < 1.41422 := by
      rw [Real.sqrt_lt' (by norm_num)]; norm_num
    have h3 : 0.99 < Real.sqrt 2 := by
      rw [Real.lt_sqrt (by norm_num)]; norm_num
    have h4 : ((Real.sqrt 2 - 0.99) / 0.3) ^ 2 ≤ (0.42422 / 0.3) ^ 2 := by
      apply pow_le_pow_left₀
      · apply div_nonneg <;> linarith
      · rw [div_le_div_iff_of_pos_right (by norm_num)]; linarith
    have h5 : ((0.42422 : ℝ) / 0.3) ^ 2 ≤ 2.01 := by norm_num
    linarith

/-- C99: the thresholded kernel of the notebook is the mean over the eight neighbours. -/
theorem nbMoore_eq (a b : Fin 3) : nbMoore a b = if a = 1 ∧ b = 1 then 0 else 1 / 8 := by
  obtain ⟨hc, hc0, he, he1, hd, hd1⟩ := moore_values
  set c := nbGaussian 0.99 0.3 0 with hcdef
  set e := nbGaussian 0.99 0.3 1 with hedef
  set d := nbGaussian 0.99 0.3 (Real.sqrt 2) with hddef
  have hnum : ∀ y x : Fin 3, nbGaussian 0.99 0.3 (nbDistance 1 y x) =
      if y = 1 ∧ x = 1 then c else if y = 1 ∨ x = 1 then e else d := by
    intro y x
    rw [nbDistance_one]
    split
    · rfl
    · split <;> rfl
  have hsum : ∑ y : Fin 3, ∑ x : Fin 3, nbGaussian 0.99 0.3 (nbDistance 1 y x) =
      c + 4 * e + 4 * d := by
    simp only [hnum, Fin.sum_univ_three]
    norm_num [Fin.ext_iff]
    ring
  have hS : 0 < c + 4 * e + 4 * d := by linarith
  have hk : ∀ y x : Fin 3, nbKernel (nbGaussian 0.99 0.3) 0.99 0.3 1 y x =
      (if y = 1 ∧ x = 1 then c else if y = 1 ∨ x = 1 then e else d) / (c + 4 * e + 4 * d) := by
    intro y x
    unfold nbKernel
    dsimp only
    rw [hnum y x]
    congr 1
  have hk2 : ∀ y x : Fin 3, (if (if nbKernel (nbGaussian 0.99 0.3) 0.99 0.3 1 y x > 0.01 then 1.0
        else nbKernel (nbGaussian 0.99 0.3) 0.99 0.3 1 y x) ≤ 0.01 then (0.0 : ℝ)
      else if nbKernel (nbGaussian 0.99 0.3) 0.99 0.3 1 y x > 0.01 then 1.0
        else nbKernel (nbGaussian 0.99 0.3) 0.99 0.3 1 y x) =
      if y = 1 ∧ x = 1 then 0 else 1 := by
    intro y x
    have h1 : nbKernel (nbGaussian 0.99 0.3) 0.99 0.3 1 y x > 0.01 ↔ ¬ (y = 1 ∧ x = 1) := by
      rw [hk, gt_iff_lt, lt_div_iff₀ hS]
      split
      · next h => simp only [h, and_self, not_true, iff_false, not_lt]; linarith
      · next h =>
        simp only [h, not_false_eq_true, iff_true]
        split <;> linarith
    by_cases h : y = 1 ∧ x = 1
    · have h2 : ¬ nbKernel (nbGaussian 0.99 0.3) 0.99 0.3 1 y x > 0.01 := fun hh => (h1.1 hh) h
      rw [if_neg h2, if_pos (not_lt.1 h2), if_pos h]
      norm_num
    · rw [if_pos (h1.2 h), if_neg (by norm_num), if_neg h]
      norm_num
  have hM : nbMoore a b = (if a = 1 ∧ b = 1 then 0 else 1) /
      ∑ y : Fin 3, ∑ x : Fin 3, (if y = 1 ∧ x = 1 then (0 : ℝ) else 1) := by
    unfold nbMoore
    dsimp only
    congr 1
    · exact hk2 a b
    · exact Finset.sum_congr rfl fun y _ => Finset.sum_congr rfl fun x _ => hk2 y x
  rw [hM]
  have : ∑ y : Fin 3, ∑ x : Fin 3, (if y = 1 ∧ x = 1 then (0 : ℝ) else 1) = 8 := by
    simp only [Fin.sum_univ_three]
    norm_num [Fin.ext_iff]
  rw [this]
  split <;> norm_num

/-- C99: the other one copies the grid. -/
theorem nbEye_eq (a b : Fin 3) : nbEye a b = if a = 1 ∧ b = 1 then 1 else 0 := by
  have hc : nbGaussian 0 0.1 0 = 1 := by unfold nbGaussian; norm_num
  have hsmall : ∀ u, 1 ≤ u → nbGaussian 0 0.1 u ≤ 1 / 1000 := by
    intro u hu
    unfold nbGaussian
    have h1 : -((u - 0) / 0.1) ^ 2 / 2 ≤ (-10 : ℝ) := by
      have : 100 ≤ ((u - 0) / 0.1) ^ 2 := by
        have h10 : 10 ≤ (u - 0) / 0.1 := by rw [le_div_iff₀ (by norm_num)]; linarith
        nlinarith
      linarith
    refine (Real.exp_le_exp.2 h1).trans ?_
    have h2 : Real.exp (-10) = Real.exp (-5) ^ 2 := by rw [← Real.exp_nat_mul]; norm_num
    rw [h2]
    have := exp_bounds.1
    have h3 := Real.exp_pos (-5)
    nlinarith
  have he := hsmall 1 (le_refl _)
  have hd := hsmall (Real.sqrt 2) (by rw [Real.one_le_sqrt]; norm_num)
  have he0 : 0 < nbGaussian 0 0.1 1 := Real.exp_pos _
  have hd0 : 0 < nbGaussian 0 0.1 (Real.sqrt 2) := Real.exp_pos _
  set e := nbGaussian 0 0.1 1 with hedef
  set d := nbGaussian 0 0.1 (Real.sqrt 2) with hddef
  have hnum : ∀ y x : Fin 3, nbGaussian 0 0.1 (nbDistance 1 y x) =
      if y = 1 ∧ x = 1 then 1 else if y = 1 ∨ x = 1 then e else d := by
    intro y x
    rw [nbDistance_one]
    split
    · exact hc
    · split <;> rfl
  have hsum : ∑ y : Fin 3, ∑ x : Fin 3, nbGaussian 0 0.1 (nbDistance 1 y x) =
      1 + 4 * e + 4 * d := by
    simp only [hnum, Fin.sum_univ_three]
    norm_num [Fin.ext_iff]
    ring
  have hS : 0 < 1 + 4 * e + 4 * d := by linarith
  have hk : ∀ y x : Fin 3, nbKernel (nbGaussian 0 0.1) 0 0.1 1 y x =
      (if y = 1 ∧ x = 1 then 1 else if y = 1 ∨ x = 1 then e else d) / (1 + 4 * e + 4 * d) := by
    intro y x
    unfold nbKernel
    dsimp only
    rw [hnum y x]
    congr 1
  have hk2 : ∀ y x : Fin 3, (if nbKernel (nbGaussian 0 0.1) 0 0.1 1 y x < 0.99 then (0.0 : ℝ)
      else nbKernel (nbGaussian 0 0.1) 0 0.1 1 y x) =
      if y = 1 ∧ x = 1 then 1 / (1 + 4 * e + 4 * d) else 0 := by
    intro y x
    have h1 : nbKernel (nbGaussian 0 0.1) 0 0.1 1 y x < 0.99 ↔ ¬ (y = 1 ∧ x = 1) := by
      rw [hk, div_lt_iff₀ hS]
      split
      · next h => simp only [h, and_self, not_true, iff_false, not_lt]; linarith
      · next h =>
        simp only [h, not_false_eq_true, iff_true]
        split <;> linarith
    by_cases h : y = 1 ∧ x = 1
    · rw [if_neg fun hh => (h1.1 hh) h, if_pos h, hk, if_pos h]
    · rw [if_pos (h1.2 h), if_neg h]
      norm_num
  have hM : nbEye a b = (if a = 1 ∧ b = 1 then 1 / (1 + 4 * e + 4 * d) else 0) /
      ∑ y : Fin 3, ∑ x : Fin 3, (if y = 1 ∧ x = 1 then 1 / (1 + 4 * e + 4 * d) else 0) := by
    unfold nbEye
    dsimp only
    congr 1
    · exact hk2 a b
    · exact Finset.sum_congr rfl fun y _ => Finset.sum_congr rfl fun x _ => hk2 y x
  rw [hM]
  have : ∑ y : Fin 3, ∑ x : Fin 3, (if y = 1 ∧ x = 1 then 1 / (1 + 4 * e + 4 * d) else 0) =
      1 / (1 + 4 * e + 4 * d) := by
    simp only [Fin.sum_univ_three]
    norm_num [Fin.ext_iff]
  rw [this]
  split
  · exact div_self (by positivity)
  · exact zero_div _

theorem nbWrap_roll {n : Nat} (i : Fin n) (d : Int) : nbWrap i d = rollIdx i (-d) := by
  simp [nbWrap, rollIdx]

/-- C99: convolving with it gives the mean of the eight neighbours on the torus. -/
theorem nbConv_moore (x : Grid ℝ H W) (i : Fin H) (j : Fin W) :
    nbConv 1 nbMoore x i j =
      (mooreOffsets.map fun d => x (rollIdx i d.1) (rollIdx j d.2)).sum / 8 := by
  unfold nbConv
  show (∑ a : Fin 3, ∑ b : Fin 3, nbMoore a b * x (nbWrap i ((1 : ℕ) - a.val)) (nbWrap j ((1 : ℕ) - b.val))) = _
  simp only [Fin.sum_univ_three, nbMoore_eq, mooreOffsets, List.map_cons, List.map_nil,
    List.sum_cons, List.sum_nil, nbWrap_roll]
  norm_num [Fin.ext_iff]
  ring

/-- C99: and with the other one, the grid. -/
theorem nbConv_eye (x : Grid ℝ H W) : nbConv 1 nbEye x = x := by
  funext i j
  unfold nbConv
  show (∑ a : Fin 3, ∑ b : Fin 3, nbEye a b * x (nbWrap i ((1 : ℕ) - a.val)) (nbWrap j ((1 : ℕ) - b.val))) = _
  have h : ∀ {n : Nat} (i : Fin n), nbWrap i 0 = i := by
    intro n i
    apply Fin.ext
    have := i.isLt
    simp only [nbWrap, add_zero]
    rw [Int.emod_eq_of_lt (by omega) (by omega)]
    simp
  simp only [Fin.sum_univ_three, nbEye_eq]
  norm_num [Fin.ext_iff, h]

/-! ## Growth -/

theorem nbSteps_sum (a : List (ℝ × ℝ)) (alpha x : ℝ) :
    nbSteps a alpha x =
      (a.map fun e => nbSigmoid x e.1 alpha * (1 - nbSigmoid x e.2 alpha)).sum := by
  unfold nbSteps
  have : ∀ (l : List (ℝ × ℝ)) (r : ℝ), l.foldl (fun result edges =>
      result + nbSigmoid x edges.1 alpha * (1 - nbSigmoid x edges.2 alpha)) r =
      r + (l.map fun e => nbSigmoid x e.1 alpha * (1 - nbSigmoid x e.2 alpha)).sum := by
    intro l
    induction l with
    | nil => intro r; simp
    | cons e l ih => intro r; rw [List.foldl_cons, ih, List.map_cons, List.sum_cons]; ring
  rw [this, zero_add]

/-- The growth of the notebook's Life from the three sigmoids. -/
theorem life_growth (x : ℝ) : nbGrowth [3] x + nbGrowth [2, 3] x - 1 =
    sigmoid1 (3 / 18) 0.0125 x * (1 - sigmoid1 (5 / 18) 0.0125 x) +
      2 * (sigmoid1 (5 / 18) 0.0125 x * (1 - sigmoid1 (7 / 18) 0.0125 x)) - 1 := by
  have h : ∀ mu, nbSigmoid x mu 0.0125 = sigmoid1 mu 0.0125 x := fun _ => rfl
  unfold nbGrowth
  simp only [nbSteps_sum, nbInterval, List.map_cons, List.map_nil, List.sum_cons, List.sum_nil, h]
  norm_num
  ring

theorem exp_neg_small {y : ℝ} (h : 40 / 9 ≤ y) : Real.exp (-y) ≤ 3 / 250 := by
  have h1 : (2.7182818283 : ℝ) < Real.exp 1 := Real.exp_one_gt_d9
  have h2 : Real.exp 4 = Real.exp 1 ^ 4 := by rw [← Real.exp_nat_mul]; norm_num
  have h3 : (54 : ℝ) ≤ Real.exp 4 := by
    rw [h2]
    calc (54 : ℝ) ≤ 2.7182818283 ^ 4 := by norm_num
      _ ≤ _ := pow_le_pow_left₀ (by norm_num) h1.le 4
  have h4 : (1 + 4 / 9 + (4 / 9) ^ 2 / 2 : ℝ) ≤ Real.exp (4 / 9) :=
    Real.quadratic_le_exp_of_nonneg (by norm_num)
  have h5 : (250 / 3 : ℝ) ≤ Real.exp y := by
    calc (250 / 3 : ℝ) ≤ 54 * (1 + 4 / 9 + (4 / 9) ^ 2 / 2) := by norm_num
      _ ≤ Real.exp 4 * Real.exp (4 / 9) := mul_le_mul h3 h4 (by norm_num) (Real.exp_pos _).le
      _ = Real.exp (40 / 9) := by rw [← Real.exp_add]; norm_num
      _ ≤ _ := Real.exp_le_exp.2 h
  rw [Real.exp_neg, ← one_div]
  calc 1 / Real.exp y ≤ 1 / (250 / 3) := one_div_le_one_div_of_le (by norm_num) h5
    _ = _ := by norm_num

theorem exp_neg_tiny {y : ℝ} (h : 80 / 9 ≤ y) : Real.exp (-y) ≤ 1 / 5000 := by
  have h1 := exp_neg_small (y := y / 2) (by linarith)
  have h2 : Real.exp (-y) = Real.exp (-(y / 2)) ^ 2 := by
    rw [← Real.exp_nat_mul]; congr 1; push_cast; ring
  rw [h2]
  have h3 := Real.exp_pos (-(y / 2))
  nlinarith

/-- C99: the growth of the notebook's Life at a neighbourhood of `k` live cells. -/
theorem life_growth_count {k : Nat} (hk : k ≤ 8) :
    (k = 3 → 1 - 1 / 40 ≤ nbGrowth [3] ((k : ℝ) / 8) + nbGrowth [2, 3] ((k : ℝ) / 8) - 1) ∧
    (k = 2 → |nbGrowth [3] ((k : ℝ) / 8) + nbGrowth [2, 3] ((k : ℝ) / 8) - 1| ≤ 1 / 1000) ∧
    (k ≠ 2 → k ≠ 3 →
      nbGrowth [3] ((k : ℝ) / 8) + nbGrowth [2, 3] ((k : ℝ) / 8) - 1 ≤ -1 + 1 / 1000) := by
  have hk8 : (k : ℝ) ≤ 8 := by exact_mod_cast hk
  rw [life_growth]
  set x : ℝ := (k : ℝ) / 8 with hx
  set A := sigmoid1 (3 / 18) 0.0125 x with hA
  set P := sigmoid1 (5 / 18) 0.0125 x with hP
  set Q := sigmoid1 (7 / 18) 0.0125 x with hQ
  have a0 : 0 < A := sigmoid1_pos _ _ _
  have a1 : A < 1 := sigmoid1_lt_one _ _ _
  have p0 : 0 < P := sigmoid1_pos _ _ _
  have p1 : P < 1 := sigmoid1_lt_one _ _ _
  have q0 : 0 < Q := sigmoid1_pos _ _ _
  have q1 : Q < 1 := sigmoid1_lt_one _ _ _
  have hQle := sigmoid1_le_exp (7 / 18) x
  have hPle := sigmoid1_le_exp (5 / 18) x
  have hAle := sigmoid1_le_exp (3 / 18) x
  have hQge := one_sub_sigmoid1_le_exp (7 / 18) x
  have hPge := one_sub_sigmoid1_le_exp (5 / 18) x
  have hAge := one_sub_sigmoid1_le_exp (3 / 18) x
  rw [← hQ] at hQle hQge
  rw [← hP] at hPle hPge
  rw [← hA] at hAle hAge
  refine ⟨fun h3 => ?_, fun h2 => ?_, fun h2 h3 => ?_⟩
  · have hx3 : x = 3 / 8 := by rw [hx, h3]; norm_num
    rw [hx3] at hQle hPge
    have e1 : Q ≤ 3 / 250 := by
      refine hQle.trans ?_
      have := exp_neg_small (y := 40 / 9) (le_refl _)
      norm_num at this ⊢
      linarith
    have e2 : 1 - P ≤ 1 / 5000 := hPge.trans (exp_neg_tiny (by norm_num))
    have : 0 ≤ A * (1 - P) := mul_nonneg a0.le (by linarith)
    nlinarith
  · have hx2 : x = 1 / 4 := by rw [hx, h2]; norm_num
    rw [hx2] at hPle hAge
    have e1 : P ≤ 1 / 5000 := by
      refine hPle.trans ?_
      have := exp_neg_tiny (y := 80 / 9) (le_refl _)
      norm_num at this ⊢
      linarith
    have e2 : 1 - A ≤ 1 / 5000 := hAge.trans (exp_neg_tiny (by norm_num))
    rw [abs_le]
    constructor
    · nlinarith [mul_nonneg p0.le (by linarith : 0 ≤ 1 - Q)]
    · nlinarith [mul_nonneg p0.le q0.le, mul_nonneg a0.le p0.le]
  · rcases (by omega : k ≤ 1 ∨ 4 ≤ k) with h | h
    · have hx1 : x ≤ 1 / 8 := by
        rw [hx]
        have : (k : ℝ) ≤ 1 := by exact_mod_cast h
        linarith
      have e1 : A ≤ 1 / 5000 := by
        refine hAle.trans ?_
        rw [show 320 * (x - 3 / 18) = -(320 * (3 / 18 - x)) by ring]
        exact exp_neg_tiny (by linarith)
      have e2 : P ≤ 1 / 5000 := by
        refine hPle.trans ?_
        rw [show 320 * (x - 5 / 18) = -(320 * (5 / 18 - x)) by ring]
        exact exp_neg_tiny (by linarith)
      nlinarith [mul_nonneg p0.le q0.le, mul_nonneg a0.le p0.le]
    · have hx4 : 1 / 2 ≤ x := by
        rw [hx]
        have : (4 : ℝ) ≤ k := by exact_mod_cast h
        linarith
      have e1 : 1 - P ≤ 1 / 5000 := hPge.trans (exp_neg_tiny (by linarith))
      have e2 : 1 - Q ≤ 1 / 5000 := hQge.trans (exp_neg_tiny (by linarith))
      nlinarith [mul_nonneg (by linarith : 0 ≤ 1 - P) (by linarith : 0 ≤ 1 - A),
        mul_nonneg (by linarith : 0 ≤ 1 - Q) (by linarith : 0 ≤ 1 - P)]

/-! ## One step of Life -/

theorem alive_le (s : Fin H → Fin W → Bool) (i : Fin H) (j : Fin W) :
    aliveNeighbours s i j ≤ 8 := by
  unfold aliveNeighbours
  exact List.countP_le_length.trans (by simp [mooreOffsets])

theorem nbLife_cell (x : Grid ℝ H W) (i : Fin H) (j : Fin W) :
    nbLife x i j = nbClip (x i j + (nbGrowth [3] (nbConv 1 nbMoore x i j) +
      nbGrowth [2, 3] (nbConv 1 nbMoore x i j) - 1)) := by
  unfold nbLife nbUpdate
  norm_num

/-- C99: one step of the notebook's Life on a 0/1 grid is within 1/40 of one generation of Life,
on a torus of any size. -/
theorem notebook_step (s : Fin H → Fin W → Bool) (i : Fin H) (j : Fin W) :
    |nbLife (fun i j => bit (s i j)) i j - bit (lifeStep [3] [2, 3] s i j)| ≤ 1 / 40 := by
  have hn : nbConv 1 nbMoore (fun i j => bit (s i j)) i j = (aliveNeighbours s i j : ℕ) / 8 := by
    rw [nbConv_moore, bits_sum]
    rfl
  rw [nbLife_cell, hn]
  obtain ⟨g3, g2, g0⟩ := life_growth_count (alive_le s i j)
  unfold lifeStep
  set k := aliveNeighbours s i j with hkdef
  set G := nbGrowth [3] ((k : ℝ) / 8) + nbGrowth [2, 3] ((k : ℝ) / 8) - 1 with hG
  have hclip : ∀ v : ℝ, 0 ≤ nbClip v ∧ nbClip v ≤ 1 ∧ (nbClip v ≤ max v 0) ∧ min v 1 ≤ nbClip v := by
    intro v
    unfold nbClip
    exact ⟨le_min (le_max_right _ _) zero_le_one, min_le_right _ _, min_le_left _ _,
      min_le_min_right _ (le_max_left _ _)⟩
  obtain ⟨c1, c2, c3, c4⟩ := hclip (bit (s i j) + G)
  have low : ∀ ε : ℝ, 0 ≤ ε → 1 - ε ≤ bit (s i j) + G → |nbClip (bit (s i j) + G) - 1| ≤ ε := by
    intro ε h0 h
    have : 1 - ε ≤ min (bit (s i j) + G) 1 := le_min h (by linarith)
    rw [abs_le]
    constructor <;> linarith
  have high : ∀ ε : ℝ, 0 ≤ ε → bit (s i j) + G ≤ ε → |nbClip (bit (s i j) + G) - 0| ≤ ε := by
    intro ε h0 h
    have : max (bit (s i j) + G) 0 ≤ ε := max_le h h0
    rw [abs_le]
    constructor <;> linarith
  have b1 : bit true = 1 := rfl
  have b0 : bit false = 0 := rfl
  by_cases h3 : k = 3
  · have e : bit (if s i j = true then decide (k ∈ [2, 3]) else decide (k ∈ [3])) = 1 := by
      rw [h3]; cases s i j <;> simp [bit]
    rw [e]
    apply low _ (by norm_num)
    have : 0 ≤ bit (s i j) := by unfold bit; split <;> norm_num
    linarith [g3 h3]
  · by_cases h2 : k = 2
    · have := abs_le.1 (g2 h2)
      cases hs : s i j
      · rw [hs] at high
        have e : bit (if false = true then decide (k ∈ [2, 3]) else decide (k ∈ [3])) = 0 := by
          simp [bit, h2]
        rw [e]
        apply high _ (by norm_num)
        rw [b0]; linarith
      · rw [hs] at low
        have e : bit (if true = true then decide (k ∈ [2, 3]) else decide (k ∈ [3])) = 1 := by
          simp [bit, h2]
        rw [e]
        apply low _ (by norm_num)
        rw [b1]; linarith
    · have e : bit (if s i j = true then decide (k ∈ [2, 3]) else decide (k ∈ [3])) = 0 := by
        cases s i j <;> simp [bit, h2, h3]
      rw [e]
      apply high _ (by norm_num)
      have : bit (s i j) ≤ 1 := by unfold bit; split <;> norm_num
      linarith [g0 h2 h3]

/-! ## Many steps -/

/-- The growth is positive wherever the neighbourhood is within 1/40 of two live cells. -/
theorem life_growth_two {x : ℝ} (h : |x - 1 / 4| ≤ 1 / 40) :
    Real.exp (-(160 / 9)) ≤ nbGrowth [3] x + nbGrowth [2, 3] x - 1 := by
  rw [life_growth]
  obtain ⟨hl, hu⟩ := abs_le.1 h
  set A := sigmoid1 (3 / 18) 0.0125 x with hA
  set P := sigmoid1 (5 / 18) 0.0125 x with hP
  set Q := sigmoid1 (7 / 18) 0.0125 x with hQ
  have a1 : A < 1 := sigmoid1_lt_one _ _ _
  have p0 : 0 < P := sigmoid1_pos _ _ _
  have p1 : P < 1 := sigmoid1_lt_one _ _ _
  have q0 : 0 < Q := sigmoid1_pos _ _ _
  set δ := Real.exp (-(160 / 9)) with hδ
  have d0 : 0 < δ := Real.exp_pos _
  have d1 : δ ≤ 1 / 5000 := exp_neg_tiny (by norm_num)
  set z := Real.exp (8 / 9) with hz
  have z1 : 1 + 8 / 9 + (8 / 9) ^ 2 / 2 ≤ z := Real.quadratic_le_exp_of_nonneg (by norm_num)
  have z2 : (2 : ℝ) ≤ z := by norm_num at z1 ⊢; linarith
  -- the middle sigmoid
  have hPge : z * δ / (1 + z * δ) ≤ P := by
    have e1 : Real.exp (-4 * (x - 5 / 18) / 0.0125) ≤ 1 / (z * δ) := by
      rw [hz, hδ, ← Real.exp_add, one_div, ← Real.exp_neg]
      apply Real.exp_le_exp.2
      rw [show -4 * (x - 5 / 18) / 0.0125 = -(320 * (x - 5 / 18)) by ring]
      linarith
    have zd : 0 < z * δ := by positivity
    have e2 : z * δ / (1 + z * δ) = 1 / (1 + 1 / (z * δ)) := by field_simp; ring
    rw [e2, hP]
    unfold sigmoid1
    apply one_div_le_one_div_of_le
    · have := Real.exp_pos (-4 * (x - 5 / 18) / 0.0125); linarith
    · linarith
  have hAge : 1 - A ≤ δ / z := by
    have := one_sub_sigmoid1_le_exp (3 / 18) x
    rw [← hA] at this
    refine this.trans ?_
    rw [hδ, hz, ← Real.exp_sub]
    apply Real.exp_le_exp.2
    linarith
  have hQle : Q ≤ δ * δ := by
    have := sigmoid1_le_exp (7 / 18) x
    rw [← hQ] at this
    refine this.trans ?_
    rw [hδ, ← Real.exp_add]
    apply Real.exp_le_exp.2
    linarith
  have hz3 : z < 3 := by
    have h2 : Real.exp 1 < 2.7182818286 := Real.exp_one_lt_d9
    have : z ≤ Real.exp 1 := Real.exp_le_exp.2 (by norm_num)
    linarith
  have hP2 : 19 / 10 * δ ≤ P := by
    refine le_trans ?_ hPge
    rw [le_div_iff₀ (by positivity)]
    have : z * δ ≤ 3 / 5000 := by nlinarith
    nlinarith
  have hA2 : 1 - A ≤ δ / 2 := by
    refine hAge.trans ?_
    exact div_le_div_of_nonneg_left d0.le (by norm_num) z2
  have hQ2 : Q ≤ δ / 5000 := by nlinarith
  have key : A * (1 - P) + 2 * (P * (1 - Q)) - 1 = P * (2 - A - 2 * Q) - (1 - A) := by ring
  rw [key]
  nlinarith [mul_nonneg p0.le (by linarith : 0 ≤ 1 - A), mul_nonneg (by linarith : 0 ≤ 1 - P) q0.le]

/-- C99, where it fails: over many steps it is not Life.  Every pattern of Life with a dead cell
that has exactly two live neighbours, a block for instance, is lost: the cell grows in every step
until the grid is no longer within 1/40 of the pattern. -/
theorem notebook_drift_refuted (s : Fin H → Fin W → Bool) {i : Fin H} {j : Fin W}
    (hdead : s i j = false) (htwo : aliveNeighbours s i j = 2) :
    ∃ t i j, 1 / 40 < |nbLife^[t] (fun i j => bit (s i j)) i j - bit (s i j)| := by
  by_contra hno
  push Not at hno
  set x : Nat → Grid ℝ H W := fun t => nbLife^[t] (fun i j => bit (s i j)) with hx
  have near : ∀ t i j, |x t i j - bit (s i j)| ≤ 1 / 40 := hno
  have hb : bit (s i j) = 0 := by rw [hdead]; rfl
  have step : ∀ t, x t i j + Real.exp (-(160 / 9)) ≤ x (t + 1) i j := by
    intro t
    have hnext : x (t + 1) i j = nbLife (x t) i j := by
      simp only [hx, Function.iterate_succ_apply']
    have hn : |nbConv 1 nbMoore (x t) i j - 1 / 4| ≤ 1 / 40 := by
      rw [nbConv_moore]
      have h1 := sum_close mooreOffsets (fun d => x t (rollIdx i d.1) (rollIdx j d.2))
        (fun d => bit (s (rollIdx i d.1) (rollIdx j d.2))) (1 / 40) (fun d => near t _ _)
      have h2 : (mooreOffsets.map fun d => bit (s (rollIdx i d.1) (rollIdx j d.2))).sum = 2 := by
        rw [bits_sum]
        unfold aliveNeighbours at htwo
        rw [htwo]
        norm_num
      have h8 : (mooreOffsets.length : ℝ) = 8 := by norm_num [mooreOffsets]
      rw [h2, h8] at h1
      rw [abs_le] at h1 ⊢
      constructor <;> linarith [h1.1, h1.2]
    have hg := life_growth_two hn
    have hle := near (t + 1) i j
    rw [hb, sub_zero] at hle
    have hlt : x (t + 1) i j < 1 := lt_of_le_of_lt ((le_abs_self _).trans hle) (by norm_num)
    rw [hnext, nbLife_cell] at hlt ⊢
    set v := x t i j + (nbGrowth [3] (nbConv 1 nbMoore (x t) i j) +
      nbGrowth [2, 3] (nbConv 1 nbMoore (x t) i j) - 1) with hv
    have h1 : min v 1 ≤ nbClip v := min_le_min_right _ (le_max_left _ _)
    have h2 : v ≤ 1 := by
      by_contra hv1
      rw [min_eq_right (by linarith)] at h1
      linarith
    rw [min_eq_left h2] at h1
    linarith
  have grow : ∀ t : Nat, t * Real.exp (-(160 / 9)) ≤ x t i j := by
    intro t
    induction t with
    | zero => simp [hx, hb]
    | succ t ih =>
      have := step t
      push_cast
      linarith
  obtain ⟨t, ht⟩ := exists_nat_gt (1 / Real.exp (-(160 / 9)))
  rw [div_lt_iff₀ (Real.exp_pos _)] at ht
  have h1 := grow t
  have h2 := (le_abs_self _).trans (near t i j)
  rw [hb] at h2
  linarith

/-- A block on a torus of 6 by 6 cells. -/
def Witness.block : Fin 6 → Fin 6 → Bool := fun i j => (i.val = 2 ∨ i.val = 3) ∧ (j.val = 2 ∨ j.val = 3)

example : lifeStep [3] [2, 3] Witness.block = Witness.block ∧
    Witness.block 1 2 = false ∧ aliveNeighbours Witness.block 1 2 = 2 := by
  refine ⟨?_, by decide +kernel, by decide +kernel⟩
  have : ∀ i j, lifeStep [3] [2, 3] Witness.block i j = Witness.block i j := by decide +kernel
  funext i j
  exact this i j

/-! ## Gifs -/

/-- C99: `make_gif` needs two frames; it shows the first of them twice, then the others in the
order of their names, and removes exactly the visible files whose names end in png. -/
theorem nbMakeGif_spec {A : Type} (files : List (Str × A)) :
    let pngs := files.filter fun f => decide ("png".toList <:+: f.1)
    (pngs.length ≤ 1 → nbMakeGif files = .error .assertion) ∧
    (∀ f g rest, pngs = f :: g :: rest → ∃ left,
      nbMakeGif files = .ok (f.2 :: f.2 :: g.2 :: rest.map Prod.snd, left) ∧
      ∀ h ∈ files, (h ∈ left ↔ ¬ ("png".toList <:+ h.1 ∧ ¬ ".".toList <+: h.1))) := by
  intro pngs
  have hp : (files.filter fun f => hasSub "png".toList f.1) = pngs := by
    refine List.filter_congr fun f _ => ?_
    rw [Bool.eq_iff_iff, hasSub_iff, decide_eq_true_iff]
  constructor
  · intro h
    unfold nbMakeGif
    dsimp only
    rw [hp, if_neg (by rw [List.length_map]; omega)]
  · intro f g rest hpn
    refine ⟨files.filter fun f =>
        !(("png".toList).isSuffixOf f.1 && !(".".toList).isPrefixOf f.1), ?_, ?_⟩
    · unfold nbMakeGif
      dsimp only
      rw [hp, hpn]
      rfl
    · intro h hh
      rw [List.mem_filter]
      simp only [hh, true_and, Bool.not_eq_true', Bool.and_eq_false_iff, Bool.not_eq_false']
      rw [← Bool.not_eq_true, List.isSuffixOf_iff_suffix, List.isPrefixOf_iff_prefix]
      tauto

example : nbMakeGif [("a.png".toList, 1), ("b.txt".toList, 2), ("c.png".toList, 3)] =
    .ok ([1, 1, 3], [("b.txt".toList, 2)]) := by decide +kernel

/-! ## The other update -/

theorem exp_neg_four {y : ℝ} (h : 4 ≤ y) : Real.exp (-y) ≤ 1 / 54 := by
  have h1 : (2.7182818283 : ℝ) < Real.exp 1 := Real.exp_one_gt_d9
  have h2 : Real.exp 4 = Real.exp 1 ^ 4 := by rw [← Real.exp_nat_mul]; norm_num
  have h3 : (54 : ℝ) ≤ Real.exp y := by
    refine le_trans ?_ (Real.exp_le_exp.2 h)
    rw [h2]
    calc (54 : ℝ) ≤ 2.7182818283 ^ 4 := by norm_num
      _ ≤ _ := pow_le_pow_left₀ (by norm_num) h1.le 4
  rw [Real.exp_neg, ← one_div]
  exact one_div_le_one_div_of_le (by norm_num) h3

theorem exp_neg_eight {y : ℝ} (h : 8 ≤ y) : Real.exp (-y) ≤ 1 / 2916 := by
  have h1 := exp_neg_four (y := y / 2) (by linarith)
  have h2 : Real.exp (-y) = Real.exp (-(y / 2)) ^ 2 := by
    rw [← Real.exp_nat_mul]; congr 1; push_cast; ring
  rw [h2]
  have h3 := Real.exp_pos (-(y / 2))
  nlinarith

/-- Birth and survival growth near a neighbourhood of `k` live cells. -/
theorem life_growths {x : ℝ} {k : Nat} (h1 : 15 / 128 * (k : ℝ) ≤ x) (h2 : x ≤ k / 8 + 1 / 1000) :
    (k = 3 → 97 / 100 ≤ nbGrowth [3] x ∧ 97 / 100 ≤ nbGrowth [2, 3] x) ∧
    (k = 2 → nbGrowth [3] x ≤ 2 / 5000 ∧ 97 / 100 ≤ nbGrowth [2, 3] x) ∧
    (k ≠ 2 → k ≠ 3 → nbGrowth [3] x ≤ 2 / 5000 ∧ nbGrowth [2, 3] x ≤ 2 / 5000) ∧
    0 ≤ nbGrowth [3] x ∧ 0 ≤ nbGrowth [2, 3] x ∧ nbGrowth [3] x ≤ 1 ∧ nbGrowth [2, 3] x ≤ 1 := by
  have hB : nbGrowth [3] x = sigmoid1 (5 / 18) 0.0125 x * (1 - sigmoid1 (7 / 18) 0.0125 x) := by
    have h : ∀ mu, nbSigmoid x mu 0.0125 = sigmoid1 mu 0.0125 x := fun _ => rfl
    unfold nbGrowth
    simp only [nbSteps_sum, nbInterval, List.map_cons, List.map_nil, List.sum_cons, List.sum_nil, h]
    norm_num
  have hS : nbGrowth [2, 3] x = sigmoid1 (3 / 18) 0.0125 x * (1 - sigmoid1 (5 / 18) 0.0125 x) +
      sigmoid1 (5 / 18) 0.0125 x * (1 - sigmoid1 (7 / 18) 0.0125 x) := by
    have h : ∀ mu, nbSigmoid x mu 0.0125 = sigmoid1 mu 0.0125 x := fun _ => rfl
    unfold nbGrowth
    simp only [nbSteps_sum, nbInterval, List.map_cons, List.map_nil, List.sum_cons, List.sum_nil, h]
    norm_num
  rw [hB, hS]
  set A := sigmoid1 (3 / 18) 0.0125 x with hA
  set P := sigmoid1 (5 / 18) 0.0125 x with hP
  set Q := sigmoid1 (7 / 18) 0.0125 x with hQ
  have a0 : 0 < A := sigmoid1_pos _ _ _
  have a1 : A < 1 := sigmoid1_lt_one _ _ _
  have p0 : 0 < P := sigmoid1_pos _ _ _
  have p1 : P < 1 := sigmoid1_lt_one _ _ _
  have q0 : 0 < Q := sigmoid1_pos _ _ _
  have q1 : Q < 1 := sigmoid1_lt_one _ _ _
  have hQle := sigmoid1_le_exp (7 / 18) x
  have hPle := sigmoid1_le_exp (5 / 18) x
  have hAle := sigmoid1_le_exp (3 / 18) x
  have hQge := one_sub_sigmoid1_le_exp (7 / 18) x
  have hPge := one_sub_sigmoid1_le_exp (5 / 18) x
  have hAge := one_sub_sigmoid1_le_exp (3 / 18) x
  rw [← hQ] at hQle hQge
  rw [← hP] at hPle hPge
  rw [← hA] at hAle hAge
  have flip : ∀ mu : ℝ, 320 * (x - mu) = -(320 * (mu - x)) := fun mu => by ring
  rw [flip] at hQle hPle hAle
  have pq : 0 ≤ P * (1 - Q) := mul_nonneg p0.le (by linarith)
  have ap : 0 ≤ A * (1 - P) := mul_nonneg a0.le (by linarith)
  refine ⟨fun h3 => ?_, fun h => ?_, fun n2 n3 => ?_, pq, by linarith, ?_, ?_⟩
  · subst h3
    push_cast at h1 h2
    have e1 : Q ≤ 1 / 54 := hQle.trans (exp_neg_four (by linarith))
    have e2 : 1 - P ≤ 1 / 5000 := hPge.trans (exp_neg_tiny (by linarith))
    have e3 : (4999 / 5000 : ℝ) * (53 / 54) ≤ P * (1 - Q) :=
      mul_le_mul (by linarith) (by linarith) (by norm_num) p0.le
    constructor <;> linarith
  · subst h
    push_cast at h1 h2
    have e1 : P ≤ 1 / 2916 := hPle.trans (exp_neg_eight (by linarith))
    have e2 : 1 - A ≤ 1 / 5000 := hAge.trans (exp_neg_tiny (by linarith))
    have e3 : (4999 / 5000 : ℝ) * (2915 / 2916) ≤ A * (1 - P) :=
      mul_le_mul (by linarith) (by linarith) (by norm_num) a0.le
    have e4 : P * (1 - Q) ≤ P := mul_le_of_le_one_right p0.le (by linarith)
    constructor <;> linarith
  · rcases (by omega : k ≤ 1 ∨ 4 ≤ k) with h | h
    · have hk1 : (k : ℝ) ≤ 1 := by exact_mod_cast h
      have e1 : A ≤ 1 / 5000 := hAle.trans (exp_neg_tiny (by linarith))
      have e2 : P ≤ 1 / 5000 := hPle.trans (exp_neg_tiny (by linarith))
      have e3 : A * (1 - P) ≤ A := mul_le_of_le_one_right a0.le (by linarith)
      have e4 : P * (1 - Q) ≤ P := mul_le_of_le_one_right p0.le (by linarith)
      constructor <;> linarith
    · have hk4 : (4 : ℝ) ≤ k := by exact_mod_cast h
      have e1 : 1 - P ≤ 1 / 5000 := hPge.trans (exp_neg_tiny (by linarith))
      have e2 : 1 - Q ≤ 1 / 5000 := hQge.trans (exp_neg_tiny (by linarith))
      have e3 : A * (1 - P) ≤ 1 - P := mul_le_of_le_one_left (by linarith) a1.le
      have e4 : P * (1 - Q) ≤ 1 - Q := mul_le_of_le_one_left (by linarith) p1.le
      constructor <;> linarith
  · exact (mul_le_of_le_one_right p0.le (by linarith)).trans p1.le
  · have e3 : A * (1 - P) ≤ 1 - P := mul_le_of_le_one_left (by linarith) a1.le
    have e4 : P * (1 - Q) ≤ P := mul_le_of_le_one_right p0.le (by linarith)
    linarith

/-- A grid that shows `s`: live cells at least 15/16, dead cells at most 1/1000. -/
def Spec.ShowsCells (s : Fin H → Fin W → Bool) (x : Grid ℝ H W) : Prop :=
  ∀ i j, if s i j then 15 / 16 ≤ x i j ∧ x i j ≤ 1 else 0 ≤ x i j ∧ x i j ≤ 1 / 1000

theorem count_bounds (l : List (Int × Int)) {s : Fin H → Fin W → Bool} {x : Grid ℝ H W}
    (h : ShowsCells s x) (i : Fin H) (j : Fin W) :
    15 / 16 * ((l.countP fun d => s (rollIdx i d.1) (rollIdx j d.2) : ℕ) : ℝ) ≤
      (l.map fun d => x (rollIdx i d.1) (rollIdx j d.2)).sum ∧
    (l.map fun d => x (rollIdx i d.1) (rollIdx j d.2)).sum ≤
      ((l.countP fun d => s (rollIdx i d.1) (rollIdx j d.2) : ℕ) : ℝ) + l.length / 1000 := by
  induction l with
  | nil => simp
  | cons d l ih =>
    have hd := h (rollIdx i d.1) (rollIdx j d.2)
    rw [List.countP_cons, List.map_cons, List.sum_cons, List.length_cons]
    obtain ⟨h1, h2⟩ := ih
    split at hd
    · rename_i hs
      rw [if_pos hs]
      push_cast
      constructor <;> linarith [hd.1, hd.2]
    · rename_i hs
      rw [if_neg hs]
      push_cast
      constructor <;> linarith [hd.1, hd.2]

/-- C99: with `use_lenia = False` the same rule lists give Life, one step. -/
theorem glaberish_step {s : Fin H → Fin W → Bool} {x : Grid ℝ H W} (h : ShowsCells s x) :
    ShowsCells (lifeStep [3] [2, 3] s) (nbUpdate false [3] [2, 3] x) := by
  intro i j
  obtain ⟨c1, c2⟩ := count_bounds mooreOffsets h i j
  have h8 : (mooreOffsets.length : ℝ) = 8 := by norm_num [mooreOffsets]
  rw [h8] at c2
  set n := nbConv 1 nbMoore x i j with hn
  set k := aliveNeighbours s i j with hk
  have n1 : 15 / 128 * (k : ℝ) ≤ n := by
    rw [hn, nbConv_moore]
    have : ((mooreOffsets.countP fun d => s (rollIdx i d.1) (rollIdx j d.2) : ℕ) : ℝ) = k := rfl
    rw [this] at c1
    linarith
  have n2 : n ≤ k / 8 + 1 / 1000 := by
    rw [hn, nbConv_moore]
    have : ((mooreOffsets.countP fun d => s (rollIdx i d.1) (rollIdx j d.2) : ℕ) : ℝ) = k := rfl
    rw [this] at c2
    linarith
  obtain ⟨g3, g2, g0, b0, s0, b1, s1⟩ := life_growths n1 n2
  have hv : nbUpdate false [3] [2, 3] x i j = nbClip (x i j + (((1 - x i j) * nbGrowth [3] n +
      x i j * nbGrowth [2, 3] n) * 2 - 1)) := by
    unfold nbUpdate
    simp only [nbConv_eye, ← hn]
    norm_num
  rw [hv]
  have hlife : lifeStep [3] [2, 3] s i j = if s i j then decide (k = 2 ∨ k = 3) else decide (k = 3) := by
    unfold lifeStep
    simp [← hk]
  rw [hlife]
  set B := nbGrowth [3] n with hB
  set S := nbGrowth [2, 3] n with hS
  have hx := h i j
  have up : ∀ v : ℝ, 15 / 16 ≤ v → 15 / 16 ≤ nbClip v ∧ nbClip v ≤ 1 := fun v hv =>
    ⟨le_min (hv.trans (le_max_left _ _)) (by norm_num), min_le_right _ _⟩
  have down : ∀ v : ℝ, v ≤ 1 / 1000 → 0 ≤ nbClip v ∧ nbClip v ≤ 1 / 1000 := fun v hv =>
    ⟨le_min (le_max_right _ _) zero_le_one, (min_le_left _ _).trans (max_le hv (by norm_num))⟩
  cases hs : s i j
  · rw [hs] at hx
    simp only [Bool.false_eq_true, if_false, decide_eq_true_eq] at hx ⊢
    by_cases h3 : k = 3
    · rw [if_pos h3]
      obtain ⟨e1, e2⟩ := g3 h3
      refine up _ ?_
      nlinarith
    · rw [if_neg h3]
      have e : B ≤ 2 / 5000 := by
        by_cases h2 : k = 2
        · exact (g2 h2).1
        · exact (g0 h2 h3).1
      refine down _ ?_
      nlinarith
  · rw [hs] at hx
    simp only [if_true, decide_eq_true_eq] at hx ⊢
    by_cases h23 : k = 2 ∨ k = 3
    · rw [if_pos h23]
      have e : 97 / 100 ≤ S := by
        rcases h23 with h | h
        · exact (g2 h).2
        · exact (g3 h).2
      refine up _ ?_
      nlinarith [mul_nonneg (by linarith : 0 ≤ 1 - x i j) b0]
    · rw [if_neg h23]
      obtain ⟨e1, e2⟩ := g0 (fun e => h23 (Or.inl e)) (fun e => h23 (Or.inr e))
      refine down _ ?_
      nlinarith

/-- C99: with `use_lenia = False` the same rule lists, kernels and step size give Life forever, from
every grid that shows a pattern. -/
theorem glaberish_forever (s : Fin H → Fin W → Bool) {x : Grid ℝ H W} (h : ShowsCells s x) (t : Nat) :
    ShowsCells ((lifeStep [3] [2, 3])^[t] s) ((nbUpdate false [3] [2, 3])^[t] x) := by
  induction t with
  | zero => exact h
  | succ t ih =>
    rw [Function.iterate_succ_apply', Function.iterate_succ_apply']
    exact glaberish_step ih

/-- Every pattern is shown by its own grid of zeros and ones. -/
example (s : Fin H → Fin W → Bool) : ShowsCells s fun i j => bit (s i j) := by
  intro i j
  unfold bit
  split <;> rename_i h <;> norm_num [h]

/-- C99: the weight of a cell in a kernel of the helpers depends on how far its distance from the
centre, measured in radii, is from `mu`: the nearer, the larger. -/
theorem nbKernel_order (f : ℝ → ℝ) (mu sigma : ℝ) (hs : sigma ≠ 0) (r : Nat)
    (y x y' x' : Fin (2 * r + 1)) :
    nbKernel f mu sigma r y x ≤ nbKernel f mu sigma r y' x' ↔
      |Real.sqrt (((y'.val : ℝ) - r) ^ 2 + ((x'.val : ℝ) - r) ^ 2) / r - mu| ≤
        |Real.sqrt (((y.val : ℝ) - r) ^ 2 + ((x.val : ℝ) - r) ^ 2) / r - mu| := by
  have hp : ∀ y x, 0 < nbGaussian mu sigma (nbDistance r y x) := fun _ _ => Real.exp_pos _
  have hsum : 0 < ∑ a, ∑ b, nbGaussian mu sigma (nbDistance r a b) :=
    Finset.sum_pos (fun a _ => Finset.sum_pos (fun b _ => hp a b) ⟨0, Finset.mem_univ _⟩)
      ⟨0, Finset.mem_univ _⟩
  have hd : ∀ y x : Fin (2 * r + 1), nbDistance r y x =
      Real.sqrt (((y.val : ℝ) - r) ^ 2 + ((x.val : ℝ) - r) ^ 2) / r := fun y x => by
    unfold nbDistance; rw [add_comm]
  unfold nbKernel
  dsimp only
  rw [div_le_div_iff_of_pos_right hsum, ← hd, ← hd]
  unfold nbGaussian
  rw [Real.exp_le_exp, ← sq_le_sq]
  have h2 : 0 < sigma ^ 2 := by positivity
  rw [div_pow, div_pow, neg_div, neg_div, neg_le_neg_iff, div_div, div_div,
    div_le_div_iff_of_pos_right (by positivity)]

end Yuca
