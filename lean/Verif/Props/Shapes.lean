import Verif.Props.Activations
import Verif.Props.Kernels
import Verif.Props.Params
import Mathlib.Analysis.SpecialFunctions.Pow.Real
import Mathlib.Algebra.Polynomial.Eval.Degree

/-!
# Growth functions and kernels have the shape their parameters describe (C84)
-/

namespace Yuca

open Arith

/-! ## Growth functions -/

/-- A bell with top 1 at `m` and inflection points at distance `w`. -/
noncomputable def Spec.bell (m w x : ℝ) : ℝ := Real.exp (-((x - m) ^ 2) / (2 * w ^ 2))

open Spec

theorem bump_bell (mu sigma x : ℝ) : bump mu sigma x = bell mu (sigma + 1e-9) x := by
  unfold bump bell eps9
  congr 1
  rw [div_pow, add_comm (1e-9 : ℝ), neg_div', div_div, mul_comm (2 : ℝ)]

/-- C84: the values of all growth functions. -/
theorem growth_values (x : ℝ) :
    (∀ mu s, (Act.gaussian mu s false).eval x = bell mu (s + 1e-9) x) ∧
    (∀ mu s, (Act.gaussian mu s true).eval x = 2 * bell mu (s + 1e-9) x - 1) ∧
    (∀ mu s dx, (Act.doGaussian mu s dx false).eval x =
      bell (mu - dx) (s + 1e-9) x - bell (mu + dx) (s + 1e-9) x) ∧
    (∀ m₀ m₁ s₀ s₁, (Act.doubleGaussian m₀ m₁ s₀ s₁ false).eval x =
      min (bell m₀ (s₀ + 1e-9) x + bell m₁ (s₁ + 1e-9) x) 1) ∧
    (∀ cs : List (ℝ × ℝ × ℝ), (Act.mixture cs false).eval x =
      max 0 (min 1 (cs.map fun c => c.1 * bell c.2.1 (c.2.2 + 1e-9) x).sum)) ∧
    (∀ cs : List ℝ, (Act.polynomial cs false).eval x =
      Polynomial.eval x (∑ i : Fin cs.length, Polynomial.monomial i.val cs[i])) ∧
    ((Act.relu : Act ℝ).eval x = if 0 ≤ x then x else 0) ∧
    ((Act.tanh : Act ℝ).eval x = (Real.exp x - Real.exp (-x)) / (Real.exp x + Real.exp (-x))) ∧
    (Act.identity : Act ℝ).eval x = x := by
  refine ⟨fun mu s => ?_, fun mu s => ?_, fun mu s dx => ?_, fun m₀ m₁ s₀ s₁ => ?_, fun cs => ?_,
    fun cs => ?_, ?_, ?_, rfl⟩
  · simp only [Act.eval, gaussianFn, bump_bell, Bool.false_eq_true, if_false]
  · simp only [Act.eval, gaussianFn, bump_bell, if_true]
    ring
  · simp only [Act.eval, doGaussianFn, bump_bell, Bool.false_eq_true, if_false, bell]
    congr 4 <;> ring
  · simp only [Act.eval, doubleGaussianFn, bump_bell, Bool.false_eq_true, if_false, clampR]
    rw [max_eq_left]
    exact add_nonneg (Real.exp_pos _).le (Real.exp_pos _).le
  · simp only [Act.eval, mixtureFn, bump_bell, Bool.false_eq_true, if_false, clampR]
    rw [max_comm, min_comm, max_min_distrib_left, max_eq_right (zero_le_one (α := ℝ))]
  · have h : cs.mapIdx (fun i v => v * x ^ i) = List.ofFn fun i : Fin cs.length => cs[i] * x ^ i.val :=
      List.ext_getElem (by simp) fun i h1 h2 => by simp
    simp only [Act.eval, polynomialFn, Bool.false_eq_true, if_false, h, List.sum_ofFn,
      Polynomial.eval_finsetSum, Polynomial.eval_monomial]
  · simp only [Act.eval]
    split
    · rename_i h; exact max_eq_left h
    · rename_i h; exact max_eq_right (not_le.1 h).le
  · simp only [Act.eval, Real.tanh_eq]

/-- C84: mode 1 stretches the values to the interval from -1 to 1, for all growth functions that
have a mode except `DoGaussian`. -/
theorem growth_modes (x : ℝ) :
    (∀ m₀ m₁ s₀ s₁, (Act.doubleGaussian m₀ m₁ s₀ s₁ true).eval x =
      2 * (Act.doubleGaussian m₀ m₁ s₀ s₁ false).eval x - 1) ∧
    (∀ cs : List (ℝ × ℝ × ℝ), (Act.mixture cs true).eval x = 2 * (Act.mixture cs false).eval x - 1) ∧
    (∀ cs : List ℝ, (Act.polynomial cs true).eval x = 2 * (Act.polynomial cs false).eval x - 1) := by
  have hc : ∀ y : ℝ, clampR (-1) 1 (y * 2 - 1) = 2 * clampR 0 1 y - 1 := by
    intro y
    simp only [clampR]
    rcases le_total y 0 with h | h
    · rw [max_eq_right h, max_eq_right (by linarith), min_eq_left (by norm_num),
        min_eq_left (by norm_num)]
      norm_num
    · rw [max_eq_left h, max_eq_left (by linarith)]
      rcases le_total y 1 with h' | h'
      · rw [min_eq_left h', min_eq_left (by linarith)]
        ring
      · rw [min_eq_right h', min_eq_right (by linarith)]
        norm_num
  refine ⟨fun m₀ m₁ s₀ s₁ => ?_, fun cs => ?_, fun cs => ?_⟩
  · simp only [Act.eval, doubleGaussianFn, if_true, Bool.false_eq_true, if_false, hc]
  · simp only [Act.eval, mixtureFn, if_true, Bool.false_eq_true, if_false, hc]
  · simp only [Act.eval, polynomialFn, if_true, Bool.false_eq_true, if_false]
    ring

/-- C84, refuted for `DoGaussian`: its mode 1 does not stretch the difference of the two bells, it
doubles the second bell only and so moves the zero level; no linear rescaling of mode 0 gives it. -/
theorem doGaussian_mode_refuted (mu s dx : ℝ) (hs : s + 1e-9 ≠ 0) (hd : dx ≠ 0) :
    (∀ x, (Act.doGaussian mu s dx true).eval x =
      (Act.doGaussian mu s dx false).eval x - bell (mu + dx) (s + 1e-9) x - 1) ∧
    ¬ ∃ p q : ℝ, ∀ x, (Act.doGaussian mu s dx true).eval x =
      p * (Act.doGaussian mu s dx false).eval x + q := by
  have h1 : ∀ x, (Act.doGaussian mu s dx true).eval x =
      (Act.doGaussian mu s dx false).eval x - bell (mu + dx) (s + 1e-9) x - 1 := by
    intro x
    have hb : bump mu s (x - dx) = bell (mu + dx) (s + 1e-9) x := by
      rw [bump_bell, bell, bell]
      congr 4
      ring
    simp only [Act.eval, doGaussianFn, if_true, Bool.false_eq_true, if_false, hb]
    ring
  refine ⟨h1, ?_⟩
  rintro ⟨p, q, h⟩
  have hF : ∀ x, (Act.doGaussian mu s dx false).eval x =
      bell (mu - dx) (s + 1e-9) x - bell (mu + dx) (s + 1e-9) x :=
    fun x => (growth_values x).2.2.1 mu s dx
  simp only [h1, hF] at h
  generalize s + 1e-9 = w at hs h
  have hw2 : 0 < 2 * w ^ 2 := by positivity
  -- the three points `mu`, `mu + 2 dx`, `mu - 2 dx`
  have a1 := h mu
  have a2 := h (mu + 2 * dx)
  have a3 := h (mu - 2 * dx)
  set u := Real.exp (-(dx ^ 2) / (2 * w ^ 2)) with hu
  have b1 : bell (mu - dx) w mu = u := by simp only [bell, hu]; congr 2; ring
  have b2 : bell (mu + dx) w mu = u := by simp only [bell, hu]; congr 2; ring
  have b3 : bell (mu + dx) w (mu + 2 * dx) = u := by simp only [bell, hu]; congr 2; ring
  have b4 : bell (mu - dx) w (mu - 2 * dx) = u := by simp only [bell, hu]; congr 2; ring
  have b5 : bell (mu - dx) w (mu + 2 * dx) = u ^ 9 := by
    rw [bell, hu, ← Real.exp_nat_mul]
    congr 1
    push_cast
    ring
  have b6 : bell (mu + dx) w (mu - 2 * dx) = u ^ 9 := by
    rw [bell, hu, ← Real.exp_nat_mul]
    congr 1
    push_cast
    ring
  rw [b1, b2] at a1
  rw [b3, b5] at a2
  rw [b4, b6] at a3
  have hpos : 0 < u := Real.exp_pos _
  have hlt : u < 1 := by
    rw [hu, Real.exp_lt_one_iff]
    apply div_neg_of_neg_of_pos _ hw2
    have : 0 < dx ^ 2 := by positivity
    linarith
  have h8 : u ^ 9 < u ^ 1 := pow_lt_pow_right_of_lt_one₀ hpos hlt (by norm_num)
  rw [pow_one] at h8
  linarith

/-- C84: a cell grows under a Gaussian growth function exactly when its neighborhood is within
`(sigma + 1e-9) * sqrt(2 ln 2)` of `mu`, shrinks exactly when it is further away. -/
theorem gaussian_growth_sign (mu sigma : ℝ) (hs : 0 < sigma + 1e-9) (x : ℝ) :
    (0 < (Act.gaussian mu sigma true).eval x ↔
      |x - mu| < (sigma + 1e-9) * Real.sqrt (2 * Real.log 2)) ∧
    ((Act.gaussian mu sigma true).eval x < 0 ↔
      (sigma + 1e-9) * Real.sqrt (2 * Real.log 2) < |x - mu|) := by
  rw [(growth_values x).2.1]
  generalize sigma + 1e-9 = w at hs
  have hl : 0 < Real.log 2 := Real.log_pos (by norm_num)
  have hw : 0 ≤ w * Real.sqrt (2 * Real.log 2) := mul_nonneg hs.le (Real.sqrt_nonneg _)
  have hsq : (w * Real.sqrt (2 * Real.log 2)) ^ 2 = 2 * w ^ 2 * Real.log 2 := by
    rw [mul_pow, Real.sq_sqrt (by linarith)]
    ring
  have hw2 : 0 < 2 * w ^ 2 := by positivity
  have hhalf : (1 / 2 : ℝ) = Real.exp (-Real.log 2) := by
    rw [Real.exp_neg, Real.exp_log (by norm_num)]
    norm_num
  constructor
  · rw [← abs_of_nonneg hw, ← sq_lt_sq, hsq]
    have : 0 < 2 * bell mu w x - 1 ↔ 1 / 2 < bell mu w x := by
      constructor <;> intro h <;> linarith
    rw [this, hhalf, bell, Real.exp_lt_exp, lt_div_iff₀ hw2]
    constructor <;> intro h <;> nlinarith
  · rw [← abs_of_nonneg hw, ← sq_lt_sq, hsq]
    have : 2 * bell mu w x - 1 < 0 ↔ bell mu w x < 1 / 2 := by
      constructor <;> intro h <;> linarith
    rw [this, hhalf, bell, Real.exp_lt_exp, div_lt_iff₀ hw2]
    constructor <;> intro h <;> nlinarith

/-- The bell decreases with the distance from its centre. -/
theorem bell_le_iff (m w x y : ℝ) (hw : w ≠ 0) : bell m w x ≤ bell m w y ↔ |y - m| ≤ |x - m| := by
  have hw2 : 0 < 2 * w ^ 2 := by positivity
  rw [bell, bell, Real.exp_le_exp, div_le_div_iff_of_pos_right hw2, neg_le_neg_iff, sq_le_sq]

/-- C84: `CosOverX2` is a cosine under an envelope of height 1 at `mu`, lifted by 1 in mode 0. -/
theorem cosOverX2_values (mu omega x : ℝ) :
    cosOverX2Fn mu omega false x = cosOverX2Fn mu omega true x + 1 ∧
    cosOverX2Fn mu omega true x = Real.cos (omega * (x - mu)) / (1 + 100 * (x - mu) ^ 2) ∧
    |cosOverX2Fn mu omega true x| ≤ 1 / (1 + 100 * (x - mu) ^ 2) := by
  have h : cosOverX2Fn mu omega true x = Real.cos (omega * (x - mu)) / (1 + 100 * (x - mu) ^ 2) := by
    simp only [cosOverX2Fn, if_true]
    congr 1
    · rw [abs_sub_comm]
      rcases abs_choice (x - mu) with h | h <;> rw [h]
      rw [mul_neg, Real.cos_neg]
    · rw [mul_pow, sq_abs]
      ring
  refine ⟨by simp [cosOverX2Fn], h, ?_⟩
  rw [h, abs_div, abs_of_pos (a := 1 + 100 * (x - mu) ^ 2) (by positivity)]
  exact div_le_div_of_nonneg_right (Real.abs_cos_le_one _) (by positivity)

/-- C84: the SmoothLife kernel function is 1 on the ring from `r_i` to `r_a`, ends included, and 0
elsewhere. -/
theorem smoothLife_values (ra ri x : ℝ) :
    (ri ≤ x ∧ x ≤ ra → smoothLifeFn ra ri x = 1) ∧ (¬ (ri ≤ x ∧ x ≤ ra) → smoothLifeFn ra ri x = 0) := by
  unfold smoothLifeFn
  constructor
  · rintro ⟨h1, h2⟩
    rw [if_neg (not_lt.2 h2), if_pos h1]
  · intro h
    split
    · rfl
    · rename_i h2
      rw [if_neg]
      exact fun h3 => h ⟨h3, not_lt.1 h2⟩

/-! ## Kernels -/

/-- The distance of a cell of the kernel from its centre, in units of the radius. -/
noncomputable def Spec.distance (r : Nat) (a b : Fin (2 * r + 1)) : ℝ :=
  Real.sqrt (((a.val : ℝ) - r) ^ 2 + ((b.val : ℝ) - r) ^ 2) / r

theorem radialGrid_distance (r : Nat) (a b : Fin (2 * r + 1)) : radialGrid r a b = distance r a b := by
  unfold radialGrid distance
  rw [add_comm]

/-- Normalising keeps the order of the weights. -/
theorem normalise_le {r : Nat} (κ : Fin (2 * r + 1) → Fin (2 * r + 1) → ℝ)
    (a b a' b' : Fin (2 * r + 1)) :
    normaliseKernel κ a b ≤ normaliseKernel κ a' b' ↔ κ a b ≤ κ a' b' := by
  have h : 0 < eps9 + ∑ a, ∑ b, (κ a b - kernelMin κ) := by
    have := (normalise_facts κ).2.2.2
    have := eps9_pos
    linarith
  simp only [normaliseKernel]
  rw [div_le_div_iff_of_pos_right h]
  constructor <;> intro h <;> linarith

/-- C84: the weights of a Gaussian kernel are ordered by how close the distance of the cell is to
`mu` (in units of the radius; `mu` is 0 if the config has none). -/
theorem gaussian_kernel_order (r : Nat) (hr : 1 ≤ r) (kw : KernelKwargs) (hm : kw.mode = false)
    (hs : kw.sigma.getD 0.1 + 1e-9 ≠ 0) :
    ∃ κ, getKernel ⟨"Gaussian", some r, some kw⟩ = .ok ⟨r, κ⟩ ∧ ∀ a b a' b',
      κ a b ≤ κ a' b' ↔
        |distance r a' b' - kw.mu.getD 0| ≤ |distance r a b - kw.mu.getD 0| := by
  refine ⟨normaliseKernel fun a b => gaussianFn (kw.mu.getD 0) (kw.sigma.getD 0.1) kw.mode
    (radialGrid r a b), ?_, fun a b a' b' => ?_⟩
  · simp [getKernel, kernelFn, show r ≠ 0 by omega]
  · rw [normalise_le]
    simp only [gaussianFn, hm, Bool.false_eq_true, if_false, bump_bell, radialGrid_distance]
    exact bell_le_iff _ _ _ _ hs

/-- C84: the SmoothLife kernel gives the same weight to all cells of the ring and none to the
others, provided that some cell is outside the ring (otherwise all weights are 0). -/
theorem smoothLife_kernel (r : Nat) (hr : 1 ≤ r) (kw : KernelKwargs) (ri ra : ℝ)
    (hri : kw.ri.getD (1 / 3) = ri) (hra : kw.ra.getD 1 = ra) :
    ∃ κ w, getKernel ⟨"SmoothLifeKernel", some r, some kw⟩ = .ok ⟨r, κ⟩ ∧
      ((∃ a b, ¬ (ri ≤ distance r a b ∧ distance r a b ≤ ra)) → 0 < w ∧
        (∀ a b, κ a b = if ri ≤ distance r a b ∧ distance r a b ≤ ra then w else 0) ∧
        ((∃ a b, ri ≤ distance r a b ∧ distance r a b ≤ ra) →
          1 - 1e-9 ≤ ∑ a, ∑ b, κ a b ∧ ∑ a, ∑ b, κ a b ≤ 1)) ∧
      ((∀ a b, ri ≤ distance r a b ∧ distance r a b ≤ ra) → ∀ a b, κ a b = 0) := by
  let κ : Fin (2 * r + 1) → Fin (2 * r + 1) → ℝ := fun a b => smoothLifeFn ra ri (radialGrid r a b)
  have hS := (normalise_facts κ).2.2.2
  have h01 : ∀ a b, 0 ≤ κ a b := by
    intro a b
    show 0 ≤ smoothLifeFn ra ri _
    by_cases h' : ri ≤ radialGrid r a b ∧ radialGrid r a b ≤ ra
    · rw [(smoothLife_values ra ri _).1 h']; norm_num
    · rw [(smoothLife_values ra ri _).2 h']
  refine ⟨normaliseKernel κ, 1 / (eps9 + ∑ a, ∑ b, (κ a b - kernelMin κ)), ?_, fun hout => ?_,
    fun hall a b => ?_⟩
  · rw [one_div] at hri
    simp [getKernel, kernelFn, show r ≠ 0 by omega, hri, hra, κ]
  · have hmin : kernelMin κ = 0 := by
      refine le_antisymm ?_ ?_
      · obtain ⟨a, b, h⟩ := hout
        have hc := kernelMin_le κ a b
        rw [← radialGrid_distance] at h
        rwa [show κ a b = 0 from (smoothLife_values ra ri _).2 h] at hc
      · obtain ⟨a, b, h⟩ := kernelMin_attained κ
        rw [← h]
        exact h01 a b
    refine ⟨?_, fun a b => ?_, ?_⟩
    · have := eps9_pos
      positivity
    · simp only [normaliseKernel, ← radialGrid_distance]
      split
      · rename_i h
        rw [hmin, sub_zero]
        congr 1
        exact (smoothLife_values ra ri _).1 h
      · rename_i h
        rw [hmin, sub_zero, show κ a b = 0 from (smoothLife_values ra ri _).2 h, zero_div]
    · rintro ⟨a, b, h⟩
      rw [← radialGrid_distance] at h
      have h1 : κ a b = 1 := (smoothLife_values ra ri _).1 h
      rw [(normalise_facts κ).2.2.1, hmin]
      simp only [sub_zero]
      have hge : 1 ≤ ∑ a, ∑ b, κ a b := by
        rw [← h1]
        calc κ a b ≤ ∑ b, κ a b := Finset.single_le_sum (fun b _ => h01 a b) (Finset.mem_univ b)
          _ ≤ ∑ a, ∑ b, κ a b := Finset.single_le_sum
            (f := fun a => ∑ b, κ a b) (fun a _ => Finset.sum_nonneg fun b _ => h01 a b)
            (Finset.mem_univ a)
      generalize ∑ a, ∑ b, κ a b = S at hge
      have he := eps9_pos
      constructor
      · rw [le_div_iff₀ (by linarith)]
        unfold eps9
        nlinarith
      · rw [div_le_one (by linarith)]
        linarith
  · have h1 : ∀ a b, κ a b = 1 := fun a b => (smoothLife_values ra ri _).1
      (by rw [radialGrid_distance]; exact hall a b)
    obtain ⟨a', b', h⟩ := kernelMin_attained κ
    simp only [normaliseKernel]
    rw [← h, h1, h1, sub_self, zero_div]

/-! ## Edge kernels -/

/-- The opposite row or column. -/
def Spec.mirror {r : Nat} (a : Fin (2 * r + 1)) : Fin (2 * r + 1) := ⟨2 * r - a.val, by omega⟩

theorem mirror_coord {r : Nat} (a : Fin (2 * r + 1)) :
    (((mirror a).val : ℝ) - r) = -((a.val : ℝ) - r) := by
  have : ((2 * r - a.val : ℕ) : ℝ) = 2 * r - a.val := by
    rw [Nat.cast_sub (by omega)]
    push_cast
    ring
  simp only [mirror, this]
  ring

/-- C84: the two halves of an edge kernel are opposite, before it is normalised. -/
theorem edge_antisymmetric (f : ℝ → ℝ) (r : Nat) (dx : ℝ) (a b : Fin (2 * r + 1)) :
    edgeRaw f r false dx (mirror a) b = -edgeRaw f r false dx a b ∧
    edgeRaw f r true dx a (mirror b) = -edgeRaw f r true dx a b ∧
    edgeRaw f r false dx a (mirror b) = edgeRaw f r false dx a b ∧
    edgeRaw f r true dx (mirror a) b = edgeRaw f r true dx a b := by
  have e : ∀ x y : ℝ, (-x - y) ^ 2 = (x + y) ^ 2 := fun x y => by ring
  have e' : ∀ x y : ℝ, (-x + y) ^ 2 = (x - y) ^ 2 := fun x y => by ring
  simp only [edgeRaw, mirror_coord]
  generalize (a.val : ℝ) - r = y
  generalize (b.val : ℝ) - r = x
  simp only [e, e', neg_sq, Bool.false_eq_true, if_false, if_true, neg_sub, and_self]

theorem mirror_mirror {r : Nat} (a : Fin (2 * r + 1)) : mirror (mirror a) = a := by
  apply Fin.ext
  simp only [mirror]
  omega

/-- The reflection as a permutation. -/
def Spec.mirrorEquiv (r : Nat) : Fin (2 * r + 1) ≃ Fin (2 * r + 1) :=
  ⟨mirror, mirror, mirror_mirror, mirror_mirror⟩

theorem edge_sum (f : ℝ → ℝ) (r : Nat) (mode : Bool) (dx : ℝ) :
    ∑ a, ∑ b, edgeRaw f r mode dx a b = 0 := by
  have h : ∑ a, ∑ b, edgeRaw f r mode dx a b = -∑ a, ∑ b, edgeRaw f r mode dx a b := by
    cases mode with
    | false =>
      conv_lhs => rw [← Equiv.sum_comp (mirrorEquiv r)]
      rw [← Finset.sum_neg_distrib]
      refine Finset.sum_congr rfl fun a _ => ?_
      rw [← Finset.sum_neg_distrib]
      exact Finset.sum_congr rfl fun b _ => (edge_antisymmetric f r dx a b).1
    | true =>
      rw [← Finset.sum_neg_distrib]
      refine Finset.sum_congr rfl fun a _ => ?_
      conv_lhs => rw [← Equiv.sum_comp (mirrorEquiv r)]
      rw [← Finset.sum_neg_distrib]
      exact Finset.sum_congr rfl fun b _ => (edge_antisymmetric f r dx a b).2.1
  linarith

/-- C84, refuted: an edge kernel does not respond to edges only.  It is shifted until its lowest
weight is 0, so unless it is zero everywhere its weights sum to a positive number, and a constant
universe gets a positive response. -/
theorem edge_constant_refuted (f : ℝ → ℝ) (r : Nat) (mode : Bool) (dx : ℝ)
    (hne : ∃ a b, edgeRaw f r mode dx a b ≠ 0) :
    (∀ a b, 0 ≤ normaliseKernel (edgeRaw f r mode dx) a b) ∧
      0 < ∑ a, ∑ b, normaliseKernel (edgeRaw f r mode dx) a b := by
  obtain ⟨h1, _, h3, h4⟩ := normalise_facts (edgeRaw f r mode dx)
  refine ⟨h1, ?_⟩
  have hS : 0 < ∑ a, ∑ b, (edgeRaw f r mode dx a b - kernelMin (edgeRaw f r mode dx)) := by
    refine lt_of_le_of_ne h4 fun h0 => ?_
    have hz : ∀ a b, edgeRaw f r mode dx a b = kernelMin (edgeRaw f r mode dx) := by
      intro a b
      have hn : ∀ a b, 0 ≤ edgeRaw f r mode dx a b - kernelMin (edgeRaw f r mode dx) :=
        fun a b => sub_nonneg.2 (kernelMin_le _ a b)
      have ha := (Finset.sum_eq_zero_iff_of_nonneg fun a _ => Finset.sum_nonneg fun b _ => hn a b).1
        h0.symm a (Finset.mem_univ a)
      have hb := (Finset.sum_eq_zero_iff_of_nonneg fun b _ => hn a b).1 ha b (Finset.mem_univ b)
      linarith
    have hs := edge_sum f r mode dx
    simp only [hz, Finset.sum_const, Finset.card_univ, Fintype.card_fin, nsmul_eq_mul] at hs
    obtain ⟨a, b, hab⟩ := hne
    refine hab ?_
    rw [hz]
    have hpos : ((2 * r + 1 : ℕ) : ℝ) ≠ 0 := by positivity
    rcases mul_eq_zero.1 hs with h | h
    · exact absurd h hpos
    · rcases mul_eq_zero.1 h with h | h
      · exact absurd h hpos
      · exact h
  rw [h3]
  have := eps9_pos
  positivity

/-- C84: so both edge kernels answer a constant universe, whenever they are not zero before
normalising. -/
theorem edge_kernels_refuted (r : Nat) (mu sigma : ℝ) (mode : Bool) (dx : ℝ) :
    ((∃ a b, edgeRaw (gaussianFn mu sigma false) r mode dx a b ≠ 0) →
      ∀ c : ℝ, 0 < c → 0 < ∑ a, ∑ b, gaussianEdgeKernel r mu sigma mode dx a b * c) ∧
    ((∃ a b, edgeRaw (doGaussianFn mu sigma 0.01 false) r mode dx a b ≠ 0) →
      ∀ c : ℝ, 0 < c → 0 < ∑ a, ∑ b, doGaussianEdgeKernel r mu sigma mode dx a b * c) := by
  constructor <;> intro h c hc <;> simp only [← Finset.sum_mul] <;>
    exact mul_pos (edge_constant_refuted _ r mode dx h).2 hc

/-- C84: the weights of an edge kernel are ordered as the differences are, so before the shift the
kernel is positive on one side and negative on the other; a Gaussian with `mu` 0 weighs the side
in direction of `dx`. -/
theorem edge_kernel_order (r : Nat) (hr : 1 ≤ r) (sigma dx : ℝ) (hs : sigma + 1e-9 ≠ 0)
    (hd : 0 < dx) (a b : Fin (2 * r + 1)) :
    (gaussianEdgeKernel r 0 sigma false dx (mirror a) b < gaussianEdgeKernel r 0 sigma false dx a b ↔
      r < a.val) ∧
    (gaussianEdgeKernel r 0 sigma true dx a (mirror b) < gaussianEdgeKernel r 0 sigma true dx a b ↔
      r < b.val) := by
  have hr0 : (0 : ℝ) < r := by exact_mod_cast hr
  have key : ∀ x y : ℝ, 0 < gaussianFn 0 sigma false (Real.sqrt (x ^ 2 + (y - dx) ^ 2) / r) -
      gaussianFn 0 sigma false (Real.sqrt (x ^ 2 + (y + dx) ^ 2) / r) ↔ 0 < y := by
    intro x y
    simp only [gaussianFn, Bool.false_eq_true, if_false, bump_bell]
    rw [sub_pos, ← not_le, bell_le_iff _ _ _ _ hs, sub_zero, sub_zero, not_le,
      abs_of_nonneg (by positivity), abs_of_nonneg (by positivity), div_lt_div_iff_of_pos_right hr0,
      Real.sqrt_lt_sqrt_iff (by positivity)]
    constructor <;> intro h <;> nlinarith
  have hc : ∀ c : Fin (2 * r + 1), 0 < (c.val : ℝ) - r ↔ r < c.val := fun c => by
    rw [sub_pos, Nat.cast_lt]
  obtain ⟨h1, h2, _, _⟩ := edge_antisymmetric (gaussianFn 0 sigma false) r dx a b
  constructor
  · rw [← not_le, gaussianEdgeKernel, normalise_le, not_le, h1, ← hc]
    rw [← key ((b.val : ℝ) - r) ((a.val : ℝ) - r)]
    simp only [edgeRaw, Bool.false_eq_true, if_false]
    constructor <;> intro h <;> linarith
  · rw [← not_le, gaussianEdgeKernel, normalise_le, not_le, h2, ← hc]
    rw [← key ((a.val : ℝ) - r) ((b.val : ℝ) - r)]
    simp only [edgeRaw, if_true, add_comm (_ ^ 2) (((a.val : ℝ) - r) ^ 2)]
    constructor <;> intro h <;> linarith

/-! ## Defaults -/

theorem getKernel_congr (name : String) (hn : name ≠ "LaplacianOfGaussian") (r : Nat)
    (kw kw' : KernelKwargs) (h : kernelFn name kw = kernelFn name kw') :
    getKernel ⟨name, some r, some kw⟩ = getKernel ⟨name, some r, some kw'⟩ := by
  simp only [getKernel, h, hn, if_false]

/-- C84: what a kernel name means when its config gives no arguments. -/
theorem kernel_defaults (r : Nat) :
    getKernel ⟨"Gaussian", some r, some {}⟩ =
      getKernel ⟨"Gaussian", some r, some { mu := some 0, sigma := some (1 / 10) }⟩ ∧
    getKernel ⟨"GaussianMixture", some r, some {}⟩ =
      getKernel ⟨"GaussianMixture", some r, some { parameters := some [1 / 2, 15 / 100] }⟩ ∧
    getKernel ⟨"GaussianMixture", some r, some {}⟩ =
      getKernel ⟨"Gaussian", some r, some { mu := some (1 / 2), sigma := some (15 / 100) }⟩ ∧
    getKernel ⟨"CosOverX2", some r, some {}⟩ =
      getKernel ⟨"CosOverX2", some r, some { mu := some 0, omega := some (2512 / 100) }⟩ ∧
    getKernel ⟨"DoGaussian", some r, some {}⟩ =
      getKernel ⟨"DoGaussian", some r, some { mu := some 0, sigma := some (1 / 10) }⟩ ∧
    getKernel ⟨"SmoothLifeKernel", some r, some {}⟩ =
      getKernel ⟨"SmoothLifeKernel", some r, some { ra := some 1, ri := some (1 / 3) }⟩ := by
  have h1 : (0.1 : ℝ) = 1 / 10 := by norm_num
  have h2 : (0.5 : ℝ) = 1 / 2 := by norm_num
  have h3 : (0.15 : ℝ) = 15 / 100 := by norm_num
  have h4 : (25.12 : ℝ) = 2512 / 100 := by norm_num
  have hp : getKernel ⟨"GaussianMixture", some r, some {}⟩ =
      getKernel ⟨"GaussianMixture", some r, some { parameters := some [1 / 2, 15 / 100] }⟩ :=
    getKernel_congr _ (by simp) r _ _ (by rw [← h2, ← h3]; rfl)
  refine ⟨getKernel_congr _ (by simp) r _ _ (by rw [← h1]; rfl), hp, ?_,
    getKernel_congr _ (by simp) r _ _ (by rw [← h4]; rfl),
    getKernel_congr _ (by simp) r _ _ (by rw [← h1]; rfl),
    getKernel_congr _ (by simp) r _ _ rfl⟩
  rw [hp]
  by_cases hr : r = 0
  · subst hr
    simp [getKernel, kernelFn, mixtureComponents, mixtureComponents.pairs, bind, Except.bind, pure,
      Except.pure]
  · rw [gaussian_kernel_eq r hr]
    exact mixture_kernel_pair r hr _ _

/-! ## Concrete cases -/

/-- The growth function of Orbium is positive at 0.15 and negative at 0.3. -/
example : 0 < (Act.gaussian (0.15 : ℝ) 0.015 true).eval 0.15 ∧
    (Act.gaussian (0.15 : ℝ) 0.015 true).eval 0.3 < 0 := by
  have hl : 0 < Real.log 2 := Real.log_pos (by norm_num)
  have hl1 : Real.log 2 < 1 := by linarith [Real.log_lt_sub_one_of_pos (show (0 : ℝ) < 2 by norm_num) (by norm_num)]
  constructor
  · rw [(gaussian_growth_sign 0.15 0.015 (by norm_num) 0.15).1]
    rw [sub_self, abs_zero]
    positivity
  · rw [(gaussian_growth_sign 0.15 0.015 (by norm_num) 0.3).2]
    have hq : Real.sqrt (2 * Real.log 2) < 2 := by
      rw [Real.sqrt_lt' (by norm_num)]
      linarith
    rw [abs_of_pos (by norm_num)]
    nlinarith

/-- The hypotheses on widths hold for the defaults. -/
example : ((({} : KernelKwargs).sigma.getD 0.1 : ℝ) + 1e-9 ≠ 0) ∧
    (0 : ℝ) < (({} : KernelKwargs).ri.getD (1 / 3)) := by
  constructor
  · norm_num [Option.getD]
  · norm_num [Option.getD]

/-- A Gaussian edge kernel is not zero. -/
example : ∃ a b, edgeRaw (gaussianFn 0 0.15 false) 1 false 0.01 a b ≠ 0 := by
  by_contra h
  push Not at h
  have h1 := (edge_kernel_order 1 le_rfl 0.15 0.01 (by norm_num) (by norm_num) 2 1).1.2 (by decide)
  rw [← not_le, gaussianEdgeKernel, normalise_le, h, h] at h1
  exact h1 le_rfl

end Yuca
