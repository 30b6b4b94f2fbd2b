import Mathlib.Tactic.Linarith
import Mathlib.Tactic.Positivity
import Mathlib.Tactic.Ring
import Mathlib.Tactic.FieldSimp
import Mathlib.Analysis.Real.Sqrt
import Mathlib.Analysis.SpecificLimits.Basic

/-!
# Planar maps near a fixed point

The linear part takes `(p, q)` to `(q, τ q - δ p)`: it has trace `τ` and determinant `δ`.  The
remainders are bounded by a multiple of the square of the distance.
-/

namespace Yuca

/-- The form `(θ² + δ)(θ² p² + q²) - 2 τ θ² p q`. -/
noncomputable def jury (τ δ θ p q : ℝ) : ℝ :=
  (θ ^ 2 + δ) * (θ ^ 2 * p ^ 2 + q ^ 2) - 2 * τ * θ ^ 2 * p * q

theorem jury_step (τ δ θ p q : ℝ) : jury τ δ θ q (τ * q - δ * p) =
    θ ^ 2 * jury τ δ θ p q - (θ ^ 2 - δ) * (τ * q - δ * p - θ ^ 2 * p) ^ 2 := by
  unfold jury; ring

theorem jury_bounds {τ δ θ : ℝ} (hθ : 0 < θ) (h : |τ| * θ < θ ^ 2 + δ) :
    ∃ m > 0, ∃ M > 0, ∀ p q, m * (p ^ 2 + q ^ 2) ≤ jury τ δ θ p q ∧
      jury τ δ θ p q ≤ M * (p ^ 2 + q ^ 2) := by
  have hd : 0 < θ ^ 2 + δ - |τ| * θ := by linarith
  have ht := abs_nonneg τ
  have hs : 0 < θ ^ 2 + δ := by nlinarith [mul_nonneg ht hθ.le]
  have hθ2 : 0 < θ ^ 2 := by positivity
  have key : ∀ p q : ℝ, |2 * τ * θ ^ 2 * p * q| ≤ |τ| * θ * (θ ^ 2 * p ^ 2 + q ^ 2) := by
    intro p q
    have e : |2 * τ * θ ^ 2 * p * q| = |τ| * θ * (2 * (θ * |p|) * |q|) := by
      rw [abs_mul, abs_mul, abs_mul, abs_mul, abs_of_pos hθ2]
      norm_num; ring
    rw [e]
    apply mul_le_mul_of_nonneg_left _ (by positivity)
    have := sq_nonneg (θ * |p| - |q|)
    have h1 := sq_abs p
    have h2 := sq_abs q
    nlinarith
  have hmin : 0 < min (θ ^ 2) 1 := lt_min hθ2 one_pos
  refine ⟨(θ ^ 2 + δ - |τ| * θ) * min (θ ^ 2) 1, by positivity,
    (θ ^ 2 + δ + |τ| * θ) * max (θ ^ 2) 1, by positivity, fun p q => ⟨?_, ?_⟩⟩
  · have h1 := (abs_le.1 (key p q)).2
    have h2 : min (θ ^ 2) 1 * (p ^ 2 + q ^ 2) ≤ θ ^ 2 * p ^ 2 + q ^ 2 := by
      have a := mul_le_mul_of_nonneg_right (min_le_left (θ ^ 2) 1) (sq_nonneg p)
      have b := mul_le_mul_of_nonneg_right (min_le_right (θ ^ 2) 1) (sq_nonneg q)
      linarith
    have h3 := mul_le_mul_of_nonneg_left h2 hd.le
    unfold jury
    nlinarith
  · have h1 := (abs_le.1 (key p q)).1
    have h2 : θ ^ 2 * p ^ 2 + q ^ 2 ≤ max (θ ^ 2) 1 * (p ^ 2 + q ^ 2) := by
      have a := mul_le_mul_of_nonneg_right (le_max_left (θ ^ 2) 1) (sq_nonneg p)
      have b := mul_le_mul_of_nonneg_right (le_max_right (θ ^ 2) 1) (sq_nonneg q)
      linarith
    have h3 := mul_le_mul_of_nonneg_left h2 (by positivity : 0 ≤ θ ^ 2 + δ + |τ| * θ)
    unfold jury
    nlinarith

/-- A positive form of a sum. -/
theorem jury_add {τ δ θ : ℝ} (h0 : ∀ p q, 0 ≤ jury τ δ θ p q) {η : ℝ} (hη : 0 < η) (p q r s : ℝ) :
    jury τ δ θ (p + r) (q + s) ≤ (1 + η) * jury τ δ θ p q + (1 + 1 / η) * jury τ δ θ r s ∧
    (1 - η) * jury τ δ θ p q + (1 - 1 / η) * jury τ δ θ r s ≤ jury τ δ θ (p + r) (q + s) := by
  have e1 := h0 (η * p - r) (η * q - s)
  have e2 := h0 (η * p + r) (η * q + s)
  have hi : 1 / η * η = 1 := by field_simp
  have hp : 0 < 1 / η := by positivity
  have e1' := mul_nonneg hp.le e1
  have e2' := mul_nonneg hp.le e2
  set B := (θ ^ 2 + δ) * (θ ^ 2 * (p * r) + q * s) - τ * θ ^ 2 * (p * s + q * r) with hB
  have d1 : jury τ δ θ (p + r) (q + s) = jury τ δ θ p q + 2 * B + jury τ δ θ r s := by
    rw [hB]; unfold jury; ring
  have d2 : jury τ δ θ (η * p - r) (η * q - s) =
      η ^ 2 * jury τ δ θ p q - 2 * η * B + jury τ δ θ r s := by
    rw [hB]; unfold jury; ring
  have d3 : jury τ δ θ (η * p + r) (η * q + s) =
      η ^ 2 * jury τ δ θ p q + 2 * η * B + jury τ δ θ r s := by
    rw [hB]; unfold jury; ring
  rw [d2] at e1'
  rw [d3] at e2'
  have f1 : 1 / η * (η ^ 2 * jury τ δ θ p q - 2 * η * B + jury τ δ θ r s) =
      η * jury τ δ θ p q - 2 * B + 1 / η * jury τ δ θ r s := by field_simp
  have f2 : 1 / η * (η ^ 2 * jury τ δ θ p q + 2 * η * B + jury τ δ θ r s) =
      η * jury τ δ θ p q + 2 * B + 1 / η * jury τ δ θ r s := by field_simp
  rw [f1] at e1'
  rw [f2] at e2'
  rw [d1]
  constructor <;> nlinarith

theorem exists_theta_below {τ δ : ℝ} (h : |τ| < 1 + δ) (hδ : δ < 1) :
    ∃ θ : ℝ, 0 < θ ∧ θ < 1 ∧ δ ≤ θ ^ 2 ∧ |τ| * θ < θ ^ 2 + δ := by
  have c1 : ContinuousAt (fun θ : ℝ => θ ^ 2 - δ) 1 := by fun_prop
  have c2 : ContinuousAt (fun θ : ℝ => θ ^ 2 + δ - |τ| * θ) 1 := by fun_prop
  have e1 := c1.eventually (lt_mem_nhds (show (0 : ℝ) < 1 ^ 2 - δ by linarith))
  have e2 := c2.eventually (lt_mem_nhds (show (0 : ℝ) < 1 ^ 2 + δ - |τ| * 1 by linarith))
  obtain ⟨ε, hε, hb⟩ := Metric.eventually_nhds_iff.1 (e1.and e2)
  refine ⟨max (1 - ε / 2) (1 / 2), by positivity, by simp only [max_lt_iff]; constructor <;> linarith,
    ?_⟩
  have hd : dist (max (1 - ε / 2) (1 / 2)) 1 < ε := by
    rw [Real.dist_eq, abs_lt]
    have := le_max_left (1 - ε / 2) (1 / 2)
    have h2 : max (1 - ε / 2) (1 / 2) < 1 := by simp only [max_lt_iff]; constructor <;> linarith
    constructor <;> linarith
  have := hb hd
  exact ⟨by linarith [this.1], by linarith [this.2]⟩

theorem exists_theta_above {τ δ : ℝ} (h : |τ| < 1 + δ) (hδ : 1 < δ) :
    ∃ θ : ℝ, 1 < θ ∧ θ ^ 2 ≤ δ ∧ |τ| * θ < θ ^ 2 + δ := by
  have c1 : ContinuousAt (fun θ : ℝ => δ - θ ^ 2) 1 := by fun_prop
  have c2 : ContinuousAt (fun θ : ℝ => θ ^ 2 + δ - |τ| * θ) 1 := by fun_prop
  have e1 := c1.eventually (lt_mem_nhds (show (0 : ℝ) < δ - 1 ^ 2 by linarith))
  have e2 := c2.eventually (lt_mem_nhds (show (0 : ℝ) < 1 ^ 2 + δ - |τ| * 1 by linarith))
  obtain ⟨ε, hε, hb⟩ := Metric.eventually_nhds_iff.1 (e1.and e2)
  have hd : dist (1 + ε / 2) 1 < ε := by
    rw [Real.dist_eq, abs_lt]; constructor <;> linarith
  have := hb hd
  exact ⟨1 + ε / 2, by linarith, by linarith [this.1], by linarith [this.2]⟩

/-- The remainders are small. -/
theorem jury_small {τ δ θ M K n r s : ℝ} (hM : 0 < M) (hb : ∀ p q, jury τ δ θ p q ≤ M * (p ^ 2 + q ^ 2))
    (hr : r ^ 2 ≤ K * n ^ 2) (hs : s ^ 2 ≤ K * n ^ 2) : jury τ δ θ r s ≤ 2 * M * K * n ^ 2 := by
  have := hb r s
  nlinarith

/-- A planar map whose linear part has trace `τ` and determinant `δ` inside the triangle of stable
pairs contracts a quadratic form near its fixed point. -/
theorem planar_attracts {τ δ : ℝ} (h : |τ| < 1 + δ) (hδ : δ < 1) {K : ℝ} (hK : 0 < K) :
    ∃ V : ℝ → ℝ → ℝ, ∃ m > 0, ∃ M > 0, ∃ Θ, 0 < Θ ∧ Θ < 1 ∧ ∃ v > 0,
      (∀ p q, m * (p ^ 2 + q ^ 2) ≤ V p q ∧ V p q ≤ M * (p ^ 2 + q ^ 2)) ∧
      ∀ p q r s, p ^ 2 + q ^ 2 ≤ v → r ^ 2 ≤ K * (p ^ 2 + q ^ 2) ^ 2 →
        s ^ 2 ≤ K * (p ^ 2 + q ^ 2) ^ 2 → V (q + r) (τ * q - δ * p + s) ≤ Θ * V p q := by
  obtain ⟨θ, h0, h1, h2, h3⟩ := exists_theta_below h hδ
  obtain ⟨m, hm, M, hM, hb⟩ := jury_bounds h0 h3
  have ht0 : 0 < θ ^ 2 := by positivity
  have ht1 : θ ^ 2 < 1 := by nlinarith
  set t := θ ^ 2 with ht
  set η := (1 - t) / 2 with hη
  have hη0 : 0 < η := by rw [hη]; linarith
  set S := (1 + 1 / η) * (2 * M * K) / m with hS
  have hS0 : 0 < S := by rw [hS]; positivity
  have hA : (1 + η) * t < 1 := by rw [hη]; nlinarith
  set g := (1 - (1 + η) * t) / 2 with hg
  have hg0 : 0 < g := by rw [hg]; linarith
  refine ⟨jury τ δ θ, m, hm, M, hM, (1 + η) * t + g, by positivity, by rw [hg]; linarith,
    g / S, by positivity, hb, fun p q r s hv hr hs => ?_⟩
  have hnn : ∀ p q, 0 ≤ jury τ δ θ p q := fun p q =>
    le_trans (by positivity) (hb p q).1
  have a1 := (jury_add hnn hη0 q (τ * q - δ * p) r s).1
  have a2 := jury_small hM (fun p q => (hb p q).2) hr hs
  have a3 := jury_step τ δ θ p q
  rw [← ht] at a3
  have a4 : jury τ δ θ q (τ * q - δ * p) ≤ t * jury τ δ θ p q := by
    have := mul_nonneg (by linarith : (0:ℝ) ≤ t - δ) (sq_nonneg (τ * q - δ * p - t * p))
    linarith
  set n := p ^ 2 + q ^ 2 with hn
  have hn0 : 0 ≤ n := by positivity
  have a5 : (1 + 1 / η) * (2 * M * K * n ^ 2) ≤ g * jury τ δ θ p q := by
    have e1 : (1 + 1 / η) * (2 * M * K * n ^ 2) = S * n * (m * n) := by
      rw [hS]; field_simp
    rw [e1]
    have e2 : S * n ≤ g := by rw [le_div_iff₀ hS0] at hv; linarith
    exact (mul_le_mul_of_nonneg_right e2 (by positivity)).trans
      (mul_le_mul_of_nonneg_left (hb p q).1 hg0.le)
  have a6 := mul_le_mul_of_nonneg_left a2 (by positivity : 0 ≤ 1 + 1 / η)
  have a7 := mul_le_mul_of_nonneg_left a4 (by positivity : 0 ≤ 1 + η)
  nlinarith

/-- With a determinant above 1 it expands one. -/
theorem planar_repels {τ δ : ℝ} (h : |τ| < 1 + δ) (hδ : 1 < δ) {K : ℝ} (hK : 0 < K) :
    ∃ V : ℝ → ℝ → ℝ, ∃ m > 0, ∃ M > 0, ∃ Θ > 1, ∃ v > 0,
      (∀ p q, m * (p ^ 2 + q ^ 2) ≤ V p q ∧ V p q ≤ M * (p ^ 2 + q ^ 2)) ∧
      ∀ p q r s, p ^ 2 + q ^ 2 ≤ v → r ^ 2 ≤ K * (p ^ 2 + q ^ 2) ^ 2 →
        s ^ 2 ≤ K * (p ^ 2 + q ^ 2) ^ 2 → Θ * V p q ≤ V (q + r) (τ * q - δ * p + s) := by
  obtain ⟨θ, h1, h2, h3⟩ := exists_theta_above h hδ
  have h0 : 0 < θ := by linarith
  obtain ⟨m, hm, M, hM, hb⟩ := jury_bounds h0 h3
  have ht1 : 1 < θ ^ 2 := by nlinarith
  set t := θ ^ 2 with ht
  set η := (t - 1) / (2 * t) with hη
  have ht0 : 0 < t := by linarith
  have hη0 : 0 < η := by rw [hη]; apply div_pos <;> linarith
  have hη1 : η < 1 := by rw [hη, div_lt_one (by linarith)]; linarith
  have hA : (1 - η) * t = (t + 1) / 2 := by rw [hη]; field_simp; ring
  set S := (1 / η) * (2 * M * K) / m with hS
  have hS0 : 0 < S := by rw [hS]; positivity
  set g := (t - 1) / 4 with hg
  have hg0 : 0 < g := by rw [hg]; linarith
  refine ⟨jury τ δ θ, m, hm, M, hM, (t + 1) / 2 - g, by rw [hg]; linarith,
    g / S, by positivity, hb, fun p q r s hv hr hs => ?_⟩
  have hnn : ∀ p q, 0 ≤ jury τ δ θ p q := fun p q =>
    le_trans (by positivity) (hb p q).1
  have a1 := (jury_add hnn hη0 q (τ * q - δ * p) r s).2
  have a2 := jury_small hM (fun p q => (hb p q).2) hr hs
  have a3 := jury_step τ δ θ p q
  rw [← ht] at a3
  have a4 : t * jury τ δ θ p q ≤ jury τ δ θ q (τ * q - δ * p) := by
    have := mul_nonneg (by linarith : (0:ℝ) ≤ δ - t) (sq_nonneg (τ * q - δ * p - t * p))
    linarith
  set n := p ^ 2 + q ^ 2 with hn
  have hn0 : 0 ≤ n := by positivity
  have a5 : (1 / η) * (2 * M * K * n ^ 2) ≤ g * jury τ δ θ p q := by
    have e1 : (1 / η) * (2 * M * K * n ^ 2) = S * n * (m * n) := by
      rw [hS]; field_simp
    rw [e1]
    have e2 : S * n ≤ g := by rw [le_div_iff₀ hS0] at hv; linarith
    exact (mul_le_mul_of_nonneg_right e2 (by positivity)).trans
      (mul_le_mul_of_nonneg_left (hb p q).1 hg0.le)
  have a6 := mul_le_mul_of_nonneg_left a2 (by positivity : 0 ≤ 1 / η)
  have a7 := mul_le_mul_of_nonneg_left a4 (by linarith : 0 ≤ 1 - η)
  have a8 := hnn r s
  have a9 : (1 - 1 / η) * jury τ δ θ r s ≥ - (1 / η * jury τ δ θ r s) := by nlinarith
  have a10 : (1 - η) * (t * jury τ δ θ p q) = (t + 1) / 2 * jury τ δ θ p q := by
    rw [← mul_assoc, hA]
  nlinarith

/-- The two eigenvalues at a saddle. -/
theorem saddle_roots {τ δ : ℝ} (h : 1 + δ < τ) (hτ : 0 < τ) :
    ∃ l μ : ℝ, l + μ = τ ∧ l * μ = δ ∧ 1 < l ∧ |μ| < l := by
  have hD : 0 < τ ^ 2 - 4 * δ := by nlinarith [sq_nonneg (τ - 2)]
  have hr := Real.sq_sqrt hD.le
  have hr0 := Real.sqrt_pos.2 hD
  set r := Real.sqrt (τ ^ 2 - 4 * δ)
  have h2 : 2 - τ < r := by
    by_contra hc
    push Not at hc
    nlinarith
  refine ⟨(τ + r) / 2, (τ - r) / 2, by ring, by nlinarith, by linarith, ?_⟩
  rw [abs_lt]; constructor <;> linarith

/-- One step near a saddle: a point in the cone about the expanding line stays in it and moves away. -/
theorem saddle_step {l μ κ p q r s : ℝ} (hl : 1 < l) (hμ : |μ| < l) (h1 : κ ≤ (l - 1) / 2)
    (h2 : κ ≤ (l - |μ|) / 2) (hc : |q - l * p| ≤ |q - μ * p|)
    (hrs : |s| + |μ| * |r| ≤ κ * |q - μ * p|) (hrl : |s| + l * |r| ≤ κ * |q - μ * p|) :
    |(l + μ) * q - l * μ * p + s - l * (q + r)| ≤ |(l + μ) * q - l * μ * p + s - μ * (q + r)| ∧
    (1 + l) / 2 * |q - μ * p| ≤ |(l + μ) * q - l * μ * p + s - μ * (q + r)| := by
  have eP : (l + μ) * q - l * μ * p + s - μ * (q + r) = l * (q - μ * p) + (s - μ * r) := by ring
  have eQ : (l + μ) * q - l * μ * p + s - l * (q + r) = μ * (q - l * p) + (s - l * r) := by ring
  rw [eP, eQ]
  have hP := abs_nonneg (q - μ * p)
  have hl0 : 0 < l := by linarith
  have c1 : (l - κ) * |q - μ * p| ≤ |l * (q - μ * p) + (s - μ * r)| := by
    have a := abs_sub_abs_le_abs_sub (l * (q - μ * p)) (-(s - μ * r))
    rw [sub_neg_eq_add, abs_neg, abs_mul, abs_of_pos hl0] at a
    have b : |s - μ * r| ≤ |s| + |μ| * |r| := by rw [← abs_mul]; exact abs_sub _ _
    linarith
  have c2 : |μ * (q - l * p) + (s - l * r)| ≤ (|μ| + κ) * |q - μ * p| := by
    refine (abs_add_le _ _).trans ?_
    rw [abs_mul]
    have a := mul_le_mul_of_nonneg_left hc (abs_nonneg μ)
    have b : |s - l * r| ≤ |s| + l * |r| := by
      have := abs_sub s (l * r)
      rwa [abs_mul, abs_of_pos hl0] at this
    linarith
  exact ⟨c2.trans ((mul_le_mul_of_nonneg_right (by linarith) hP).trans c1),
    (mul_le_mul_of_nonneg_right (by linarith) hP).trans c1⟩

/-- In the cone the coordinate along the expanding line measures the distance. -/
theorem cone_bound {l μ p q : ℝ} (hl : 1 < l) (hμ : |μ| < l) (hc : |q - l * p| ≤ |q - μ * p|) :
    p ^ 2 + q ^ 2 ≤ 4 * (1 + l ^ 2) / (l - μ) ^ 2 * |q - μ * p| ^ 2 := by
  have hd : 0 < l - μ := by have := le_abs_self μ; linarith
  rw [div_mul_eq_mul_div, le_div_iff₀ (by positivity)]
  have f1 : (l - μ) ^ 2 * p ^ 2 ≤ 4 * |q - μ * p| ^ 2 := by
    rw [← mul_pow, show (l - μ) * p = (q - μ * p) - (q - l * p) by ring, ← sq_abs]
    have : |(q - μ * p) - (q - l * p)| ≤ 2 * |q - μ * p| := (abs_sub _ _).trans (by linarith)
    calc _ ≤ (2 * |q - μ * p|) ^ 2 := pow_le_pow_left₀ (abs_nonneg _) this 2
      _ = _ := by ring
  have f2 : (l - μ) ^ 2 * q ^ 2 ≤ 4 * l ^ 2 * |q - μ * p| ^ 2 := by
    rw [← mul_pow, show (l - μ) * q = l * (q - μ * p) - μ * (q - l * p) by ring, ← sq_abs]
    have : |l * (q - μ * p) - μ * (q - l * p)| ≤ 2 * l * |q - μ * p| := by
      refine (abs_sub _ _).trans ?_
      rw [abs_mul, abs_mul, abs_of_pos (by linarith : 0 < l)]
      have := mul_le_mul hμ.le hc (abs_nonneg _) (by linarith)
      linarith
    calc _ ≤ (2 * l * |q - μ * p|) ^ 2 := pow_le_pow_left₀ (abs_nonneg _) this 2
      _ = _ := by ring
  linarith

/-- Near a saddle, orbits that start on the expanding line go away. -/
theorem planar_saddle {l μ : ℝ} (hl : 1 < l) (hμ : |μ| < l) {K : ℝ} (hK : 0 < K) :
    ∃ v > 0, ∀ p q r s : ℕ → ℝ, p 0 ≠ 0 → q 0 = l * p 0 →
      (∀ n, p (n + 1) = q n + r n) → (∀ n, q (n + 1) = (l + μ) * q n - l * μ * p n + s n) →
      (∀ n, p n ^ 2 + q n ^ 2 ≤ v → |r n| ≤ K * (p n ^ 2 + q n ^ 2) ∧
        |s n| ≤ K * (p n ^ 2 + q n ^ 2)) →
      ∃ n, v < p n ^ 2 + q n ^ 2 := by
  have hd : 0 < l - μ := by have := le_abs_self μ; linarith
  -- constants
  obtain ⟨E, hE⟩ : ∃ E, E = 4 * (1 + l ^ 2) / (l - μ) ^ 2 := ⟨_, rfl⟩
  have hE0 : 0 < E := by rw [hE]; positivity
  obtain ⟨κ, hκ⟩ : ∃ κ, κ = min ((l - 1) / 2) ((l - |μ|) / 2) := ⟨_, rfl⟩
  have hκ0 : 0 < κ := hκ ▸ lt_min (by linarith) (by linarith)
  have hκ1 : κ ≤ (l - 1) / 2 := hκ ▸ min_le_left _ _
  have hκ2 : κ ≤ (l - |μ|) / 2 := hκ ▸ min_le_right _ _
  obtain ⟨L, hL⟩ : ∃ L, L = K * (1 + l + |μ|) * E := ⟨_, rfl⟩
  have hL0 : 0 < L := by rw [hL]; have := abs_nonneg μ; positivity
  obtain ⟨c, hc⟩ : ∃ c, c = κ / L := ⟨_, rfl⟩
  have hc0 : 0 < c := by rw [hc]; positivity
  -- q² ≤ v forces |P| ≤ (1+|μ|) sqrt v ; choose v with ((1+|μ|) sqrt v) ≤ c
  obtain ⟨b, hb⟩ : ∃ b, b = c / (2 + |μ|) := ⟨_, rfl⟩
  have hb0 : 0 < b := by rw [hb]; have := abs_nonneg μ; positivity
  refine ⟨b ^ 2, by positivity, fun p q r s hp0 hq0 hp hq hrs => ?_⟩
  by_contra hcon
  push Not at hcon
  have hpq : ∀ n, |p n| ≤ b ∧ |q n| ≤ b := by
    intro n
    have := hcon n
    exact ⟨abs_le_of_sq_le_sq (by nlinarith [sq_nonneg (q n)]) hb0.le,
      abs_le_of_sq_le_sq (by nlinarith [sq_nonneg (p n)]) hb0.le⟩
  have hPc : ∀ n, |q n - μ * p n| ≤ c := by
    intro n
    have h1 : |q n - μ * p n| ≤ |q n| + |μ| * |p n| := by
      rw [← abs_mul]; exact abs_sub _ _
    have h2 := mul_le_mul_of_nonneg_left (hpq n).1 (abs_nonneg μ)
    have h3 : b * (2 + |μ|) = c := by
      have := abs_nonneg μ
      rw [hb]; field_simp
    linarith [(hpq n).2]
  have inv : ∀ n, |q n - l * p n| ≤ |q n - μ * p n| ∧
      ((1 + l) / 2) ^ n * |q 0 - μ * p 0| ≤ |q n - μ * p n| := by
    intro n
    induction n with
    | zero =>
      refine ⟨?_, by simp⟩
      rw [hq0, sub_self, abs_zero]; exact abs_nonneg _
    | succ n ih =>
      obtain ⟨i1, i2⟩ := ih
      obtain ⟨r1, s1⟩ := hrs n (hcon n)
      have hPn := abs_nonneg (q n - μ * p n)
      have hKn : K * (p n ^ 2 + q n ^ 2) ≤ K * (E * (c * |q n - μ * p n|)) := by
        apply mul_le_mul_of_nonneg_left _ hK.le
        have := cone_bound hl hμ i1
        rw [← hE] at this
        refine this.trans (mul_le_mul_of_nonneg_left ?_ hE0.le)
        rw [pow_two]
        exact mul_le_mul_of_nonneg_right (hPc n) hPn
      have hKL : (1 + l + |μ|) * (K * (E * (c * |q n - μ * p n|))) = κ * |q n - μ * p n| := by
        have : (1 + l + |μ|) * (K * (E * (c * |q n - μ * p n|))) = L * c * |q n - μ * p n| := by
          rw [hL]; ring
        rw [this, hc]; field_simp
      have k0 := (r1.trans hKn)
      have k1 := (s1.trans hKn)
      have y0 : 0 ≤ K * (E * (c * |q n - μ * p n|)) := by positivity
      have g3 : |s n| + |μ| * |r n| ≤ κ * |q n - μ * p n| := by
        rw [← hKL]
        have := mul_le_mul_of_nonneg_left k0 (abs_nonneg μ)
        nlinarith
      have g4 : |s n| + l * |r n| ≤ κ * |q n - μ * p n| := by
        rw [← hKL]
        have := mul_le_mul_of_nonneg_left k0 (by linarith : 0 ≤ l)
        have := mul_nonneg (abs_nonneg μ) y0
        nlinarith
      obtain ⟨a1, a2⟩ := saddle_step hl hμ hκ1 hκ2 i1 g3 g4
      rw [hp, hq]
      refine ⟨a1, le_trans ?_ a2⟩
      rw [pow_succ]
      have d2 := mul_le_mul_of_nonneg_left i2 (by linarith : 0 ≤ (1 + l) / 2)
      linarith
  have hP0 : 0 < |q 0 - μ * p 0| := by
    rw [abs_pos, hq0, show l * p 0 - μ * p 0 = (l - μ) * p 0 by ring]
    exact mul_ne_zero hd.ne' hp0
  obtain ⟨n, hn⟩ := pow_unbounded_of_one_lt (c / |q 0 - μ * p 0|) (by linarith : 1 < (1 + l) / 2)
  rw [div_lt_iff₀ hP0] at hn
  linarith [(inv n).2, hPc n]

end Yuca
