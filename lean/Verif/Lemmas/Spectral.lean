import Mathlib.Analysis.Normed.Algebra.GelfandFormula
import Mathlib.Analysis.Matrix.Normed
import Mathlib.LinearAlgebra.Eigenspace.Matrix
import Mathlib.Analysis.SpecificLimits.Basic

/-!
# Fixed points of maps with a linear part and a remainder of second order

If all eigenvalues of the matrix lie within the unit circle the origin attracts geometrically; if one
lies outside the origin is unstable.  No symmetry is needed; the powers of the matrix are estimated
with Gelfand's formula.
-/

namespace Yuca

open Matrix

variable {ι : Type} [Fintype ι] [DecidableEq ι]

namespace Spec

/-- `μ` is an eigenvalue of the real matrix, with a complex eigenvector. -/
def Eigen (M : Matrix ι ι ℝ) (μ : ℂ) : Prop :=
  ∃ v : ι → ℂ, v ≠ 0 ∧ ∀ i, ∑ j, (M i j : ℂ) * v j = μ * v i

/-- Near 0 the map is the matrix but for a remainder of second order. -/
def QuadNear (f : (ι → ℝ) → ι → ℝ) (M : Matrix ι ι ℝ) : Prop :=
  ∃ K > 0, ∃ δ > 0, ∀ x, ‖x‖ ≤ δ → ‖f x - M *ᵥ x‖ ≤ K * ‖x‖ ^ 2

end Spec

open Spec

attribute [local instance] Matrix.linftyOpNormedRing Matrix.linftyOpNormedAlgebra

/-- A real matrix as a complex one. -/
noncomputable def cx (M : Matrix ι ι ℝ) : Matrix ι ι ℂ := M.map (algebraMap ℝ ℂ)

theorem cx_norm (M : Matrix ι ι ℝ) : ‖cx M‖ = ‖M‖ := by
  rw [Matrix.linfty_opNorm_def, Matrix.linfty_opNorm_def]
  congr 2
  funext i
  refine Finset.sum_congr rfl fun j _ => ?_
  ext
  simp [cx]

theorem cx_pow (M : Matrix ι ι ℝ) (n : ℕ) : cx (M ^ n) = cx M ^ n := by
  have := map_pow ((algebraMap ℝ ℂ).mapMatrix (m := ι)) M n
  exact this

theorem eigen_iff (M : Matrix ι ι ℝ) (μ : ℂ) : Eigen M μ ↔ μ ∈ spectrum ℂ (cx M) := by
  rw [← Matrix.spectrum_toLin', ← Module.End.hasEigenvalue_iff_mem_spectrum]
  constructor
  · rintro ⟨v, h0, hv⟩
    refine Module.End.hasEigenvalue_of_hasEigenvector (x := v)
      ⟨Module.End.mem_eigenspace_iff.2 ?_, h0⟩
    funext i
    rw [Matrix.toLin'_apply]
    exact hv i
  · intro h
    obtain ⟨v, h1, h0⟩ := h.exists_hasEigenvector
    refine ⟨v, h0, fun i => ?_⟩
    have := congrFun (Module.End.mem_eigenspace_iff.1 h1) i
    rw [Matrix.toLin'_apply] at this
    exact this

theorem power_bound (M : Matrix ι ι ℝ) {ρ : ℝ} (h0 : 0 < ρ)
    (h : spectralRadius ℂ (cx M) < ENNReal.ofReal ρ) : ∃ C > 0, ∀ n, ‖M ^ n‖ ≤ C * ρ ^ n := by
  have h1 := (spectrum.pow_norm_pow_one_div_tendsto_nhds_spectralRadius (cx M)).eventually_lt_const h
  obtain ⟨m, hm⟩ := Filter.eventually_atTop.1 h1
  have key : ∀ n ≥ max m 1, ‖M ^ n‖ ≤ ρ ^ n := by
    intro n hn
    have hn1 : 1 ≤ n := (le_max_right _ _).trans hn
    have h2 := hm n ((le_max_left _ _).trans hn)
    have h3 := (ENNReal.ofReal_lt_ofReal_iff h0).1 h2
    rw [← cx_pow, cx_norm] at h3
    have h4 := pow_le_pow_left₀ (Real.rpow_nonneg (norm_nonneg _) _) h3.le n
    rwa [← Real.rpow_natCast, ← Real.rpow_mul (norm_nonneg _), one_div,
      inv_mul_cancel₀ (by positivity), Real.rpow_one] at h4
  obtain ⟨B, hB⟩ : ∃ B, B = ∑ n ∈ Finset.range (max m 1), ‖M ^ n‖ / ρ ^ n := ⟨_, rfl⟩
  have hB0 : 0 ≤ B := by rw [hB]; exact Finset.sum_nonneg fun n _ => by positivity
  refine ⟨B + 1, by positivity, fun n => ?_⟩
  have hp : 0 < ρ ^ n := by positivity
  rcases lt_or_ge n (max m 1) with hn | hn
  · have h5 : ‖M ^ n‖ / ρ ^ n ≤ B := by
      rw [hB]
      exact Finset.single_le_sum (f := fun n => ‖M ^ n‖ / ρ ^ n) (fun n _ => by positivity)
        (Finset.mem_range.2 hn)
    rw [div_le_iff₀ hp] at h5
    nlinarith
  · have := key n hn
    nlinarith

/-- All eigenvalues within the unit circle: the powers decay. -/
theorem power_decay (M : Matrix ι ι ℝ) (h : ∀ μ, Eigen M μ → ‖μ‖ < 1) :
    ∃ q, 0 < q ∧ q < 1 ∧ ∃ C > 0, ∀ n, ‖M ^ n‖ ≤ C * q ^ n := by
  have hr : spectralRadius ℂ (cx M) < 1 := by
    rcases isEmpty_or_nonempty ι with hi | hi
    · have : cx M = 0 := by ext i; exact hi.elim i
      rw [this, spectrum.spectralRadius_zero]
      exact one_pos
    · obtain ⟨μ, h1, h2⟩ := spectrum.exists_nnnorm_eq_spectralRadius (cx M)
      rw [← h2]
      have := h μ ((eigen_iff M μ).2 h1)
      exact_mod_cast this
  obtain ⟨q, h1, h2⟩ := ENNReal.lt_iff_exists_nnreal_btwn.1 hr
  have hq1 : (q : ℝ) < 1 := by exact_mod_cast h2
  have hq0 : (0 : ℝ) < q := by
    have : 0 < (q : ENNReal) := lt_of_le_of_lt bot_le h1
    exact_mod_cast this
  refine ⟨q, hq0, hq1, power_bound M hq0 ?_⟩
  rwa [ENNReal.ofReal_coe_nnreal]

/-- Variation of constants. -/
theorem duhamel (f : (ι → ℝ) → ι → ℝ) (M : Matrix ι ι ℝ) (x : ι → ℝ) (n : ℕ) :
    f^[n] x = M ^ n *ᵥ x +
      ∑ k ∈ Finset.range n, M ^ (n - 1 - k) *ᵥ (f (f^[k] x) - M *ᵥ f^[k] x) := by
  induction n with
  | zero => simp
  | succ n ih =>
    rw [Function.iterate_succ_apply', Finset.sum_range_succ]
    have h1 : ∑ k ∈ Finset.range n, M ^ (n + 1 - 1 - k) *ᵥ (f (f^[k] x) - M *ᵥ f^[k] x) =
        M *ᵥ ∑ k ∈ Finset.range n, M ^ (n - 1 - k) *ᵥ (f (f^[k] x) - M *ᵥ f^[k] x) := by
      rw [Matrix.mulVec_sum]
      refine Finset.sum_congr rfl fun k hk => ?_
      rw [Finset.mem_range] at hk
      rw [Matrix.mulVec_mulVec, ← pow_succ']
      congr 2
      omega
    rw [h1, show n + 1 - 1 - n = 0 by omega, pow_zero, Matrix.one_mulVec]
    have h2 : M *ᵥ f^[n] x = M ^ (n + 1) *ᵥ x +
        M *ᵥ ∑ k ∈ Finset.range n, M ^ (n - 1 - k) *ᵥ (f (f^[k] x) - M *ᵥ f^[k] x) := by
      rw [pow_succ', ← Matrix.mulVec_mulVec, ← Matrix.mulVec_add, ← ih]
    rw [h2]
    abel

/-- The origin attracts. -/
theorem spectral_attracts {f : (ι → ℝ) → ι → ℝ} {M : Matrix ι ι ℝ} (hf : QuadNear f M)
    (h : ∀ μ, Eigen M μ → ‖μ‖ < 1) :
    ∃ δ > 0, ∃ C q, 0 < q ∧ q < 1 ∧ ∀ x, ‖x‖ ≤ δ → ∀ n, ‖f^[n] x‖ ≤ C * q ^ n * ‖x‖ := by
  obtain ⟨K, hK, δ, hδ, hf⟩ := hf
  obtain ⟨q, hq0, hq1, C₀, hC₀, hM₀⟩ := power_decay M h
  obtain ⟨C, hC'⟩ : ∃ C, C = max C₀ 1 := ⟨_, rfl⟩
  have hC1 : 1 ≤ C := by rw [hC']; exact le_max_right _ _
  have hC : 0 < C := by linarith
  have hM : ∀ n, ‖M ^ n‖ ≤ C * q ^ n := fun n => (hM₀ n).trans
    (mul_le_mul_of_nonneg_right (by rw [hC']; exact le_max_left _ _) (by positivity))
  have h1q : 0 < 1 - q := by linarith
  refine ⟨min (δ / (2 * C)) (q * (1 - q) / (4 * K * C ^ 2)), by positivity, 2 * C, q, hq0, hq1,
    fun x hx n => ?_⟩
  have hx1 : ‖x‖ ≤ δ / (2 * C) := hx.trans (min_le_left _ _)
  have hx2 : ‖x‖ ≤ q * (1 - q) / (4 * K * C ^ 2) := hx.trans (min_le_right _ _)
  rw [le_div_iff₀ (by positivity)] at hx1 hx2
  induction n using Nat.strong_induction_on with
  | _ n ih =>
    rcases Nat.eq_zero_or_pos n with h0 | hn
    · subst h0
      simp only [Function.iterate_zero, id, pow_zero, mul_one]
      nlinarith [norm_nonneg x]
    · rw [duhamel f M x n]
      have t1 : ‖M ^ n *ᵥ x‖ ≤ C * q ^ n * ‖x‖ :=
        (Matrix.linfty_opNorm_mulVec _ _).trans (mul_le_mul_of_nonneg_right (hM n) (norm_nonneg _))
      have t2 : ∀ k ∈ Finset.range n, ‖M ^ (n - 1 - k) *ᵥ (f (f^[k] x) - M *ᵥ f^[k] x)‖ ≤
          q ^ (n - 1) * (4 * K * C ^ 3 * ‖x‖ ^ 2) * q ^ k := by
        intro k hk
        rw [Finset.mem_range] at hk
        have hk' := ih k hk
        have hqk : q ^ k ≤ 1 := pow_le_one₀ hq0.le hq1.le
        have hd : ‖f^[k] x‖ ≤ δ := by
          refine hk'.trans (le_trans ?_ hx1)
          have : 2 * C * q ^ k * ‖x‖ = q ^ k * (‖x‖ * (2 * C)) := by ring
          rw [this]
          exact mul_le_of_le_one_left (by positivity) hqk
        have e1 := hf _ hd
        have e2 : ‖f^[k] x‖ ^ 2 ≤ (2 * C * q ^ k * ‖x‖) ^ 2 := pow_le_pow_left₀ (norm_nonneg _) hk' 2
        calc ‖M ^ (n - 1 - k) *ᵥ (f (f^[k] x) - M *ᵥ f^[k] x)‖
            ≤ ‖M ^ (n - 1 - k)‖ * ‖f (f^[k] x) - M *ᵥ f^[k] x‖ := Matrix.linfty_opNorm_mulVec _ _
          _ ≤ (C * q ^ (n - 1 - k)) * (K * (2 * C * q ^ k * ‖x‖) ^ 2) :=
              mul_le_mul (hM _) (e1.trans (mul_le_mul_of_nonneg_left e2 hK.le)) (norm_nonneg _)
                (by positivity)
          _ = (q ^ (n - 1 - k) * q ^ k) * (4 * K * C ^ 3 * ‖x‖ ^ 2) * q ^ k := by ring
          _ = q ^ (n - 1) * (4 * K * C ^ 3 * ‖x‖ ^ 2) * q ^ k := by
              rw [← pow_add]; congr 3; omega
      have t3 : ‖∑ k ∈ Finset.range n, M ^ (n - 1 - k) *ᵥ (f (f^[k] x) - M *ᵥ f^[k] x)‖ ≤
          q ^ (n - 1) * (4 * K * C ^ 3 * ‖x‖ ^ 2) * (1 / (1 - q)) := by
        refine (norm_sum_le_of_le _ t2).trans ?_
        rw [← Finset.mul_sum]
        refine mul_le_mul_of_nonneg_left ?_ (by positivity)
        rw [geom_sum_eq hq1.ne, show (q ^ n - 1) / (q - 1) = (1 - q ^ n) / (1 - q) by
          rw [← neg_sub, ← neg_sub (1 : ℝ) q, neg_div_neg_eq]]
        exact div_le_div_of_nonneg_right (by have : 0 < q ^ n := by positivity
                                             linarith) h1q.le
      have t4 : q ^ (n - 1) * (4 * K * C ^ 3 * ‖x‖ ^ 2) * (1 / (1 - q)) ≤ C * q ^ n * ‖x‖ := by
        obtain ⟨m, rfl⟩ : ∃ m, n = m + 1 := ⟨n - 1, by omega⟩
        rw [Nat.add_sub_cancel, mul_one_div, div_le_iff₀ h1q]
        have e3 : 0 ≤ q ^ m * C * ‖x‖ := by positivity
        calc q ^ m * (4 * K * C ^ 3 * ‖x‖ ^ 2) = q ^ m * C * ‖x‖ * (‖x‖ * (4 * K * C ^ 2)) := by ring
          _ ≤ q ^ m * C * ‖x‖ * (q * (1 - q)) := mul_le_mul_of_nonneg_left hx2 e3
          _ = C * q ^ (m + 1) * ‖x‖ * (1 - q) := by ring
      have := norm_add_le (M ^ n *ᵥ x)
        (∑ k ∈ Finset.range n, M ^ (n - 1 - k) *ᵥ (f (f^[k] x) - M *ᵥ f^[k] x))
      linarith

/-- The real part of a multiple of a complex vector. -/
def rePart (c : ℂ) (v : ι → ℂ) : ι → ℝ := fun i => (c * v i).re

omit [DecidableEq ι] in
theorem rePart_norm (c : ℂ) (v : ι → ℂ) : ‖rePart c v‖ ≤ ‖c‖ * ‖v‖ := by
  refine (pi_norm_le_iff_of_nonneg (by positivity)).2 fun i => ?_
  rw [Real.norm_eq_abs]
  calc |(c * v i).re| ≤ ‖c * v i‖ := Complex.abs_re_le_norm _
    _ = ‖c‖ * ‖v i‖ := norm_mul _ _
    _ ≤ ‖c‖ * ‖v‖ := mul_le_mul_of_nonneg_left (norm_le_pi_norm v i) (norm_nonneg _)

omit [DecidableEq ι] in
theorem rePart_mul {M : Matrix ι ι ℝ} {μ : ℂ} {v : ι → ℂ}
    (hv : ∀ i, ∑ j, (M i j : ℂ) * v j = μ * v i) (c : ℂ) :
    M *ᵥ rePart c v = rePart (c * μ) v := by
  funext i
  show ∑ j, M i j * (c * v j).re = (c * μ * v i).re
  rw [mul_assoc, ← hv i, Finset.mul_sum, Complex.re_sum]
  refine Finset.sum_congr rfl fun j _ => ?_
  rw [show c * ((M i j : ℂ) * v j) = (M i j : ℂ) * (c * v j) by ring, Complex.re_ofReal_mul]

theorem rePart_pow {M : Matrix ι ι ℝ} {μ : ℂ} {v : ι → ℂ}
    (hv : ∀ i, ∑ j, (M i j : ℂ) * v j = μ * v i) (c : ℂ) (n : ℕ) :
    M ^ n *ᵥ rePart c v = rePart (c * μ ^ n) v := by
  induction n with
  | zero => simp
  | succ n ih =>
    rw [pow_succ', ← Matrix.mulVec_mulVec, ih, rePart_mul hv, pow_succ, mul_assoc]

omit [DecidableEq ι] in
/-- An eigenvector whose real part is not 0. -/
theorem eigen_re {M : Matrix ι ι ℝ} {μ : ℂ} (h : Eigen M μ) :
    ∃ v : ι → ℂ, ‖v‖ ≤ 1 ∧ rePart 1 v ≠ 0 ∧ ∀ i, ∑ j, (M i j : ℂ) * v j = μ * v i := by
  obtain ⟨v, h0, hv⟩ := h
  have key : ∃ w : ι → ℂ, rePart 1 w ≠ 0 ∧ ∀ i, ∑ j, (M i j : ℂ) * w j = μ * w i := by
    by_cases hr : rePart 1 v = 0
    · refine ⟨fun i => -Complex.I * v i, fun hi => h0 ?_, fun i => ?_⟩
      · funext i
        have e1 := congrFun hr i
        have e2 := congrFun hi i
        simp only [rePart, one_mul, Pi.zero_apply] at e1 e2
        apply Complex.ext
        · simpa using e1
        · simpa using e2
      · rw [show μ * (-Complex.I * v i) = -Complex.I * (μ * v i) by ring, ← hv i, Finset.mul_sum]
        exact Finset.sum_congr rfl fun j _ => by ring
    · exact ⟨v, hr, hv⟩
  obtain ⟨w, hw0, hw⟩ := key
  have hn : 0 < ‖w‖ := by
    rw [norm_pos_iff]
    rintro rfl
    exact hw0 (by funext i; simp [rePart])
  refine ⟨fun i => ((‖w‖⁻¹ : ℝ) : ℂ) * w i, ?_, fun hi => hw0 ?_, fun i => ?_⟩
  · refine (pi_norm_le_iff_of_nonneg zero_le_one).2 fun i => ?_
    rw [norm_mul, Complex.norm_real, Real.norm_eq_abs, abs_of_pos (by positivity), inv_mul_le_iff₀ hn,
      mul_one]
    exact norm_le_pi_norm w i
  · funext i
    have := congrFun hi i
    simp only [rePart, one_mul, Pi.zero_apply, Complex.re_ofReal_mul] at this ⊢
    rcases mul_eq_zero.1 this with h | h
    · exact absurd h (by positivity)
    · exact h
  · rw [show μ * (((‖w‖⁻¹ : ℝ) : ℂ) * w i) = ((‖w‖⁻¹ : ℝ) : ℂ) * (μ * w i) by ring, ← hw i,
      Finset.mul_sum]
    exact Finset.sum_congr rfl fun j _ => by ring

/-- The origin is unstable. -/
theorem spectral_unstable {f : (ι → ℝ) → ι → ℝ} {M : Matrix ι ι ℝ} (hf : QuadNear f M)
    {μ₀ : ℂ} (hμ₀ : Eigen M μ₀) (h1 : 1 < ‖μ₀‖) :
    ∃ δ > 0, ∀ η > 0, ∃ x, ‖x‖ ≤ η ∧ ∃ n, δ < ‖f^[n] x‖ := by
  obtain ⟨K, hK, δ, hδ, hf⟩ := hf
  have hne : Nonempty ι := by
    obtain ⟨v, h0, _⟩ := hμ₀
    obtain ⟨i, _⟩ := Function.ne_iff.1 h0
    exact ⟨i⟩
  obtain ⟨μ, hμ, hrad⟩ := spectrum.exists_nnnorm_eq_spectralRadius (cx M)
  obtain ⟨m, hm⟩ : ∃ m, m = ‖μ‖ := ⟨_, rfl⟩
  have hm1 : 1 < m := by
    have : (‖μ₀‖₊ : ENNReal) ≤ spectralRadius ℂ (cx M) :=
      le_iSup₂ (f := fun k (_ : k ∈ spectrum ℂ (cx M)) => (‖k‖₊ : ENNReal)) μ₀ ((eigen_iff M μ₀).1 hμ₀)
    rw [← hrad] at this
    have h2 : ‖μ₀‖₊ ≤ ‖μ‖₊ := by exact_mod_cast this
    have h3 : ‖μ₀‖ ≤ ‖μ‖ := h2
    rw [hm]
    linarith
  obtain ⟨β, hβ⟩ : ∃ β, β = (m + m ^ 2) / 2 := ⟨_, rfl⟩
  have hmm : m < m ^ 2 := by nlinarith
  have hβ1 : m < β := by rw [hβ]; linarith
  have hβ2 : β < m ^ 2 := by rw [hβ]; linarith
  have hβ0 : 0 < β := by linarith
  obtain ⟨C, hC, hM⟩ := power_bound M hβ0 (by
    rw [← hrad, ENNReal.ofReal, ENNReal.coe_lt_coe, ← NNReal.coe_lt_coe,
      Real.coe_toNNReal _ hβ0.le, coe_nnnorm, ← hm]
    exact hβ1)
  obtain ⟨v, hv1, hv0, hv⟩ := eigen_re ((eigen_iff M μ).2 hμ)
  obtain ⟨w, hw⟩ : ∃ w, w = ‖rePart 1 v‖ := ⟨_, rfl⟩
  have hw0 : 0 < w := by rw [hw]; exact norm_pos_iff.2 hv0
  have hgap : 0 < m ^ 2 - β := by linarith
  obtain ⟨D, hD⟩ : ∃ D, D = 4 * K * C / (m ^ 2 - β) := ⟨_, rfl⟩
  have hD0 : 0 < D := by rw [hD]; positivity
  obtain ⟨s, hs⟩ : ∃ s, s = min (min (1 / D) (w / (2 * D))) (δ / 2) := ⟨_, rfl⟩
  have hs0 : 0 < s := by rw [hs]; positivity
  have hs1 : D * s ≤ 1 := by
    have : s ≤ 1 / D := by rw [hs]; exact (min_le_left _ _).trans (min_le_left _ _)
    rwa [le_div_iff₀ hD0, mul_comm] at this
  have hs2 : D * s ≤ w / 2 := by
    have : s ≤ w / (2 * D) := by rw [hs]; exact (min_le_left _ _).trans (min_le_right _ _)
    rw [le_div_iff₀ (by positivity)] at this
    linarith
  have hs3 : 2 * s ≤ δ := by
    have : s ≤ δ / 2 := by rw [hs]; exact min_le_right _ _
    linarith
  refine ⟨s * w / 4, by positivity, fun η hη => ?_⟩
  obtain ⟨n, hn⟩ : ∃ n : ℕ, s * (1 / m) ^ n ≤ η := by
    have h2 : 1 / m < 1 := by rw [div_lt_one (by linarith)]; exact hm1
    obtain ⟨n, hn⟩ := exists_pow_lt_of_lt_one (div_pos hη hs0) h2
    refine ⟨n, ?_⟩
    rw [lt_div_iff₀ hs0] at hn
    linarith
  have hμ0 : μ ≠ 0 := by
    rintro rfl
    rw [norm_zero] at hm
    linarith
  obtain ⟨c, hc⟩ : ∃ c : ℂ, c = (s : ℂ) / μ ^ n := ⟨_, rfl⟩
  obtain ⟨ε, hε⟩ : ∃ ε, ε = s / m ^ n := ⟨_, rfl⟩
  have hm0 : 0 < m := by linarith
  have hε0 : 0 < ε := by rw [hε]; positivity
  have hcn : ‖c‖ = ε := by
    rw [hc, norm_div, norm_pow, ← hm, Complex.norm_real, Real.norm_eq_abs, abs_of_pos hs0, hε]
  have hεs : ∀ k ≤ n, ε * m ^ k ≤ s := by
    intro k hk
    rw [hε, div_mul_eq_mul_div, div_le_iff₀ (by positivity)]
    exact mul_le_mul_of_nonneg_left (pow_le_pow_right₀ hm1.le hk) hs0.le
  have hlin : ∀ k, ‖M ^ k *ᵥ rePart c v‖ ≤ ε * m ^ k := by
    intro k
    rw [rePart_pow hv]
    refine (rePart_norm _ _).trans ?_
    rw [norm_mul, norm_pow, ← hm, hcn]
    exact mul_le_of_le_one_right (by positivity) hv1
  have main : ∀ k ≤ n, ‖f^[k] (rePart c v) - M ^ k *ᵥ rePart c v‖ ≤ D * (ε * m ^ k) ^ 2 := by
    intro k
    induction k using Nat.strong_induction_on with
    | _ k ih =>
      intro hk
      rw [duhamel f M _ k, add_sub_cancel_left]
      have t2 : ∀ l ∈ Finset.range k,
          ‖M ^ (k - 1 - l) *ᵥ (f (f^[l] (rePart c v)) - M *ᵥ f^[l] (rePart c v))‖ ≤
          4 * K * C * ε ^ 2 * (β ^ (k - 1 - l) * (m ^ 2) ^ l) := by
        intro l hl
        rw [Finset.mem_range] at hl
        have e0 := ih l hl (by omega)
        have e1 : ‖f^[l] (rePart c v)‖ ≤ 2 * (ε * m ^ l) := by
          have a1 := hlin l
          have a2 := norm_add_le (f^[l] (rePart c v) - M ^ l *ᵥ rePart c v) (M ^ l *ᵥ rePart c v)
          rw [sub_add_cancel] at a2
          have a3 : D * (ε * m ^ l) ^ 2 ≤ ε * m ^ l := by
            have a4 := hεs l (by omega)
            have a5 : 0 < ε * m ^ l := by positivity
            have a6 : D * (ε * m ^ l) ≤ 1 := (mul_le_mul_of_nonneg_left a4 hD0.le).trans hs1
            calc D * (ε * m ^ l) ^ 2 = D * (ε * m ^ l) * (ε * m ^ l) := by ring
              _ ≤ 1 * (ε * m ^ l) := mul_le_mul_of_nonneg_right a6 a5.le
              _ = _ := one_mul _
          linarith
        have e2 : ‖f^[l] (rePart c v)‖ ≤ δ := e1.trans (by have := hεs l (by omega); linarith)
        have e3 := hf _ e2
        have e4 : ‖f^[l] (rePart c v)‖ ^ 2 ≤ (2 * (ε * m ^ l)) ^ 2 :=
          pow_le_pow_left₀ (norm_nonneg _) e1 2
        calc ‖M ^ (k - 1 - l) *ᵥ (f (f^[l] (rePart c v)) - M *ᵥ f^[l] (rePart c v))‖
            ≤ ‖M ^ (k - 1 - l)‖ * ‖f (f^[l] (rePart c v)) - M *ᵥ f^[l] (rePart c v)‖ :=
              Matrix.linfty_opNorm_mulVec _ _
          _ ≤ (C * β ^ (k - 1 - l)) * (K * (2 * (ε * m ^ l)) ^ 2) :=
              mul_le_mul (hM _) (e3.trans (mul_le_mul_of_nonneg_left e4 hK.le)) (norm_nonneg _)
                (by positivity)
          _ = _ := by rw [← pow_mul, mul_comm 2 l, pow_mul]; ring
      refine (norm_sum_le_of_le _ t2).trans ?_
      rw [← Finset.mul_sum]
      have t3 : (∑ l ∈ Finset.range k, β ^ (k - 1 - l) * (m ^ 2) ^ l) * (m ^ 2 - β) =
          (m ^ 2) ^ k - β ^ k := by
        rw [← Commute.geom_sum₂_mul (Commute.all (m ^ 2) β) k]
        congr 1
        exact Finset.sum_congr rfl fun l _ => mul_comm _ _
      have t4 : ∑ l ∈ Finset.range k, β ^ (k - 1 - l) * (m ^ 2) ^ l ≤ (m ^ 2) ^ k / (m ^ 2 - β) := by
        rw [le_div_iff₀ hgap, t3]
        have : 0 < β ^ k := by positivity
        linarith
      calc 4 * K * C * ε ^ 2 * ∑ l ∈ Finset.range k, β ^ (k - 1 - l) * (m ^ 2) ^ l
          ≤ 4 * K * C * ε ^ 2 * ((m ^ 2) ^ k / (m ^ 2 - β)) :=
            mul_le_mul_of_nonneg_left t4 (by positivity)
        _ = D * (ε * m ^ k) ^ 2 := by
            rw [hD, mul_pow, ← pow_mul, ← pow_mul, mul_comm 2 k]; ring
  refine ⟨rePart c v, ?_, n, ?_⟩
  · refine (rePart_norm _ _).trans ((mul_le_of_le_one_right (norm_nonneg _) hv1).trans ?_)
    rw [hcn, hε, div_eq_mul_one_div, ← one_div_pow]
    exact hn
  · have e1 := main n le_rfl
    have e2 : ε * m ^ n = s := by rw [hε]; field_simp
    rw [e2] at e1
    have e3 : ‖M ^ n *ᵥ rePart c v‖ = s * w := by
      rw [rePart_pow hv, hc, div_mul_cancel₀ _ (pow_ne_zero _ hμ0), hw,
        show rePart (s : ℂ) v = s • rePart 1 v by
          funext i; simp [rePart], norm_smul, Real.norm_eq_abs, abs_of_pos hs0]
    have e4 := norm_sub_norm_le (M ^ n *ᵥ rePart c v) (f^[n] (rePart c v))
    rw [norm_sub_rev, e3] at e4
    have e5 : D * s ^ 2 ≤ s * (w / 2) := by
      calc D * s ^ 2 = s * (D * s) := by ring
        _ ≤ s * (w / 2) := mul_le_mul_of_nonneg_left hs2 hs0.le
    have : 0 < s * w := by positivity
    linarith

end Yuca
