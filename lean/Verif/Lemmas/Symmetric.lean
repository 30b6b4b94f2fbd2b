import Mathlib.Analysis.InnerProductSpace.Spectrum
import Mathlib.Analysis.InnerProductSpace.PiL2

/-!
# Fixed points of maps whose linear part is symmetric

A map of a finite-dimensional Euclidean space that is a symmetric linear map up to a remainder of
higher order: if all eigenvalues lie strictly between -1 and 1 the origin attracts, if one lies
beyond the origin is unstable.
-/

namespace Yuca

variable {E : Type*} [NormedAddCommGroup E] [InnerProductSpace ℝ E] [FiniteDimensional ℝ E]

/-- The map is linear up to a remainder of higher order at the origin. -/
def LinearNear (f : E → E) (T : E →ₗ[ℝ] E) : Prop :=
  ∀ ε > 0, ∃ δ > 0, ∀ v, ‖v‖ ≤ δ → ‖f v - T v‖ ≤ ε * ‖v‖

theorem diag_norm_le {ι : Type*} [Fintype ι] {x y : EuclideanSpace ℝ ι} {q : ℝ} (hq : 0 ≤ q)
    (h : ∀ i, |x i| ≤ q * |y i|) : ‖x‖ ≤ q * ‖y‖ := by
  refine le_of_sq_le_sq ?_ (mul_nonneg hq (norm_nonneg _))
  rw [mul_pow, EuclideanSpace.norm_sq_eq, EuclideanSpace.norm_sq_eq, Finset.mul_sum]
  refine Finset.sum_le_sum fun i _ => ?_
  rw [← mul_pow]
  exact pow_le_pow_left₀ (norm_nonneg _) (h i) 2

theorem exists_bound_lt {n : Nat} {f : Fin n → ℝ} {b : ℝ} (hb : 0 < b) (h : ∀ i, f i < b) :
    ∃ q, 0 ≤ q ∧ q < b ∧ ∀ i, f i ≤ q := by
  induction n with
  | zero => exact ⟨0, le_rfl, hb, fun i => i.elim0⟩
  | succ n ih =>
    obtain ⟨q, h0, h1, h2⟩ := ih (f := fun i => f i.succ) fun i => h i.succ
    refine ⟨max q (f 0), h0.trans (le_max_left _ _), max_lt h1 (h 0), fun i => ?_⟩
    refine Fin.cases (le_max_right _ _) (fun i => (h2 i).trans (le_max_left _ _)) i

theorem symmetric_contracts {T : E →ₗ[ℝ] E} (hT : T.IsSymmetric)
    (h : ∀ (μ : ℝ) v, v ≠ 0 → T v = μ • v → |μ| < 1) :
    ∃ q, 0 ≤ q ∧ q < 1 ∧ ∀ v, ‖T v‖ ≤ q * ‖v‖ := by
  obtain ⟨q, h0, h1, h2⟩ := exists_bound_lt (f := fun i => |hT.eigenvalues rfl i|) zero_lt_one
    fun i => h _ (hT.eigenvectorBasis rfl i) ((hT.eigenvectorBasis rfl).orthonormal.ne_zero i)
      (by simp)
  refine ⟨q, h0, h1, fun v => ?_⟩
  rw [← (hT.eigenvectorBasis rfl).repr.norm_map (T v), ← (hT.eigenvectorBasis rfl).repr.norm_map v]
  refine diag_norm_le h0 fun i => ?_
  rw [hT.eigenvectorBasis_apply_self_apply rfl v i, abs_mul]
  exact mul_le_mul_of_nonneg_right (h2 i) (abs_nonneg _)

omit [FiniteDimensional ℝ E] in
theorem attracts_near {f : E → E} {T : E →ₗ[ℝ] E} (hf : LinearNear f T) {q : ℝ} (h0 : 0 ≤ q)
    (h1 : q < 1) (hq : ∀ v, ‖T v‖ ≤ q * ‖v‖) :
    ∃ δ > 0, ∃ p, 0 ≤ p ∧ p < 1 ∧ ∀ v, ‖v‖ ≤ δ → ∀ n : ℕ, ‖f^[n] v‖ ≤ p ^ n * ‖v‖ := by
  obtain ⟨δ, hδ, h⟩ := hf ((1 - q) / 2) (by linarith)
  refine ⟨δ, hδ, (1 + q) / 2, by linarith, by linarith, fun v hv n => ?_⟩
  induction n with
  | zero => simp
  | succ n ih =>
    have hp : ((1 + q) / 2) ^ n ≤ 1 := pow_le_one₀ (by linarith) (by linarith)
    have hle : ‖f^[n] v‖ ≤ δ :=
      ih.trans ((mul_le_of_le_one_left (norm_nonneg _) hp).trans hv)
    have e1 := h _ hle
    have e2 := hq (f^[n] v)
    have e3 : ‖f (f^[n] v)‖ ≤ ‖f (f^[n] v) - T (f^[n] v)‖ + ‖T (f^[n] v)‖ := by
      simpa using norm_add_le (f (f^[n] v) - T (f^[n] v)) (T (f^[n] v))
    rw [Function.iterate_succ_apply', pow_succ]
    have e4 : (1 + q) / 2 * ‖f^[n] v‖ ≤ (1 + q) / 2 * (((1 + q) / 2) ^ n * ‖v‖) :=
      mul_le_mul_of_nonneg_left ih (by linarith)
    linarith

/-- The part of a vector in the directions of a set of eigenvectors. -/
noncomputable def eigenPart {T : E →ₗ[ℝ] E} (hT : T.IsSymmetric)
    (S : Fin (Module.finrank ℝ E) → Prop) [DecidablePred S] (v : E) :
    EuclideanSpace ℝ (Fin (Module.finrank ℝ E)) :=
  WithLp.toLp 2 fun i => if S i then (hT.eigenvectorBasis rfl).repr v i else 0

section

variable {T : E →ₗ[ℝ] E} (hT : T.IsSymmetric) (S : Fin (Module.finrank ℝ E) → Prop) [DecidablePred S]

theorem eigenPart_le (v : E) : ‖eigenPart hT S v‖ ≤ ‖v‖ := by
  rw [← (hT.eigenvectorBasis rfl).repr.norm_map v, ← one_mul ‖(hT.eigenvectorBasis rfl).repr v‖]
  refine diag_norm_le zero_le_one fun i => ?_
  show |if S i then _ else (0 : ℝ)| ≤ _
  split
  · rw [one_mul]
  · simp

theorem eigenPart_sub (v w : E) : eigenPart hT S (v - w) = eigenPart hT S v - eigenPart hT S w := by
  ext i
  show (if S i then (hT.eigenvectorBasis rfl).repr (v - w) i else 0) =
    (if S i then (hT.eigenvectorBasis rfl).repr v i else 0) -
      (if S i then (hT.eigenvectorBasis rfl).repr w i else 0)
  rw [map_sub]
  split
  · rfl
  · simp

theorem le_eigenParts (v : E) :
    ‖v‖ ≤ ‖eigenPart hT S v‖ + ‖eigenPart hT (fun i => ¬ S i) v‖ := by
  rw [← (hT.eigenvectorBasis rfl).repr.norm_map v]
  refine le_trans (le_of_eq (congrArg norm ?_)) (norm_add_le _ _)
  ext i
  show _ = (if S i then (hT.eigenvectorBasis rfl).repr v i else 0) +
      (if ¬ S i then (hT.eigenvectorBasis rfl).repr v i else 0)
  by_cases h : S i <;> simp [h]

theorem eigenPart_map (v : E) (i) : eigenPart hT S (T v) i =
    hT.eigenvalues rfl i * eigenPart hT S v i := by
  show (if S i then (hT.eigenvectorBasis rfl).repr (T v) i else 0) =
    _ * (if S i then (hT.eigenvectorBasis rfl).repr v i else 0)
  rw [hT.eigenvectorBasis_apply_self_apply rfl v i]
  split <;> simp

theorem eigenPart_grows {m : ℝ} (hm : 0 < m) (h : ∀ i, S i → m ≤ |hT.eigenvalues rfl i|) (v : E) :
    m * ‖eigenPart hT S v‖ ≤ ‖eigenPart hT S (T v)‖ := by
  have := diag_norm_le (x := eigenPart hT S v) (y := eigenPart hT S (T v)) (q := m⁻¹)
    (inv_nonneg.2 hm.le) fun i => ?_
  · rwa [← div_eq_inv_mul, le_div_iff₀ hm, mul_comm] at this
  · rw [eigenPart_map, abs_mul, ← mul_assoc]
    by_cases hS : S i
    · have : 1 ≤ m⁻¹ * |hT.eigenvalues rfl i| := by
        rw [← div_eq_inv_mul, le_div_iff₀ hm, one_mul]; exact h i hS
      exact le_mul_of_one_le_left (abs_nonneg _) this
    · have h0 : eigenPart hT S v i = 0 := if_neg hS
      rw [h0]; simp

theorem eigenPart_shrinks (h : ∀ i, S i → |hT.eigenvalues rfl i| ≤ 1) (v : E) :
    ‖eigenPart hT S (T v)‖ ≤ ‖eigenPart hT S v‖ := by
  rw [← one_mul ‖eigenPart hT S v‖]
  refine diag_norm_le zero_le_one fun i => ?_
  rw [eigenPart_map, abs_mul]
  by_cases hS : S i
  · exact mul_le_mul_of_nonneg_right (h i hS) (abs_nonneg _)
  · have h0 : eigenPart hT S v i = 0 := if_neg hS
    rw [h0]; simp

end

/-- An eigenvalue of absolute value above 1 makes the origin unstable. -/
theorem unstable_near {f : E → E} {T : E →ₗ[ℝ] E} (hT : T.IsSymmetric) (hf : LinearNear f T)
    {μ : ℝ} {v₀ : E} (hv₀ : v₀ ≠ 0) (hμ : T v₀ = μ • v₀) (h1 : 1 < |μ|) :
    ∃ δ > 0, ∀ η > 0, ∃ v, ‖v‖ ≤ η ∧ ∃ n : ℕ, δ < ‖f^[n] v‖ := by
  classical
  -- one of the eigenvalues of the basis is `μ`
  obtain ⟨k, hk⟩ : ∃ k, hT.eigenvalues rfl k = μ := by
    by_contra hne
    push Not at hne
    refine hv₀ ((hT.eigenvectorBasis rfl).repr.injective ?_)
    ext i
    have e := hT.eigenvectorBasis_apply_self_apply rfl v₀ i
    rw [hμ, map_smul] at e
    have e' : μ * (hT.eigenvectorBasis rfl).repr v₀ i =
      hT.eigenvalues rfl i * (hT.eigenvectorBasis rfl).repr v₀ i := by simpa using e
    have e3 : (hT.eigenvalues rfl i - μ) * (hT.eigenvectorBasis rfl).repr v₀ i = 0 := by linarith
    rcases mul_eq_zero.1 e3 with h | h
    · exact absurd (sub_eq_zero.1 h) (hne i)
    · rw [h]; simp
  -- the eigenvalues above 1 stay away from 1
  obtain ⟨m, hm1, hm⟩ : ∃ m : ℝ, 1 < m ∧
      ∀ i, 1 < |hT.eigenvalues rfl i| → m ≤ |hT.eigenvalues rfl i| := by
    obtain ⟨q, h0, hq, h2⟩ := exists_bound_lt (b := 1)
      (f := fun i => if 1 < |hT.eigenvalues rfl i| then |hT.eigenvalues rfl i|⁻¹ else 0)
      zero_lt_one (fun i => by
        split
        · next h => exact inv_lt_one_of_one_lt₀ h
        · exact zero_lt_one)
    have hk' := h2 k
    rw [hk, if_pos h1] at hk'
    have hq0 : 0 < q := lt_of_lt_of_le (inv_pos.2 (by linarith)) hk'
    refine ⟨q⁻¹, one_lt_inv_iff₀.2 ⟨hq0, hq⟩, fun i hi => ?_⟩
    have := h2 i
    rw [if_pos hi] at this
    exact inv_le_of_inv_le₀ (by linarith) this
  obtain ⟨P, hP⟩ : ∃ P, P = eigenPart hT fun i => 1 < |hT.eigenvalues rfl i| := ⟨_, rfl⟩
  obtain ⟨Q, hQ⟩ : ∃ Q, Q = eigenPart hT fun i => ¬ 1 < |hT.eigenvalues rfl i| := ⟨_, rfl⟩
  have hPg : ∀ v, m * ‖P v‖ ≤ ‖P (T v)‖ := fun v => by
    rw [hP]; exact eigenPart_grows hT _ (by linarith) hm v
  have hQs : ∀ v, ‖Q (T v)‖ ≤ ‖Q v‖ := fun v => by
    rw [hQ]; exact eigenPart_shrinks hT _ (fun i h => not_lt.1 h) v
  have hPl : ∀ v, ‖P v‖ ≤ ‖v‖ := fun v => by rw [hP]; exact eigenPart_le hT _ v
  have hQl : ∀ v, ‖Q v‖ ≤ ‖v‖ := fun v => by rw [hQ]; exact eigenPart_le hT _ v
  have hPs : ∀ v w, P (v - w) = P v - P w := fun v w => by rw [hP]; exact eigenPart_sub hT _ v w
  have hQb : ∀ v w, Q (v - w) = Q v - Q w := fun v w => by rw [hQ]; exact eigenPart_sub hT _ v w
  have hsum : ∀ v, ‖v‖ ≤ ‖P v‖ + ‖Q v‖ := fun v => by rw [hP, hQ]; exact le_eigenParts hT _ v
  obtain ⟨δ, hδ, hr⟩ := hf ((m - 1) / 4) (by linarith)
  refine ⟨δ, hδ, fun η hη => ?_⟩
  obtain ⟨v, hvd⟩ : ∃ v, v = η • hT.eigenvectorBasis rfl k := ⟨_, rfl⟩
  have hvn : ‖v‖ = η := by
    rw [hvd, norm_smul, (hT.eigenvectorBasis rfl).orthonormal.1 k, mul_one, Real.norm_of_nonneg hη.le]
  have hQv : Q v = 0 := by
    rw [hQ]
    ext i
    show (if ¬ 1 < |hT.eigenvalues rfl i| then (hT.eigenvectorBasis rfl).repr v i else 0) = 0
    by_cases hi : i = k
    · subst hi
      rw [if_neg (by rw [hk]; simpa using h1)]
    · rw [hvd, map_smul, OrthonormalBasis.repr_self]
      simp [hi]
  have hPv : 0 < ‖P v‖ := by
    have := hsum v
    rw [hQv, norm_zero, add_zero, hvn] at this
    linarith
  refine ⟨v, hvn.le, ?_⟩
  by_contra hno
  push Not at hno
  have key : ∀ n : ℕ, ‖Q (f^[n] v)‖ ≤ ‖P (f^[n] v)‖ ∧
      ((m + 1) / 2) ^ n * ‖P v‖ ≤ ‖P (f^[n] v)‖ := by
    intro n
    induction n with
    | zero => simp only [Function.iterate_zero, id, pow_zero, one_mul, hQv, norm_zero]; exact ⟨hPv.le, le_rfl⟩
    | succ n ih =>
      rw [Function.iterate_succ_apply']
      obtain ⟨w, hw⟩ : ∃ w, w = f^[n] v := ⟨_, rfl⟩
      rw [← hw] at ih ⊢
      have hwd : ‖w‖ ≤ δ := by rw [hw]; exact hno n
      have e1 := hr w hwd
      have e2 : ‖w‖ ≤ 2 * ‖P w‖ := (hsum w).trans (by linarith [ih.1])
      have e3 : ‖f w - T w‖ ≤ (m - 1) / 2 * ‖P w‖ := by
        refine e1.trans ?_
        have := mul_le_mul_of_nonneg_left e2 (by linarith : 0 ≤ (m - 1) / 4)
        linarith
      have p1 : ‖P (T w)‖ ≤ ‖P (f w)‖ + ‖f w - T w‖ := by
        have h' := norm_sub_norm_le (P (T w)) (P (T w) - P (f w))
        rw [sub_sub_cancel, ← hPs] at h'
        have := hPl (T w - f w)
        rw [norm_sub_rev (T w) (f w)] at this
        linarith
      have q1 : ‖Q (f w)‖ ≤ ‖Q (T w)‖ + ‖f w - T w‖ := by
        have h' := norm_sub_norm_le (Q (f w)) (Q (T w))
        rw [← hQb] at h'
        have := hQl (f w - T w)
        linarith
      have p2 := hPg w
      have q2 := hQs w
      have p3 : (m + 1) / 2 * ‖P w‖ ≤ ‖P (f w)‖ := by linarith
      refine ⟨by linarith [ih.1], ?_⟩
      rw [pow_succ]
      have := mul_le_mul_of_nonneg_left ih.2 (by linarith : 0 ≤ (m + 1) / 2)
      linarith
  obtain ⟨n, hn⟩ := pow_unbounded_of_one_lt (δ / ‖P v‖) (by linarith : 1 < (m + 1) / 2)
  rw [div_lt_iff₀ hPv] at hn
  have := (key n).2.trans (hPl _)
  linarith [hno n]

/-- A symmetric map that sends some vector against itself has a negative eigenvalue. -/
theorem negative_eigenvalue {T : E →ₗ[ℝ] E} (hT : T.IsSymmetric) {v : E}
    (h : inner ℝ v (T v) < 0) : ∃ μ : ℝ, μ < 0 ∧ ∃ w, w ≠ 0 ∧ T w = μ • w := by
  by_contra hno
  push Not at hno
  have hpos : ∀ i, 0 ≤ hT.eigenvalues rfl i := fun i => by
    by_contra hi
    exact hno (hT.eigenvalues rfl i) (not_le.1 hi) (hT.eigenvectorBasis rfl i)
      ((hT.eigenvectorBasis rfl).orthonormal.ne_zero i) (by simp)
  have e := (hT.eigenvectorBasis rfl).repr.inner_map_map v (T v)
  rw [← e, PiLp.inner_apply] at h
  refine absurd h (not_lt.2 (Finset.sum_nonneg fun i _ => ?_))
  rw [hT.eigenvectorBasis_apply_self_apply rfl v i]
  have : 0 ≤ hT.eigenvalues rfl i * ((hT.eigenvectorBasis rfl).repr v i) ^ 2 :=
    mul_nonneg (hpos i) (sq_nonneg _)
  show 0 ≤ hT.eigenvalues rfl i * (hT.eigenvectorBasis rfl).repr v i *
    (hT.eigenvectorBasis rfl).repr v i
  rwa [mul_assoc, ← sq]

end Yuca
