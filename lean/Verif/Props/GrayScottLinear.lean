import Verif.Lemmas.Spectral
import Verif.Props.LevelWaves
import Verif.Props.GrayScottRest

/-! # C128: waves on a rest point of a Gray-Scott automaton

To first order a step acts on each wave by a two by two matrix, and the eigenvalues of these matrices
are all the eigenvalues of a step. -/

namespace Yuca

open Arith Spec Matrix

variable {N H W : Nat}

namespace Spec

/-- A Gray-Scott automaton on the torus with the default identity kernel. -/
structure OnTorus {r : Nat} (ca : RxnDfn ℝ) (κ : Fin (2 * r + 1) → Fin (2 * r + 1) → ℝ) : Prop where
  idL : ca.idL = identityLayer 2 2 .circular
  nbL : ca.nbL = .ofKernel 2 2 .circular (2 * r + 1) κ

/-- Universes near `(a, b)` come back to it geometrically, whatever their pattern. -/
def PatternsFade (N H W : Nat) (ca : RxnDfn ℝ) (z : ℝ × ℝ) : Prop :=
  ∃ δ > 0, ∃ C q : ℝ, 0 < q ∧ q < 1 ∧ ∀ ε ≤ δ, ∀ u : Univ ℝ N 2 H W, CloseBy ε u (constUV z.1 z.2) →
    ∀ n, ∃ u' s, iterate RxnDfn.forward n ca u = .ok (u', s) ∧
      CloseBy (C * q ^ n * ε) u' (constUV z.1 z.2)

/-- There are universes as near `(a, b)` as you like that leave a fixed neighbourhood of it. -/
def PatternsGrow (N H W : Nat) (ca : RxnDfn ℝ) (z : ℝ × ℝ) : Prop :=
  ∃ δ > 0, ∀ η > 0, ∃ u : Univ ℝ N 2 H W, CloseBy η u (constUV z.1 z.2) ∧
    ∃ k u' s, iterate RxnDfn.forward k ca u = .ok (u', s) ∧ ¬ CloseBy δ u' (constUV z.1 z.2)

/-- The trace of what a step does to the wave of gain `g` on the rest point with `b` of the second
species. -/
noncomputable def waveTrace (ca : RxnDfn ℝ) (b g : ℝ) : ℝ :=
  2 + ca.dt * ((ca.diffU + ca.diffV) * g / ca.dx ^ 2 + ca.k - b ^ 2)

/-- The determinant of the rates of change. -/
noncomputable def rateDet (ca : RxnDfn ℝ) (b g : ℝ) : ℝ :=
  (ca.diffU * g / ca.dx ^ 2 - b ^ 2 - ca.f) * (ca.diffV * g / ca.dx ^ 2 + ca.f + ca.k) +
    2 * (ca.f + ca.k) * b ^ 2

/-- The determinant of what a step does. -/
noncomputable def waveDet (ca : RxnDfn ℝ) (b g : ℝ) : ℝ :=
  waveTrace ca b g - 1 + ca.dt ^ 2 * rateDet ca b g

/-- Both eigenvalues lie within the unit circle. -/
def DampedWave (τ D : ℝ) : Prop := |τ| < 1 + D ∧ D < 1

/-- An eigenvalue lies outside the unit circle. -/
def GrowingWave (τ D : ℝ) : Prop := 1 + D < |τ| ∨ 1 < D

end Spec

/-! ## Two by two matrices -/

theorem damped_roots {τ D : ℝ} (h : DampedWave τ D) {μ : ℂ} (hμ : μ ^ 2 - τ * μ + D = 0) : ‖μ‖ < 1 := by
  obtain ⟨h1, h2⟩ := h
  rw [abs_lt] at h1
  have hre := congrArg Complex.re hμ
  have him := congrArg Complex.im hμ
  simp only [pow_two, Complex.add_re, Complex.sub_re, Complex.mul_re, Complex.ofReal_re,
    Complex.ofReal_im, Complex.zero_re, Complex.add_im, Complex.sub_im, Complex.mul_im,
    Complex.zero_im] at hre him
  obtain ⟨x, hx⟩ : ∃ x, x = μ.re := ⟨_, rfl⟩
  obtain ⟨y, hy⟩ : ∃ y, y = μ.im := ⟨_, rfl⟩
  rw [← hx, ← hy] at hre him
  have hn : ‖μ‖ ^ 2 = x ^ 2 + y ^ 2 := by
    rw [Complex.sq_norm, Complex.normSq_apply, ← hx, ← hy]; ring
  have : ‖μ‖ ^ 2 < 1 := by
    rw [hn]
    by_cases hy0 : y = 0
    · subst hy0
      have e : x ^ 2 - τ * x + D = 0 := by nlinarith
      have e1 : 0 < (1 - x) * (1 - (τ - x)) := by nlinarith
      have e2 : 0 < (1 + x) * (1 + (τ - x)) := by nlinarith
      by_contra hc
      push Not at hc
      have hx1 : 1 ≤ x ^ 2 := by nlinarith
      rcases le_or_gt 0 x with h0 | h0
      · have : 1 ≤ x := by nlinarith
        have : x ≠ 1 := by rintro rfl; norm_num at e1
        have : 1 < x := lt_of_le_of_ne (by assumption) (Ne.symm this)
        have : 1 < τ - x := by nlinarith
        nlinarith
      · have : x ≤ -1 := by nlinarith
        have : x ≠ -1 := by rintro rfl; norm_num at e2
        have : x < -1 := lt_of_le_of_ne (by assumption) this
        have : τ - x < -1 := by nlinarith
        nlinarith
    · have e : 2 * x = τ := by
        have : y * (2 * x - τ) = 0 := by linarith
        rcases mul_eq_zero.1 this with h | h
        · exact absurd h hy0
        · linarith
      have : x ^ 2 + y ^ 2 = D := by rw [← e] at hre; nlinarith
      linarith
  nlinarith [norm_nonneg μ]

theorem growing_root {τ D : ℝ} (h : GrowingWave τ D) :
    ∃ μ : ℂ, μ ^ 2 - τ * μ + D = 0 ∧ 1 < ‖μ‖ := by
  have real : ∀ x : ℝ, x ^ 2 - τ * x + D = 0 → 1 < |x| → ∃ μ : ℂ, μ ^ 2 - τ * μ + D = 0 ∧ 1 < ‖μ‖ := by
    intro x hx h1
    refine ⟨x, by exact_mod_cast hx, ?_⟩
    rwa [Complex.norm_real]
  obtain ⟨Δ, hΔ⟩ : ∃ Δ, Δ = τ ^ 2 - 4 * D := ⟨_, rfl⟩
  by_cases h0 : 0 ≤ Δ
  · obtain ⟨s, hs⟩ : ∃ s, s = Real.sqrt Δ := ⟨_, rfl⟩
    have hs2 : s ^ 2 = Δ := by rw [hs]; exact Real.sq_sqrt h0
    have hs0 : 0 ≤ s := by rw [hs]; exact Real.sqrt_nonneg _
    rcases le_or_gt 0 τ with ht | ht
    · refine real ((τ + s) / 2) (by nlinarith) (lt_of_lt_of_le ?_ (le_abs_self _))
      by_contra hc
      push Not at hc
      have h3 : s ≤ 2 - τ := by linarith
      rcases h with h | h
      · rw [abs_of_nonneg ht] at h
        nlinarith
      · nlinarith
    · refine real ((τ - s) / 2) (by nlinarith) (lt_of_lt_of_le ?_ (neg_le_abs _))
      by_contra hc
      push Not at hc
      have h3 : s ≤ 2 + τ := by linarith
      rcases h with h | h
      · rw [abs_of_neg ht] at h
        nlinarith
      · nlinarith
  · push Not at h0
    have hD : 1 < D := by
      rcases h with h | h
      · exfalso
        have : (1 + D) ^ 2 < τ ^ 2 := by
          rw [← sq_abs τ]
          have : 0 ≤ D := by nlinarith [sq_nonneg τ]
          exact pow_lt_pow_left₀ h (by linarith) (by norm_num)
        nlinarith [sq_nonneg (1 - D)]
      · exact h
    obtain ⟨s, hs⟩ : ∃ s, s = Real.sqrt (-Δ) := ⟨_, rfl⟩
    have hs2 : s ^ 2 = -Δ := by rw [hs]; exact Real.sq_sqrt (by linarith)
    refine ⟨⟨τ / 2, s / 2⟩, ?_, ?_⟩
    · apply Complex.ext
      · simp only [pow_two, Complex.add_re, Complex.sub_re, Complex.mul_re, Complex.ofReal_re,
          Complex.ofReal_im, Complex.zero_re]
        nlinarith
      · simp only [pow_two, Complex.add_im, Complex.sub_im, Complex.mul_im, Complex.ofReal_re,
          Complex.ofReal_im, Complex.zero_im]
        ring
    · have hn : ‖(⟨τ / 2, s / 2⟩ : ℂ)‖ ^ 2 = D := by
        rw [Complex.sq_norm, Complex.normSq_apply]
        nlinarith
      nlinarith [norm_nonneg (⟨τ / 2, s / 2⟩ : ℂ)]

/-! ## The linear part -/

section

variable {r : Nat} (ca : RxnDfn ℝ) (κ : Fin (2 * r + 1) → Fin (2 * r + 1) → ℝ)

/-- The cells of the two species. -/
abbrev RxnCells (H W : Nat) := Fin 2 × Fin H × Fin W

/-- One channel. -/
def channel {α : Type} (x : RxnCells H W → α) (c : Fin 2) : Grid α H W := fun i j => x (c, i, j)

theorem gathered_add (x y : Grid ℝ H W) (i : Fin H) (j : Fin W) :
    gathered κ (fun i j => x i j + y i j) i j = gathered κ x i j + gathered κ y i j := by
  simp only [gathered, mul_add, Finset.sum_add_distrib]

theorem gathered_smul (c : ℝ) (x : Grid ℝ H W) (i : Fin H) (j : Fin W) :
    gathered κ (fun i j => c * x i j) i j = c * gathered κ x i j := by
  simp only [gathered, Finset.mul_sum]
  exact Finset.sum_congr rfl fun a _ => Finset.sum_congr rfl fun b _ => by ring

/-- What a step does to a small pattern on the rest point `(a, b)`, to first order; `a b = f + k`. -/
noncomputable def rxnLin (b : ℝ) : (RxnCells H W → ℝ) →ₗ[ℝ] (RxnCells H W → ℝ) where
  toFun x := fun p =>
    if p.1 = 0 then x (0, p.2) + ca.dt * (ca.diffU * (gathered κ (channel x 0) p.2.1 p.2.2 / ca.dx ^ 2)
      - (b ^ 2 + ca.f) * x (0, p.2) - 2 * (ca.f + ca.k) * x (1, p.2))
    else x (1, p.2) + ca.dt * (ca.diffV * (gathered κ (channel x 1) p.2.1 p.2.2 / ca.dx ^ 2)
      + b ^ 2 * x (0, p.2) + (ca.f + ca.k) * x (1, p.2))
  map_add' x y := by
    funext p
    have h := fun c => gathered_add κ (channel x c) (channel y c) p.2.1 p.2.2
    simp only [Pi.add_apply]
    have e : ∀ c, gathered κ (channel (x + y) c) p.2.1 p.2.2 =
        gathered κ (channel x c) p.2.1 p.2.2 + gathered κ (channel y c) p.2.1 p.2.2 := h
    rw [e, e]
    split <;> ring
  map_smul' c x := by
    funext p
    have h := fun d => gathered_smul κ c (channel x d) p.2.1 p.2.2
    simp only [Pi.smul_apply, smul_eq_mul, RingHom.id_apply]
    have e : ∀ d, gathered κ (channel (c • x) d) p.2.1 p.2.2 =
        c * gathered κ (channel x d) p.2.1 p.2.2 := h
    rw [e, e]
    split <;> ring

/-- Its matrix. -/
noncomputable def rxnMatrix (H W : Nat) (b : ℝ) : Matrix (RxnCells H W) (RxnCells H W) ℝ :=
  LinearMap.toMatrix' (rxnLin ca κ b)

variable {ca κ}

theorem rxnMatrix_mul (b : ℝ) (x : RxnCells H W → ℝ) : rxnMatrix ca κ H W b *ᵥ x = rxnLin ca κ b x := by
  rw [rxnMatrix, LinearMap.toMatrix'_mulVec]

/-- The real and the imaginary part of a complex multiple of a row. -/
theorem complex_row {ι : Type} [Fintype ι] (M : Matrix ι ι ℝ) (v : ι → ℂ) (i : ι) :
    ∑ j, (M i j : ℂ) * v j = ((M *ᵥ fun j => (v j).re) i : ℝ) + ((M *ᵥ fun j => (v j).im) i : ℝ) *
      Complex.I := by
  simp only [Matrix.mulVec, dotProduct]
  push_cast
  rw [Finset.sum_mul, ← Finset.sum_add_distrib]
  refine Finset.sum_congr rfl fun j _ => ?_
  conv_lhs => rw [← Complex.re_add_im (v j)]
  ring

/-- The part of a grid in a wave. -/
noncomputable def along (w x : Grid ℝ H W) : ℝ := ∑ i, ∑ j, x i j * w i j

theorem along_gathered (hκ : Balanced κ) {w : Grid ℝ H W} {g : ℝ}
    (hw : ∀ i j, gathered κ w i j = g * w i j) (x : Grid ℝ H W) :
    along w (gathered κ x) = g * along w x := by
  have := gathered_symm hκ x w
  simp only [along, this, hw, Finset.mul_sum]
  exact Finset.sum_congr rfl fun i _ => Finset.sum_congr rfl fun j _ => by ring

/-- The part of the image of a pattern in a wave depends on its own parts in that wave only. -/
theorem along_lin (hκ : Balanced κ) {w : Grid ℝ H W} {g : ℝ}
    (hw : ∀ i j, gathered κ w i j = g * w i j) (b : ℝ) (x : RxnCells H W → ℝ) :
    along w (channel (rxnLin ca κ b x) 0) =
      (1 + ca.dt * (ca.diffU * g / ca.dx ^ 2 - b ^ 2 - ca.f)) * along w (channel x 0) -
        ca.dt * (2 * (ca.f + ca.k)) * along w (channel x 1) ∧
    along w (channel (rxnLin ca κ b x) 1) =
      ca.dt * b ^ 2 * along w (channel x 0) +
        (1 + ca.dt * (ca.diffV * g / ca.dx ^ 2 + ca.f + ca.k)) * along w (channel x 1) := by
  have h0 := along_gathered hκ hw (channel x 0)
  have h1 := along_gathered hκ hw (channel x 1)
  have e0 : along w (channel (rxnLin ca κ b x) 0) = along w (channel x 0) + ca.dt * (ca.diffU *
      (along w (gathered κ (channel x 0)) / ca.dx ^ 2) - (b ^ 2 + ca.f) * along w (channel x 0) -
      2 * (ca.f + ca.k) * along w (channel x 1)) := by
    simp only [along, Finset.mul_sum, Finset.sum_div, ← Finset.sum_add_distrib,
      ← Finset.sum_sub_distrib]
    refine Finset.sum_congr rfl fun i _ => Finset.sum_congr rfl fun j _ => ?_
    simp only [channel, rxnLin, LinearMap.coe_mk, AddHom.coe_mk, if_true]
    ring
  have e1 : along w (channel (rxnLin ca κ b x) 1) = along w (channel x 1) + ca.dt * (ca.diffV *
      (along w (gathered κ (channel x 1)) / ca.dx ^ 2) + b ^ 2 * along w (channel x 0) +
      (ca.f + ca.k) * along w (channel x 1)) := by
    simp only [along, Finset.mul_sum, Finset.sum_div, ← Finset.sum_add_distrib]
    refine Finset.sum_congr rfl fun i _ => Finset.sum_congr rfl fun j _ => ?_
    simp only [channel, rxnLin, LinearMap.coe_mk, AddHom.coe_mk, one_ne_zero, if_false]
    ring
  rw [e0, e1, h0, h1]
  constructor <;> ring

/-- The eigenvalues of a step are those of the two by two matrices of the waves. -/
theorem rxn_eigen_wave (hκ : Balanced κ) {b : ℝ} {μ : ℂ} (h : Eigen (rxnMatrix ca κ H W b) μ) :
    ∃ p < H, ∃ q < W, μ ^ 2 - waveTrace ca b (waveGain κ H W p q) * μ +
      waveDet ca b (waveGain κ H W p q) = 0 := by
  obtain ⟨v, h0, hv⟩ := h
  by_contra hno
  push Not at hno
  have key : ∀ (w : Grid ℝ H W) (g : ℝ), (∀ i j, gathered κ w i j = g * w i j) →
      μ ^ 2 - waveTrace ca b g * μ + waveDet ca b g ≠ 0 → ∀ c,
      along w (channel (fun p => (v p).re) c) = 0 ∧ along w (channel (fun p => (v p).im) c) = 0 := by
    intro w g hw hne
    obtain ⟨r0, r1⟩ := along_lin (ca := ca) hκ hw b fun p => (v p).re
    obtain ⟨i0, i1⟩ := along_lin (ca := ca) hκ hw b fun p => (v p).im
    have hmul : ∀ c, (along w (channel (rxnLin ca κ b fun p => (v p).re) c) : ℂ) +
        along w (channel (rxnLin ca κ b fun p => (v p).im) c) * Complex.I =
        μ * (along w (channel (fun p => (v p).re) c) + along w (channel (fun p => (v p).im) c) *
          Complex.I) := by
      intro c
      simp only [along, channel]
      push_cast
      simp only [Finset.sum_mul, Finset.mul_sum, ← Finset.sum_add_distrib]
      refine Finset.sum_congr rfl fun i _ => Finset.sum_congr rfl fun j _ => ?_
      have := hv (c, i, j)
      rw [complex_row, rxnMatrix_mul, rxnMatrix_mul] at this
      have e : v (c, i, j) = ((v (c, i, j)).re : ℂ) + (v (c, i, j)).im * Complex.I :=
        (Complex.re_add_im _).symm
      rw [e] at this
      linear_combination (w i j : ℂ) * this
    obtain ⟨X, hX⟩ : ∃ X : Fin 2 → ℂ, ∀ c, X c = along w (channel (fun p => (v p).re) c) +
        along w (channel (fun p => (v p).im) c) * Complex.I := ⟨_, fun _ => rfl⟩
    have m0 := hmul 0
    have m1 := hmul 1
    rw [r0, i0, ← hX] at m0
    rw [r1, i1, ← hX] at m1
    push_cast at m0 m1
    have x0 := hX 0
    have x1 := hX 1
    obtain ⟨A, hA⟩ : ∃ A : ℂ, A = 1 + ca.dt * (ca.diffU * g / ca.dx ^ 2 - b ^ 2 - ca.f) := ⟨_, rfl⟩
    obtain ⟨B, hB⟩ : ∃ B : ℂ, B = -(ca.dt * (2 * (ca.f + ca.k))) := ⟨_, rfl⟩
    obtain ⟨C, hC⟩ : ∃ C : ℂ, C = ca.dt * b ^ 2 := ⟨_, rfl⟩
    obtain ⟨D, hD⟩ : ∃ D : ℂ, D = 1 + ca.dt * (ca.diffV * g / ca.dx ^ 2 + ca.f + ca.k) := ⟨_, rfl⟩
    have q0 : A * X 0 + B * X 1 = μ * X 0 := by
      rw [hA, hB]; linear_combination m0 + (1 + ca.dt * (ca.diffU * g / ca.dx ^ 2 - b ^ 2 - ca.f)) * x0 -
        (ca.dt * (2 * (ca.f + ca.k))) * x1
    have q1 : C * X 0 + D * X 1 = μ * X 1 := by
      rw [hC, hD]; linear_combination m1 + (ca.dt * b ^ 2) * x0 +
        (1 + ca.dt * (ca.diffV * g / ca.dx ^ 2 + ca.f + ca.k)) * x1
    have hpoly : μ ^ 2 - waveTrace ca b g * μ + waveDet ca b g = (μ - A) * (μ - D) - B * C := by
      rw [hA, hB, hC, hD]
      simp only [waveDet, waveTrace, rateDet]
      push_cast
      ring
    rw [hpoly] at hne
    have z0 : X 0 = 0 := by
      have : ((μ - A) * (μ - D) - B * C) * X 0 = 0 := by
        linear_combination -(μ - D) * q0 - B * q1
      exact (mul_eq_zero.1 this).resolve_left hne
    have z1 : X 1 = 0 := by
      have : ((μ - A) * (μ - D) - B * C) * X 1 = 0 := by
        linear_combination -(μ - A) * q1 - C * q0
      exact (mul_eq_zero.1 this).resolve_left hne
    intro c
    have hc : X c = 0 := by
      match c with
      | 0 => exact z0
      | 1 => exact z1
    have hh := hX c
    rw [hc] at hh
    have hr := congrArg Complex.re hh
    have hi := congrArg Complex.im hh
    simp at hr hi
    exact ⟨hr.symm, hi.symm⟩
  refine h0 ?_
  funext ⟨c, i, j⟩
  have hcos := fun p (hp : p < H) q (hq : q < W) =>
    key (fun (i : Fin H) (j : Fin W) => Real.cos (phase H W p q i.val j.val)) _ (gathered_cos hκ p q)
      (hno p hp q hq) c
  have hsin := fun p (hp : p < H) q (hq : q < W) =>
    key (fun (i : Fin H) (j : Fin W) => Real.sin (phase H W p q i.val j.val)) _ (gathered_sin hκ p q)
      (hno p hp q hq) c
  have e1 := waves_complete (w := channel (fun p => (v p).re) c) (fun p hp q hq => (hcos p hp q hq).1)
    (fun p hp q hq => (hsin p hp q hq).1) i j
  have e2 := waves_complete (w := channel (fun p => (v p).im) c) (fun p hp q hq => (hcos p hp q hq).2)
    (fun p hp q hq => (hsin p hp q hq).2) i j
  exact Complex.ext e1 e2

/-- And each of those is one. -/
theorem rxn_wave_eigen (hκ : Balanced κ) (hH : 1 ≤ H) (hW : 1 ≤ W) {b : ℝ} (hdt : ca.dt ≠ 0)
    (hfk : ca.f + ca.k ≠ 0) {μ : ℂ} (p q : Nat)
    (h : μ ^ 2 - waveTrace ca b (waveGain κ H W p q) * μ + waveDet ca b (waveGain κ H W p q) = 0) :
    Eigen (rxnMatrix ca κ H W b) μ := by
  obtain ⟨g, hg⟩ : ∃ g, g = waveGain κ H W p q := ⟨_, rfl⟩
  obtain ⟨w, hw⟩ : ∃ w : Grid ℝ H W, w = fun i j => Real.cos (phase H W p q i.val j.val) := ⟨_, rfl⟩
  have hwg : ∀ i j, gathered κ w i j = g * w i j := by
    intro i j
    rw [hw, hg]
    exact gathered_cos hκ p q i j
  rw [← hg] at h
  obtain ⟨A, hA⟩ : ∃ A : ℂ, A = 1 + ca.dt * (ca.diffU * g / ca.dx ^ 2 - b ^ 2 - ca.f) := ⟨_, rfl⟩
  obtain ⟨B, hB⟩ : ∃ B : ℂ, B = -(ca.dt * (2 * (ca.f + ca.k))) := ⟨_, rfl⟩
  have hB0 : B ≠ 0 := by
    rw [hB]
    refine neg_ne_zero.2 (mul_ne_zero (by exact_mod_cast hdt) (mul_ne_zero two_ne_zero ?_))
    exact_mod_cast hfk
  obtain ⟨X, hX⟩ : ∃ X : Fin 2 → ℂ, X = ![B, μ - A] := ⟨_, rfl⟩
  refine ⟨fun p => X p.1 * w p.2.1 p.2.2, ?_, ?_⟩
  · intro h0
    have := congrFun h0 (0, ⟨0, hH⟩, ⟨0, hW⟩)
    simp [hX, hw, phase] at this
    exact hB0 this
  · rintro ⟨c, i, j⟩
    rw [complex_row, rxnMatrix_mul, rxnMatrix_mul]
    have ere : ∀ d, channel (fun p : RxnCells H W => (X p.1 * w p.2.1 p.2.2).re) d =
        fun i j => (X d).re * w i j := by
      intro d; funext i j; simp [channel]
    have eim : ∀ d, channel (fun p : RxnCells H W => (X p.1 * w p.2.1 p.2.2).im) d =
        fun i j => (X d).im * w i j := by
      intro d; funext i j; simp [channel]
    match c with
    | 0 =>
      simp only [rxnLin, LinearMap.coe_mk, AddHom.coe_mk, if_true, ere, eim, gathered_smul, hwg]
      simp only [Complex.re_mul_ofReal, Complex.im_mul_ofReal]
      have e0 : X 0 = B := by rw [hX]; rfl
      have e1 : X 1 = μ - A := by rw [hX]; rfl
      have c0 := (Complex.re_add_im (X 0)).symm
      have c1 := (Complex.re_add_im (X 1)).symm
      have goal : (A * X 0 + B * X 1) * w i j = μ * X 0 * w i j := by rw [e0, e1]; ring
      rw [hA, hB] at goal
      rw [show μ * (X 0 * (w i j : ℂ)) = μ * X 0 * w i j by ring, ← goal]
      conv_rhs => rw [c0, c1]
      push_cast
      ring
    | 1 =>
      simp only [rxnLin, LinearMap.coe_mk, AddHom.coe_mk, one_ne_zero, if_false, ere, eim,
        gathered_smul, hwg]
      simp only [Complex.re_mul_ofReal, Complex.im_mul_ofReal]
      have e0 : X 0 = B := by rw [hX]; rfl
      have e1 : X 1 = μ - A := by rw [hX]; rfl
      have c0 := (Complex.re_add_im (X 0)).symm
      have c1 := (Complex.re_add_im (X 1)).symm
      have goal : (ca.dt * b ^ 2 * X 0 + (1 + ca.dt * (ca.diffV * g / ca.dx ^ 2 + ca.f + ca.k)) * X 1) *
          w i j = μ * X 1 * w i j := by
        rw [e0, e1]
        have hpoly : μ ^ 2 - waveTrace ca b g * μ + waveDet ca b g = (μ - A) * (μ - (1 + ca.dt *
            (ca.diffV * g / ca.dx ^ 2 + ca.f + ca.k))) - B * (ca.dt * b ^ 2) := by
          rw [hA, hB]
          simp only [waveDet, waveTrace, rateDet]
          push_cast
          ring
        rw [hpoly] at h
        linear_combination -(w i j : ℂ) * h
      rw [show μ * (X 1 * (w i j : ℂ)) = μ * X 1 * w i j by ring, ← goal]
      conv_rhs => rw [c0, c1]
      push_cast
      ring

end

end Yuca
