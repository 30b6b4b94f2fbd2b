import Verif.Props.GrayScottWaves
import Mathlib.Analysis.SpecialFunctions.Trigonometric.Bounds

/-! # C128: the background of the default automaton and of one with another kill rate -/

namespace Yuca

open Arith Spec Matrix

variable {N H W : Nat}

/-- An exchanging kernel multiplies waves by numbers between `-2 given κ` and 0. -/
theorem exchange_gain {r : Nat} {κ : Fin (2 * r + 1) → Fin (2 * r + 1) → ℝ} (hκ : Exchanges κ)
    (H W p q : Nat) : -(2 * given κ) ≤ waveGain κ H W p q ∧ waveGain κ H W p q ≤ 0 := by
  obtain ⟨hoff, hsum⟩ := hκ
  obtain ⟨c, hc⟩ : ∃ c : Fin (2 * r + 1), c = ⟨r, by omega⟩ := ⟨_, rfl⟩
  obtain ⟨θ, hθ⟩ : ∃ θ : Fin (2 * r + 1) → Fin (2 * r + 1) → ℝ, θ = fun a b =>
    phase H W p q ((a.val : ℝ) - r) ((b.val : ℝ) - r) := ⟨_, rfl⟩
  have hθc : θ c c = 0 := by rw [hθ, hc]; simp [phase]
  have e : waveGain κ H W p q = ∑ a, ∑ b, κ a b * (Real.cos (θ a b) - 1) := by
    simp only [mul_sub, mul_one, Finset.sum_sub_distrib, hsum, sub_zero, hθ]
    rfl
  have off : ∀ a b, ¬ (a = c ∧ b = c) → 0 ≤ κ a b := fun a b h =>
    hoff a b fun h' => h ⟨by rw [hc]; exact Fin.ext h'.1, by rw [hc]; exact Fin.ext h'.2⟩
  have hg : given κ = ∑ a, ∑ b, (κ a b + if a = c ∧ b = c then given κ else 0) := by
    have : ∑ a, ∑ b, (if a = c ∧ b = c then given κ else 0) = given κ := by
      simp only [ite_and, Finset.sum_ite_eq', Finset.mem_univ, if_true, Finset.sum_ite_irrel,
        Finset.sum_const_zero]
    simp only [Finset.sum_add_distrib, hsum, zero_add, this]
  rw [e]
  constructor
  · rw [hg]
    simp only [Finset.mul_sum, ← Finset.sum_neg_distrib]
    refine Finset.sum_le_sum fun a _ => Finset.sum_le_sum fun b _ => ?_
    by_cases h : a = c ∧ b = c
    · rw [if_pos h, h.1, h.2, hθc, Real.cos_zero, sub_self, mul_zero]
      have : given κ = -κ c c := by rw [hc]; rfl
      rw [this]
      linarith
    · rw [if_neg h, add_zero]
      have := off a b h
      have := Real.neg_one_le_cos (θ a b)
      nlinarith
  · refine Finset.sum_nonpos fun a _ => Finset.sum_nonpos fun b _ => ?_
    by_cases h : a = c ∧ b = c
    · rw [h.1, h.2, hθc, Real.cos_zero, sub_self, mul_zero]
    · have := off a b h
      have := Real.cos_le_one (θ a b)
      nlinarith

theorem radial_rev (r : Nat) (a b : Fin (2 * r + 1)) : radialGrid r a.rev b.rev = radialGrid r a b := by
  have h : ∀ a : Fin (2 * r + 1), ((a.rev.val : ℝ) - r) ^ 2 = ((a.val : ℝ) - r) ^ 2 := by
    intro a
    have h1 : a.rev.val = 2 * r - a.val := by rw [Fin.val_rev]; omega
    have h2 : a.val ≤ 2 * r := by have := a.isLt; omega
    rw [h1, Nat.cast_sub h2]
    push_cast
    ring
  unfold radialGrid
  rw [h, h]

/-- The kernel of the default automaton is balanced. -/
theorem log_balanced (r : Nat) (σ : ℝ) : Balanced (logKernel σ (radialGrid r)) := by
  intro a b
  simp only [logKernel, radial_rev]

/-- Its entries beside the centre are equal. -/
theorem log_edges (σ : ℝ) : logKernel (r := 1) σ (radialGrid 1) 0 1 = logKernel (r := 1) σ (radialGrid 1) 1 0 := by
  have : radialGrid 1 0 1 = radialGrid 1 1 0 := by
    unfold radialGrid
    norm_num
  simp only [logKernel, this]

/-- C128: the universe `initialize_grid` makes with the default parameters attracts every pattern
nearby, on grids of every size. -/
theorem rxn_default_patterns (hH : 1 ≤ H) (hW : 1 ≤ W) :
    PatternsFade N H W RxnDfn.default RxnDfn.default.background := by
  have hf : 0 < RxnDfn.default.f := by norm_num [RxnDfn.default]
  have hk : 0 ≤ RxnDfn.default.k := by norm_num [RxnDfn.default]
  have h4 : 4 * (RxnDfn.default.f + RxnDfn.default.k) ^ 2 < RxnDfn.default.f := by
    norm_num [RxnDfn.default]
  rw [background_high _ hf hk]
  have hb : 0.29 ≤ (highRest RxnDfn.default.f RxnDfn.default.k).2 := by
    have hr : 0.15 ≤ Real.sqrt (1 - 4 * ((0.0620 : ℝ) + 0.0609) ^ 2 / 0.0620) :=
      Real.le_sqrt_of_sq_le (by norm_num)
    simp only [highRest, RxnDfn.default]
    rw [le_div_iff₀ (by norm_num)]
    nlinarith
  have hb' : (highRest RxnDfn.default.f RxnDfn.default.k).2 ≤ 0.31 := by
    have hr : Real.sqrt (1 - 4 * ((0.0620 : ℝ) + 0.0609) ^ 2 / 0.0620) ≤ 0.2 :=
      Real.sqrt_le_iff.2 ⟨by norm_num, by norm_num⟩
    simp only [highRest, RxnDfn.default]
    rw [div_le_iff₀ (by norm_num)]
    nlinarith
  refine rxn_patterns_fade (r := 1) ⟨rfl, rfl⟩ ⟨⟨hH, hH⟩, hW, hW⟩ (log_balanced 1 0.5)
    (log_sum (r := 1) 0.5 (radialGrid 1)) hf hk ((rest_levels hf hk _ _).2 (.inr ⟨h4.le, .inr rfl⟩))
    (by linarith) fun p _ q _ => ?_
  have hg := exchange_gain default_exchanges.1 H W p q
  rw [default_exchanges.2] at hg
  obtain ⟨g, hg'⟩ : ∃ g, g = waveGain (r := 1) (logKernel 0.5 (radialGrid 1)) H W p q := ⟨_, rfl⟩
  obtain ⟨b, hb''⟩ : ∃ b, b = (highRest RxnDfn.default.f RxnDfn.default.k).2 := ⟨_, rfl⟩
  rw [← hg'] at hg ⊢
  rw [← hb''] at hb hb' ⊢
  have s1 : 0.0841 ≤ b ^ 2 := by nlinarith
  have s2 : b ^ 2 ≤ 0.0961 := by nlinarith
  obtain ⟨s, hs⟩ : ∃ s, s = b ^ 2 := ⟨_, rfl⟩
  obtain ⟨y, hy⟩ : ∃ y, y = -g := ⟨_, rfl⟩
  have hgy : g = -y := by linarith
  have y0 : 0 ≤ y := by linarith
  have y1 : y ≤ 1 := by linarith
  have eT : waveTrace RxnDfn.default b g = 2 + 0.5 * (-3.267 * y + 0.0609 - s) := by
    rw [hgy, hs]
    norm_num [waveTrace, RxnDfn.default]
    ring
  have eR : rateDet RxnDfn.default b g =
      2.371842 * y ^ 2 + y * (1.089 * s - 0.2001582) + 0.1229 * (s - 0.062) := by
    rw [hgy, hs]
    norm_num [rateDet, RxnDfn.default]
    ring
  have eD : waveDet RxnDfn.default b g = waveTrace RxnDfn.default b g - 1 +
      0.25 * rateDet RxnDfn.default b g := by
    unfold waveDet
    norm_num [RxnDfn.default]
  rw [← hs] at s1 s2
  have hys : 0 ≤ y * (s - 0.0841) := mul_nonneg y0 (by linarith)
  have hys' : 0 ≤ y * (0.0961 - s) := mul_nonneg y0 (by linarith)
  have hyy : 0 ≤ y * (1 - y) := mul_nonneg y0 (by linarith)
  have hpos : 0 < rateDet RxnDfn.default b g := by
    rw [eR]
    nlinarith [sq_nonneg (y - 0.0229)]
  unfold DampedWave
  rw [eD, abs_lt]
  refine ⟨⟨?_, ?_⟩, ?_⟩
  · rw [eT]
    nlinarith
  · linarith
  · rw [eT, eR]
    nlinarith

/-- The default automaton with another kill rate. -/
noncomputable def Spec.turing : RxnDfn ℝ := { RxnDfn.default with k := 0.0622 }

/-- On a grid whose width is a multiple of 16 the kernel of the default automaton multiplies the wave
of 16 cells by a number between -0.0381 and -0.019. -/
theorem stripe_gain (H : Nat) {m : Nat} (hm : 1 ≤ m) :
    -0.0381 ≤ waveGain (r := 1) (logKernel 0.5 (radialGrid 1)) H (16 * m) 0 m ∧
      waveGain (r := 1) (logKernel 0.5 (radialGrid 1)) H (16 * m) 0 m ≤ -0.019 := by
  obtain ⟨⟨hoff, hsum⟩, hgiven⟩ := default_exchanges
  have hedge := log_edges 0.5
  have hbal := log_balanced 1 0.5
  obtain ⟨κ, hκ⟩ : ∃ κ : Fin (2 * 1 + 1) → Fin (2 * 1 + 1) → ℝ,
    κ = logKernel (r := 1) 0.5 (radialGrid 1) := ⟨_, rfl⟩
  rw [← hκ] at hoff hsum hgiven hedge hbal ⊢
  have sum3 : ∀ g : Fin (2 * 1 + 1) → Fin (2 * 1 + 1) → ℝ, ∑ a, ∑ b, g a b =
      (g 0 0 + g 0 1 + g 0 2) + (g 1 0 + g 1 1 + g 1 2) + (g 2 0 + g 2 1 + g 2 2) := by
    intro g
    refine (Fin.sum_univ_three fun a : Fin 3 => ∑ b : Fin 3, g a b).trans ?_
    rw [Fin.sum_univ_three, Fin.sum_univ_three, Fin.sum_univ_three]
  have hc : κ 1 1 = -(1 / 2) := by
    have : given (r := 1) κ = -κ 1 1 := rfl
    linarith
  have b1 : κ 2 1 = κ 0 1 := hbal 0 1
  have b2 : κ 1 2 = κ 1 0 := hbal 1 0
  have o1 := hoff 0 0 (by decide)
  have o2 := hoff 0 1 (by decide)
  have o3 := hoff 0 2 (by decide)
  have o4 := hoff 2 0 (by decide)
  have o5 := hoff 2 2 (by decide)
  rw [sum3] at hsum
  have hm' : (m : ℝ) ≠ 0 := by have : (1 : ℝ) ≤ m := by exact_mod_cast hm
                               linarith
  have hph : ∀ y x : ℝ, phase H (16 * m) 0 m y x = Real.pi / 8 * x := by
    intro y x
    unfold phase
    push_cast
    field_simp
    ring
  obtain ⟨c, hcd⟩ : ∃ c, c = Real.cos (Real.pi / 8) := ⟨_, rfl⟩
  have hcb : 0.9238 ≤ c ∧ c ≤ 0.924 := by
    rw [hcd, Real.cos_pi_div_eight]
    have h1 : 1.414 ≤ Real.sqrt 2 := Real.le_sqrt_of_sq_le (by norm_num)
    have h2 : Real.sqrt 2 ≤ 1.4143 := Real.sqrt_le_iff.2 ⟨by norm_num, by norm_num⟩
    have h3 : 1.8476 ≤ Real.sqrt (2 + Real.sqrt 2) := Real.le_sqrt_of_sq_le (by norm_num; linarith)
    have h4 : Real.sqrt (2 + Real.sqrt 2) ≤ 1.848 := Real.sqrt_le_iff.2 ⟨by norm_num, by norm_num; linarith⟩
    constructor <;> linarith
  have hgain : waveGain κ H (16 * m) 0 m = (κ 0 0 + κ 1 0 + κ 2 0 + κ 0 2 + κ 1 2 + κ 2 2) * c +
      (κ 0 1 + κ 1 1 + κ 2 1) := by
    unfold waveGain
    rw [sum3]
    simp only [hph]
    have v0 : (((0 : Fin (2 * 1 + 1)).val : ℕ) : ℝ) - (1 : ℕ) = -1 := by norm_num
    have v1 : (((1 : Fin (2 * 1 + 1)).val : ℕ) : ℝ) - (1 : ℕ) = 0 := by norm_num
    have v2 : (((2 : Fin (2 * 1 + 1)).val : ℕ) : ℝ) - (1 : ℕ) = 1 := by norm_num
    rw [v0, v1, v2, mul_neg_one, Real.cos_neg, mul_zero, Real.cos_zero, mul_one (Real.pi / 8), ← hcd]
    ring
  obtain ⟨S, hS⟩ : ∃ S, S = κ 0 0 + κ 1 0 + κ 2 0 + κ 0 2 + κ 1 2 + κ 2 2 := ⟨_, rfl⟩
  have hg2 : waveGain κ H (16 * m) 0 m = -(S * (1 - c)) := by
    rw [hgain, ← hS]
    linarith
  have S1 : 1 / 4 ≤ S := by linarith
  have S2 : S ≤ 1 / 2 := by linarith
  rw [hg2]
  constructor <;> nlinarith

/-- C128 (refuted): that a background which attracts all homogeneous universes nearby attracts
patterns as well.  With kill rate 0.0622 stripes of 16 cells grow. -/
theorem rxn_patterns_refuted : Attracts (uvStep turing.f turing.k turing.dt) turing.background ∧
    ∀ {N H m : Nat}, 0 < N → 1 ≤ H → 1 ≤ m → PatternsGrow N H (16 * m) turing turing.background := by
  have e1 : turing.f = 0.0620 := rfl
  have e2 : turing.k = 0.0622 := rfl
  have e3 : turing.dt = 0.5 := rfl
  have hf : 0 < turing.f := by rw [e1]; norm_num
  have hk : 0 ≤ turing.k := by rw [e2]; norm_num
  have h4 : 4 * (turing.f + turing.k) ^ 2 < turing.f := by rw [e1, e2]; norm_num
  rw [background_high _ hf hk]
  have hrest : ReactionRest turing.f turing.k (highRest turing.f turing.k).1
    (highRest turing.f turing.k).2 := (rest_levels hf hk _ _).2 (.inr ⟨h4.le, .inr rfl⟩)
  obtain ⟨b, hb⟩ : ∃ b, b = (highRest turing.f turing.k).2 := ⟨_, rfl⟩
  have b1 : 0.2665 ≤ b := by
    have hr : 0.068 ≤ Real.sqrt (1 - 4 * ((0.0620 : ℝ) + 0.0622) ^ 2 / 0.0620) :=
      Real.le_sqrt_of_sq_le (by norm_num)
    rw [hb, e1, e2]
    simp only [highRest]
    rw [le_div_iff₀ (by norm_num)]
    nlinarith
  have b2 : b ≤ 0.26757 := by
    have hr : Real.sqrt (1 - 4 * ((0.0620 : ℝ) + 0.0622) ^ 2 / 0.0620) ≤ 0.072 :=
      Real.sqrt_le_iff.2 ⟨by norm_num, by norm_num⟩
    rw [hb, e1, e2]
    simp only [highRest]
    rw [div_le_iff₀ (by norm_num)]
    nlinarith
  have s1 : 0.071 ≤ b ^ 2 := by nlinarith
  have s2 : b ^ 2 ≤ 0.0716 := by nlinarith
  constructor
  · refine rest_attracts (a := (highRest turing.f turing.k).1) (b := (highRest turing.f turing.k).2)
      hf hk (by rw [e3]; norm_num) (by rw [e3]; norm_num) hrest (by rw [← hb]; linarith) ?_ ?_
    · rw [← hb, e1]; linarith
    · rw [← hb, e1, e2, e3]; linarith
  · intro N H m hN hH hm
    refine rxn_patterns_grow (r := 1) (κ := logKernel 0.5 (radialGrid 1)) (p := 0) (q := m) ⟨rfl, rfl⟩
      ⟨⟨hH, hH⟩, by omega, by omega⟩ (log_balanced 1 0.5) (log_sum (r := 1) 0.5 (radialGrid 1)) hf hk
      (by rw [e3]; norm_num) hrest (by rw [← hb]; linarith) hN (.inl ?_)
    obtain ⟨g1, g2⟩ := stripe_gain H hm
    obtain ⟨g, hg⟩ : ∃ g, g = waveGain (r := 1) (logKernel 0.5 (radialGrid 1)) H (16 * m) 0 m := ⟨_, rfl⟩
    rw [← hg] at g1 g2 ⊢
    rw [← hb]
    obtain ⟨s, hs⟩ : ∃ s, s = b ^ 2 := ⟨_, rfl⟩
    obtain ⟨y, hy⟩ : ∃ y, y = -g := ⟨_, rfl⟩
    have hgy : g = -y := by linarith
    have y0 : 0.019 ≤ y := by linarith
    have y1 : y ≤ 0.0381 := by linarith
    have eR : rateDet turing b g =
        2.371842 * y ^ 2 + y * (1.089 * s - 0.2029896) + 0.1242 * (s - 0.062) := by
      rw [hgy, hs]
      norm_num [rateDet, turing, RxnDfn.default]
      ring
    rw [← hs] at s1 s2
    have hneg : rateDet turing b g < 0 := by
      rw [eR]
      nlinarith [mul_nonneg (sub_nonneg.2 y0) (sub_nonneg.2 y1),
        mul_nonneg (by linarith : (0 : ℝ) ≤ y) (sub_nonneg.2 s2)]
    have e4 : waveDet turing b g = waveTrace turing b g - 1 + 0.25 * rateDet turing b g := by
      unfold waveDet
      rw [e3]
      norm_num
    rw [e4]
    have := le_abs_self (waveTrace turing b g)
    linarith

/-- The default automaton on a 3 by 5 torus meets the hypotheses of `rxn_patterns_fade`. -/
example : OnTorus (r := 1) RxnDfn.default (logKernel 0.5 (radialGrid 1)) ∧ Room 1 3 5 ∧
    Balanced (logKernel 0.5 (radialGrid 1)) ∧ PatternsFade 2 3 5 RxnDfn.default RxnDfn.default.background :=
  ⟨⟨rfl, rfl⟩, ⟨by decide, by decide⟩, log_balanced 1 0.5, rxn_default_patterns (by decide) (by decide)⟩

/-- And the other one on a 7 by 32 torus those of `rxn_patterns_grow`. -/
example : OnTorus (r := 1) turing (logKernel 0.5 (radialGrid 1)) ∧ Room 1 7 32 ∧
    PatternsGrow 1 7 32 turing turing.background :=
  ⟨⟨rfl, rfl⟩, ⟨by decide, by decide⟩,
    rxn_patterns_refuted.2 (m := 2) (by decide) (by decide) (by decide)⟩

end Yuca
