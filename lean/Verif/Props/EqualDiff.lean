import Verif.Props.GrayScottPatterns

/-!
# Equal diffusion rates make no patterns (C128)
-/

namespace Yuca

open Arith Spec Matrix

variable {N H W : Nat}

/-- Adding the same damping to both species keeps a damped two by two system damped. -/
theorem shift_damped {τ D s : ℝ} (h : DampedWave τ D) (h0 : s ≤ 0) (h1 : -τ ≤ s) :
    DampedWave (τ + 2 * s) (D + s * τ + s ^ 2) := by
  obtain ⟨a, b⟩ := h
  obtain ⟨a1, a2⟩ := abs_lt.1 a
  have e1 : 0 ≤ -s * (τ + s) := mul_nonneg (by linarith) (by linarith)
  have e3 : 0 ≤ 2 - τ - s := by linarith
  have e4 : 0 ≤ -s * (2 - τ - s) := mul_nonneg (by linarith) e3
  have e5 : 0 ≤ (s + τ) * (s + 2) ∨ s + 2 < 0 := by
    by_cases h : 0 ≤ s + 2
    · exact .inl (mul_nonneg (by linarith) h)
    · exact .inr (by linarith)
  refine ⟨abs_lt.2 ⟨?_, by nlinarith⟩, by nlinarith⟩
  rcases e5 with e5 | e5
  · nlinarith
  · linarith

/-- C128: if both species diffuse equally fast, a rest point that attracts the homogeneous universes
nearby attracts every pattern nearby, unless the step is too large for the diffusion. -/
theorem equal_diffusion_fades {r : Nat} {ca : RxnDfn ℝ}
    {κ : Fin (2 * r + 1) → Fin (2 * r + 1) → ℝ} (hT : OnTorus ca κ) (hR : Room r H W)
    (hκ : Balanced κ) (hE : Exchanges κ) (hf : 0 < ca.f) (hk : 0 ≤ ca.k) (hdt : 0 < ca.dt)
    (hD : ca.diffU = ca.diffV) (hD0 : 0 ≤ ca.diffV) {z : ℝ × ℝ}
    (hr : ReactionRest ca.f ca.k z.1 z.2) (hb : 0 < z.2) (h1 : ca.f < z.2 ^ 2)
    (h2 : ca.dt * (ca.f + ca.k) * (z.2 ^ 2 - ca.f) < z.2 ^ 2 - ca.k)
    (h3 : ca.dt * (2 * ca.diffV * given κ / ca.dx ^ 2 + z.2 ^ 2 - ca.k) ≤ 2) :
    PatternsFade N H W ca z := by
  refine rxn_patterns_fade hT hR hκ hE.2 hf hk hr hb fun p _ q _ => ?_
  obtain ⟨g1, g2⟩ := exchange_gain hE H W p q
  obtain ⟨g, hg⟩ : ∃ g, g = waveGain κ H W p q := ⟨_, rfl⟩
  rw [← hg] at g1 g2 ⊢
  obtain ⟨c, hc⟩ : ∃ c, c = ca.diffV / ca.dx ^ 2 := ⟨_, rfl⟩
  have hc0 : 0 ≤ c := by rw [hc]; positivity
  obtain ⟨b2, hb2⟩ : ∃ x, x = z.2 ^ 2 := ⟨_, rfl⟩
  rw [← hb2] at h1 h2 h3
  have e3 : 2 * ca.diffV * given κ / ca.dx ^ 2 = c * (2 * given κ) := by rw [hc]; ring
  rw [e3] at h3
  have hs0 : ca.dt * (c * g) ≤ 0 :=
    mul_nonpos_of_nonneg_of_nonpos hdt.le (mul_nonpos_of_nonneg_of_nonpos hc0 g2)
  have hcg : -(c * (2 * given κ)) ≤ c * g := by
    have := mul_le_mul_of_nonneg_left g1 hc0
    linarith
  have hs1 : -(2 + ca.dt * (ca.k - b2)) ≤ ca.dt * (c * g) := by
    have := mul_le_mul_of_nonneg_left hcg hdt.le
    linarith
  have hq : 0 < ca.dt ^ 2 * ((ca.f + ca.k) * (b2 - ca.f)) :=
    mul_pos (by positivity) (mul_pos (by linarith) (by linarith))
  have hu : ca.dt ^ 2 * ((ca.f + ca.k) * (b2 - ca.f)) < ca.dt * (b2 - ca.k) := by
    have := mul_lt_mul_of_pos_left h2 hdt
    linarith
  have base : DampedWave (2 + ca.dt * (ca.k - b2))
      (1 + ca.dt * (ca.k - b2) + ca.dt ^ 2 * ((ca.f + ca.k) * (b2 - ca.f))) :=
    ⟨abs_lt.2 ⟨by linarith, by linarith⟩, by linarith⟩
  have := shift_damped base hs0 hs1
  have eT : waveTrace ca z.2 g = 2 + ca.dt * (ca.k - b2) + 2 * (ca.dt * (c * g)) := by
    unfold waveTrace
    rw [hD, hc, hb2]; ring
  have eD : waveDet ca z.2 g = 1 + ca.dt * (ca.k - b2) +
      ca.dt ^ 2 * ((ca.f + ca.k) * (b2 - ca.f)) + ca.dt * (c * g) * (2 + ca.dt * (ca.k - b2)) +
      (ca.dt * (c * g)) ^ 2 := by
    unfold waveDet rateDet
    rw [eT, hD, hc, hb2]; ring
  rw [eT, eD]
  exact this

/-- C128: the stripes of `rxn_patterns_refuted` are due to the different diffusion rates alone.  With
any common rate up to 3e-5 the same background attracts every pattern nearby, on grids of every
size. -/
theorem equal_diffusion_turing {D : ℝ} (h0 : 0 ≤ D) (h1 : D ≤ 3e-5) (hH : 1 ≤ H) (hW : 1 ≤ W) :
    PatternsFade N H W { turing with diffU := D, diffV := D } turing.background := by
  have hf : 0 < turing.f := by norm_num [turing, RxnDfn.default]
  have hk : 0 ≤ turing.k := by norm_num [turing, RxnDfn.default]
  have e1 : turing.f = 0.0620 := rfl
  have e2 : turing.k = 0.0622 := rfl
  have h4 : 4 * (turing.f + turing.k) ^ 2 < turing.f := by rw [e1, e2]; norm_num
  rw [background_high _ hf hk]
  have hrest : ReactionRest turing.f turing.k (highRest turing.f turing.k).1
    (highRest turing.f turing.k).2 := (rest_levels hf hk _ _).2 (.inr ⟨h4.le, .inr rfl⟩)
  obtain ⟨b, hb⟩ : ∃ b, b = (highRest turing.f turing.k).2 := ⟨_, rfl⟩
  have b1 : 0.2665 ≤ b := by
    have hr : 0.068 ≤ Real.sqrt (1 - 4 * ((0.0620 : ℝ) + 0.0622) ^ 2 / 0.0620) :=
      Real.le_sqrt_of_sq_le (by norm_num)
    rw [hb, e1, e2]
    simp only [highRest]
    rw [le_div_iff₀ (by norm_num)]
    nlinarith
  have b2 : b ≤ 0.26757 := by
    have hr : Real.sqrt (1 - 4 * ((0.0620 : ℝ) + 0.0622) ^ 2 / 0.0620) ≤ 0.072 :=
      Real.sqrt_le_iff.2 ⟨by norm_num, by norm_num⟩
    rw [hb, e1, e2]
    simp only [highRest]
    rw [div_le_iff₀ (by norm_num)]
    nlinarith
  have s1 : 0.071 ≤ b ^ 2 := by nlinarith
  have s2 : b ^ 2 ≤ 0.0716 := by nlinarith
  refine equal_diffusion_fades (r := 1) (ca := { turing with diffU := D, diffV := D })
    (κ := logKernel 0.5 (radialGrid 1)) ⟨rfl, rfl⟩ ⟨⟨hH, hH⟩, hW, hW⟩ (log_balanced 1 0.5) default_exchanges.1 hf hk
    (by norm_num [turing, RxnDfn.default]) rfl h0 hrest (by rw [← hb]; linarith) ?_ ?_ ?_
  · show turing.f < (highRest turing.f turing.k).2 ^ 2
    rw [← hb, e1]; linarith
  · show (0.5 : ℝ) * (turing.f + turing.k) * ((highRest turing.f turing.k).2 ^ 2 - turing.f) <
      (highRest turing.f turing.k).2 ^ 2 - turing.k
    rw [← hb, e1, e2]; linarith
  · show (0.5 : ℝ) * (2 * D * given (r := 1) (logKernel 0.5 (radialGrid 1)) / (1 / 330) ^ 2 +
      (highRest turing.f turing.k).2 ^ 2 - turing.k) ≤ 2
    rw [← hb, e2, default_exchanges.2]
    norm_num at h1 ⊢
    linarith

/-- On a 7 by 32 torus one automaton has growing stripes and the other, with the mean of the two
diffusion rates for both species, has none. -/
example : PatternsGrow 1 7 32 turing turing.background ∧
    PatternsFade 1 7 32 { turing with diffU := 1.5e-5, diffV := 1.5e-5 } turing.background :=
  ⟨rxn_patterns_refuted.2 (m := 2) (by decide) (by decide) (by decide),
    equal_diffusion_turing (by norm_num) (by norm_num) (by decide) (by decide)⟩

end Yuca
