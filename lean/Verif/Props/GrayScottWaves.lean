import Verif.Props.GrayScottLinear
import Verif.Props.GrayScottDecay

/-! # C128: which rest points are stable against patterns

Near a rest point a step is linear up to terms of second order. -/

namespace Yuca

open Arith Spec Matrix

variable {N H W : Nat}

section

variable {r : Nat} (ca : RxnDfn ℝ) (κ : Fin (2 * r + 1) → Fin (2 * r + 1) → ℝ)

/-- A step of one sample. -/
noncomputable def rxnGrid (x : Fin 2 → Grid ℝ H W) : Fin 2 → Grid ℝ H W := fun c i j =>
  if c = 0 then clip (x 0 i j + ca.dt * (ca.diffU * (gathered κ (x 0) i j / ca.dx ^ 2) -
    x 0 i j * x 1 i j ^ 2 + ca.f * (1 - x 0 i j)))
  else clip (x 1 i j + ca.dt * (ca.diffV * (gathered κ (x 1) i j / ca.dx ^ 2) +
    x 0 i j * x 1 i j ^ 2 - (ca.f + ca.k) * x 1 i j))

/-- The rest point. -/
def restLevel (z : ℝ × ℝ) (c : Fin 2) : ℝ := if c = 0 then z.1 else z.2

/-- A step seen from the rest point. -/
noncomputable def rxnLocal (z : ℝ × ℝ) (x : RxnCells H W → ℝ) : RxnCells H W → ℝ := fun p =>
  rxnGrid ca κ (fun c i j => restLevel z c + x (c, i, j)) p.1 p.2.1 p.2.2 - restLevel z p.1

variable {ca κ}

theorem rxn_grid_run (hT : OnTorus ca κ) (hR : Room r H W) (n : Nat) : ∀ (t : ℝ) (u : Univ ℝ N 2 H W),
    ∃ s, iterate RxnDfn.forward n { ca with t := t } u = .ok (fun m => (rxnGrid ca κ)^[n] (u m), s) := by
  induction n with
  | zero => intro t u; exact ⟨_, rfl⟩
  | succ n ih =>
    intro t u
    obtain ⟨x', h1, h2⟩ := rxn_rule { ca with t := t } κ hT.idL hT.nbL u hR.1 hR.2
    have e : x' = fun m => rxnGrid ca κ (u m) := by
      funext m c i j
      obtain ⟨a0, a1⟩ := h2 m i j
      match c with
      | 0 => exact a0
      | 1 => exact a1
    obtain ⟨s, h3⟩ := ih (t + ca.dt) fun m => rxnGrid ca κ (u m)
    refine ⟨s, ?_⟩
    simp only [iterate, h1, bind, Except.bind, e]
    exact h3

theorem rxnLocal_iterate (z : ℝ × ℝ) (n : Nat) (y : Fin 2 → Grid ℝ H W) :
    (rxnLocal ca κ z)^[n] (fun p => y p.1 p.2.1 p.2.2 - restLevel z p.1) =
      fun p => (rxnGrid ca κ)^[n] y p.1 p.2.1 p.2.2 - restLevel z p.1 := by
  induction n with
  | zero => rfl
  | succ n ih =>
    rw [Function.iterate_succ_apply', ih, Function.iterate_succ_apply']
    funext p
    simp only [rxnLocal, add_sub_cancel]

/-- Near a rest point a step is linear up to terms of second order. -/
theorem rxnLocal_near {a b : ℝ} (hf : 0 < ca.f) (hk : 0 ≤ ca.k) (hr : ReactionRest ca.f ca.k a b)
    (hb : 0 < b) (hs : ∑ i, ∑ j, κ i j = 0) :
    QuadNear (rxnLocal (H := H) (W := W) ca κ (a, b)) (rxnMatrix ca κ H W b) := by
  obtain ⟨h2, ha, ha1, hb1⟩ := rest_inside hf hk hr hb
  have h1 := hr.1
  obtain ⟨B, hB0, hB⟩ : ∃ B, 0 ≤ B ∧ ∀ x : RxnCells H W → ℝ, ‖rxnLin ca κ b x‖ ≤ B * ‖x‖ :=
    ⟨_, norm_nonneg (LinearMap.toContinuousLinearMap (rxnLin (H := H) (W := W) ca κ b)),
      fun v => (LinearMap.toContinuousLinearMap (rxnLin (H := H) (W := W) ca κ b)).le_opNorm v⟩
  obtain ⟨K, hK⟩ : ∃ K, K = (|ca.dt| + 1) * (2 * b + a + 1) := ⟨_, rfl⟩
  have hK0 : 0 < K := by rw [hK]; positivity
  obtain ⟨m, hm⟩ : ∃ m, m = min (min a (1 - a)) (min b (1 - b)) := ⟨_, rfl⟩
  have hm0 : 0 < m := by rw [hm]; exact lt_min (lt_min ha (by linarith)) (lt_min hb (by linarith))
  refine ⟨K, hK0, min 1 (m / (B + K)), lt_min one_pos (by positivity), fun x hx => ?_⟩
  have hx1 := hx.trans (min_le_left _ _)
  have hx2 := hx.trans (min_le_right _ _)
  rw [le_div_iff₀ (by positivity)] at hx2
  have hx0 := norm_nonneg x
  have hcell : ∀ p, |x p| ≤ ‖x‖ := fun p => norm_le_pi_norm x p
  obtain ⟨R, hR⟩ : ∃ R : Fin H → Fin W → ℝ, R = fun i j => 2 * b * x (0, i, j) * x (1, i, j) +
    a * x (1, i, j) ^ 2 + x (0, i, j) * x (1, i, j) ^ 2 := ⟨_, rfl⟩
  have hRb : ∀ i j, |ca.dt * R i j| ≤ K * ‖x‖ ^ 2 := by
    intro i j
    have c0 := hcell (0, i, j)
    have c1 := hcell (1, i, j)
    have p01 : |x (0, i, j)| * |x (1, i, j)| ≤ ‖x‖ * ‖x‖ := mul_le_mul c0 c1 (abs_nonneg _) hx0
    have p11 : |x (1, i, j)| * |x (1, i, j)| ≤ ‖x‖ * ‖x‖ := mul_le_mul c1 c1 (abs_nonneg _) hx0
    have p3 : |x (0, i, j)| * (|x (1, i, j)| * |x (1, i, j)|) ≤ 1 * (‖x‖ * ‖x‖) :=
      mul_le_mul (c0.trans hx1) p11 (by positivity) zero_le_one
    have hRR : |R i j| ≤ (2 * b + a + 1) * ‖x‖ ^ 2 := by
      rw [hR]
      refine (abs_add_three _ _ _).trans ?_
      rw [abs_mul, abs_mul, abs_mul, abs_mul, abs_mul, abs_pow, abs_of_pos hb, abs_of_pos ha, abs_two]
      nlinarith
    rw [abs_mul, hK]
    have := mul_le_mul_of_nonneg_left hRR (abs_nonneg ca.dt)
    have h3 : 0 ≤ (2 * b + a + 1) * ‖x‖ ^ 2 := by positivity
    nlinarith
  have hsmall : ∀ p : RxnCells H W, ∀ e : ℝ, |e| ≤ K * ‖x‖ ^ 2 → |rxnLin ca κ b x p + e| ≤ m := by
    intro p e he
    have e1 : |rxnLin ca κ b x p| ≤ B * ‖x‖ := (norm_le_pi_norm _ p).trans (hB x)
    have e2 : K * ‖x‖ ^ 2 ≤ K * ‖x‖ := by
      rw [pow_two]
      exact mul_le_mul_of_nonneg_left (mul_le_of_le_one_right hx0 hx1) hK0.le
    have := abs_add_le (rxnLin ca κ b x p) e
    nlinarith
  have hg : ∀ (y : ℝ) (c : Fin 2) (i : Fin H) (j : Fin W),
      gathered κ (fun i j => y + x (c, i, j)) i j = gathered κ (channel x c) i j := by
    intro y c i j
    have := gathered_offset κ y (channel x c) i j
    rw [hs, zero_mul, zero_add] at this
    exact this
  refine (pi_norm_le_iff_of_nonneg (by positivity)).2 fun p => ?_
  rw [rxnMatrix_mul, Pi.sub_apply]
  obtain ⟨c, i, j⟩ := p
  match c with
  | 0 =>
    have hval : a + x (0, i, j) + ca.dt * (ca.diffU * (gathered κ (channel x 0) i j / ca.dx ^ 2) -
        (a + x (0, i, j)) * (b + x (1, i, j)) ^ 2 + ca.f * (1 - (a + x (0, i, j)))) =
        a + (rxnLin ca κ b x (0, i, j) + -(ca.dt * R i j)) := by
      rw [hR]
      simp only [rxnLin, LinearMap.coe_mk, AddHom.coe_mk, if_true]
      linear_combination -ca.dt * h1 - 2 * ca.dt * x (1, i, j) * h2
    have hstep : rxnLocal ca κ (a, b) x (0, i, j) = rxnLin ca κ b x (0, i, j) + -(ca.dt * R i j) := by
      simp only [rxnLocal, rxnGrid, restLevel, if_true, one_ne_zero, if_false, hg]
      rw [hval, clip_of_near (x := a), add_sub_cancel_left]
      rw [add_sub_cancel_left]
      exact (hsmall _ _ (by rw [abs_neg]; exact hRb i j)).trans (hm ▸ min_le_left _ _)
    rw [hstep, add_sub_cancel_left, norm_neg]
    exact hRb i j
  | 1 =>
    have hval : b + x (1, i, j) + ca.dt * (ca.diffV * (gathered κ (channel x 1) i j / ca.dx ^ 2) +
        (a + x (0, i, j)) * (b + x (1, i, j)) ^ 2 - (ca.f + ca.k) * (b + x (1, i, j))) =
        b + (rxnLin ca κ b x (1, i, j) + ca.dt * R i j) := by
      rw [hR]
      simp only [rxnLin, LinearMap.coe_mk, AddHom.coe_mk, one_ne_zero, if_false]
      linear_combination (ca.dt * b + 2 * ca.dt * x (1, i, j)) * h2
    have hstep : rxnLocal ca κ (a, b) x (1, i, j) = rxnLin ca κ b x (1, i, j) + ca.dt * R i j := by
      simp only [rxnLocal, rxnGrid, restLevel, if_true, one_ne_zero, if_false, hg]
      rw [hval, clip_of_near (x := b), add_sub_cancel_left]
      rw [add_sub_cancel_left]
      exact (hsmall _ _ (hRb i j)).trans (hm ▸ min_le_right _ _)
    rw [hstep, add_sub_cancel_left]
    exact hRb i j

theorem rest_constUV (z : ℝ × ℝ) (m : Fin N) (c : Fin 2) (i : Fin H) (j : Fin W) :
    (constUV z.1 z.2 : Univ ℝ N 2 H W) m c i j = restLevel z c := rfl

/-- C128: a rest point attracts every pattern nearby if every wave is damped. -/
theorem rxn_patterns_fade (hT : OnTorus ca κ) (hR : Room r H W) (hκ : Balanced κ)
    (hs : ∑ i, ∑ j, κ i j = 0) (hf : 0 < ca.f) (hk : 0 ≤ ca.k) {z : ℝ × ℝ}
    (hr : ReactionRest ca.f ca.k z.1 z.2) (hb : 0 < z.2)
    (hw : ∀ p < H, ∀ q < W, DampedWave (waveTrace ca z.2 (waveGain κ H W p q))
      (waveDet ca z.2 (waveGain κ H W p q))) : PatternsFade N H W ca z := by
  obtain ⟨δ, hδ, C, q, hq0, hq1, h⟩ := spectral_attracts
    (rxnLocal_near (H := H) (W := W) hf hk hr hb hs) fun μ hμ => by
      obtain ⟨p, hp, q, hq, e⟩ := rxn_eigen_wave hκ hμ
      exact damped_roots (hw p hp q hq) e
  refine ⟨δ, hδ, max C 0, q, hq0, hq1, fun ε hε u hu n => ?_⟩
  obtain ⟨s, hrun⟩ := rxn_grid_run hT hR n ca.t u
  refine ⟨_, s, hrun, fun m c i j => ?_⟩
  have hε0 : 0 ≤ ε := (abs_nonneg _).trans (hu m c i j)
  obtain ⟨x, hx⟩ : ∃ x : RxnCells H W → ℝ, x = fun p => u m p.1 p.2.1 p.2.2 - restLevel z p.1 := ⟨_, rfl⟩
  have hxε : ‖x‖ ≤ ε := by
    rw [hx]
    exact (pi_norm_le_iff_of_nonneg hε0).2 fun p => hu m p.1 p.2.1 p.2.2
  have h1 := h x (hxε.trans hε) n
  have e := rxnLocal_iterate (ca := ca) (κ := κ) z n (u m)
  rw [← hx] at e
  have h2 := (norm_le_pi_norm _ (c, i, j)).trans h1
  have ez : ((z.1, z.2) : ℝ × ℝ) = z := rfl
  rw [ez, e] at h2
  rw [rest_constUV]
  refine le_trans h2 ?_
  have hqn : 0 < q ^ n := pow_pos hq0 n
  have h3 : C * q ^ n * ‖x‖ ≤ max C 0 * q ^ n * ‖x‖ :=
    mul_le_mul_of_nonneg_right (mul_le_mul_of_nonneg_right (le_max_left _ _) hqn.le) (norm_nonneg _)
  exact h3.trans (mul_le_mul_of_nonneg_left hxε (mul_nonneg (le_max_right _ _) hqn.le))

/-- C128: and it is unstable if some wave grows. -/
theorem rxn_patterns_grow (hT : OnTorus ca κ) (hR : Room r H W) (hκ : Balanced κ)
    (hs : ∑ i, ∑ j, κ i j = 0) (hf : 0 < ca.f) (hk : 0 ≤ ca.k) (hdt : ca.dt ≠ 0) {z : ℝ × ℝ}
    (hr : ReactionRest ca.f ca.k z.1 z.2) (hb : 0 < z.2) (hN : 0 < N) {p q : Nat}
    (hw : GrowingWave (waveTrace ca z.2 (waveGain κ H W p q))
      (waveDet ca z.2 (waveGain κ H W p q))) : PatternsGrow N H W ca z := by
  obtain ⟨μ, hμ, h1⟩ := growing_root hw
  obtain ⟨δ, hδ, h⟩ := spectral_unstable (rxnLocal_near (H := H) (W := W) hf hk hr hb hs)
    (rxn_wave_eigen hκ hR.1.1 hR.2.1 hdt (by linarith) p q hμ) h1
  refine ⟨δ, hδ, fun η hη => ?_⟩
  obtain ⟨x, hx, n, hn⟩ := h η hη
  refine ⟨fun _ c i j => restLevel z c + x (c, i, j), fun m c i j => ?_, ?_⟩
  · rw [rest_constUV, add_sub_cancel_left]
    exact (norm_le_pi_norm x (c, i, j)).trans hx
  · obtain ⟨s, hrun⟩ := rxn_grid_run (N := N) hT hR n ca.t
      fun _ c i j => restLevel z c + x (c, i, j)
    refine ⟨n, _, s, hrun, fun hc => absurd hn (not_lt.2 ?_)⟩
    have e := rxnLocal_iterate (ca := ca) (κ := κ) z n fun c i j => restLevel z c + x (c, i, j)
    simp only [add_sub_cancel_left] at e
    have ez : ((z.1, z.2) : ℝ × ℝ) = z := rfl
    rw [ez, show x = fun p : RxnCells H W => x (p.1, p.2.1, p.2.2) from rfl, e]
    exact (pi_norm_le_iff_of_nonneg hδ.le).2 fun p => hc ⟨0, hN⟩ p.1 p.2.1 p.2.2

end

end Yuca
