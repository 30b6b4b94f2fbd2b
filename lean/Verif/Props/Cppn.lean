import Verif.Model.Cppn
import Verif.Lemmas.Float
import Verif.Props.Activations
import Mathlib.Tactic.Linarith
import Mathlib.Tactic.NormNum
import Mathlib.Tactic.Positivity
import Mathlib.Tactic.FieldSimp
import Mathlib.Tactic.Ring

/-!
# Pattern networks and parameter agents (C52, C53, C73)
-/

namespace Yuca

/-! ## The coordinate grid -/

/-- Rounding error of the range `stop - start`. -/
theorem cppnRange_bounds {u t A B C : ℚ} (hu0 : 0 < u) (hu1 : u ≤ 1 / 2 ^ 53)
    (hA1 : 2 * t * (1 - u) ≤ A) (hA2 : A ≤ 2 * t * (1 + u))
    (hB1 : (1 + A) * (1 - u) ≤ B) (hB2 : B ≤ (1 + A) * (1 + u))
    (hC1 : (B - -1) * (1 - u) ≤ C) (hC2 : C ≤ (B - -1) * (1 + u)) :
    (2 + 2 * t) * (1 - u) ^ 3 ≤ C ∧ C ≤ (2 + 2 * t) * (1 + u) ^ 3 := by
  have hm : 0 ≤ 1 - u := by linarith
  have hp : 0 ≤ 1 + u := by linarith
  constructor
  · have h1 : (1 + 2 * t) * (1 - u) ≤ 1 + A := by linarith
    have h2 : (1 + 2 * t) * (1 - u) * (1 - u) ≤ B :=
      le_trans (mul_le_mul_of_nonneg_right h1 hm) hB1
    have h3 : (1 - u) * (1 - u) ≤ 1 := by nlinarith
    have h4 : (2 + 2 * t) * ((1 - u) * (1 - u)) ≤ B - -1 := by linarith
    calc (2 + 2 * t) * (1 - u) ^ 3 = (2 + 2 * t) * ((1 - u) * (1 - u)) * (1 - u) := by ring
      _ ≤ _ := le_trans (mul_le_mul_of_nonneg_right h4 hm) hC1
  · have h1 : 1 + A ≤ (1 + 2 * t) * (1 + u) := by linarith
    have h2 : B ≤ (1 + 2 * t) * (1 + u) * (1 + u) :=
      le_trans hB2 (mul_le_mul_of_nonneg_right h1 hp)
    have h3 : 1 ≤ (1 + u) * (1 + u) := by nlinarith
    have h4 : B - -1 ≤ (2 + 2 * t) * ((1 + u) * (1 + u)) := by linarith
    calc C ≤ (2 + 2 * t) * ((1 + u) * (1 + u)) * (1 + u) :=
          le_trans hC2 (mul_le_mul_of_nonneg_right h4 hp)
      _ = _ := by ring

/-- Rounding error of the quotient. -/
theorem cppnQuot_bounds {u t d s C S : ℚ} (hu0 : 0 < u) (hu1 : u ≤ 1 / 2 ^ 53) (h2 : 2 ≤ d)
    (hd : d ≤ 10000000) (ht : t * d = 1) (hs : s * (d - 1) = 2)
    (hC1 : (2 + 2 * t) * (1 - u) ^ 3 ≤ C) (hC2 : C ≤ (2 + 2 * t) * (1 + u) ^ 3)
    (hS1 : s * (1 - u) ≤ S) (hS2 : S ≤ s * (1 + u)) :
    (d - 1) * S < C * (1 - u) ∧ C * (1 + u) ≤ d * S := by
  have ht0 : 1 / 10000000 ≤ t := by
    by_contra h
    push Not at h
    have : t * d < 1 := by
      rcases le_or_gt t 0 with h0 | h0
      · nlinarith
      · calc t * d ≤ t * 10000000 := mul_le_mul_of_nonneg_left hd h0.le
          _ < 1 := by linarith
    linarith
  have ht1 : t ≤ 1 / 2 := by
    have := mul_le_mul_of_nonneg_left h2 (le_trans (by norm_num) ht0)
    linarith
  have hm : 0 ≤ 1 - u := by linarith
  constructor
  · have h1 : (d - 1) * S ≤ 2 * (1 + u) := by
      have := mul_le_mul_of_nonneg_left hS2 (by linarith : 0 ≤ d - 1)
      have h3 : (d - 1) * (s * (1 + u)) = s * (d - 1) * (1 + u) := by ring
      rw [h3, hs] at this
      exact this
    have h2 := mul_le_mul_of_nonneg_right hC1 hm
    have h3 : 1 - 4 * u ≤ (1 - u) ^ 3 * (1 - u) := by
      have : (1 - u) ^ 3 * (1 - u) = 1 - 4 * u + u ^ 2 * (6 - 4 * u + u ^ 2) := by ring
      rw [this]
      have : 0 ≤ u ^ 2 * (6 - 4 * u + u ^ 2) := by
        have : 0 ≤ 6 - 4 * u := by linarith
        positivity
      linarith
    have h4 := mul_le_mul_of_nonneg_left h3 (by linarith : 0 ≤ 2 + 2 * t)
    have h5 : 2 * (1 + u) < (2 + 2 * t) * (1 - 4 * u) := by
      have h6 : t * u ≤ 1 / 2 * u := mul_le_mul_of_nonneg_right ht1 hu0.le
      linarith
    linarith
  · have hpow : (1 + u) ^ 3 * (1 + u) ≤ 1 + 5 * u := by
      have : (1 + u) ^ 3 * (1 + u) = 1 + 4 * u + u * (6 * u + 4 * u ^ 2 + u ^ 3) := by ring
      rw [this]
      have h1 : u ≤ 1 / 100 := hu1.trans (by norm_num)
      have h2 : u ^ 2 ≤ 1 / 100 := by nlinarith
      have h3 : u ^ 3 ≤ 1 / 100 := by
        have : u ^ 3 = u ^ 2 * u := by ring
        rw [this]; nlinarith
      have : 6 * u + 4 * u ^ 2 + u ^ 3 ≤ 1 := by linarith
      nlinarith
    have h1 := mul_le_mul_of_nonneg_right hC2 (by linarith : 0 ≤ 1 + u)
    have h2' := mul_le_mul_of_nonneg_left hpow (by linarith : 0 ≤ 2 + 2 * t)
    have h3 := mul_le_mul_of_nonneg_left hS1 (by linarith : 0 ≤ d)
    have hds : d * (s * (1 - u)) = (s + 2) * (1 - u) := by
      have : d * s = s + 2 := by linarith
      rw [← mul_assoc, this]
    -- `s - 2t = 2 / (d (d - 1))`
    have h5 : (s - 2 * t) * (d * (d - 1)) = 2 := by
      have : (s - 2 * t) * (d * (d - 1)) = s * (d - 1) * d - 2 * (t * d) * (d - 1) := by ring
      rw [this, hs, ht]; ring
    have h6 : d * (d - 1) ≤ 10000000 * 10000000 :=
      mul_le_mul hd (by linarith) (by linarith) (by norm_num)
    have h60 : 0 < d * (d - 1) := mul_pos (by linarith) (by linarith)
    have h7 : 2 / (10000000 * 10000000) ≤ s - 2 * t := by
      by_contra hlt
      push Not at hlt
      have h8 : 0 < s - 2 * t := by
        by_contra h
        push Not at h
        have := mul_nonpos_of_nonpos_of_nonneg h h60.le
        linarith
      have := mul_le_mul_of_nonneg_left h6 h8.le
      linarith
    have h8 : s ≤ 2 := by
      by_contra h
      push Not at h
      have : 2 * (d - 1) < s * (d - 1) := mul_lt_mul_of_pos_right h (by linarith)
      linarith
    have h9 : s * u ≤ 2 * u := mul_le_mul_of_nonneg_right h8 hu0.le
    have h10 : t * u ≤ 1 / 2 * u := mul_le_mul_of_nonneg_right ht1 hu0.le
    linarith

theorem cppnPoints_bounds {d : ℚ} (h2 : 2 ≤ d) (hd : d ≤ 10000000) :
    d - 1 < double (double (double (1 + double (2 / d)) - -1) / double (2 / (d - 1))) ∧
      double (double (double (1 + double (2 / d)) - -1) / double (2 / (d - 1))) ≤ d := by
  have hd0 : 0 < d := by linarith
  have hd1 : 0 < d - 1 := by linarith
  obtain ⟨u, hu⟩ : ∃ u : ℚ, u = 2⁻¹ ^ 53 := ⟨_, rfl⟩
  have hu0 : 0 < u := by rw [hu]; norm_num
  have hu1 : u ≤ 1 / 2 ^ 53 := by rw [hu]; norm_num
  have hm : 0 < 1 - u := by
    have : (1 : ℚ) / 2 ^ 53 < 1 := by norm_num
    linarith
  have hA := double_pos_bounds (q := 2 / d) (by positivity)
  have hA0 : 0 ≤ double (2 / d) := le_trans (by rw [← hu]; positivity) hA.1
  have hB := double_pos_bounds (q := 1 + double (2 / d)) (by linarith)
  have hB0 : 0 ≤ double (1 + double (2 / d)) :=
    le_trans (by rw [← hu]; positivity) hB.1
  have hC := double_pos_bounds (q := double (1 + double (2 / d)) - -1) (by linarith)
  have hS := double_pos_bounds (q := 2 / (d - 1)) (by positivity)
  have hS0 : 0 < double (2 / (d - 1)) := lt_of_lt_of_le (by rw [← hu]; positivity) hS.1
  have hC0 : 0 ≤ double (double (1 + double (2 / d)) - -1) :=
    le_trans (by rw [← hu]; exact mul_nonneg (by linarith) hm.le) hC.1
  have hR := double_pos_bounds
    (q := double (double (1 + double (2 / d)) - -1) / double (2 / (d - 1))) (by positivity)
  rw [← hu] at hA hB hC hS hR
  have ht : 2 / d = 2 * (1 / d) := by ring
  have hrange := cppnRange_bounds hu0 hu1 (t := 1 / d) (by rw [← ht]; exact hA.1)
    (by rw [← ht]; exact hA.2) hB.1 hB.2 hC.1 hC.2
  have hq := cppnQuot_bounds hu0 hu1 h2 hd (t := 1 / d) (s := 2 / (d - 1)) (by field_simp)
    (by field_simp) hrange.1 hrange.2 hS.1 hS.2
  constructor
  · refine lt_of_lt_of_le ?_ hR.1
    rw [div_mul_eq_mul_div, lt_div_iff₀ hS0]
    exact hq.1
  · refine le_trans hR.2 ?_
    rw [div_mul_eq_mul_div, div_le_iff₀ hS0]
    exact hq.2

/-- C52: the coordinate grid has exactly `dim` points per side, in spite of rounding. -/
theorem cppnPoints_eq {dim : Nat} (h2 : 2 ≤ dim) (hd : dim ≤ 10000000) :
    cppnPoints dim = .ok dim := by
  unfold cppnPoints
  rw [if_neg (by omega)]
  congr 1
  unfold arangeLen
  obtain ⟨h1, h3⟩ := cppnPoints_bounds (d := dim) (by exact_mod_cast h2) (by exact_mod_cast hd)
  rw [Int.ceil_eq_iff]
  exact ⟨by push_cast; exact h1, by push_cast; exact h3⟩

/-- C52: a grid of one point divides by zero. -/
theorem cppnPoints_tiny {dim : Nat} (h : dim < 2) : cppnPoints dim = .error .zeroDiv := by
  unfold cppnPoints
  rw [if_pos (by omega)]

theorem cppnCoord_range {dim i : Nat} (h2 : 2 ≤ dim) (hi : i < dim) :
    -1 ≤ cppnCoord dim i ∧ cppnCoord dim i ≤ 1 := by
  unfold cppnCoord
  have hd : (0 : ℝ) < (dim : ℝ) - 1 := by
    have : (2 : ℝ) ≤ dim := by exact_mod_cast h2
    linarith
  have hi' : (i : ℝ) ≤ (dim : ℝ) - 1 := by
    have : ((i + 1 : Nat) : ℝ) ≤ dim := by exact_mod_cast hi
    push_cast at this; linarith
  have h0 : (0 : ℝ) ≤ i * (2 / ((dim : ℝ) - 1)) := by positivity
  have h1 : (i : ℝ) * (2 / ((dim : ℝ) - 1)) ≤ 2 := by
    rw [mul_div_assoc', div_le_iff₀ hd]; linarith
  constructor <;> linarith

/-- The coordinates are symmetric about 0. -/
theorem cppnCoord_mirror {dim i : Nat} (h2 : 2 ≤ dim) (hi : i < dim) :
    cppnCoord dim (dim - 1 - i) = -cppnCoord dim i := by
  unfold cppnCoord
  have hd : (dim : ℝ) - 1 ≠ 0 := by
    have : (2 : ℝ) ≤ dim := by exact_mod_cast h2
    linarith
  have hc : ((dim - 1 - i : Nat) : ℝ) = (dim : ℝ) - 1 - i := by
    rw [Nat.sub_sub, Nat.cast_sub (by omega)]
    push_cast; ring
  rw [hc]
  field_simp
  ring

/-! ## The network -/

theorem cppnRepeat_length {K : Type} (n : Nat) : ∀ l : List K,
    (cppnRepeat n l).length = 2 ^ n * l.length := by
  induction n with
  | zero => intro l; simp [cppnRepeat]
  | succ n ih => intro l; rw [cppnRepeat, ih, List.length_append]; ring

theorem CppnLayer.run_ok {l : CppnLayer} {inp out : Nat} (h : l.Sized inp out) {x : List ℝ}
    (hx : x.length = inp) :
    ∃ v, l.run x = .ok v ∧ v.length = out ∧ ∀ g ∈ v, 0 ≤ g ∧ g ≤ 1 := by
  unfold CppnLayer.run
  rw [if_pos (by rw [hx]; exact h.2.2.1)]
  refine ⟨_, rfl, by simp [h.1, h.2.1], ?_⟩
  intro g hg
  obtain ⟨wb, _, rfl⟩ := List.mem_map.1 hg
  unfold gaussianFn
  rw [if_neg (by simp)]
  exact ⟨(bump_pos _ _ _).le, bump_le_one _ _ _⟩

theorem cppnModel_ok {channels hidden : Nat} {layers : List CppnLayer}
    (h : CppnSized channels hidden layers) {x : List ℝ} (hx : x.length = 16 * channels) :
    ∃ v, cppnModel layers x = .ok v ∧ v.length = channels ∧ ∀ g ∈ v, 0 ≤ g ∧ g ≤ 1 := by
  obtain ⟨a, b, c, d, rfl, ha, hb, hc, hd⟩ := h
  obtain ⟨v₁, e₁, l₁, _⟩ := CppnLayer.run_ok ha hx
  obtain ⟨v₂, e₂, l₂, _⟩ := CppnLayer.run_ok hb l₁
  obtain ⟨v₃, e₃, l₃, _⟩ := CppnLayer.run_ok hc l₂
  obtain ⟨v₄, e₄, l₄, h₄⟩ := CppnLayer.run_ok hd l₃
  refine ⟨v₄, ?_, l₄, h₄⟩
  unfold cppnModel
  simp only [List.foldlM_cons, List.foldlM_nil, e₁, e₂, e₃, e₄, bind, Except.bind, pure, Except.pure]

theorem cppnModel_error {channels hidden : Nat} {layers : List CppnLayer} (hh : 0 < hidden)
    (h : CppnSized channels hidden layers) {x : List ℝ} (hx : x.length ≠ 16 * channels) :
    cppnModel layers x = .error .runtime := by
  obtain ⟨a, b, c, d, rfl, ha, hb, hc, hd⟩ := h
  have : a.run x = .error .runtime := by
    unfold CppnLayer.run
    rw [if_neg]
    intro hall
    obtain ⟨row, hrow⟩ := List.exists_mem_of_length_pos (by rw [ha.1]; exact hh)
    exact hx (by rw [← hall row hrow, ha.2.2.1 row hrow])
  unfold cppnModel
  simp only [List.foldlM_cons, this, bind, Except.bind]

theorem pow_pred_eq {c : Nat} : 2 ^ (c - 1) = c ↔ c = 1 ∨ c = 2 := by
  constructor
  · intro h
    match c, h with
    | 0, h => simp at h
    | 1, _ => simp
    | 2, _ => simp
    | c + 3, h =>
      exfalso
      have hlt : c + 3 < 2 ^ (c + 3 - 1) := by
        have : ∀ n : Nat, n + 3 < 2 ^ (n + 2) := by
          intro n
          induction n with
          | zero => norm_num
          | succ n ih => rw [show n + 1 + 2 = (n + 2) + 1 by ring, pow_succ]; omega
        exact this c
      omega
  · rintro (rfl | rfl) <;> rfl

/-- C52: `get_action` succeeds exactly with one or two channels. -/
theorem cppnAction_ok_iff {channels hidden dim : Nat} {layers : List CppnLayer} (hh : 0 < hidden)
    (h : CppnSized channels hidden layers) (m : CppnScale) (i j : Nat) :
    (∃ v, cppnAction channels dim m layers i j = .ok v) ↔ channels = 1 ∨ channels = 2 := by
  have hlen : ∀ x y, (cppnRepeat (channels - 1) (cppnFeatures m x y)).length =
      2 ^ (channels - 1) * 16 := fun x y => by rw [cppnRepeat_length]; rfl
  unfold cppnAction
  dsimp only
  by_cases hc : channels = 1 ∨ channels = 2
  · have hp := pow_pred_eq.2 hc
    obtain ⟨v, he, hl, _⟩ := cppnModel_ok h
      (x := cppnRepeat (channels - 1) (cppnFeatures m (cppnCoord dim j) (cppnCoord dim i)))
      (by rw [hlen, hp]; ring)
    rw [he]
    dsimp only
    rw [if_pos (by rw [hl, hp])]
    exact ⟨fun _ => hc, fun _ => ⟨_, rfl⟩⟩
  · rw [cppnModel_error hh h (by
      rw [hlen]
      intro h'
      exact hc (pow_pred_eq.1 (by omega)))]
    exact ⟨fun ⟨v, hv⟩ => by simp at hv, fun h' => absurd h' hc⟩

theorem cppnRadius_range {x y : ℝ} (hx : -1 ≤ x ∧ x ≤ 1) (hy : -1 ≤ y ∧ y ≤ 1) :
    0 ≤ cppnRadius x y ∧ cppnRadius x y ^ 2 ≤ 2 := by
  unfold cppnRadius
  refine ⟨Real.sqrt_nonneg _, ?_⟩
  rw [Real.sq_sqrt (by positivity)]
  nlinarith

theorem cppnCell_range {g r : ℝ} (hg : 0 ≤ g ∧ g ≤ 1) (hr : 0 ≤ r ∧ r ^ 2 ≤ 2) :
    0 ≤ cppnCell g r ∧ cppnCell g r ≤ 1 ∧ (0.75 ≤ r → cppnCell g r ≤ 0.0000002) := by
  have hr2 : r ≤ 1.4143 := by nlinarith
  have h1 : (1 - r) ^ 2 ≤ 1 := by nlinarith
  have hp : g * (1 - r) ^ 2 ≤ 1 := by nlinarith [sq_nonneg (1 - r)]
  have hp0 : 0 ≤ g * (1 - r) ^ 2 := mul_nonneg hg.1 (sq_nonneg _)
  have hout : 0.75 ≤ r → g * (1 - r) ^ 2 ≤ 0.2 := by
    intro h
    have : (1 - r) ^ 2 ≤ 0.2 := by nlinarith
    nlinarith [sq_nonneg (1 - r)]
  unfold cppnCell
  dsimp only
  refine ⟨le_max_right _ _, ?_, ?_⟩
  · apply max_le _ zero_le_one
    split <;> nlinarith
  · intro h
    rw [if_pos h]
    apply max_le _ (by norm_num)
    have := hout h
    nlinarith

/-- C52: whatever the weights, every channel has one value per cell, it lies in `[0, 1]`, and
outside the disc of radius 0.75 it is below 2e-7. -/
theorem cppnAction_range {channels hidden dim : Nat} {layers : List CppnLayer}
    (h : CppnSized channels hidden layers) (m : CppnScale) (h2 : 2 ≤ dim) {i j : Nat}
    (hi : i < dim) (hj : j < dim) (hc : channels = 1 ∨ channels = 2) :
    ∃ v, cppnAction channels dim m layers i j = .ok v ∧ v.length = channels ∧
      ∀ g ∈ v, 0 ≤ g ∧ g ≤ 1 ∧
        (0.75 ^ 2 ≤ cppnCoord dim j ^ 2 + cppnCoord dim i ^ 2 → g ≤ 0.0000002) := by
  have hp := pow_pred_eq.2 hc
  obtain ⟨v, he, hl, hv⟩ := cppnModel_ok h
    (x := cppnRepeat (channels - 1) (cppnFeatures m (cppnCoord dim j) (cppnCoord dim i)))
    (by rw [cppnRepeat_length, hp]; show channels * 16 = _; ring)
  unfold cppnAction
  dsimp only
  rw [he]
  dsimp only
  rw [if_pos (by rw [hl, hp])]
  refine ⟨_, rfl, by rw [List.length_map, hl], ?_⟩
  intro g hg
  obtain ⟨g', hg', rfl⟩ := List.mem_map.1 hg
  have hr := cppnRadius_range (cppnCoord_range h2 hj) (cppnCoord_range h2 hi)
  have := cppnCell_range (hv g' hg') hr
  refine ⟨this.1, this.2.1, fun h => this.2.2 ?_⟩
  unfold cppnRadius
  apply Real.le_sqrt_of_sq_le
  exact h

/-- C52: the waves of the features: a sine of the radius, damped by the radius plus 1e-6, so that it
is 0 in the centre and never divided by 0. -/
theorem dampedSine_wave (k r : ℝ) (hr : 0 ≤ r) :
    dampedSine k r * (r + 1e-6) = Real.sin (r * Real.pi * k) ∧ dampedSine k 0 = 0 ∧
      |dampedSine k r| ≤ 1000000 := by
  have hp : 0 < r + 1e-6 := by linarith [show (0 : ℝ) < 1e-6 by norm_num]
  refine ⟨div_mul_cancel₀ _ hp.ne', by simp [dampedSine], ?_⟩
  unfold dampedSine
  rw [abs_div, abs_of_pos hp, div_le_iff₀ hp]
  have := Real.abs_sin_le_one (r * Real.pi * k)
  have : (1 : ℝ) ≤ 1000000 * (r + 1e-6) := by norm_num; linarith
  linarith

/-- The features do not tell `y` from `-y`. -/
theorem cppnFeatures_mirror (m : CppnScale) (x y : ℝ) :
    cppnFeatures m x (-y) = cppnFeatures m x y := by
  unfold cppnFeatures cppnRadius
  simp only [abs_neg, mul_neg, Real.cos_neg, even_two, Even.neg_pow]

/-- C73: over exact reals, every pattern a CPPN can make is its own mirror image (top and bottom
exchanged), whatever the weights. -/
theorem cppnAction_mirror (channels : Nat) {dim : Nat} (layers : List CppnLayer) (m : CppnScale)
    (h2 : 2 ≤ dim) {i : Nat} (hi : i < dim) (j : Nat) :
    cppnAction channels dim m layers (dim - 1 - i) j = cppnAction channels dim m layers i j := by
  have hr : cppnRadius (cppnCoord dim j) (-cppnCoord dim i) =
      cppnRadius (cppnCoord dim j) (cppnCoord dim i) := by
    unfold cppnRadius; rw [neg_sq]
  unfold cppnAction
  rw [cppnCoord_mirror h2 hi]
  dsimp only
  rw [cppnFeatures_mirror, hr]

/-- C73: the other mirror is not forced: the features tell `x` from `-x`. -/
theorem cppnFeatures_sides (m : CppnScale) {x : ℝ} (hx : x ≠ 0) (y : ℝ) :
    cppnFeatures m (-x) y ≠ cppnFeatures m x y := by
  unfold cppnFeatures
  intro h
  injection h with h1 _
  exact hx (by linarith)

/-- A layer with all weights zero and `sigma = 0.1`. -/
noncomputable def flatLayer (inp out : Nat) : CppnLayer :=
  ⟨List.replicate out (List.replicate inp 0), List.replicate out 0, 0, 0.1⟩

example : CppnSized 2 16 [flatLayer 32 16, flatLayer 16 16, flatLayer 16 16, flatLayer 16 2] := by
  have h : ∀ i o, (flatLayer i o).Sized i o := by
    intro i o
    refine ⟨by simp [flatLayer], by simp [flatLayer], ?_, ?_⟩
    · intro row hrow
      unfold flatLayer at hrow
      rw [(List.mem_replicate.1 hrow).2]; simp
    · unfold flatLayer eps9; norm_num
  exact ⟨_, _, _, _, rfl, h 32 16, h 16 16, h 16 16, h 16 2⟩

/-! ## Parameter agents -/

/-- C53: with the filter on, what `set_params` stores lies in `[1e-4, 1]`. -/
theorem agent_filter_box (a : ParamsAgent ℝ) (hf : a.filter = true) (v : List ℝ) :
    (a.setParams ParamsAgent.fil v).params.length = v.length ∧
      ∀ x ∈ (a.setParams ParamsAgent.fil v).params, 0.0001 ≤ x ∧ x ≤ 1 := by
  unfold ParamsAgent.setParams
  rw [hf, if_pos rfl]
  refine ⟨by simp, ?_⟩
  intro x hx
  obtain ⟨y, _, rfl⟩ := List.mem_map.1 hx
  unfold ParamsAgent.fil clampR
  exact ⟨le_min (le_max_right _ _) (by norm_num), min_le_right _ _⟩

/-- C53: storing what was stored changes nothing. -/
theorem agent_filter_idempotent (a : ParamsAgent ℝ) (v : List ℝ) :
    (a.setParams ParamsAgent.fil v).setParams ParamsAgent.fil
      (a.setParams ParamsAgent.fil v).params = a.setParams ParamsAgent.fil v := by
  cases hf : a.filter with
  | false => unfold ParamsAgent.setParams; simp [hf]
  | true =>
    unfold ParamsAgent.setParams
    simp only [hf, if_true, List.map_map]
    congr 1
    apply List.map_congr_left
    intro x _
    show ParamsAgent.fil (ParamsAgent.fil x) = ParamsAgent.fil x
    unfold ParamsAgent.fil clampR
    have h1 : (0.0001 : ℝ) ≤ min (max |x| 0.0001) 1 := le_min (le_max_right _ _) (by norm_num)
    rw [abs_of_nonneg (le_trans (by norm_num) h1), max_eq_left h1,
      min_eq_left (min_le_right (max |x| 0.0001) 1)]

/-- C53: with the filter on, actions are non-negative; after `set_params` they are what was
stored, and asking twice gives the same. -/
theorem agent_action (a : ParamsAgent ℝ) (hf : a.filter = true) (v : List ℝ) :
    (∀ x ∈ a.getAction.2, 0 ≤ x) ∧ a.getAction.1.getAction = a.getAction ∧
      (a.setParams ParamsAgent.fil v).getAction.2 = (a.setParams ParamsAgent.fil v).params := by
  have hs : (a.setParams ParamsAgent.fil v).filter = true := hf
  have hbox := (agent_filter_box a hf v).2
  unfold ParamsAgent.getAction
  simp only [hf, hs, if_true]
  refine ⟨?_, ?_, ?_⟩
  · intro x hx
    obtain ⟨y, _, rfl⟩ := List.mem_map.1 hx
    exact abs_nonneg y
  · simp [List.map_map]
  · conv_rhs => rw [← List.map_id (a.setParams ParamsAgent.fil v).params]
    apply List.map_congr_left
    intro x hx
    exact abs_of_nonneg (le_trans (by norm_num) (hbox x hx).1)

/-- C53: without the filter both are the identity. -/
theorem agent_unfiltered (a : ParamsAgent ℝ) (hf : a.filter = false) (v : List ℝ) :
    (a.setParams ParamsAgent.fil v).getAction.2 = v := by
  unfold ParamsAgent.getAction ParamsAgent.setParams
  simp [hf]

/-- C53: `ca_params` wins over `num_params`, which wins over `params`; `num_params` is the number
of parameters. -/
theorem agent_new (kw : AgentKwargs) (rand : Nat → List ℝ) (hr : ∀ n, (rand n).length = n) :
    (ParamsAgent.new kw rand).1.params.length = (ParamsAgent.new kw rand).2 ∧
      (∀ p, kw.caParams = some p → (ParamsAgent.new kw rand).1.params = p) ∧
      (∀ n, kw.caParams = none → kw.numParams = some n →
        (ParamsAgent.new kw rand).1.params = rand n) ∧
      (∀ p, kw.caParams = none → kw.numParams = none → kw.params = some p →
        (ParamsAgent.new kw rand).1.params = p) := by
  obtain ⟨c, n, p, f⟩ := kw
  unfold ParamsAgent.new
  cases c <;> cases n <;> cases p <;> simp [hr]

/-- C53, where it fails: the constructor does not filter, so parameters given to it reach
`get_action` outside the box. -/
theorem agent_new_unfiltered_refuted (rand : Nat → List ℝ) :
    (ParamsAgent.new ⟨some [-7, 0], none, none, some true⟩ rand).1.getAction.2 = [7, 0] := by
  unfold ParamsAgent.new ParamsAgent.getAction
  simp

end Yuca
