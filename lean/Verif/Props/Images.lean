import Verif.Model.Images
import Verif.Lemmas.Float

/-! # C47: image masks -/

namespace Yuca

/-- C47: a mask is 0 below the radius and 1 elsewhere. -/
theorem getMask_spec (g radius : ℝ) :
    (getMask g radius = 0 ↔ g < radius) ∧ (getMask g radius = 1 ↔ radius ≤ g) := by
  unfold getMask
  split
  · rename_i h
    exact ⟨⟨fun _ => h, fun _ => by simp⟩, ⟨fun h' => by simp at h', fun h' => absurd h (not_lt.2 h')⟩⟩
  · rename_i h
    exact ⟨⟨fun h' => by simp at h', fun h' => absurd h' h⟩, ⟨fun _ => not_lt.1 h, fun _ => rfl⟩⟩

theorem getMask_zero_or_one (g radius : ℝ) : getMask g radius = 0 ∨ getMask g radius = 1 := by
  rcases lt_or_ge g radius with h | h
  · exact Or.inl ((getMask_spec g radius).1.2 h)
  · exact Or.inr ((getMask_spec g radius).2.2 h)

/-- C47: the grid has an even number of points, or one more because of rounding. -/
theorem bitePoints_two (r : Nat) (h1 : 1 ≤ r) (h2 : r ≤ 2 ^ 50) :
    bitePoints r = 2 * r ∨ bitePoints r = 2 * r + 1 := by
  have hr : (1 : ℚ) ≤ r := by exact_mod_cast h1
  have hr2 : (r : ℚ) ≤ 2 ^ 50 := by exact_mod_cast h2
  have hd : double ((r : ℚ) + 1 - -r) = 2 * r + 1 := by
    have := double_int (2 * r + 1) (by rw [abs_le]; constructor <;> omega)
    push_cast at this
    rw [← this]
    congr 1
    ring
  unfold bitePoints arangeLen
  rw [hd]
  have hs : (0 : ℚ) < (2 * r + 1) / (2 * r) := by positivity
  obtain ⟨s1, s2⟩ := double_pos_bounds hs.le
  generalize double ((2 * (r : ℚ) + 1) / (2 * r)) = s at s1 s2
  have hspos : 0 < s := lt_of_lt_of_le (by positivity) s1
  have hq : (0 : ℚ) ≤ (2 * r + 1) / s := by positivity
  obtain ⟨q1, q2⟩ := double_pos_bounds hq
  generalize double ((2 * (r : ℚ) + 1) / s) = q at q1 q2
  have u1 : (2 * (r : ℚ) + 1) / s ≤ 2 * r / (1 - 2⁻¹ ^ 53) := by
    rw [div_le_div_iff₀ hspos (by norm_num)]
    have := mul_le_mul_of_nonneg_left s1 (show (0 : ℚ) ≤ 2 * r by positivity)
    have e : (2 * (r : ℚ)) * ((2 * r + 1) / (2 * r) * (1 - 2⁻¹ ^ 53)) =
        (2 * r + 1) * (1 - 2⁻¹ ^ 53) := by field_simp
    linarith
  have u2 : 2 * (r : ℚ) / (1 + 2⁻¹ ^ 53) ≤ (2 * r + 1) / s := by
    rw [div_le_div_iff₀ (by norm_num) hspos]
    have := mul_le_mul_of_nonneg_left s2 (show (0 : ℚ) ≤ 2 * r by positivity)
    have e : (2 * (r : ℚ)) * ((2 * r + 1) / (2 * r) * (1 + 2⁻¹ ^ 53)) =
        (2 * r + 1) * (1 + 2⁻¹ ^ 53) := by field_simp
    linarith
  have v1 : q ≤ 2 * r + 1 := by
    have h3 : 2 * (r : ℚ) / (1 - 2⁻¹ ^ 53) * (1 + 2⁻¹ ^ 53) ≤ 2 * r + 1 := by
      rw [div_mul_eq_mul_div, div_le_iff₀ (by norm_num)]
      nlinarith
    have h4 : (2 * (r : ℚ) + 1) / s * (1 + 2⁻¹ ^ 53) ≤ 2 * r / (1 - 2⁻¹ ^ 53) * (1 + 2⁻¹ ^ 53) :=
      mul_le_mul_of_nonneg_right u1 (by norm_num)
    linarith
  have v2 : 2 * (r : ℚ) - 1 < q := by
    have h3 : 2 * (r : ℚ) - 1 < 2 * (r : ℚ) / (1 + 2⁻¹ ^ 53) * (1 - 2⁻¹ ^ 53) := by
      rw [div_mul_eq_mul_div, lt_div_iff₀ (by norm_num)]
      nlinarith
    have h4 : 2 * (r : ℚ) / (1 + 2⁻¹ ^ 53) * (1 - 2⁻¹ ^ 53) ≤
        (2 * (r : ℚ) + 1) / s * (1 - 2⁻¹ ^ 53) :=
      mul_le_mul_of_nonneg_right u2 (by norm_num)
    linarith
  have c1 : ⌈q⌉ ≤ 2 * r + 1 := Int.ceil_le.2 (by push_cast; exact v1)
  have c2 : 2 * (r : ℤ) - 1 < ⌈q⌉ := Int.lt_ceil.2 (by push_cast; exact v2)
  omega

/-- C47: for a power of two nothing is rounded. -/
theorem bitePoints_pow (k : Nat) (hk : k ≤ 50) : bitePoints (2 ^ k) = 2 * 2 ^ k := by
  have hp : (2 : ℤ) ^ k ≤ 2 ^ 50 := pow_le_pow_right₀ (by norm_num) hk
  have hp0 : (0 : ℤ) < 2 ^ k := by positivity
  unfold bitePoints arangeLen
  have hd : double (((2 ^ k : ℕ) : ℚ) + 1 - -((2 ^ k : ℕ) : ℚ)) = 2 * 2 ^ k + 1 := by
    have := double_int (2 * 2 ^ k + 1) (by rw [abs_le]; constructor <;> omega)
    push_cast at this ⊢
    rw [← this]
    congr 1
    ring
  have hs : double ((2 * ((2 ^ k : ℕ) : ℚ) + 1) / (2 * ((2 ^ k : ℕ) : ℚ))) =
      (2 * 2 ^ k + 1) / (2 * 2 ^ k) := by
    have := double_exact (2 * 2 ^ k + 1) (-(k + 1 : ℤ)) (by rw [abs_le]; constructor <;> omega)
    have e : ((2 * 2 ^ k + 1 : ℤ) : ℚ) * 2 ^ (-(k + 1 : ℤ)) = (2 * 2 ^ k + 1) / (2 * 2 ^ k) := by
      rw [zpow_neg, zpow_add₀ (by norm_num)]
      push_cast
      rw [zpow_natCast]
      field_simp
    rw [e] at this
    push_cast
    exact this
  rw [hd, hs]
  have hq : (2 * 2 ^ k + 1 : ℚ) / ((2 * 2 ^ k + 1) / (2 * 2 ^ k)) = ((2 * 2 ^ k : ℤ) : ℚ) := by
    push_cast
    field_simp
  rw [hq, double_int _ (by rw [abs_le]; constructor <;> omega), Int.ceil_intCast]

/-- C47: rounding makes one point too many for a side of 58 or 59 (and for 2558 of the first
20000 radii). -/
theorem bitePoints_29 : bitePoints 29 = 59 := by
  unfold bitePoints arangeLen
  have hd : double (((29 : ℕ) : ℚ) + 1 - -((29 : ℕ) : ℚ)) = 59 := by
    have := double_int 59 (by norm_num)
    push_cast at this
    rw [← this]
    congr 1
    norm_num
  have hs : double ((2 * ((29 : ℕ) : ℚ) + 1) / (2 * ((29 : ℕ) : ℚ))) = 4581247896807918 * 2 ^ (-52 : ℤ) := by
    rw [double_of_log (e := 0) (by norm_num) (by norm_num),
      nearestEven_eq (m := 4581247896807918) (by norm_num) (by norm_num)]
    norm_num
  rw [hd, hs, double_of_log (e := 5) (by norm_num) (by norm_num),
    nearestEven_eq (m := 8162774324609025) (by norm_num) (by norm_num)]
  rw [Int.ceil_eq_iff]
  constructor <;> norm_num

/-- C47: `get_bite_mask` works exactly for square images whose side is the number of grid
points. -/
theorem bite_ok_iff (s : Shape4) (hc : 1 ≤ s.c) (h1 : 2 ≤ s.h) (h2 : s.h ≤ 2 ^ 51) (r : Shape4) :
    biteMaskShape s = .ok r ↔
      (s.h : ℤ) = bitePoints (s.h / 2) ∧ s.w = s.h ∧ r = ⟨1, s.c, s.h, s.w⟩ := by
  have hp := bitePoints_two (s.h / 2) (by omega) (by omega)
  unfold biteMaskShape broadcasts
  rw [if_neg (by omega)]
  generalize bitePoints (s.h / 2) = p at hp
  have hp2 : 2 ≤ p := by omega
  simp only [Bool.and_eq_true, Bool.or_eq_true, decide_eq_true_eq]
  constructor
  · intro h
    split at h
    · rename_i hk
      cases h
      rcases hk with hk | ⟨k1, k2⟩
      · omega
      · exact ⟨by omega, by omega, rfl⟩
    · cases h
  · rintro ⟨k1, k2, rfl⟩
    rw [if_pos]
    right
    constructor <;> omega

/-- C47: it works for square images with a power of two as side. -/
theorem bite_pow_two (k n c : Nat) (hk : k ≤ 49) :
    biteMaskShape ⟨n, c, 2 ^ (k + 1), 2 ^ (k + 1)⟩ =
      .ok ⟨1, c, 2 ^ (k + 1), 2 ^ (k + 1)⟩ := by
  rcases Nat.eq_zero_or_pos c with rfl | hc
  · unfold biteMaskShape
    have : 2 ^ (k + 1) / 2 = 2 ^ k := by rw [pow_succ]; omega
    simp only [this]
    rw [if_neg (by positivity), if_pos (Or.inl trivial)]
  · have hle : 2 ^ k ≤ 2 ^ 49 := Nat.pow_le_pow_right (by norm_num) hk
    have h1 : 1 ≤ 2 ^ k := Nat.one_le_two_pow
    refine (bite_ok_iff ⟨n, c, 2 ^ (k + 1), 2 ^ (k + 1)⟩ hc ?_ ?_ _).2 ⟨?_, rfl, rfl⟩
    · show 2 ≤ 2 ^ (k + 1)
      rw [pow_succ]; omega
    · show 2 ^ (k + 1) ≤ 2 ^ 51
      rw [pow_succ]; omega
    · show ((2 ^ (k + 1) : ℕ) : ℤ) = bitePoints (2 ^ (k + 1) / 2)
      have : 2 ^ (k + 1) / 2 = 2 ^ k := by rw [pow_succ]; omega
      rw [this, bitePoints_pow k (by omega)]
      push_cast
      ring

/-- C47: it fails for all images that are not square. -/
theorem bite_not_square (s : Shape4) (hc : 1 ≤ s.c) (h1 : 2 ≤ s.h) (h2 : s.h ≤ 2 ^ 51)
    (hw : s.w ≠ s.h) : biteMaskShape s = .error .value := by
  cases h : biteMaskShape s with
  | ok r => exact absurd ((bite_ok_iff s hc h1 h2 r).1 h).2.1 hw
  | error e =>
    unfold biteMaskShape at h
    rw [if_neg (by omega)] at h
    split at h
    · cases h
    · cases h; rfl

/-- C47, refuted for even sides in general: a 58 by 58 image raises, a 59 by 59 image works. -/
theorem bite_58_refuted : biteMaskShape ⟨1, 1, 58, 58⟩ = .error .value ∧
    biteMaskShape ⟨1, 1, 59, 59⟩ = .ok ⟨1, 1, 59, 59⟩ := by
  constructor
  · cases h : biteMaskShape ⟨1, 1, 58, 58⟩ with
    | ok r =>
      have := ((bite_ok_iff ⟨1, 1, 58, 58⟩ le_rfl (by norm_num) (by norm_num) r).1 h).1
      have h29 := bitePoints_29
      norm_num [h29] at this
    | error e =>
      unfold biteMaskShape at h
      rw [if_neg (by norm_num)] at h
      split at h
      · cases h
      · cases h; rfl
  · exact (bite_ok_iff ⟨1, 1, 59, 59⟩ le_rfl (by norm_num) (by norm_num) _).2
      ⟨bitePoints_29.symm, rfl, rfl⟩

/-- C47: an image of height 0 or 1 raises. -/
theorem bite_tiny (s : Shape4) (h : s.h ≤ 1) : biteMaskShape s = .error .zeroDiv := by
  unfold biteMaskShape
  rw [if_pos (by omega)]

/-- C47: without `external_channels`, `prep_input` works only for one image with at most one
channel. -/
theorem prep_default (s : Shape4) (batch : Nat) (small : Bool) (hb : 1 ≤ batch) (r : Shape4)
    (h : prepShape s none batch small = .ok r) : s.n = 1 ∧ s.c ≤ 1 := by
  unfold prepShape at h
  simp only [Option.getD_none] at h
  rw [if_neg (by omega)] at h
  cases hm : biteMaskShape s with
  | error e => rw [hm] at h; cases h
  | ok _ =>
    rw [hm] at h
    simp only at h
    cases ha : apertureShape s small with
    | error e => rw [ha] at h; cases h
    | ok _ =>
      rw [ha] at h
      simp only at h
      split at h
      · rename_i hk
        simp only [broadcasts, Bool.and_eq_true, Bool.or_eq_true, decide_eq_true_eq] at hk
        omega
      · cases h

/-- C47: with enough channels it works for one square image with a power of two as side. -/
theorem prep_ok (c k ext batch : Nat) (small : Bool) (hk : k ≤ 49) (hc : c ≤ ext) :
    prepShape ⟨1, c, 2 ^ (k + 1), 2 ^ (k + 1)⟩ (some ext) batch small =
      .ok ⟨batch, ext, 2 ^ (k + 1), 2 ^ (k + 1)⟩ := by
  unfold prepShape
  simp only [Option.getD_some]
  split
  · subst_vars; rfl
  · have ha : ∃ x, apertureShape ⟨1, c, 2 ^ (k + 1), 2 ^ (k + 1)⟩ small = .ok x := by
      unfold apertureShape
      split
      · exact ⟨_, bite_pow_two k 1 c hk⟩
      · exact ⟨_, rfl⟩
    obtain ⟨x, ha⟩ := ha
    rw [bite_pow_two k 1 c hk]
    simp only
    rw [ha]
    simp only
    rw [if_pos]
    simp only [broadcasts, Bool.and_eq_true, Bool.or_eq_true, decide_eq_true_eq]
    omega

/-- C47: exactly: it takes one image, and as many channels as there is room for; a single channel is
also accepted when there is room for none. -/
theorem prep_ok_iff (n c k ext batch : Nat) (small : Bool) (hk : k ≤ 49) (hb : 1 ≤ batch)
    (r : Shape4) :
    prepShape ⟨n, c, 2 ^ (k + 1), 2 ^ (k + 1)⟩ (some ext) batch small = .ok r ↔
      n = 1 ∧ (c ≤ ext ∨ c = 1) ∧ r = ⟨batch, ext, 2 ^ (k + 1), 2 ^ (k + 1)⟩ := by
  unfold prepShape
  simp only [Option.getD_some]
  rw [if_neg (by omega)]
  have ha : ∃ x, apertureShape ⟨n, c, 2 ^ (k + 1), 2 ^ (k + 1)⟩ small = .ok x := by
    unfold apertureShape
    split
    · exact ⟨_, bite_pow_two k n c hk⟩
    · exact ⟨_, rfl⟩
  obtain ⟨x, ha⟩ := ha
  rw [bite_pow_two k n c hk]
  simp only
  rw [ha]
  simp only [broadcasts, Bool.and_eq_true, Bool.or_eq_true, decide_eq_true_eq]
  constructor
  · intro h
    split at h
    · cases h
      exact ⟨by omega, by omega, rfl⟩
    · cases h
  · rintro ⟨h1, h2, rfl⟩
    rw [if_pos (by omega)]

/-- C47: the grid of the masks goes from `-r` in equal steps; there are `2r` of them up to `r + 1`,
which is left out: the last point is short of `r + 1` by one step, so the grid is not centred. -/
theorem biteCoord_grid (r : Nat) (hr : 1 ≤ r) : biteCoord r 0 = -r ∧
    (∀ i, biteCoord r (i + 1) - biteCoord r i = 1 + 1 / (2 * r)) ∧
    biteCoord r (2 * r) = r + 1 ∧ biteCoord r (2 * r - 1) = r - 1 / (2 * r) ∧
    ∀ i, biteCoord r i = 0 → False := by
  have h0 : (r : ℝ) ≠ 0 := by exact_mod_cast (by omega : r ≠ 0)
  have hs : ((2 : ℝ) * r + 1) / (2 * r) = 1 + 1 / (2 * r) := by field_simp
  have hl : biteCoord r (2 * r) = r + 1 := by
    unfold biteCoord; push_cast; field_simp; ring
  have hstep : ∀ i, biteCoord r (i + 1) - biteCoord r i = 1 + 1 / (2 * r) := by
    intro i; unfold biteCoord; rw [hs]; push_cast; ring
  refine ⟨by unfold biteCoord; push_cast; ring, hstep, hl, ?_, ?_⟩
  · have := hstep (2 * r - 1)
    rw [show 2 * r - 1 + 1 = 2 * r by omega, hl] at this
    linarith
  · intro i hi
    unfold biteCoord at hi
    have h2 : (i : ℝ) * (2 * r + 1) = r * (2 * r) := by
      field_simp at hi; linarith
    have h3 : i * (2 * r + 1) = r * (2 * r) := by exact_mod_cast h2
    -- 2r + 1 and 2r² : 2 r² < r (2r+1), and (r - 1)(2r + 1) < 2 r²
    have h4 : i < r := by
      by_contra hge
      have : r * (2 * r + 1) ≤ i * (2 * r + 1) := Nat.mul_le_mul_right _ (by omega)
      nlinarith
    have h5 : r - 1 < i := by
      by_contra hle
      have : i * (2 * r + 1) ≤ (r - 1) * (2 * r + 1) := Nat.mul_le_mul_right _ (by omega)
      obtain ⟨q, rfl⟩ := Nat.exists_eq_add_of_le hr
      simp only [Nat.add_sub_cancel_left] at this
      nlinarith
    omega

/-- C47: the aperture lets through exactly the disc of the given radius around the centre, or
everything from 0.975 on. -/
theorem aperture_spec (r : Nat) (a : ℝ) (i j : Nat) :
    aperture r a i j = 1 ↔ a < 0.975 →
      Real.sqrt (biteCoord r j ^ 2 + biteCoord r i ^ 2) / r < a := by
  unfold aperture
  split
  · rename_i h
    have key : Real.sqrt ((biteCoord r j - 0) ^ 2 + (biteCoord r i - 0) ^ 2) / r =
      Real.sqrt (biteCoord r j ^ 2 + biteCoord r i ^ 2) / r := by rw [sub_zero, sub_zero]
    unfold biteMask
    rw [key, sub_eq_self, (getMask_spec _ _).1]
    exact ⟨fun h' _ => h', fun h' => h' h⟩
  · rename_i h
    exact ⟨fun _ h' => absurd h' h, fun _ => rfl⟩

theorem aperture_zero_or_one (r : Nat) (a : ℝ) (i j : Nat) :
    aperture r a i j = 0 ∨ aperture r a i j = 1 := by
  unfold aperture
  split
  · rcases getMask_zero_or_one (Real.sqrt ((biteCoord r j - 0) ^ 2 + (biteCoord r i - 0) ^ 2) / r) a
      with h | h
    · right; unfold biteMask; rw [h]; ring
    · left; unfold biteMask; rw [h]; ring
  · exact Or.inr rfl

/-- C47: every prepared cell is the image cell or 0, plus noise; so it stays in
`[0, 1 + noise_level]`. -/
theorem prep_value (img : ℝ) (r : Nat) (a b cx cy noise u : ℝ) (i j : Nat) (hi : 0 ≤ img ∧ img ≤ 1)
    (hn : 0 ≤ noise) (hu : 0 ≤ u ∧ u < 1) :
    0 ≤ prepValue img r a b cx cy noise u i j ∧ prepValue img r a b cx cy noise u i j ≤ 1 + noise ∧
    (prepValue img r a b cx cy noise u i j = img + noise * u ∨
      prepValue img r a b cx cy noise u i j = noise * u) := by
  have h1 : 0 ≤ noise * u := mul_nonneg hn hu.1
  have h2 : noise * u ≤ noise := by nlinarith [hu.2.le]
  unfold prepValue
  rcases aperture_zero_or_one r a i j with ha | ha <;>
  rcases getMask_zero_or_one
    (Real.sqrt ((biteCoord r j - cx) ^ 2 + (biteCoord r i - cy) ^ 2) / r) b with hb | hb <;>
  · have hb' : biteMask r b cx cy i j = _ := hb
    rw [ha, hb']
    simp only [mul_zero, mul_one, zero_add]
    refine ⟨by linarith [hi.1], by linarith [hi.2], ?_⟩
    simp

/-- The shapes of a 64 by 64 image. -/
example : biteMaskShape ⟨1, 3, 64, 64⟩ = .ok ⟨1, 3, 64, 64⟩ ∧
    prepShape ⟨1, 3, 64, 64⟩ (some 16) 32 true = .ok ⟨32, 16, 64, 64⟩ :=
  ⟨bite_pow_two 5 1 3 (by norm_num), prep_ok 3 5 16 32 true (by norm_num) (by norm_num)⟩

end Yuca
