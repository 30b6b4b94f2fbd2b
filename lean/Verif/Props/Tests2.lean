import Verif.Model.Tests2
import Verif.Props.Tests
import Verif.Props.Images
import Verif.Props.Cppn
import Verif.Props.Wrappers
import Verif.Props.Clone
import Verif.Props.Shell
import Mathlib.Tactic.Linarith

/-!
# What the project's tests of utilities, patterns, networks and tasks establish (C125)
-/

namespace Yuca

/-! ## Masks -/

/-- The sum of an image under a mask of zeros and ones is less than the sum of the image exactly if
the mask hides a pixel that is not black. -/
theorem masked_sum_lt {x m : Nat → Nat → ℝ} {h w : Nat} (hx : ∀ i < h, ∀ j < w, 0 ≤ x i j)
    (hm : ∀ i j, m i j = 0 ∨ m i j = 1) :
    (∑ i ∈ Finset.range h, ∑ j ∈ Finset.range w, x i j * m i j <
      ∑ i ∈ Finset.range h, ∑ j ∈ Finset.range w, x i j) ↔
    ∃ i < h, ∃ j < w, m i j = 0 ∧ 0 < x i j := by
  have hle : ∀ i < h, ∀ j < w, x i j * m i j ≤ x i j := by
    intro i hi j hj
    rcases hm i j with e | e <;> rw [e]
    · simpa using hx i hi j hj
    · simp
  constructor
  · intro hlt
    by_contra hno
    push Not at hno
    refine absurd hlt (not_lt.2 (Finset.sum_le_sum fun i hi => Finset.sum_le_sum fun j hj => ?_))
    have hi' := Finset.mem_range.1 hi
    have hj' := Finset.mem_range.1 hj
    rcases hm i j with e | e
    · have := hno i hi' j hj' e
      rw [e]; simpa using this
    · rw [e]; simp
  · rintro ⟨i, hi, j, hj, e, hp⟩
    refine Finset.sum_lt_sum (fun i hi => Finset.sum_le_sum fun j hj =>
      hle i (Finset.mem_range.1 hi) j (Finset.mem_range.1 hj)) ⟨i, Finset.mem_range.2 hi, ?_⟩
    refine Finset.sum_lt_sum (fun j hj => hle i hi j (Finset.mem_range.1 hj))
      ⟨j, Finset.mem_range.2 hj, ?_⟩
    rw [e]; simpa using hp

theorem shape256 : biteMaskShape ⟨1, 1, 256, 256⟩ = .ok ⟨1, 1, 256, 256⟩ := by
  have := bite_pow_two 7 1 1 (by norm_num)
  norm_num at this
  exact this

/-- Loops whose passes are single checks. -/
theorem each_check {β : Type} (p : β → Prop) (l : List β) :
    each (fun b => check (p b)) l = .ok () ↔ ∀ b ∈ l, p b := by
  rw [each_ok]
  exact forall₂_congr fun b _ => check_ok

/-- Pixels as `np.random.rand` draws them. -/
def Spec.Drawn01 (x : Nat → Nat → ℝ) : Prop := ∀ i j, 0 ≤ x i j ∧ x i j < 1

open Spec

/-- C125: `test_mask_sum` passes exactly if each image has a pixel between 0 and 1/2. -/
theorem test_mask_sum_iff (x : Nat → Nat → Nat → ℝ) (hx : ∀ s, Drawn01 (x s)) :
    testMaskSum Arr.mask x = .ok () ↔
      ∀ s ∈ maskSeeds, ∃ i < 256, ∃ j < 256, 0 < x s i j ∧ x s i j < 1 / 2 := by
  unfold testMaskSum
  have : (fun seed : Nat => (do
      let m ← (randArr (x seed)).mask 0.5
      let p ← (randArr (x seed)).mul m
      check (p.sum < (randArr (x seed)).sum) : Except PyErr Unit)) =
      fun seed => check (∑ i ∈ Finset.range 256, ∑ j ∈ Finset.range 256,
        x seed i j * getMask (x seed i j) 0.5 <
        ∑ i ∈ Finset.range 256, ∑ j ∈ Finset.range 256, x seed i j) := by
    funext seed
    simp only [Arr.mask, Arr.mul, randArr, bind, Except.bind, if_true, Arr.sum]
  rw [this, each_check]
  refine forall₂_congr fun s _ => ?_
  rw [masked_sum_lt (fun i _ j _ => (hx s i j).1) (fun i j => getMask_zero_or_one _ _)]
  refine exists_congr fun i => and_congr_right fun _ => exists_congr fun j => and_congr_right fun _ => ?_
  rw [(getMask_spec _ _).1, and_comm]
  norm_num

/-- C125: `test_mask_center` passes exactly if the pixel in the middle of each image is darker than
1/2: it says nothing about the middle of the mask, which follows the image. -/
theorem test_mask_centre_iff (x : Nat → Nat → Nat → ℝ) :
    testMaskCentre Arr.mask x = .ok () ↔ ∀ s ∈ maskSeeds, x s 128 128 < 1 / 2 := by
  unfold testMaskCentre
  have : (fun seed : Nat => (do
      let m ← (randArr (x seed)).mask 0.5
      check (0 = m.val 128 128) : Except PyErr Unit)) =
      fun seed => check (0 = getMask (x seed 128 128) 0.5) := by
    funext seed
    simp only [Arr.mask, randArr, bind, Except.bind]
  rw [this, each_check]
  refine forall₂_congr fun s _ => ?_
  rw [eq_comm, (getMask_spec _ _).1]
  norm_num

example : ∃ x : Nat → Nat → Nat → ℝ, (∀ s, Drawn01 (x s)) ∧ (∀ s, x s 0 0 ≠ 0) ∧
    testMaskSum Arr.mask x = .ok () ∧ testMaskCentre Arr.mask x = .ok () := by
  refine ⟨fun _ _ _ => 1 / 4, fun s i j => by norm_num, fun s => by norm_num, ?_, ?_⟩
  · rw [test_mask_sum_iff _ (fun s i j => by norm_num)]
    exact fun s _ => ⟨0, by norm_num, 0, by norm_num, by norm_num⟩
  · rw [test_mask_centre_iff]
    exact fun s _ => by norm_num

/-- C125, refuted: an image of random numbers can make `test_mask_center` fail. -/
theorem test_mask_centre_refuted : ∃ x : Nat → Nat → Nat → ℝ, (∀ s, Drawn01 (x s)) ∧
    testMaskCentre Arr.mask x ≠ .ok () := by
  refine ⟨fun _ _ _ => 3 / 4, fun s i j => by norm_num, fun h => ?_⟩
  have := (test_mask_centre_iff _).1 h 1234 (by simp [maskSeeds])
  norm_num at this

/-- C125: a mask that is 0 everywhere passes all three tests of `get_mask`, whatever it is given. -/
theorem test_mask_blind (x₀ : Nat → Nat → ℝ) (x : Nat → Nat → Nat → ℝ) (hx : ∀ s, Drawn01 (x s))
    (hp : ∀ s, ∃ i < 256, ∃ j < 256, x s i j ≠ 0) :
    let mask : Arr → ℝ → Except PyErr Arr := fun a _ => .ok ⟨a.shape, fun _ _ => 0⟩
    testMaskShape mask x₀ = .ok () ∧ testMaskSum mask x = .ok () ∧
      testMaskCentre mask x = .ok () := by
  refine ⟨?_, ?_, ?_⟩
  · simp only [testMaskShape, bind, Except.bind]
    exact check_yes (by trivial)
  · rw [testMaskSum, each_ok]
    intro s _
    simp only [bind, Except.bind, Arr.mul, if_true, Arr.sum, randArr]
    refine check_yes ((masked_sum_lt (fun i _ j _ => (hx s i j).1) (fun _ _ => Or.inl rfl)).2 ?_)
    obtain ⟨i, hi, j, hj, h⟩ := hp s
    exact ⟨i, hi, j, hj, rfl, lt_of_le_of_ne (hx s i j).1 (Ne.symm h)⟩
  · rw [testMaskCentre, each_ok]
    intro s _
    simp only [bind, Except.bind]
    exact check_yes (by trivial)

/-- C125: `test_mask_shape` passes. -/
theorem test_mask_shape_passes (x : Nat → Nat → ℝ) : testMaskShape Arr.mask x = .ok () := by
  simp only [testMaskShape, Arr.mask, bind, Except.bind]
  exact check_yes (by trivial)

theorem bite256 (u v : ℝ) (x : Nat → Nat → ℝ) (radius : ℝ) : Arr.bite u v (randArr x) radius =
    .ok ⟨⟨1, 1, 256, 256⟩, biteMask 128 radius (u * 128) (v * 128)⟩ := by
  unfold Arr.bite
  simp only [randArr, bind, Except.bind, shape256, pure, Except.pure]
  norm_num

/-- C125: `test_bite_mask_shape` passes, wherever the bite is. -/
theorem test_bite_shape_passes (u v : ℝ) (x : Nat → Nat → ℝ) :
    testBiteShape (Arr.bite u v) x = .ok () := by
  simp only [testBiteShape, bite256, bind, Except.bind]
  exact check_yes (by trivial)

/-- At most 128 of the 256 coordinates are closer than 64 to a given one. -/
theorem near_coords (c : ℝ) :
    ((Finset.range 256).filter fun i => |biteCoord 128 i - c| < 64).card ≤ 128 := by
  classical
  set S := (Finset.range 256).filter fun i => |biteCoord 128 i - c| < 64 with hS
  rcases S.eq_empty_or_nonempty with h | h
  · rw [h]; simp
  · have hsub : S ⊆ Finset.Ico (S.min' h) (S.min' h + 128) := by
      intro i hi
      have h1 := S.min'_le i hi
      have h2 := (Finset.mem_filter.1 (S.min'_mem h)).2
      have h3 := (Finset.mem_filter.1 hi).2
      rw [Finset.mem_Ico]
      refine ⟨h1, ?_⟩
      by_contra hge
      push Not at hge
      have h4 : ((S.min' h : ℕ) : ℝ) + 128 ≤ i := by exact_mod_cast hge
      rw [abs_lt] at h2 h3
      unfold biteCoord at h2 h3
      push_cast at h2 h3
      norm_num at h2 h3
      nlinarith [h2.1, h2.2, h3.1, h3.2]
    calc S.card ≤ (Finset.Ico (S.min' h) (S.min' h + 128)).card := Finset.card_le_card hsub
      _ = 128 := by simp

/-- A bite of radius 1/2 leaves at least three quarters of the points. -/
theorem bite_sum_ge (cx cy : ℝ) : 49152 ≤ ∑ i ∈ Finset.range 256, ∑ j ∈ Finset.range 256,
    biteMask 128 0.5 cx cy i j := by
  classical
  have hpt : ∀ i j : Nat, 1 - (if |biteCoord 128 i - cy| < 64 then (1 : ℝ) else 0) *
      (if |biteCoord 128 j - cx| < 64 then (1 : ℝ) else 0) ≤ biteMask 128 0.5 cx cy i j := by
    intro i j
    rcases getMask_zero_or_one (Real.sqrt ((biteCoord 128 j - cx) ^ 2 +
      (biteCoord 128 i - cy) ^ 2) / (128 : ℕ)) 0.5 with h | h
    · have hb := (getMask_spec _ _).1.1 h
      rw [div_lt_iff₀ (by norm_num)] at hb
      have hb' : Real.sqrt ((biteCoord 128 j - cx) ^ 2 + (biteCoord 128 i - cy) ^ 2) < 64 := by
        push_cast at hb; linarith
      have hj : |biteCoord 128 j - cx| < 64 := by
        refine lt_of_le_of_lt ?_ hb'
        rw [← Real.sqrt_sq_eq_abs]
        exact Real.sqrt_le_sqrt (by nlinarith [sq_nonneg (biteCoord 128 i - cy)])
      have hi : |biteCoord 128 i - cy| < 64 := by
        refine lt_of_le_of_lt ?_ hb'
        rw [← Real.sqrt_sq_eq_abs]
        exact Real.sqrt_le_sqrt (by nlinarith [sq_nonneg (biteCoord 128 j - cx)])
      rw [biteMask, h, if_pos hi, if_pos hj]
      norm_num
    · rw [biteMask, h]
      split_ifs <;> norm_num
  have hsum := Finset.sum_le_sum fun i (_ : i ∈ Finset.range 256) =>
    Finset.sum_le_sum fun j (_ : j ∈ Finset.range 256) => hpt i j
  refine le_trans ?_ hsum
  have e : ∑ i ∈ Finset.range 256, ∑ j ∈ Finset.range 256,
      (1 - (if |biteCoord 128 i - cy| < 64 then (1 : ℝ) else 0) *
      (if |biteCoord 128 j - cx| < 64 then (1 : ℝ) else 0)) =
      256 * 256 - (((Finset.range 256).filter fun i => |biteCoord 128 i - cy| < 64).card : ℝ) *
        (((Finset.range 256).filter fun i => |biteCoord 128 i - cx| < 64).card : ℝ) := by
    simp only [Finset.sum_sub_distrib, Finset.sum_const, Finset.card_range, ← Finset.mul_sum,
      ← Finset.sum_mul, Finset.sum_boole]
    norm_num
  rw [e]
  have a : ((((Finset.range 256).filter fun i => |biteCoord 128 i - cy| < 64).card : ℕ) : ℝ) ≤ 128 := by
    exact_mod_cast near_coords cy
  have b : ((((Finset.range 256).filter fun i => |biteCoord 128 i - cx| < 64).card : ℕ) : ℝ) ≤ 128 := by
    exact_mod_cast near_coords cx
  have := mul_le_mul a b (by positivity) (by norm_num)
  linarith

/-- C125: `test_bite_mask_sum` passes exactly if the pixels of each image add up to less than the
number of points outside the bite … -/
theorem test_bite_sum_iff (u v : Nat → ℝ) (x : Nat → Nat → Nat → ℝ) :
    testBiteSum (fun s => Arr.bite (u s) (v s)) x = .ok () ↔ ∀ s ∈ maskSeeds,
      ∑ i ∈ Finset.range 256, ∑ j ∈ Finset.range 256, x s i j <
        ∑ i ∈ Finset.range 256, ∑ j ∈ Finset.range 256,
          open Classical in
          if Real.sqrt ((biteCoord 128 j - u s * 128) ^ 2 + (biteCoord 128 i - v s * 128) ^ 2) / 128
            < 1 / 2 then 0 else 1 := by
  unfold testBiteSum
  simp only [bite256, bind, Except.bind]
  simp only [Arr.sum, randArr]
  rw [each_check]
  refine forall₂_congr fun s _ => ?_
  refine Iff.of_eq (congrArg _ (Finset.sum_congr rfl fun i _ => Finset.sum_congr rfl fun j _ => ?_))
  unfold biteMask getMask
  norm_num

/-- … so always if the images are darker than 3/4 on average. -/
theorem test_bite_sum_passes (u v : Nat → ℝ) (x : Nat → Nat → Nat → ℝ)
    (hx : ∀ s, (∑ i ∈ Finset.range 256, ∑ j ∈ Finset.range 256, x s i j) / (256 * 256) < 3 / 4) :
    testBiteSum (fun s => Arr.bite (u s) (v s)) x = .ok () := by
  unfold testBiteSum
  simp only [bite256, bind, Except.bind]
  simp only [Arr.sum, randArr]
  rw [each_check]
  intro s _
  have h := bite_sum_ge (u s * 128) (v s * 128)
  have h' := hx s
  rw [div_lt_iff₀ (by norm_num)] at h'
  linarith

example (u v : Nat → ℝ) :
    testBiteSum (fun s => Arr.bite (u s) (v s)) (fun _ _ _ => 1 / 2) = .ok () :=
  test_bite_sum_passes u v _ fun s => by
    simp only [Finset.sum_const, Finset.card_range, nsmul_eq_mul]
    norm_num

/-- C125: a bite mask that bites nothing off passes the tests of `get_bite_mask` for every drawn
image. -/
theorem test_bite_blind (x₀ : Nat → Nat → ℝ) (x : Nat → Nat → Nat → ℝ) (hx : ∀ s, Drawn01 (x s)) :
    let bite : Arr → ℝ → Except PyErr Arr := fun a _ => .ok ⟨a.shape, fun _ _ => 1⟩
    testBiteShape bite x₀ = .ok () ∧ testBiteSum (fun _ => bite) x = .ok () := by
  refine ⟨?_, ?_⟩
  · simp only [testBiteShape, bind, Except.bind]
    exact check_yes (by trivial)
  · rw [testBiteSum, each_ok]
    intro s _
    simp only [bind, Except.bind, Arr.sum, randArr]
    refine check_yes ?_
    refine Finset.sum_lt_sum_of_nonempty ⟨0, by simp⟩ fun i _ => ?_
    exact Finset.sum_lt_sum_of_nonempty ⟨0, by simp⟩ fun j _ => (hx s i j).2

theorem clipRadius_range (u : ℝ) : 0.1 ≤ clipRadius u ∧ clipRadius u < 0.975 := by
  unfold clipRadius
  refine ⟨le_max_left _ _, max_lt (by norm_num) (lt_of_le_of_lt (min_le_right _ _) (by norm_num))⟩

theorem aperture256 (x : Nat → Nat → ℝ) (radius : ℝ) : Arr.aperture (randArr x) radius =
    .ok ⟨⟨1, 1, 256, 256⟩, Yuca.aperture 128 radius⟩ := by
  unfold Arr.aperture apertureShape
  by_cases h : radius < 0.975
  · simp only [randArr, bind, Except.bind, shape256, pure, Except.pure, h, decide_true, if_true]
  · simp only [randArr, bind, Except.bind, pure, Except.pure, h, decide_false]
    rfl

/-- C125: `test_aperture_full`, `test_aperture_shape` and `test_aperture_center` pass for all
draws. -/
theorem test_aperture_passes (x₀ : Nat → Nat → ℝ) (u₀ : ℝ) (x : Nat → Nat → Nat → ℝ) (u : Nat → ℝ) :
    testApertureFull Arr.aperture x₀ = .ok () ∧ testApertureShape Arr.aperture x₀ u₀ = .ok () ∧
      testApertureCentre Arr.aperture x u = .ok () := by
  refine ⟨?_, ?_, ?_⟩
  · simp only [testApertureFull, aperture256, bind, Except.bind]
    rw [check_yes (by rfl)]
    refine check_yes ?_
    have : ∀ i j, Yuca.aperture 128 0.98 i j = 1 := fun i j =>
      (aperture_spec 128 0.98 i j).2 fun h => absurd h (by norm_num)
    simp [Arr.mean, Arr.sum, this]
  · simp only [testApertureShape, aperture256, bind, Except.bind]
    exact check_yes (by trivial)
  · rw [testApertureCentre, each_ok]
    intro s _
    simp only [aperture256, bind, Except.bind]
    refine check_yes (((aperture_spec 128 _ 128 128).2 fun _ => ?_).symm)
    have hc : biteCoord 128 128 = 1 / 2 := by unfold biteCoord; push_cast; norm_num
    rw [hc]
    refine lt_of_lt_of_le ?_ (clipRadius_range (u s)).1
    rw [div_lt_iff₀ (by norm_num), Real.sqrt_lt' (by norm_num)]
    norm_num

/-- C125: `test_aperture_sum` passes exactly if each image has a pixel outside the aperture that is
not black; so if its first pixel is not black. -/
theorem test_aperture_sum_iff (x : Nat → Nat → Nat → ℝ) (hx : ∀ s, Drawn01 (x s)) (u : Nat → ℝ) :
    (testApertureSum Arr.aperture x u = .ok () ↔ ∀ s ∈ maskSeeds, ∃ i < 256, ∃ j < 256,
      clipRadius (u s) ≤ Real.sqrt (biteCoord 128 j ^ 2 + biteCoord 128 i ^ 2) / 128 ∧
        0 < x s i j) ∧
    ((∀ s ∈ maskSeeds, x s 0 0 ≠ 0) → testApertureSum Arr.aperture x u = .ok ()) := by
  have key : testApertureSum Arr.aperture x u = .ok () ↔ ∀ s ∈ maskSeeds, ∃ i < 256, ∃ j < 256,
      clipRadius (u s) ≤ Real.sqrt (biteCoord 128 j ^ 2 + biteCoord 128 i ^ 2) / 128 ∧
        0 < x s i j := by
    unfold testApertureSum
    have hm : ∀ (s : Nat) (m : Nat → Nat → ℝ), (randArr (x s)).mul ⟨⟨1, 1, 256, 256⟩, m⟩ =
        .ok ⟨⟨1, 1, 256, 256⟩, fun i j => x s i j * m i j⟩ := fun s m => if_pos rfl
    simp only [aperture256, bind, Except.bind, hm]
    simp only [Arr.sum, randArr]
    rw [each_check]
    refine forall₂_congr fun s _ => ?_
    rw [masked_sum_lt (fun i _ j _ => (hx s i j).1) (fun i j => aperture_zero_or_one _ _ _ _)]
    refine exists_congr fun i => and_congr_right fun _ => exists_congr fun j =>
      and_congr_right fun _ => and_congr_left fun _ => ?_
    have hs := aperture_spec 128 (clipRadius (u s)) i j
    have hz := aperture_zero_or_one 128 (clipRadius (u s)) i j
    push_cast at hs
    rw [← not_lt]
    constructor
    · intro h0 hlt
      have := hs.2 fun _ => hlt
      rw [h0] at this
      norm_num at this
    · intro hn
      rcases hz with h | h
      · exact h
      · exact absurd (hs.1 h (clipRadius_range _).2) hn
  refine ⟨key, fun h => key.2 fun s hs => ⟨0, by norm_num, 0, by norm_num, ?_,
    lt_of_le_of_ne (hx s 0 0).1 (Ne.symm (h s hs))⟩⟩
  have hc : biteCoord 128 0 = -128 := by unfold biteCoord; norm_num
  rw [hc, le_div_iff₀ (by norm_num)]
  refine Real.le_sqrt_of_sq_le ?_
  have h1 := clipRadius_range (u s)
  nlinarith [h1.1, h1.2]

/-- C125: an aperture that is one pixel wide whatever its radius, or no aperture from 0.975 on,
passes all four tests of `get_aperture`. -/
theorem test_aperture_blind (x₀ : Nat → Nat → ℝ) (u₀ : ℝ) (x : Nat → Nat → Nat → ℝ)
    (hx : ∀ s, Drawn01 (x s)) (hp : ∀ s, x s 0 0 ≠ 0) (u : Nat → ℝ) :
    let ap : Arr → ℝ → Except PyErr Arr := fun a radius => open Classical in
      .ok ⟨a.shape, fun i j => if radius < 0.975 ∧ ¬ (i = 128 ∧ j = 128) then 0 else 1⟩
    testApertureFull ap x₀ = .ok () ∧ testApertureShape ap x₀ u₀ = .ok () ∧
      testApertureSum ap x u = .ok () ∧ testApertureCentre ap x u = .ok () := by
  refine ⟨?_, ?_, ?_, ?_⟩
  · simp only [testApertureFull, bind, Except.bind, check_yes trivial]
    refine check_yes ?_
    have h : ¬ ((0.98 : ℝ) < 0.975) := by norm_num
    simp [Arr.mean, Arr.sum, randArr, h]
  · simp only [testApertureShape, bind, Except.bind]
    exact check_yes (by trivial)
  · rw [testApertureSum, each_ok]
    intro s _
    simp only [bind, Except.bind, Arr.mul, if_true, Arr.sum, randArr]
    refine check_yes ((masked_sum_lt (fun i _ j _ => (hx s i j).1) (fun i j => ?_)).2
      ⟨0, by norm_num, 0, by norm_num, ?_, lt_of_le_of_ne (hx s 0 0).1 (Ne.symm (hp s))⟩)
    · split
      · exact Or.inl rfl
      · exact Or.inr rfl
    · rw [if_pos ⟨(clipRadius_range _).2, by simp⟩]
  · rw [testApertureCentre, each_ok]
    intro s _
    simp only [bind, Except.bind]
    refine check_yes ?_
    simp

/-- C125: the tests of `prep_input` pass; they look at two numbers of the shape only. -/
theorem test_prep_input_passes : testPrepInput (fun s n => prepShape s none n false) = .ok () := by
  have key : ∀ n, 1 ≤ n → prepShape ⟨1, 1, 256, 256⟩ none n false = .ok ⟨n, 1, 256, 256⟩ := by
    intro n hn
    unfold prepShape
    rw [if_neg (by omega)]
    simp only [shape256, apertureShape, Option.getD_none, Bool.false_eq_true, if_false]
    rfl
  unfold testPrepInput
  simp only [key 32 (by norm_num), bind, Except.bind, check_yes trivial]
  rw [each_ok]
  intro n hn
  have : 1 ≤ n := by
    simp only [List.mem_cons, List.not_mem_nil, or_false] at hn
    omega
  simp only [key n this]
  exact check_yes (by trivial)

/-! ## Keyword arguments and seeds -/

/-- C125: `query_kwargs` returns the value of the key, or the default. -/
theorem queryKwargs_spec {V : Type} (key : String) (d : V) (kw : List (String × V)) :
    ((∀ e ∈ kw, e.1 ≠ key) → queryKwargs key d kw = d) ∧
    (∀ v, (key, v) ∈ kw → (kw.map Prod.fst).Nodup → queryKwargs key d kw = v) := by
  unfold queryKwargs
  constructor
  · intro h
    have : (kw.find? fun e => decide (e.1 = key)) = none := by
      rw [List.find?_eq_none]
      intro e he
      simpa using h e he
    rw [this]
  · intro v hv hn
    cases hf : kw.find? fun e => decide (e.1 = key) with
    | none =>
      have := List.find?_eq_none.1 hf _ hv
      simp at this
    | some e =>
      have h1 := List.mem_of_find?_eq_some hf
      have h2 : e.1 = key := by simpa using List.find?_some hf
      have : e = (key, v) := List.inj_on_of_nodup_map hn h1 hv h2
      rw [this]

/-- C125: `test_query_kwargs` passes exactly if no drawn number equals the default drawn with it. -/
theorem test_query_iff (d : Nat → ℕ) (v : Nat → ℝ) :
    testQueryKwargs queryKwargs d v = .ok () ↔ ∀ i < 100, v i ≠ d i := by
  have h1 : ∀ (k : String) (a b : QVal), queryKwargs k a [(k, b)] = b := fun k a b => by
    simp [queryKwargs]
  have h2 : ∀ (a b : QVal), queryKwargs "variable" a [("varialbe", b)] = a := fun a b => by
    simp [queryKwargs]
  have h3 : ∀ (a b : QVal), queryKwargs "number_weekdays" a [("cat", b)] = a := fun a b => by
    simp [queryKwargs]
  unfold testQueryKwargs
  rw [h1, h1, h3]
  simp only [bind, Except.bind, check_yes trivial]
  rw [each_ok]
  simp only [List.mem_range]
  refine forall₂_congr fun i _ => ?_
  unfold testQueryOnce
  simp only [h1, h2, bind, Except.bind, check_yes trivial]
  rw [check_ok]
  rw [not_iff_not, QVal.num.injEq, eq_comm]

/-- C125: so with defaults 0 or 1 and values in `[0, 1)` it fails exactly if a 0 is drawn with the
default 0. -/
theorem test_query_drawn (d : Nat → ℕ) (v : Nat → ℝ) (hd : ∀ i, d i < 2)
    (hv : ∀ i, 0 ≤ v i ∧ v i < 1) :
    testQueryKwargs queryKwargs d v = .ok () ↔ ¬ ∃ i < 100, d i = 0 ∧ v i = 0 := by
  rw [test_query_iff]
  push Not
  refine forall₂_congr fun i _ => ?_
  have hdi := hd i
  have : d i = 0 ∨ d i = 1 := by omega
  rcases this with h | h <;> rw [h]
  · simp
  · have := (hv i).2
    simp [this.ne]

example : testQueryKwargs queryKwargs (fun _ => 0) (fun _ => 1 / 2) = .ok () :=
  (test_query_drawn _ _ (fun _ => by norm_num) (fun _ => by norm_num)).2 (by norm_num)

example : testQueryKwargs queryKwargs (fun _ => 0) (fun _ => 0) ≠ .ok () := fun h =>
  (test_query_drawn _ _ (fun _ => by norm_num) (fun _ => by norm_num)).1 h ⟨0, by norm_num⟩

theorem zip_self_sum : ∀ a : List ℝ, (List.zipWith (fun x y => x - y) a a).sum = 0
  | [] => rfl
  | x :: a => by simp

theorem foldlM_ok {S β : Type} {f : S → β → Except PyErr S} (h : ∀ s b, ∃ s', f s b = .ok s') :
    ∀ (l : List β) (s : S), ∃ s', l.foldlM f s = .ok s'
  | [], s => ⟨s, rfl⟩
  | b :: l, s => by
    obtain ⟨s', hs'⟩ := h s b
    obtain ⟨s'', hs''⟩ := foldlM_ok h l s'
    exact ⟨s'', by rw [List.foldlM_cons, hs']; exact hs''⟩

/-- C125: `seed_all` puts both generators into the state their own seeding gives for the one seed,
whatever state they were in. -/
theorem seed_all_both {P Q : Type} (npSeed : Nat → P) (torchSeed : Nat → Q) (seed : Nat)
    (g : Gens P Q) : (seedAll npSeed torchSeed seed g).np = npSeed seed ∧
      (seedAll npSeed torchSeed seed g).torch = torchSeed seed := ⟨rfl, rfl⟩

/-- C125: the tests of `seed_all` pass for all generators and all ways of making a state from a
seed: also for one that ignores the seed. -/
theorem test_seed_passes {P Q : Type} (npSeed : Nat → P) (torchSeed : Nat → Q) (g : Gens P Q)
    (draw : P → List ℝ × P) (draws : List (Q → List ℝ × Q)) :
    eachSeed (testSeedNp (seedAll npSeed torchSeed) draw) g = .ok () ∧
    eachSeed (testSeedTorch (seedAll npSeed torchSeed) draws) g = .ok () := by
  constructor
  · obtain ⟨s, hs⟩ := foldlM_ok (f := testSeedNp (seedAll npSeed torchSeed) draw) (fun g s => by
      unfold testSeedNp seedAll
      simp only [bind, Except.bind]
      rw [check_yes (zip_self_sum _).symm]
      exact ⟨_, rfl⟩) allSeeds g
    unfold eachSeed
    rw [hs]
    rfl
  · obtain ⟨s, hs⟩ := foldlM_ok (f := testSeedTorch (seedAll npSeed torchSeed) draws) (fun g s => by
      unfold testSeedTorch seedAll
      simp only [bind, Except.bind]
      rw [each_ok.2]
      · exact ⟨_, rfl⟩
      · intro ab hab
        have : ab.1 = ab.2 := by
          obtain ⟨i, hi, e⟩ := List.mem_iff_getElem.1 hab
          rw [List.getElem_zip] at e
          rw [← e]
        rw [this]
        refine check_yes ?_
        unfold AlmostEqual
        rw [zip_self_sum]
        norm_num) allSeeds g
    unfold eachSeed
    rw [hs]
    rfl

/-- C125: the tests with a hundred numbers compare sums only: numpy's generator need not be reset at
all if its draws come in different orders. -/
theorem test_seed_sums {P Q : Type} (seedFn : Nat → Gens P Q → Gens P Q) (g : Gens P Q)
    (draw : P → List ℝ × P) (n : Nat) (c : ℝ) (hlen : ∀ p, (draw p).1.length = n)
    (hsum : ∀ p, (draw p).1.sum = c) : eachSeed (testSeedNp seedFn draw) g = .ok () := by
  have hz : ∀ a b : List ℝ, a.length = b.length →
      (List.zipWith (fun x y => x - y) a b).sum = a.sum - b.sum := by
    intro a
    induction a with
    | nil => intro b hb; cases b with
      | nil => simp
      | cons => simp at hb
    | cons x a ih => intro b hb; cases b with
      | nil => simp at hb
      | cons y b =>
        have := ih b (by simpa using hb)
        simp [this]; ring
  obtain ⟨s, hs⟩ := foldlM_ok (f := testSeedNp seedFn draw) (fun g s => by
    unfold testSeedNp
    simp only [bind, Except.bind]
    rw [check_yes]
    · exact ⟨_, rfl⟩
    · rw [hz _ _ (by rw [hlen, hlen]), hsum, hsum, sub_self]) allSeeds g
  unfold eachSeed
  rw [hs]
  rfl

example : eachSeed (testSeedNp (fun _ g => g) fun p : Bool =>
    (if p then [1, 2] else [2, 1], !p)) (⟨true, ()⟩ : Gens Bool Unit) = .ok () :=
  test_seed_sums _ _ _ 2 3 (fun p => by cases p <;> rfl) (fun p => by cases p <;> norm_num)

/-- A generator that counts. -/
noncomputable def Witness.countUp (p : ℕ) : List ℝ × ℕ := ([(p : ℝ)], p + 1)

/-- C125: the tests do notice a `seed_all` that leaves one of the generators alone: with a generator
that never repeats, each half fails without its own seed. -/
theorem test_seed_detects (seeds : Nat → ℕ) (g : Gens ℕ ℕ) :
    eachSeed (testSeedNp (fun s g => { g with torch := seeds s }) Witness.countUp) g
      = .error .assertion ∧
    eachSeed (testSeedTorch (fun s g => { g with np := seeds s }) [Witness.countUp]) g
      = .error .assertion := by
  constructor
  · unfold eachSeed allSeeds
    rw [List.foldlM_cons]
    unfold testSeedNp Witness.countUp
    simp only [bind, Except.bind]
    rw [check_not (by simp)]
    rfl
  · unfold eachSeed allSeeds
    rw [List.foldlM_cons]
    unfold testSeedTorch Witness.countUp
    simp only [bind, Except.bind, List.foldl_cons, List.foldl_nil, List.nil_append, List.zip_cons_cons,
      List.zip_nil_left, each]
    rw [check_not (by unfold AlmostEqual; simp; norm_num)]
    rfl

/-! ## Patterns -/

/-- C125: the tests of the glider and the puffer pass, … -/
theorem test_patterns_pass : testPattern ⟨8, 8, getGlider⟩ 5 = .ok () ∧
    testPattern ⟨8, 8, getPuffer⟩ 16 = .ok () := by
  constructor
  · unfold testPattern
    simp only [check_yes trivial, bind, Except.bind]
    refine check_yes ?_
    simp only [Pattern2.sum, getGlider, setOnes, npZeros, Fin.sum_univ_eight]
    norm_num
  · unfold testPattern
    simp only [check_yes trivial, bind, Except.bind]
    refine check_yes ?_
    simp only [Pattern2.sum, getPuffer, setOnes, npZeros, Fin.sum_univ_eight]
    norm_num

/-- … and they pass for every 8 by 8 array with the right sum. -/
theorem test_pattern_iff (p : Pattern2) (total : ℝ) :
    testPattern p total = .ok () ↔ p.h = 8 ∧ p.w = 8 ∧ p.sum = total := by
  unfold testPattern
  by_cases h : (8, 8) = (p.h, p.w)
  · simp only [check_yes h, bind, Except.bind, check_ok]
    simp only [Prod.mk.injEq] at h
    exact ⟨fun e => ⟨h.1.symm, h.2.symm, e.symm⟩, fun e => e.2.2.symm⟩
  · simp only [check_not h, bind, Except.bind]
    constructor
    · intro e
      cases e
    · intro e
      refine absurd ?_ h
      rw [e.1, e.2.1]

/-- C125: so the glider test passes for a row of five cells, which is no glider. -/
theorem test_glider_blind : testPattern ⟨8, 8, setOnes 0 1 0 5 (npZeros 8 8)⟩ 5 = .ok () ∧
    setOnes 0 1 0 5 (npZeros 8 8) ≠ getGlider := by
  constructor
  · rw [test_pattern_iff]
    refine ⟨rfl, rfl, ?_⟩
    simp only [Pattern2.sum, setOnes, npZeros, Fin.sum_univ_eight]
    norm_num
  · intro h
    have := congrFun (congrFun h 0) 0
    simp [getGlider, setOnes, npZeros] at this

/-! ## Networks that make patterns -/

theorem mapM_ok_all {A B : Type} {f : A → Except PyErr B} : ∀ {l : List A},
    (∀ a ∈ l, ∃ b, f a = .ok b) → ∃ r, l.mapM f = .ok r ∧ r.length = l.length
  | [], _ => ⟨[], rfl, rfl⟩
  | a :: l, h => by
    obtain ⟨b, hb⟩ := h a (by simp)
    obtain ⟨r, hr, hl⟩ := mapM_ok_all fun x hx => h x (List.mem_cons_of_mem _ hx)
    refine ⟨b :: r, ?_, by simp [hl]⟩
    rw [List.mapM_cons, hb]
    show (l.mapM f >>= fun bs => pure (b :: bs)) = _
    rw [hr]
    rfl

/-- Sixteen channels at every point. -/
def Spec.Wide16 (grid : Nat → Nat → List ℝ) : Prop := ∀ i j, (grid i j).length = 16

theorem cppnCells_ok {dim hidden : Nat} {layers : List CppnLayer} (hs : CppnSized 1 hidden layers)
    {grid : Nat → Nat → List ℝ} (hg : Wide16 grid) :
    ∃ r, cppnCells dim layers grid = .ok r ∧ r.length = dim * dim := by
  unfold cppnCells
  obtain ⟨r, hr, hl⟩ := mapM_ok_all (f := fun p : Nat × Nat => (do
    let out ← cppnModel layers (grid p.1 p.2)
    match out with
    | [g] => .ok (cppnCell g (cppnRadius (cppnCoord dim p.2) (cppnCoord dim p.1)))
    | _ => .error .runtime : Except PyErr ℝ))
    (l := (List.range dim).flatMap fun i => (List.range dim).map fun j => (i, j)) (by
      intro p _
      obtain ⟨out, ho, hlen, _⟩ := cppnModel_ok hs (x := grid p.1 p.2) (by rw [hg])
      obtain ⟨g, rfl⟩ := List.length_eq_one_iff.1 hlen
      exact ⟨_, by rw [ho]; rfl⟩)
  refine ⟨r, hr, ?_⟩
  rw [hl]
  simp [List.length_flatMap]

theorem zip_sub_sum : ∀ a b : List ℝ, a.length = b.length →
    (List.zipWith (fun x y => x - y) a b).sum = a.sum - b.sum
  | [], [], _ => by simp
  | [], _ :: _, h => by simp at h
  | _ :: _, [], h => by simp at h
  | x :: a, y :: b, h => by
    have := zip_sub_sum a b (by simpa using h)
    simp [this]; ring

/-- C125: `test_get_action` passes exactly if the pattern from the random input has another sum than
the pattern of the network; that the same input gives the same pattern holds for every network. -/
theorem test_cppn_iff {hidden : Nat} {layers : List CppnLayer} (hs : CppnSized 1 hidden layers)
    {own random : Nat → Nat → List ℝ} (ho : Wide16 own) (hr : Wide16 random) :
    ∃ a b, cppnCells 64 layers own = .ok a ∧ cppnCells 64 layers random = .ok b ∧
      (testCppnAction layers own random = .ok () ↔ a.sum ≠ b.sum) := by
  obtain ⟨a, ha, la⟩ := cppnCells_ok (dim := 64) hs ho
  obtain ⟨b, hb, lb⟩ := cppnCells_ok (dim := 64) hs hr
  refine ⟨a, b, ha, hb, ?_⟩
  unfold testCppnAction
  rw [ha, hb]
  simp only [bind, Except.bind]
  rw [check_yes (by unfold AlmostEqual; rw [zip_self_sum]; norm_num)]
  simp only [check_ok]
  rw [zip_sub_sum a b (la.trans lb.symm), ne_comm, ne_eq, sub_eq_zero]

/-- C125: it fails for a network whose output does not depend on its input. -/
theorem test_cppn_constant {hidden : Nat} {layers : List CppnLayer} (hs : CppnSized 1 hidden layers)
    {own random : Nat → Nat → List ℝ} (ho : Wide16 own) (hr : Wide16 random) (c : List ℝ)
    (hc : ∀ x : List ℝ, x.length = 16 → cppnModel layers x = .ok c) :
    testCppnAction layers own random ≠ .ok () := by
  obtain ⟨a, b, ha, hb, h⟩ := test_cppn_iff hs ho hr
  have : cppnCells 64 layers own = cppnCells 64 layers random := by
    unfold cppnCells
    simp only [hc _ (ho _ _), hc _ (hr _ _)]
  rw [ha, hb] at this
  cases this
  exact fun e => h.1 e rfl

theorem flatLayer_sized (i o : Nat) : (flatLayer i o).Sized i o := by
  refine ⟨by simp [flatLayer], by simp [flatLayer], ?_, ?_⟩
  · intro row hrow
    unfold flatLayer at hrow
    rw [(List.mem_replicate.1 hrow).2]; simp
  · unfold flatLayer eps9; norm_num

theorem flatLayer_run {i o : Nat} {x : List ℝ} (hx : x.length = i) :
    (flatLayer i o).run x = .ok (List.replicate o (gaussianFn 0 0.1 false 0)) := by
  unfold CppnLayer.run
  rw [if_pos (fun row h => by rw [(flatLayer_sized i o).2.2.1 row h, hx])]
  congr 1
  rw [List.eq_replicate_iff]
  refine ⟨by simp [flatLayer], fun b hb => ?_⟩
  obtain ⟨⟨w, c⟩, hm, rfl⟩ := List.mem_map.1 hb
  have h1 := (List.of_mem_zip hm).1
  have h2 := (List.of_mem_zip hm).2
  unfold flatLayer at h1 h2
  rw [List.mem_replicate] at h1 h2
  have hz : ∀ (n : Nat) (x : List ℝ), (List.zipWith (· * ·) (List.replicate n (0 : ℝ)) x).sum = 0 := by
    intro n
    induction n with
    | zero => intro x; simp
    | succ n ih => intro x; cases x with
      | nil => simp
      | cons y x => simp [List.replicate_succ, ih]
  dsimp only
  rw [h1.2, h2.2, hz]
  simp [flatLayer]

example (own random : Nat → Nat → List ℝ) (ho : Wide16 own) (hr : Wide16 random) :
    testCppnAction [flatLayer 16 1, flatLayer 1 1, flatLayer 1 1, flatLayer 1 1] own random ≠ .ok () := by
  refine test_cppn_constant (hidden := 1) ⟨_, _, _, _, rfl, flatLayer_sized 16 1,
    flatLayer_sized 1 1, flatLayer_sized 1 1, flatLayer_sized 1 1⟩ ho hr
    [gaussianFn 0 0.1 false 0] fun x hx => ?_
  unfold cppnModel
  simp only [List.foldlM_cons, flatLayer_run hx, bind, Except.bind,
    flatLayer_run (List.length_replicate (n := 1)), List.foldlM_nil]
  rfl

example : Wide16 (fun _ _ => List.replicate 16 0) := fun _ _ => by simp

/-- C125: `test_get_rule_action` passes. -/
theorem test_rule_action_passes (rand : Nat → List ℝ) : testRuleAction rand = .ok () := by
  unfold testRuleAction ParamsAgent.new ParamsAgent.getAction
  exact check_yes (by simp)

/-! ## Tasks -/

theorem gliderLoop_last {σ : Type} {N C D : Nat}
    {f : σ → Univ ℝ (N + 1) C D D → Except PyErr (Univ ℝ (N + 1) C D D × σ)} {radius : ℝ}
    (hf : ∀ s u, ∃ r, f s u = .ok r) : ∀ (k : Nat) (v : GliderVars σ N C D),
    ∃ v', gliderLoop f radius k v = .ok v' ∧ (k = 0 → v' = v) ∧ (0 < k ∨ v.last ≠ none → v'.last ≠ none)
  | 0, v => ⟨v, rfl, fun _ => rfl, fun h => h.resolve_left (by omega)⟩
  | k + 1, v => by
    obtain ⟨⟨a, s⟩, hr⟩ := hf v.s v.action
    have hb : ∃ v₁ stop, gliderBody f radius v = .ok (v₁, stop) ∧ v₁.last ≠ none := by
      unfold gliderBody
      rw [hr]
      exact ⟨_, _, rfl, by simp⟩
    obtain ⟨v₁, stop, hb, hl⟩ := hb
    unfold gliderLoop
    rw [hb]
    cases stop with
    | true => exact ⟨v₁, rfl, fun h => by omega, fun _ => hl⟩
    | false =>
      obtain ⟨v', h1, _, h3⟩ := gliderLoop_last hf k v₁
      exact ⟨v', h1, fun h => by omega, fun _ => h3 (Or.inr hl)⟩

/-- C125: the test of `GliderWrapper` passes for every automaton that raises nothing, whatever it
does, exactly if there is at least one step. -/
theorem test_glider_step_iff {σ : Type} {N C D : Nat}
    (f : σ → Univ ℝ (N + 1) C D D → Except PyErr (Univ ℝ (N + 1) C D D × σ))
    (hf : ∀ s u, ∃ r, f s u = .ok r) (reset : σ → σ) (radius : ℝ) (caSteps : Nat) (s : σ)
    (action : Univ ℝ (N + 1) C D D) :
    testGliderStep f reset radius caSteps s action = .ok () ↔ caSteps ≠ 0 := by
  unfold testGliderStep gliderStep
  obtain ⟨v', h1, h2, h3⟩ := gliderLoop_last (radius := radius) hf caSteps
    { s := reset s, action := action, old := action, mean0 := uMean action, y0 := 0, reward := 0,
      last := none }
  rw [h1]
  simp only [bind, Except.bind]
  constructor
  · rintro h rfl
    rw [h2 rfl] at h
    cases h
  · intro hk
    have := h3 (Or.inl (by omega))
    obtain ⟨⟨a, b⟩, e⟩ := Option.ne_none_iff_exists'.1 this
    rw [e]
    rfl

example (action : Univ ℝ 1 1 2 2) :
    testGliderStep (fun (s : Unit) u => .ok (u, s)) id 13 4 () action = .ok () :=
  (test_glider_step_iff _ (fun _ _ => ⟨_, rfl⟩) id 13 4 () action).2 (by norm_num)

/-! ## Cloning -/

theorem hiddenAt_fixed (h : Nat) (n : Nat) : hiddenAt h h n = h := by
  have := hiddenAt_monotone (le_refl h) n
  induction n with
  | zero => rfl
  | succ n ih =>
    have ih' := ih (hiddenAt_monotone (le_refl h) n)
    show nextHidden h (hiddenAt h h n) = h
    rw [ih']
    unfold nextHidden
    omega

/-- C125: `test_clone_from_ca`, whose networks all have the largest width, passes whatever the
errors are; … -/
theorem test_clone_passes (threshold : ℚ) (h : Nat) {maxIterations maxSteps : Nat}
    (err : Nat → Nat → ℚ) (hi : 0 < maxIterations) (hs : 0 < maxSteps) :
    testClone threshold h h maxIterations maxSteps err = .ok () := by
  obtain ⟨it, n, t, _, _, hsv, _⟩ := clone_saves threshold err (fun it _ => hiddenAt h h it) hi hs
  unfold testClone
  rw [hsv]
  simp [loadState, hiddenAt_fixed]

/-- … with narrower networks at the start it would pass exactly if a network of the largest width
were the best. -/
theorem test_clone_iff (threshold : ℚ) (h maxHidden : Nat) {maxIterations maxSteps : Nat}
    (err : Nat → Nat → ℚ) (hi : 0 < maxIterations) (hs : 0 < maxSteps) :
    ∃ it n t, (Spec.stepCounts threshold maxIterations maxSteps err)[it]? = some n ∧ t < n ∧
      (∀ it' n' t', (Spec.stepCounts threshold maxIterations maxSteps err)[it']? = some n' →
        t' < n' → err it t ≤ err it' t') ∧
      (testClone threshold h maxHidden maxIterations maxSteps err = .ok () ↔
        hiddenAt maxHidden h it = maxHidden) := by
  obtain ⟨it, n, t, h1, h2, hsv, h4⟩ := clone_saves threshold err
    (fun it _ => hiddenAt maxHidden h it) hi hs
  refine ⟨it, n, t, h1, h2, h4, ?_⟩
  unfold testClone
  rw [hsv]
  unfold loadState
  dsimp only
  split <;> simp_all

/-- C125: without a training step nothing is saved and the file does not load. -/
theorem test_clone_empty (threshold : ℚ) (h maxHidden maxIterations maxSteps : Nat)
    (err : Nat → Nat → ℚ) (h0 : maxIterations = 0 ∨ maxSteps = 0) :
    testClone threshold h maxHidden maxIterations maxSteps err = .error .type := by
  unfold testClone
  rw [clone_saves_none threshold maxIterations maxSteps err _ h0]
  rfl

example : testClone (1 / 100) 16 16 2 2 (fun _ _ => 1) = .ok () :=
  test_clone_passes _ _ _ (by norm_num) (by norm_num)

/-- C125: with networks that start narrower than the largest width, one iteration is too few. -/
theorem test_clone_narrow (threshold : ℚ) {h maxHidden maxSteps : Nat} (err : Nat → Nat → ℚ)
    (hs : 0 < maxSteps) (hh : h ≠ maxHidden) :
    testClone threshold h maxHidden 1 maxSteps err = .error .runtime := by
  obtain ⟨it, n, t, h1, _, hsv, _⟩ := clone_saves threshold err
    (fun it _ => hiddenAt maxHidden h it) (by norm_num : 0 < 1) hs
  have hit : it = 0 := by
    have := (List.getElem?_eq_some_iff.1 h1).1
    simp [Spec.stepCounts, cloneIterations] at this
    exact this
  unfold testClone
  rw [hsv, hit]
  simp [loadState, hiddenAt, hh]

example : testClone (1 / 100) 32 2048 1 100 (fun _ _ => 1) = .error .runtime :=
  test_clone_narrow _ _ (by norm_num) (by norm_num)

/-! ## Gifs -/

theorem mem_entries {I : Type} {fs : Fs I} {p : Path} {name : Str} {n : FsNode I}
    (h : fs.get (p ++ [name]) = some n) : (name, n) ∈ fs.entries p := by
  unfold Fs.get at h
  rw [if_neg (by simp)] at h
  obtain ⟨e, he, rfl⟩ := Option.map_eq_some_iff.1 h
  have h1 := List.mem_of_find?_eq_some he
  have h2 : e.1 = p ++ [name] := by simpa using List.find?_some he
  unfold Fs.entries
  rw [List.mem_filterMap]
  refine ⟨e, h1, ?_⟩
  rw [h2]
  simp

theorem gif_temp_prefix (gifId : Nat) : "gif_temp".toList <+: gifName "temp".toList gifId := by
  unfold gifName
  exact ⟨_, rfl⟩

/-- C125: in a directory with nothing called `temp` in it and no folder of frames yet,
`test_save_fig_sequence` passes exactly if at least one frame is made, that is, unless the grid is
empty from the start; the pictures themselves are not looked at. -/
theorem test_save_fig_iff {V I : Type} (m : Movie V I) (v : V) (fs : Fs I) (dir : Str) (gifId : Nat)
    (hfresh : Fresh fs (parsePath "./assets/gif_frames".toList))
    (hway : ∀ q, q <+: parsePath "./assets/gif_frames".toList → fs.isFile q = false)
    (hdir : pathJoin dir "temp".toList ≠ [])
    (hparent : fs.get (parsePath (pathJoin dir "temp".toList)).dropLast = some .dir)
    (hnew : Fresh fs (parsePath (pathJoin dir "temp".toList)))
    (hout : ¬ parsePath (pathJoin dir "temp".toList) <+: parsePath "./assets/gif_frames".toList)
    (hout' : ¬ parsePath "./assets/gif_frames".toList <+:
      parsePath (pathJoin dir "temp".toList) ++ [gifName "temp".toList gifId]) :
    ∃ k, IsFrameCount m 1 10 v k ∧
      (testSaveFig m v fs dir gifId = .ok (.ok ()) ↔ k ≠ 0) := by
  have hplain : PlainPath "./assets/gif_frames".toList := by
    refine ⟨?_, by decide, by decide⟩
    decide
  obtain ⟨k, fs', hk, hrun, hget⟩ := gif_files m 1 10 v fs hplain dir (.one "temp".toList) gifId
    (by norm_num) (by norm_num) hfresh hway hdir (by decide)
    (Or.inr ⟨hnew _ (List.prefix_refl _), Or.inl hparent⟩) hout' (by
      rintro (h | h)
      · have hn : fs.get (parsePath (pathJoin dir "temp".toList) ++ [gifName "temp".toList gifId]) =
            none := hnew _ (List.prefix_append _ _)
        exact absurd (hn.symm.trans h) (by simp)
      · exact hout ((List.prefix_append _ _).trans h.1))
  refine ⟨k, hk, ?_⟩
  have hgt : GifTag.folder (.one "temp".toList) = "temp".toList := rfl
  have hgx : GifTag.text (.one "temp".toList) = "temp".toList := rfl
  rw [hgt, hgx] at hget
  unfold testSaveFig
  rw [hrun]
  dsimp only
  generalize hp : parsePath (pathJoin dir "temp".toList) = p at *
  have hne : p ≠ p ++ [gifName "temp".toList gifId] := by simp
  constructor
  · rintro h rfl
    have hd : fs'.get p = none := by
      rw [hget, if_neg (by simp), if_neg (by simp), if_neg (fun e => hout e.1)]
      exact hnew _ (List.prefix_refl _)
    rw [if_neg (by rw [isDir_iff, hd]; simp)] at h
    cases h
  · intro hk0
    have hcond : ¬ (k = 0 ∨ (10 : ℕ) = 1) := by omega
    have hd : fs'.get p = some .dir := by
      rw [hget, if_neg (fun e => hne e.2), if_pos ⟨hcond, rfl⟩]
    rw [if_pos ((isDir_iff _ _).2 hd)]
    have hg : fs'.get (p ++ [gifName "temp".toList gifId]) ≠ none := by
      rw [hget, if_pos ⟨hcond, rfl⟩]
      simp
    obtain ⟨n, hn⟩ := Option.ne_none_iff_exists'.1 hg
    rw [check_yes ⟨_, mem_entries hn, gif_temp_prefix gifId⟩]

end Yuca
