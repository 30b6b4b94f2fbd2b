import Verif.Props.Tests2
import Verif.Props.FigurePictures

/-!
# Which shapes and seeds the tests of masks look at (C125), and too few grids (C135)
-/

namespace Yuca

/-! ## Shapes -/

theorem shape_check {m : Except PyErr Arr} {x : Nat → Nat → ℝ} :
    (do
      let a ← m
      check ((randArr x).shape = a.shape) : Except PyErr Unit) = .ok () ↔
    ∃ a, m = .ok a ∧ a.shape = ⟨1, 1, 256, 256⟩ := by
  cases m with
  | error e => simp [bind, Except.bind]
  | ok a =>
    simp only [bind, Except.bind, check_ok, Except.ok.injEq, exists_eq_left']
    exact eq_comm

/-- C125: the tests of the shapes pass exactly for the functions that return an array of the shape of
the image. -/
theorem test_shapes_iff (f : Arr → ℝ → Except PyErr Arr) (x : Nat → Nat → ℝ) (u : ℝ) :
    (testMaskShape f x = .ok () ↔ ∃ a, f (randArr x) 0.1 = .ok a ∧ a.shape = ⟨1, 1, 256, 256⟩) ∧
    (testApertureShape f x u = .ok () ↔
      ∃ a, f (randArr x) (max 0.1 (min u 0.95)) = .ok a ∧ a.shape = ⟨1, 1, 256, 256⟩) :=
  ⟨shape_check, shape_check⟩

/-- C125: a mask or an aperture of another size than the image makes the tests of the sums raise
ValueError.  (Sides of length 1 are left out: numpy stretches them, which `Arr.mul` does not model.) -/
theorem test_sums_other_size (f : Arr → ℝ → Except PyErr Arr) (x : Nat → Nat → Nat → ℝ)
    (u : Nat → ℝ) {h w : Nat} (_ : 1 < h ∧ 1 < w) (hs : h ≠ 256 ∨ w ≠ 256)
    (hf : ∀ a r, ∃ v, f a r = .ok ⟨⟨1, 1, h, w⟩, v⟩) :
    testMaskSum f x = .error .value ∧ testApertureSum f x u = .error .value := by
  have hne : (⟨1, 1, 256, 256⟩ : Shape4) ≠ ⟨1, 1, h, w⟩ := by
    intro e
    injection e with _ _ e1 e2
    omega
  have hm : ∀ y v, (randArr y).mul ⟨⟨1, 1, h, w⟩, v⟩ = .error .value := fun y v => if_neg hne
  constructor
  · unfold testMaskSum maskSeeds
    obtain ⟨v, hv⟩ := hf (randArr (x 1234)) 0.5
    simp only [each, hv, bind, Except.bind, hm]
  · unfold testApertureSum maskSeeds
    obtain ⟨v, hv⟩ := hf (randArr (x 1234)) (clipRadius (u 1234))
    simp only [each, hv, bind, Except.bind, hm]

/-- An aperture of half the size is such a function. -/
example (x : Nat → Nat → Nat → ℝ) (u : Nat → ℝ) :
    testApertureSum (fun _ _ => .ok ⟨⟨1, 1, 128, 128⟩, fun _ _ => 0⟩) x u = .error .value :=
  (test_sums_other_size (h := 128) (w := 128) _ x u (by norm_num) (.inl (by norm_num))
    fun _ _ => ⟨_, rfl⟩).2

/-! ## Seeds -/

/-- C125: `test_mask_center` looks at the images of three seeds. -/
theorem test_mask_seeds (x : Nat → Nat → Nat → ℝ) : testMaskCentre Arr.mask x = .ok () ↔
    x 1234 128 128 < 1 / 2 ∧ x 2345 128 128 < 1 / 2 ∧ x 3456 128 128 < 1 / 2 := by
  rw [test_mask_centre_iff]
  simp [maskSeeds]

/-- C125: a `seed_all` that does nothing for one seed is noticed, with a generator that never
repeats, exactly if the seed is one of five. -/
theorem test_seed_one (s₀ : Nat) (g : Gens ℕ ℕ) :
    eachSeed (testSeedNp (fun s g => if s = s₀ then g else ⟨0, 0⟩) Witness.countUp) g = .ok () ↔
      s₀ ≠ 13 ∧ s₀ ≠ 1337 ∧ s₀ ≠ 42 ∧ s₀ ≠ 12345 ∧ s₀ ≠ 100000 := by
  have bad : ∀ g : Gens ℕ ℕ, testSeedNp (fun s g => if s = s₀ then g else ⟨0, 0⟩) Witness.countUp g s₀
      = .error .assertion := by
    intro g
    unfold testSeedNp Witness.countUp
    simp only [bind, Except.bind, if_true]
    rw [check_not (by simp)]
  have good : ∀ (s : Nat) (g : Gens ℕ ℕ), s ≠ s₀ →
      testSeedNp (fun s g => if s = s₀ then g else ⟨0, 0⟩) Witness.countUp g s = .ok ⟨1, 0⟩ := by
    intro s g hs
    unfold testSeedNp Witness.countUp
    simp only [bind, Except.bind, if_neg hs]
    rw [check_yes (by simp)]
    rfl
  have main : ∀ (l : List Nat) (g : Gens ℕ ℕ),
      ((l.foldlM (testSeedNp (fun s g => if s = s₀ then g else ⟨0, 0⟩) Witness.countUp) g).map
        fun _ => ()) = .ok () ↔ s₀ ∉ l := by
    intro l
    induction l with
    | nil => intro g; simp [pure, Except.pure, Except.map]
    | cons s l ih =>
      intro g
      rw [List.foldlM_cons]
      by_cases hs : s = s₀
      · subst hs
        rw [bad]
        simp [bind, Except.bind, Except.map]
      · rw [good s g hs]
        show _ ↔ s₀ ∉ s :: l
        rw [List.mem_cons, not_or]
        exact (ih _).trans ⟨fun h => ⟨fun e => hs e.symm, h⟩, fun h => h.2⟩
  unfold eachSeed
  rw [main]
  simp [allSeeds]

/-! ## Too few grids -/

variable {K : Type}

theorem catRow3_short (grids : List (Pic K)) (a b c : Nat) (hc : grids.length ≤ c) :
    catRow grids [a, b, c] = .error .index := by
  have e : ∀ k, grids.length ≤ k → pick grids k = .error .index := by
    intro k hk
    simp [pick, hk]
  have hab : ∀ k, (∃ p, pick grids k = .ok p) ∨ pick grids k = .error .index := by
    intro k
    rcases lt_or_ge k grids.length with h | h
    · exact .inl ⟨_, pick_of_lt _ _ h⟩
    · exact .inr (e k h)
  simp only [catRow, bind, Except.bind, e c hc]
  rcases hab a with ⟨p, h⟩ | h <;> rw [h]
  rcases hab b with ⟨q, h'⟩ | h' <;> rw [h']

/-- C135: with fewer than fifteen grids of one size `plot_4x4` raises IndexError; fifteen are
enough. -/
theorem plot4x4_short (grids : List (Pic K)) (h w : Nat) (hl : ∀ g ∈ grids, g.h = h ∧ g.w = w) :
    plot4x4 grids = .error .index ↔ grids.length < 15 := by
  unfold plot4x4
  rcases Nat.lt_or_ge 2 grids.length with n1 | n1
  case inr =>
    rw [catRow3_short _ _ _ _ n1]
    simp only [bind, Except.bind, true_iff]; omega
  obtain ⟨p1, e1, t1⟩ := catRow3 grids h w hl 0 1 2 (by omega) (by omega) (by omega)
  rcases Nat.lt_or_ge 6 grids.length with n2 | n2
  case inr =>
    simp only [e1, bind, Except.bind, catRows, catRow3_short grids 4 5 6 n2, true_iff]; omega
  obtain ⟨p2, e2, t2⟩ := catRow3 grids h w hl 4 5 6 (by omega) (by omega) (by omega)
  obtain ⟨q2, f2, u2⟩ := above_tiled grids h w 1 _ _ _ _ t1 t2
  rcases Nat.lt_or_ge 10 grids.length with n3 | n3
  case inr =>
    simp only [e1, bind, Except.bind, catRows, e2, f2, catRow3_short grids 8 9 10 n3, true_iff]; omega
  obtain ⟨p3, e3, t3⟩ := catRow3 grids h w hl 8 9 10 (by omega) (by omega) (by omega)
  obtain ⟨q3, f3, u3⟩ := above_tiled grids h w 2 _ _ _ _ u2 t3
  rcases Nat.lt_or_ge 14 grids.length with n4 | n4
  case inr =>
    simp only [e1, bind, Except.bind, catRows, e2, f2, e3, f3, catRow3_short grids 12 13 14 n4,
      true_iff]; omega
  obtain ⟨p4, e4, t4⟩ := catRow3 grids h w hl 12 13 14 (by omega) (by omega) (by omega)
  obtain ⟨q4, f4, u4⟩ := above_tiled grids h w 3 _ _ _ _ u3 t4
  simp only [e1, bind, Except.bind, catRows, e2, f2, e3, f3, e4, f4, reduceCtorEq, false_iff]
  omega

/-- Fourteen grids of 3 by 5 pixels. -/
example : plot4x4 (List.replicate 14 (⟨3, 5, fun _ _ => 0⟩ : Pic ℕ)) = .error .index :=
  (plot4x4_short _ 3 5 (by simp)).2 (by simp)

end Yuca
