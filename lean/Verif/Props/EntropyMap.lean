import Verif.Model.EntropyMap
import Verif.Props.Analyze
import Verif.Props.Analysis

/-!
# Maps of the local entropy (C123)
-/

namespace Yuca

namespace Spec

/-- The grid has `H` rows of `W` cells. -/
def Rect (H W : Nat) (g : List (List ℝ)) : Prop := g.length = H ∧ ∀ row ∈ g, row.length = W

/-- The cell of a torus at any integer coordinates. -/
def wrapped (H W : Nat) (g : List (List ℝ)) (y x : ℤ) : ℝ :=
  (g.getD (y % H).toNat []).getD (x % W).toNat 0

/-- The cells of the torus within `r` rows and `r` columns of a cell. -/
def patch (H W r : Nat) (g : List (List ℝ)) (y x : ℤ) : List ℝ :=
  (List.range (2 * r + 1)).flatMap fun a : ℕ => (List.range (2 * r + 1)).map fun b : ℕ =>
    wrapped H W g (y + (a - r)) (x + (b - r))

end Spec

/-! ## Slices of ranges -/

theorem pySlice_map {K L : Type} (f : K → L) (l : List K) (a b : ℤ) :
    pySlice (l.map f) a b = (pySlice l a b).map f := by
  unfold pySlice
  rw [List.length_map, ← List.map_take, ← List.map_drop]

theorem pySlice_range (n a b : Nat) (hb : b ≤ n) :
    pySlice (List.range n) a b = (List.range (b - a)).map fun i => a + i := by
  apply List.ext_getElem?
  intro i
  rw [List.getElem?_map]
  by_cases hi : i < b - a
  · rw [pySlice_get _ (by simpa using hb) (by omega), List.getElem?_range hi,
      List.getElem?_range (by omega), Option.map_some]
  · have h1 : (pySlice (List.range n) a b).length = b - a := pySlice_length _ (by simpa using hb)
    rw [List.getElem?_eq_none (by omega), List.getElem?_eq_none (by simp; omega), Option.map_none]

theorem wrapSlice {K : Type} [Inhabited K] (l : List K) (r x : Nat) (hx : x < l.length) :
    pySlice (padWrap l r) x (x + 2 * r + 1 : Nat) =
      (List.range (2 * r + 1)).map fun i : ℕ =>
        l.getD (((x : ℤ) + (i - r)) % (l.length : ℤ)).toNat default := by
  unfold padWrap
  rw [pySlice_map, pySlice_range _ _ _ (by omega), List.map_map]
  rw [show x + 2 * r + 1 - x = 2 * r + 1 by omega]
  apply List.map_congr_left
  intro i _
  simp only [Function.comp]
  congr 3
  push_cast
  omega

theorem rect_row {H W : Nat} {g : List (List ℝ)} (hg : Spec.Rect H W g) {i : Nat} (hi : i < H) :
    (g.getD i []).length = W := by
  have hi' : i < g.length := by rw [hg.1]; exact hi
  rw [List.getD_eq_getElem _ _ hi']
  exact hg.2 _ (List.getElem_mem hi')

theorem emod_toNat_lt (y : ℤ) {H : Nat} (hH : 0 < H) : (y % (H : ℤ)).toNat < H := by
  have h1 := Int.emod_nonneg y (by omega : (H : ℤ) ≠ 0)
  have h2 := Int.emod_lt_of_pos y (by omega : (0 : ℤ) < H)
  omega

/-- The window `Phanes` cuts out is the patch of the torus around the cell. -/
theorem window_patch {H W : Nat} {g : List (List ℝ)} (hg : Spec.Rect H W g) (r : Nat) {x y : Nat}
    (hx : x < H) (hy : y < W) :
    ((pySlice (padWrap2 g r) x (x + 2 * r + 1 : Nat)).map fun row =>
      pySlice row y (y + 2 * r + 1 : Nat)).flatten = Spec.patch H W r g x y := by
  unfold padWrap2 Spec.patch
  rw [pySlice_map, wrapSlice g r x (by rw [hg.1]; exact hx), List.map_map, List.map_map,
    List.flatMap_def]
  congr 1
  apply List.map_congr_left
  intro a _
  simp only [Function.comp]
  have hrow := rect_row hg (emod_toNat_lt ((x : ℤ) + (a - r)) (H := H) (by omega))
  rw [hg.1]
  rw [wrapSlice _ r y (by show y < (g.getD _ []).length; rw [hrow]; exact hy)]
  apply List.map_congr_left
  intro b _
  unfold Spec.wrapped
  show (g.getD _ []).getD (_ % (((g.getD _ []).length : ℕ) : ℤ)).toNat _ = _
  rw [hrow]
  rfl

theorem patch_ne (H W r : Nat) (g : List (List ℝ)) (y x : ℤ) : Spec.patch H W r g y x ≠ [] := by
  intro h
  have : (Spec.patch H W r g y x).length = 0 := by rw [h]; rfl
  unfold Spec.patch at this
  simp at this

theorem patch_length (H W r : Nat) (g : List (List ℝ)) (y x : ℤ) :
    (Spec.patch H W r g y x).length = (2 * r + 1) ^ 2 := by
  unfold Spec.patch
  simp [List.length_flatMap, List.sum_replicate, pow_two]

theorem patch_mem {H W r : Nat} {g : List (List ℝ)} {y x : ℤ} {v : ℝ} :
    v ∈ Spec.patch H W r g y x ↔ ∃ a b : ℤ, |a| ≤ r ∧ |b| ≤ r ∧ v = Spec.wrapped H W g (y + a) (x + b) := by
  unfold Spec.patch
  simp only [List.mem_flatMap, List.mem_range, List.mem_map]
  constructor
  · rintro ⟨a, ha, b, hb, rfl⟩
    exact ⟨(a : ℤ) - r, (b : ℤ) - r, by rw [abs_le]; omega, by rw [abs_le]; omega, rfl⟩
  · rintro ⟨a, b, ha, hb, rfl⟩
    rw [abs_le] at ha hb
    refine ⟨(a + r).toNat, by omega, (b + r).toNat, by omega, ?_⟩
    congr 1 <;> omega

/-! ## The entropy of a window -/

theorem npMin_least {l : List ℝ} (hl : l ≠ []) : npMin l ∈ l ∧ ∀ y ∈ l, npMin l ≤ y := by
  cases l with
  | nil => exact absurd rfl hl
  | cons x xs => exact foldl_min_least xs x

theorem npMax_greatest {l : List ℝ} (hl : l ≠ []) : npMax l ∈ l ∧ ∀ y ∈ l, y ≤ npMax l := by
  cases l with
  | nil => exact absurd rfl hl
  | cons x xs => exact foldl_max_greatest xs x

theorem npMin_eq {l : List ℝ} {v : ℝ} (h : v ∈ l) (hv : ∀ y ∈ l, v ≤ y) : npMin l = v := by
  have := npMin_least (List.ne_nil_of_mem h)
  exact le_antisymm (this.2 v h) (hv _ this.1)

theorem npMax_eq {l : List ℝ} {v : ℝ} (h : v ∈ l) (hv : ∀ y ∈ l, y ≤ v) : npMax l = v := by
  have := npMax_greatest (List.ne_nil_of_mem h)
  exact le_antisymm (hv _ this.1) (this.2 v h)

namespace Spec

/-- The range of the values of a list. -/
def Between (l : List ℝ) (lo hi : ℝ) : Prop :=
  lo ∈ l ∧ hi ∈ l ∧ ∀ v ∈ l, lo ≤ v ∧ v ≤ hi

/-- The level, out of 256, of a value between `lo` and `hi`; `eps` keeps the division defined. -/
noncomputable def byteLevel (eps lo hi v : ℝ) : ℤ := ⌊255 * ((v - lo) / (hi - lo + eps))⌋

end Spec

theorem between_exists {l : List ℝ} (hl : l ≠ []) : Spec.Between l (npMin l) (npMax l) :=
  ⟨(npMin_least hl).1, (npMax_greatest hl).1,
    fun v hv => ⟨(npMin_least hl).2 v hv, (npMax_greatest hl).2 v hv⟩⟩

/-- What a window is turned into: the levels of its values between the least and the greatest. -/
theorem window_value {eps : ℝ} {nan : ℤ} {l : List ℝ} {lo hi : ℝ} (h : Spec.Between l lo hi)
    (he : hi - lo + eps ≠ 0) :
    windowEntropy eps nan l = .ok (gridEntropy (l.map (Spec.byteLevel eps lo hi))) := by
  have hl : l ≠ [] := List.ne_nil_of_mem h.1
  have h1 : npMin l = lo := npMin_eq h.1 fun y hy => (h.2.2 y hy).1
  have h2 : npMax (l.map (· - lo)) = hi - lo := by
    apply npMax_eq (List.mem_map.2 ⟨hi, h.2.1, rfl⟩)
    intro y hy
    obtain ⟨v, hv, rfl⟩ := List.mem_map.1 hy
    have := (h.2.2 v hv).2
    linarith
  cases l with
  | nil => exact absurd rfl hl
  | cons x xs =>
    unfold windowEntropy windowBytes
    dsimp only
    rw [h1, h2]
    simp only [if_neg he]
    rfl

theorem window_constant {nan : ℤ} {l : List ℝ} {lo : ℝ} (h : Spec.Between l lo lo) :
    windowEntropy 0 nan l = .ok (gridEntropy (List.replicate l.length nan)) := by
  have hl : l ≠ [] := List.ne_nil_of_mem h.1
  have h1 : npMin l = lo := npMin_eq h.1 fun y hy => (h.2.2 y hy).1
  have h2 : npMax (l.map (· - lo)) = 0 := by
    apply npMax_eq (List.mem_map.2 ⟨lo, h.1, by ring⟩)
    intro y hy
    obtain ⟨v, hv, rfl⟩ := List.mem_map.1 hy
    have := (h.2.2 v hv).2
    linarith
  cases l with
  | nil => exact absurd rfl hl
  | cons x xs =>
    unfold windowEntropy windowBytes
    dsimp only
    rw [h1, h2]
    simp only [add_zero, if_true]
    rw [List.map_const']
    rfl

/-! ## Entropies of lists of bytes -/

theorem bits_lt_card {q : Fin 256 → ℝ} {e : ℝ} (hq : ∀ i, 0 ≤ q i) (hs : ∑ i, q i = 1) (he : 0 < e)
    {S : Finset (Fin 256)} (hS : ∀ i, q i ≠ 0 → i ∈ S) {m : ℝ} (hm : (S.card : ℝ) ≤ m) :
    -∑ i, q i * Real.logb 2 (e + q i) < Real.logb 2 m := by
  have h2 : 0 < Real.log 2 := Real.log_pos (by norm_num)
  obtain ⟨k, hk⟩ : ∃ k, 0 < q k := by
    by_contra hne
    push Not at hne
    have : ∑ i, q i ≤ 0 := Finset.sum_nonpos fun i _ => hne i
    linarith
  have hm0 : 0 < m := by
    have : 0 < S.card := Finset.card_pos.2 ⟨k, hS k hk.ne'⟩
    have : (0 : ℝ) < S.card := by exact_mod_cast this
    linarith
  have hout : ∀ i ∉ S, q i = 0 := fun i hi => by
    by_contra h
    exact hi (hS i h)
  have hstep : ∀ i ∈ S, -(q i * Real.log (e + q i)) ≤ q i * Real.log m + (1 / m - q i) := by
    intro i _
    rcases (hq i).eq_or_lt with h | h
    · rw [← h]; simp only [zero_mul, neg_zero, sub_zero, zero_add]; positivity
    · have := Real.log_le_sub_one_of_pos (x := 1 / (m * q i)) (by positivity)
      rw [one_div, Real.log_inv, Real.log_mul hm0.ne' h.ne'] at this
      have h3 := mul_le_mul_of_nonneg_left this h.le
      have h4 : q i * ((m * q i)⁻¹ - 1) = 1 / m - q i := by field_simp
      rw [h4] at h3
      have h5 := Real.log_le_log h (by linarith : q i ≤ e + q i)
      nlinarith
  have hstrict : -(q k * Real.log (e + q k)) < q k * Real.log m + (1 / m - q k) := by
    have := Real.log_le_sub_one_of_pos (x := 1 / (m * q k)) (by positivity)
    rw [one_div, Real.log_inv, Real.log_mul hm0.ne' hk.ne'] at this
    have h3 := mul_le_mul_of_nonneg_left this hk.le
    have h4 : q k * ((m * q k)⁻¹ - 1) = 1 / m - q k := by field_simp
    rw [h4] at h3
    have h5 := Real.log_lt_log hk (by linarith : q k < e + q k)
    nlinarith
  have hsum : -∑ i, q i * Real.logb 2 (e + q i) = (∑ i ∈ S, -(q i * Real.log (e + q i))) / Real.log 2 := by
    rw [← Finset.sum_subset (Finset.subset_univ S) fun i _ hi => by rw [hout i hi, zero_mul],
      ← Finset.sum_neg_distrib, Finset.sum_div]
    apply Finset.sum_congr rfl
    intro i _
    unfold Real.logb
    ring
  rw [hsum, Real.logb, div_lt_div_iff_of_pos_right h2]
  have hlt := Finset.sum_lt_sum hstep ⟨k, hS k hk.ne', hstrict⟩
  refine hlt.trans_le ?_
  have hqS : ∑ i ∈ S, q i = 1 := by
    rw [← hs]
    exact Finset.sum_subset (Finset.subset_univ S) fun i _ hi => hout i hi
  rw [Finset.sum_add_distrib, Finset.sum_sub_distrib, ← Finset.sum_mul, hqS, Finset.sum_const,
    nsmul_eq_mul]
  have : (S.card : ℝ) * (1 / m) ≤ 1 := by
    rw [mul_one_div, div_le_one hm0]; exact hm
  linarith

theorem byteProb_support {l : List ℤ} (h : Spec.Bytes l) {i : Fin 256} (hi : byteProb l i ≠ 0) :
    Spec.byteVal i ∈ l := by
  rw [byteProb_eq h] at hi
  by_contra hne
  apply hi
  unfold Spec.occurrences
  rw [List.filter_eq_nil_iff.2, List.length_nil, Nat.cast_zero, zero_div]
  intro a ha
  simp only [decide_eq_true_eq]
  rintro rfl
  exact hne ha

/-- At most `m` different bytes have less than `log2 m` bits. -/
theorem gridEntropy_lt {l : List ℤ} (h : Spec.Bytes l) (hl : l ≠ []) {T : Finset ℤ}
    (hT : ∀ b ∈ l, b ∈ T) {m : ℝ} (hm : (T.card : ℝ) ≤ m) : gridEntropy l < Real.logb 2 m := by
  have hinj : Function.Injective Spec.byteVal := fun i j hij => by
    unfold Spec.byteVal at hij
    exact Fin.ext (by exact_mod_cast hij)
  refine bits_lt_card (byteProb_nonneg l) (byteProb_sum h hl) (by norm_num)
    (S := Finset.univ.filter fun i => Spec.byteVal i ∈ T)
    (fun i hi => by simpa using hT _ (byteProb_support h hi)) (le_trans ?_ hm)
  have : (Finset.univ.filter fun i => Spec.byteVal i ∈ T).card ≤ T.card :=
    Finset.card_le_card_of_injOn Spec.byteVal (fun i hi => by simpa using hi) hinj.injOn
  exact_mod_cast this

/-- The entropy is at its least value exactly if all bytes are equal. -/
theorem gridEntropy_least_iff {l : List ℤ} (h : Spec.Bytes l) (hl : l ≠ []) :
    gridEntropy l = -Real.logb 2 (1 + 1e-9) ↔ ∀ b ∈ l, ∀ c ∈ l, b = c := by
  constructor
  · intro heq
    by_contra hne
    push Not at hne
    obtain ⟨b, hb, c, hc, hbc⟩ := hne
    have hval : ∀ b ∈ l, ∃ i : Fin 256, Spec.byteVal i = b := fun b hb => by
      obtain ⟨h0, h1⟩ := h b hb
      exact ⟨⟨b.toNat, by omega⟩, by unfold Spec.byteVal; simp; omega⟩
    obtain ⟨i, rfl⟩ := hval b hb
    obtain ⟨j, rfl⟩ := hval c hc
    have hij : i ≠ j := fun e => hbc (by rw [e])
    have hpos : ∀ k : Fin 256, Spec.byteVal k ∈ l → 0 < byteProb l k := by
      intro k hk
      rw [byteProb_eq h]
      have h1 : 0 < l.length := List.length_pos_iff.2 hl
      have h2 : 0 < Spec.occurrences l (Spec.byteVal k) := by
        unfold Spec.occurrences
        exact List.length_pos_iff.2 (List.ne_nil_of_mem (List.mem_filter.2 ⟨hk, by simp⟩))
      positivity
    have hsum := byteProb_sum h hl
    have hlt : ∀ k, 0 < byteProb l k → byteProb l k < 1 := by
      intro k hk
      obtain ⟨k', hk', hp⟩ : ∃ k', k' ≠ k ∧ 0 < byteProb l k' := by
        by_cases e : k = i
        · exact ⟨j, by rw [e]; exact hij.symm, hpos j hc⟩
        · exact ⟨i, fun e' => e e'.symm, hpos i hb⟩
      have h3 : byteProb l k + byteProb l k' ≤ ∑ x, byteProb l x := by
        rw [← Finset.sum_pair hk'.symm]
        exact Finset.sum_le_sum_of_subset_of_nonneg (Finset.subset_univ _)
          fun x _ _ => byteProb_nonneg l x
      linarith
    have hstrict : ∑ x, byteProb l x * Real.logb 2 (1e-9 + byteProb l x) <
        ∑ x, byteProb l x * Real.logb 2 (1 + 1e-9) := by
      refine Finset.sum_lt_sum (fun x _ => ?_) ⟨i, Finset.mem_univ _, ?_⟩
      · rcases (byteProb_nonneg l x).eq_or_lt with h0 | h0
        · rw [← h0]; simp
        · refine mul_le_mul_of_nonneg_left ?_ h0.le
          apply Real.logb_le_logb_of_le (by norm_num) (by norm_num at h0 ⊢; linarith)
          have := hlt x h0
          linarith
      · have h0 := hpos i hb
        refine mul_lt_mul_of_pos_left ?_ h0
        apply Real.logb_lt_logb (by norm_num) (by norm_num at h0 ⊢; linarith)
        have := hlt i h0
        linarith
    rw [← Finset.sum_mul, hsum, one_mul] at hstrict
    unfold gridEntropy at heq
    linarith
  · intro hall
    obtain ⟨b, hb⟩ := List.exists_mem_of_ne_nil l hl
    obtain ⟨h0, h1⟩ := h b hb
    have hrep : l = List.replicate (l.length - 1 + 1) (Spec.byteVal ⟨b.toNat, by omega⟩) := by
      have h2 : 0 < l.length := List.length_pos_iff.2 hl
      rw [show l.length - 1 + 1 = l.length by omega]
      apply List.eq_replicate_iff.2 ⟨rfl, fun c hc => ?_⟩
      rw [hall c hc b hb]
      unfold Spec.byteVal
      simp
      omega
    rw [hrep, (uniform_entropy_refuted _ _).1, add_comm]

/-! ## Levels -/

theorem level_range {eps lo hi v : ℝ} (he : 0 < hi - lo + eps) (hn : 0 ≤ eps) (h0 : lo ≤ v) (h1 : v ≤ hi) :
    0 ≤ Spec.byteLevel eps lo hi v ∧ Spec.byteLevel eps lo hi v ≤ 255 := by
  have := toByte_range (lo := lo) (span := hi - lo) (eps := eps) (x := v) hn he h0 (by linarith)
  exact this

theorem level_lo (eps lo hi : ℝ) : Spec.byteLevel eps lo hi lo = 0 := by
  unfold Spec.byteLevel; simp

/-- With a positive `eps` the highest level is never reached. -/
theorem level_top {eps lo hi v : ℝ} (hn : 0 < eps) (h0 : lo ≤ v) (h1 : v ≤ hi) :
    Spec.byteLevel eps lo hi v ≤ 254 := by
  unfold Spec.byteLevel
  have hd : 0 < hi - lo + eps := by linarith
  have : ⌊255 * ((v - lo) / (hi - lo + eps))⌋ < 255 := by
    rw [Int.floor_lt]
    have : (v - lo) / (hi - lo + eps) < 1 := by rw [div_lt_one hd]; linarith
    push_cast
    linarith
  omega

theorem level_hi {lo hi : ℝ} (h : lo < hi) : Spec.byteLevel 0 lo hi hi = 255 := by
  unfold Spec.byteLevel
  rw [add_zero, div_self (by linarith)]
  norm_num

/-- With `eps` a window is flat for the method if its values differ by less than `eps / 254`. -/
theorem level_hi_zero {eps lo hi : ℝ} (hn : 0 < eps) (h : lo ≤ hi) :
    Spec.byteLevel eps lo hi hi = 0 ↔ hi - lo < eps / 254 := by
  unfold Spec.byteLevel
  have hd : 0 < hi - lo + eps := by linarith
  rw [Int.floor_eq_zero_iff, Set.mem_Ico, lt_div_iff₀ (by norm_num : (0 : ℝ) < 254)]
  constructor
  · rintro ⟨_, h2⟩
    rw [← mul_div_assoc, div_lt_one hd] at h2
    linarith
  · intro h2
    refine ⟨mul_nonneg (by norm_num) (div_nonneg (by linarith) hd.le), ?_⟩
    rw [← mul_div_assoc, div_lt_one hd]
    linarith

theorem level_mono {eps lo hi v w : ℝ} (he : 0 < hi - lo + eps) (h : v ≤ w) :
    Spec.byteLevel eps lo hi v ≤ Spec.byteLevel eps lo hi w := by
  unfold Spec.byteLevel
  apply Int.floor_le_floor
  have := div_le_div_of_nonneg_right (by linarith : v - lo ≤ w - lo) he.le
  linarith

theorem levels_bytes {eps lo hi : ℝ} {l : List ℝ} (h : Spec.Between l lo hi) (hn : 0 ≤ eps)
    (he : 0 < hi - lo + eps) : Spec.Bytes (l.map (Spec.byteLevel eps lo hi)) := by
  intro b hb
  obtain ⟨v, hv, rfl⟩ := List.mem_map.1 hb
  exact level_range he hn (h.2.2 v hv).1 (h.2.2 v hv).2

theorem between_le {l : List ℝ} {lo hi : ℝ} (h : Spec.Between l lo hi) : lo ≤ hi :=
  (h.2.2 lo h.1).2

theorem between_unique {l : List ℝ} {lo hi lo' hi' : ℝ} (h : Spec.Between l lo hi)
    (h' : Spec.Between l lo' hi') : lo = lo' ∧ hi = hi' :=
  ⟨le_antisymm (h.2.2 _ h'.1).1 (h'.2.2 _ h.1).1, le_antisymm (h'.2.2 _ h.2.1).2 (h.2.2 _ h'.2.1).2⟩

/-- The entropy `Phanes` gives a window. -/
noncomputable def localBits (l : List ℝ) : ℝ :=
  gridEntropy (l.map (Spec.byteLevel 1e-9 (npMin l) (npMax l)))

theorem window_localBits {l : List ℝ} (hl : l ≠ []) : windowEntropy 1e-9 0 l = .ok (localBits l) := by
  have h := between_exists hl
  have hle := between_le h
  rw [window_value h]
  · rfl
  · have : (0 : ℝ) < 1e-9 := by norm_num
    linarith

theorem localBits_eq {l : List ℝ} {lo hi : ℝ} (h : Spec.Between l lo hi) :
    localBits l = gridEntropy (l.map (Spec.byteLevel 1e-9 lo hi)) := by
  obtain ⟨h1, h2⟩ := between_unique h (between_exists (List.ne_nil_of_mem h.1))
  unfold localBits
  rw [h1, h2]

theorem between_perm {l l' : List ℝ} (hp : l.Perm l') {lo hi : ℝ} (h : Spec.Between l lo hi) :
    Spec.Between l' lo hi :=
  ⟨hp.mem_iff.1 h.1, hp.mem_iff.1 h.2.1, fun v hv => h.2.2 v (hp.mem_iff.2 hv)⟩

theorem localBits_perm {l l' : List ℝ} (hp : l.Perm l') : localBits l = localBits l' := by
  by_cases hl : l = []
  · subst hl
    rw [List.nil_perm.1 hp]
  · have h := between_exists hl
    rw [localBits_eq h, localBits_eq (between_perm hp h)]
    exact gridEntropy_perm (hp.map _)

theorem localBits_add (l : List ℝ) (c : ℝ) : localBits (l.map (· + c)) = localBits l := by
  by_cases hl : l = []
  · subst hl; rfl
  · have h := between_exists hl
    have h' : Spec.Between (l.map (· + c)) (npMin l + c) (npMax l + c) := by
      refine ⟨List.mem_map.2 ⟨_, h.1, rfl⟩, List.mem_map.2 ⟨_, h.2.1, rfl⟩, fun v hv => ?_⟩
      obtain ⟨w, hw, rfl⟩ := List.mem_map.1 hv
      have := h.2.2 w hw
      constructor <;> linarith
    rw [localBits_eq h', localBits_eq h, List.map_map]
    congr 1
    apply List.map_congr_left
    intro v _
    unfold Spec.byteLevel
    simp only [Function.comp]
    rw [show v + c - (npMin l + c) = v - npMin l by ring,
      show npMax l + c - (npMin l + c) = npMax l - npMin l by ring]

theorem localBits_shannon {l : List ℝ} {lo hi : ℝ} (h : Spec.Between l lo hi) :
    localBits l ≤ Spec.shannon Spec.byteVal (l.map (Spec.byteLevel 1e-9 lo hi)) ∧
      Spec.shannon Spec.byteVal (l.map (Spec.byteLevel 1e-9 lo hi)) - 256 * 1e-9 / Real.log 2 ≤
        localBits l := by
  have hle := between_le h
  rw [localBits_eq h]
  exact gridEntropy_shannon (levels_bytes h (by norm_num) (by norm_num; linarith))

theorem localBits_least {l : List ℝ} (hl : l ≠ []) : -Real.logb 2 (1 + 1e-9) ≤ localBits l := by
  have h := between_exists hl
  have hle := between_le h
  rw [localBits_eq h]
  exact (gridEntropy_bounds (levels_bytes h (by norm_num) (by norm_num; linarith)) (by simpa using hl)).1

/-- Fewer bits than the logarithm of the number of cells, and of 255. -/
theorem localBits_lt {l : List ℝ} (hl : l ≠ []) :
    localBits l < Real.logb 2 l.length ∧ localBits l < Real.logb 2 255 := by
  have h := between_exists hl
  have hle := between_le h
  have hb := levels_bytes (eps := 1e-9) h (by norm_num) (by norm_num; linarith)
  rw [localBits_eq h]
  constructor
  · refine gridEntropy_lt hb (by simpa using hl)
      (T := (l.map (Spec.byteLevel 1e-9 (npMin l) (npMax l))).toFinset) (fun b hb => by simpa using hb) ?_
    have := List.toFinset_card_le (l.map (Spec.byteLevel 1e-9 (npMin l) (npMax l)))
    rw [List.length_map] at this
    exact_mod_cast this
  · refine gridEntropy_lt hb (by simpa using hl) (T := Finset.Icc 0 254) (fun b hb => ?_)
      (by simp)
    obtain ⟨v, hv, rfl⟩ := List.mem_map.1 hb
    have h3 := h.2.2 v hv
    rw [Finset.mem_Icc]
    exact ⟨(level_range (by norm_num; linarith) (by norm_num) h3.1 h3.2).1,
      level_top (by norm_num) h3.1 h3.2⟩

/-- With two values in the window, fewer than one bit. -/
theorem localBits_two {l : List ℝ} (hl : l ≠ []) {a b : ℝ} (h2 : ∀ v ∈ l, v = a ∨ v = b) :
    localBits l < 1 := by
  have h := between_exists hl
  have hle := between_le h
  have hb := levels_bytes (eps := 1e-9) h (by norm_num) (by norm_num; linarith)
  rw [localBits_eq h, show (1 : ℝ) = Real.logb 2 2 by rw [Real.logb_self_eq_one (by norm_num)]]
  refine gridEntropy_lt hb (by simpa using hl)
    (T := {Spec.byteLevel 1e-9 (npMin l) (npMax l) a, Spec.byteLevel 1e-9 (npMin l) (npMax l) b})
    (fun c hc => ?_) (by exact_mod_cast Finset.card_le_two)
  obtain ⟨v, hv, rfl⟩ := List.mem_map.1 hc
  rcases h2 v hv with rfl | rfl <;> simp

/-- The least entropy is that of windows whose values differ by less than `1e-9 / 254`. -/
theorem localBits_least_iff {l : List ℝ} {lo hi : ℝ} (h : Spec.Between l lo hi) :
    localBits l = -Real.logb 2 (1 + 1e-9) ↔ hi - lo < 1e-9 / 254 := by
  have hl : l ≠ [] := List.ne_nil_of_mem h.1
  have hle := between_le h
  have hd : 0 < hi - lo + 1e-9 := by norm_num; linarith
  rw [localBits_eq h, gridEntropy_least_iff (levels_bytes h (by norm_num) hd) (by simpa using hl),
    ← level_hi_zero (by norm_num) hle]
  constructor
  · intro hall
    have := hall _ (List.mem_map.2 ⟨hi, h.2.1, rfl⟩) _ (List.mem_map.2 ⟨lo, h.1, rfl⟩)
    rw [this, level_lo]
  · intro h0 b hb c hc
    obtain ⟨v, hv, rfl⟩ := List.mem_map.1 hb
    obtain ⟨w, hw, rfl⟩ := List.mem_map.1 hc
    have key : ∀ v ∈ l, Spec.byteLevel 1e-9 lo hi v = 0 := fun v hv => by
      have h1 := level_mono hd (h.2.2 v hv).2
      have h2 := (level_range hd (by norm_num) (h.2.2 v hv).1 (h.2.2 v hv).2).1
      omega
    rw [key v hv, key w hw]

/-! ## The map of `Phanes` -/

theorem mapM_ok_of {X Y : Type} {f : X → Except PyErr Y} {g : X → Y} : ∀ {l : List X},
    (∀ x ∈ l, f x = .ok (g x)) → l.mapM f = .ok (l.map g)
  | [], _ => rfl
  | x :: xs, h => by
    rw [List.mapM_cons, h x (List.mem_cons_self ..),
      mapM_ok_of fun y hy => h y (List.mem_cons_of_mem _ hy)]
    rfl

/-- The matrix with given entries. -/
def matrixOf (H W : Nat) (f : Nat → Nat → ℝ) : List (List ℝ) :=
  (List.range H).map fun x => (List.range W).map fun y => f x y

theorem fillMap_ok {H W : Nat} {entry : Nat → Nat → Except PyErr ℝ} {f : Nat → Nat → ℝ}
    (h : ∀ x < H, ∀ y < W, entry x y = .ok (f x y)) : fillMap H W entry = .ok (matrixOf H W f) := by
  unfold fillMap matrixOf
  refine mapM_ok_of (g := fun x => (List.range W).map fun y => f x y) fun x hx => ?_
  exact mapM_ok_of fun y hy => h x (List.mem_range.1 hx) y (List.mem_range.1 hy)

theorem matrixOf_rect (H W : Nat) (f : Nat → Nat → ℝ) : Spec.Rect H W (matrixOf H W f) := by
  refine ⟨by simp [matrixOf], fun row hr => ?_⟩
  unfold matrixOf at hr
  obtain ⟨x, _, rfl⟩ := List.mem_map.1 hr
  simp

theorem getD_map_range {Y : Type} (f : Nat → Y) {n i : Nat} (d : Y) (hi : i < n) :
    ((List.range n).map f).getD i d = f i := by
  rw [List.getD_eq_getElem _ _ (by simpa using hi)]
  simp

theorem matrixOf_at {H W : Nat} (hH : 0 < H) (hW : 0 < W) (f : Nat → Nat → ℝ) (y x : ℤ) :
    Spec.wrapped H W (matrixOf H W f) y x = f (y % H).toNat (x % W).toNat := by
  unfold Spec.wrapped matrixOf
  rw [getD_map_range _ _ (emod_toNat_lt y hH), getD_map_range _ _ (emod_toNat_lt x hW)]

theorem wrapped_mod (H W : Nat) (g : List (List ℝ)) (y x a b : ℤ) :
    Spec.wrapped H W g (y % H + a) (x % W + b) = Spec.wrapped H W g (y + a) (x + b) := by
  unfold Spec.wrapped
  rw [Int.emod_add_emod, Int.emod_add_emod]

theorem patch_mod {H W : Nat} (hH : 0 < H) (hW : 0 < W) (r : Nat) (g : List (List ℝ)) (y x : ℤ) :
    Spec.patch H W r g ((y % H).toNat : ℤ) ((x % W).toNat : ℤ) = Spec.patch H W r g y x := by
  have h1 := Int.emod_nonneg y (by omega : (H : ℤ) ≠ 0)
  have h2 := Int.emod_nonneg x (by omega : (W : ℤ) ≠ 0)
  rw [Int.toNat_of_nonneg h1, Int.toNat_of_nonneg h2]
  unfold Spec.patch
  simp only [wrapped_mod]

theorem rect_width {H W : Nat} {g : List (List ℝ)} (hg : Spec.Rect H W g) (hH : 0 < H) :
    (g.headD []).length = W := by
  cases g with
  | nil => have := hg.1; simp at this; omega
  | cons row rest => exact hg.2 row (List.mem_cons_self ..)

theorem phanesMap_eq {H W : Nat} {g : List (List ℝ)} (hg : Spec.Rect H W g) (hH : 0 < H)
    (kind : MapKind) (w : Nat) :
    phanesMap kind g w =
      .ok (matrixOf H W fun x y => kind.store (localBits (Spec.patch H W ((w - 1) / 2) g x y))) := by
  unfold phanesMap
  dsimp only
  rw [hg.1, rect_width hg hH]
  refine fillMap_ok fun x hx y hy => ?_
  rw [window_patch hg _ hx hy, window_localBits (patch_ne _ _ _ _ _ _)]
  rfl

/-- One entry of the map of `Phanes`, at any coordinates of the torus. -/
theorem phanesMap_at {H W : Nat} {g m : List (List ℝ)} (hg : Spec.Rect H W g) (hH : 0 < H)
    (hW : 0 < W) {kind : MapKind} {w : Nat} (h : phanesMap kind g w = .ok m) (y x : ℤ) :
    Spec.wrapped H W m y x = kind.store (localBits (Spec.patch H W ((w - 1) / 2) g y x)) := by
  rw [phanesMap_eq hg hH] at h
  cases h
  rw [matrixOf_at hH hW, patch_mod hH hW]

/-- C123: the map of `Phanes` for a float grid has the size of the grid, and every entry is the
entropy of the cells of the torus within `r` rows and columns, quantised to 256 levels between
their least and greatest value.  A window size of `2r + 1` and one of `2r + 2` give the same map. -/
theorem phanes_map {H W : Nat} {g : List (List ℝ)} (hg : Spec.Rect H W g) (hH : 0 < H) (hW : 0 < W)
    (r : Nat) : ∃ m, phanesMap .float g (2 * r + 1) = .ok m ∧ phanesMap .float g (2 * r + 2) = .ok m ∧
      Spec.Rect H W m ∧ ∀ y x lo hi, Spec.Between (Spec.patch H W r g y x) lo hi →
        let e := Spec.shannon Spec.byteVal ((Spec.patch H W r g y x).map (Spec.byteLevel 1e-9 lo hi))
        Spec.wrapped H W m y x ≤ e ∧ e - 256 * 1e-9 / Real.log 2 ≤ Spec.wrapped H W m y x := by
  have hm := phanesMap_eq hg hH .float (2 * r + 1)
  refine ⟨_, hm, ?_, matrixOf_rect _ _ _, fun y x lo hi h => ?_⟩
  · rw [phanesMap_eq hg hH, show (2 * r + 2 - 1) / 2 = (2 * r + 1 - 1) / 2 by omega]
  · rw [phanesMap_at hg hH hW hm, show (2 * r + 1 - 1) / 2 = r by omega]
    exact localBits_shannon h

/-- C123: bounds of every entry: more bits than the window has cells, or than 255 levels have, are
impossible, and the least value is that of a window whose values differ by less than 1e-9/254. -/
theorem phanes_bounds {H W : Nat} {g m : List (List ℝ)} (hg : Spec.Rect H W g) (hH : 0 < H)
    (hW : 0 < W) {r : Nat} (h : phanesMap .float g (2 * r + 1) = .ok m) (y x : ℤ) :
    -Real.logb 2 (1 + 1e-9) ≤ Spec.wrapped H W m y x ∧
      Spec.wrapped H W m y x < Real.logb 2 ((2 * r + 1 : ℕ) ^ 2) ∧
      Spec.wrapped H W m y x < Real.logb 2 255 ∧
      ∀ lo hi, Spec.Between (Spec.patch H W r g y x) lo hi →
        (Spec.wrapped H W m y x = -Real.logb 2 (1 + 1e-9) ↔ hi - lo < 1e-9 / 254) := by
  rw [phanesMap_at hg hH hW h, show (2 * r + 1 - 1) / 2 = r by omega]
  have hl := patch_ne H W r g y x
  obtain ⟨h1, h2⟩ := localBits_lt hl
  rw [patch_length] at h1
  refine ⟨localBits_least hl, ?_, h2, fun lo hi hb => localBits_least_iff hb⟩
  rw [← Nat.cast_pow]
  exact h1

/-! ## Moving and turning the grid -/

/-- The offsets of a window along one axis. -/
def offsets (r : Nat) : List ℤ := (List.range (2 * r + 1)).map fun a : ℕ => (a : ℤ) - r

theorem patch_offsets (H W r : Nat) (g : List (List ℝ)) (y x : ℤ) : Spec.patch H W r g y x =
    (offsets r).flatMap fun a => (offsets r).map fun b => Spec.wrapped H W g (y + a) (x + b) := by
  unfold Spec.patch offsets
  rw [List.flatMap_map]
  simp only [List.map_map]
  rfl

theorem offsets_neg (r : Nat) : ((offsets r).map fun a => -a).Perm (offsets r) := by
  have hnd : (offsets r).Nodup := by
    unfold offsets
    exact List.Nodup.map (fun a b h => by simpa using h) List.nodup_range
  have hmem : ∀ a, a ∈ offsets r ↔ -(r : ℤ) ≤ a ∧ a ≤ r := by
    intro a
    unfold offsets
    simp only [List.mem_map, List.mem_range]
    constructor
    · rintro ⟨k, hk, rfl⟩; omega
    · intro h; exact ⟨(a + r).toNat, by omega, by omega⟩
  refine (List.perm_ext_iff_of_nodup (hnd.map neg_injective) hnd).2 fun a => ?_
  rw [List.mem_map]
  constructor
  · rintro ⟨b, hb, rfl⟩
    rw [hmem] at hb ⊢
    omega
  · intro h
    rw [hmem] at h
    exact ⟨-a, (hmem _).2 (by omega), by omega⟩

theorem offsets_sign (r : Nat) {e : ℤ} (he : e = 1 ∨ e = -1) :
    ((offsets r).map fun a => e * a).Perm (offsets r) := by
  rcases he with rfl | rfl
  · simp
  · simpa using offsets_neg r

theorem patch_signs {H W H' W' r : Nat} {g g' : List (List ℝ)} {e f dy dx : ℤ}
    (he : e = 1 ∨ e = -1) (hf : f = 1 ∨ f = -1)
    (h : ∀ y x, Spec.wrapped H' W' g' y x = Spec.wrapped H W g (e * y + dy) (f * x + dx)) (y x : ℤ) :
    (Spec.patch H' W' r g' y x).Perm (Spec.patch H W r g (e * y + dy) (f * x + dx)) := by
  rw [patch_offsets, patch_offsets]
  have h1 : ∀ a : ℤ, ((offsets r).map fun b => Spec.wrapped H' W' g' (y + a) (x + b)).Perm
      ((offsets r).map fun b => Spec.wrapped H W g (e * y + dy + e * a) (f * x + dx + b)) := by
    intro a
    have h2 := (offsets_sign r hf).map fun b => Spec.wrapped H W g (e * y + dy + e * a) (f * x + dx + b)
    rw [List.map_map] at h2
    refine List.Perm.trans (List.Perm.of_eq ?_) h2
    apply List.map_congr_left
    intro b _
    simp only [Function.comp]
    rw [h]
    congr 1 <;> ring
  refine (List.Perm.flatMap_left _ fun a _ => h1 a).trans ?_
  have h3 := (offsets_sign r he).flatMap_right
    fun a => (offsets r).map fun b => Spec.wrapped H W g (e * y + dy + a) (f * x + dx + b)
  rw [List.flatMap_map] at h3
  exact h3

theorem patch_swap {H W r : Nat} {g g' : List (List ℝ)}
    (h : ∀ y x, Spec.wrapped W H g' y x = Spec.wrapped H W g x y) (y x : ℤ) :
    (Spec.patch W H r g' y x).Perm (Spec.patch H W r g x y) := by
  rw [patch_offsets, patch_offsets]
  simp only [h]
  rw [← Multiset.coe_eq_coe, ← Multiset.coe_bind, ← Multiset.coe_bind]
  simp only [← Multiset.map_coe]
  exact Multiset.bind_map_comm _ _

/-- C123: the map moves with the grid: translated or mirrored grids have translated or mirrored
maps. -/
theorem phanes_signs {H W : Nat} {g g' m m' : List (List ℝ)} (hg : Spec.Rect H W g)
    (hg' : Spec.Rect H W g') (hH : 0 < H) (hW : 0 < W) {kind : MapKind} {w : Nat}
    (hm : phanesMap kind g w = .ok m) (hm' : phanesMap kind g' w = .ok m') {e f dy dx : ℤ}
    (he : e = 1 ∨ e = -1) (hf : f = 1 ∨ f = -1)
    (h : ∀ y x, Spec.wrapped H W g' y x = Spec.wrapped H W g (e * y + dy) (f * x + dx)) (y x : ℤ) :
    Spec.wrapped H W m' y x = Spec.wrapped H W m (e * y + dy) (f * x + dx) := by
  rw [phanesMap_at hg' hH hW hm', phanesMap_at hg hH hW hm, localBits_perm (patch_signs he hf h y x)]

/-- C123: transposed grids have transposed maps. -/
theorem phanes_swap {H W : Nat} {g g' m m' : List (List ℝ)} (hg : Spec.Rect H W g)
    (hg' : Spec.Rect W H g') (hH : 0 < H) (hW : 0 < W) {kind : MapKind} {w : Nat}
    (hm : phanesMap kind g w = .ok m) (hm' : phanesMap kind g' w = .ok m')
    (h : ∀ y x, Spec.wrapped W H g' y x = Spec.wrapped H W g x y) (y x : ℤ) :
    Spec.wrapped W H m' y x = Spec.wrapped H W m x y := by
  rw [phanesMap_at hg' hW hH hm', phanesMap_at hg hH hW hm, localBits_perm (patch_swap h y x)]

/-- C123: a constant added to every cell does not change the map. -/
theorem phanes_add {H W : Nat} {g g' : List (List ℝ)} (hg : Spec.Rect H W g)
    (hg' : Spec.Rect H W g') (hH : 0 < H) (kind : MapKind) (w : Nat) {c : ℝ}
    (h : ∀ y x, Spec.wrapped H W g' y x = Spec.wrapped H W g y x + c) :
    phanesMap kind g' w = phanesMap kind g w := by
  have hp : ∀ r y x, Spec.patch H W r g' y x = (Spec.patch H W r g y x).map (· + c) := by
    intro r y x
    rw [patch_offsets, patch_offsets, List.map_flatMap]
    simp only [List.map_map, h]
    rfl
  rw [phanesMap_eq hg hH, phanesMap_eq hg' hH]
  simp only [hp, localBits_add]

/-- C123: the map looks no farther than the window: grids that agree around a cell have the same
entry there. -/
theorem phanes_local {H W : Nat} {g g' m m' : List (List ℝ)} (hg : Spec.Rect H W g)
    (hg' : Spec.Rect H W g') (hH : 0 < H) (hW : 0 < W) {kind : MapKind} {r : Nat}
    (hm : phanesMap kind g (2 * r + 1) = .ok m) (hm' : phanesMap kind g' (2 * r + 1) = .ok m')
    {y x : ℤ} (h : ∀ a b : ℤ, |a| ≤ r → |b| ≤ r →
      Spec.wrapped H W g' (y + a) (x + b) = Spec.wrapped H W g (y + a) (x + b)) :
    Spec.wrapped H W m' y x = Spec.wrapped H W m y x := by
  rw [phanesMap_at hg' hH hW hm', phanesMap_at hg hH hW hm, show (2 * r + 1 - 1) / 2 = r by omega]
  congr 2
  unfold Spec.patch
  refine List.flatMap_congr fun a ha => List.map_congr_left fun b hb => ?_
  rw [List.mem_range] at ha hb
  exact h _ _ (by rw [abs_le]; omega) (by rw [abs_le]; omega)

/-! ## Integer grids -/

theorem store_int (v : ℝ) (h : -1 < v) : (0 ≤ v → MapKind.int.store v = ⌊v⌋) ∧ (v < 0 → MapKind.int.store v = 0) := by
  unfold MapKind.store
  dsimp only
  refine ⟨fun h0 => by rw [if_pos h0], fun h0 => ?_⟩
  rw [if_neg (not_le.2 h0)]
  have : ⌈v⌉ = 0 := by rw [Int.ceil_eq_zero_iff, Set.mem_Ioc]; exact ⟨h, h0.le⟩
  rw [this, Int.cast_zero]

theorem least_gt : (-1 : ℝ) < -Real.logb 2 (1 + 1e-9) := by
  rw [neg_lt_neg_iff, show (1 : ℝ) = Real.logb 2 2 by rw [Real.logb_self_eq_one (by norm_num)]]
  rw [show Real.logb 2 2 + 1e-9 = 1 + 1e-9 by rw [Real.logb_self_eq_one (by norm_num)]]
  exact Real.logb_lt_logb (by norm_num) (by norm_num) (by norm_num)

/-- C123, where it fails: the map of an integer grid holds whole numbers of bits, rounded down. -/
theorem integer_map_refuted {H W : Nat} {g m m' : List (List ℝ)} (hg : Spec.Rect H W g) (hH : 0 < H)
    (hW : 0 < W) {w : Nat} (hm : phanesMap .float g w = .ok m) (hm' : phanesMap .int g w = .ok m')
    (y x : ℤ) : Spec.wrapped H W m' y x = max 0 (⌊Spec.wrapped H W m y x⌋ : ℝ) := by
  rw [phanesMap_at hg hH hW hm', phanesMap_at hg hH hW hm]
  have h1 := lt_of_lt_of_le least_gt (localBits_least (patch_ne H W ((w - 1) / 2) g y x))
  show MapKind.int.store (localBits _) = max 0 (⌊localBits _⌋ : ℝ)
  obtain ⟨h2, h3⟩ := store_int _ h1
  rcases lt_or_ge (localBits (Spec.patch H W ((w - 1) / 2) g y x)) 0 with h | h
  · rw [h3 h]
    have : ⌊localBits (Spec.patch H W ((w - 1) / 2) g y x)⌋ ≤ 0 := by
      have := Int.floor_lt (a := localBits (Spec.patch H W ((w - 1) / 2) g y x)) (z := 0)
      have := this.2 (by simpa using h)
      omega
    rw [max_eq_left (by exact_mod_cast this)]
  · rw [h2 h, max_eq_right (by exact_mod_cast Int.floor_nonneg.2 h)]

/-- C123, where it fails: of a grid of integers with two values, such as a Life pattern, the map
is 0 everywhere. -/
theorem two_valued_map_refuted {H W : Nat} {g m : List (List ℝ)} (hg : Spec.Rect H W g) (hH : 0 < H)
    (hW : 0 < W) {w : Nat} (hm : phanesMap .int g w = .ok m) {a b : ℝ}
    (h2 : ∀ y x, Spec.wrapped H W g y x = a ∨ Spec.wrapped H W g y x = b) (y x : ℤ) :
    Spec.wrapped H W m y x = 0 := by
  rw [phanesMap_at hg hH hW hm]
  have hl := patch_ne H W ((w - 1) / 2) g y x
  have h1 := lt_of_lt_of_le least_gt (localBits_least hl)
  have h3 : localBits (Spec.patch H W ((w - 1) / 2) g y x) < 1 :=
    localBits_two hl fun v hv => by
      obtain ⟨c, d, _, _, rfl⟩ := patch_mem.1 hv
      exact h2 _ _
  obtain ⟨h4, h5⟩ := store_int _ h1
  rcases lt_or_ge (localBits (Spec.patch H W ((w - 1) / 2) g y x)) 0 with h | h
  · exact h5 h
  · rw [h4 h, Int.floor_eq_zero_iff.2 ⟨h, h3⟩, Int.cast_zero]

/-! ## Four axes, and the columns of the analysis -/

/-- C123: with four axes every channel of every sample has its own map, with any other number of
axes except two there is none; with two axes it is the map of the matrix, stored in an array of
the matrix's kind. -/
theorem phanes_four {B C H W : Nat} (u : Univ ℝ B C H W) (hH : 0 < H) (r : Nat) :
    ∃ M : Fin B → Fin C → List (List ℝ),
      (∀ n c, phanesMap .float (gridRows u n c) (2 * r + 1) = .ok (M n c)) ∧
      phanesEntropy (.four (gridArray u)) (2 * r + 1) =
        .ok (.four ((List.finRange B).map fun n => (List.finRange C).map fun c => M n c)) ∧
      (∀ w, phanesEntropy .other w = .error .unbound) ∧
      ∀ kind g h' w', Spec.Rect h' w' g → 0 < h' → ∀ w, ∃ m, phanesMap kind g w = .ok m ∧
        phanesEntropy (.two kind g) w = .ok (.two kind m) := by
  have hr : ∀ n c, Spec.Rect H W (gridRows u n c) := by
    intro n c
    refine ⟨by simp [gridRows], fun row hrow => ?_⟩
    unfold gridRows at hrow
    obtain ⟨i, _, rfl⟩ := List.mem_map.1 hrow
    simp
  refine ⟨_, fun n c => phanesMap_eq (hr n c) hH _ _, ?_, fun w => rfl, fun kind g h' w' hg hh w =>
    ⟨_, phanesMap_eq hg hh _ _, by unfold phanesEntropy; dsimp only; rw [phanesMap_eq hg hh]; rfl⟩⟩
  unfold phanesEntropy gridArray
  dsimp only
  have h1 : ∀ n : Fin B, ((List.finRange C).map fun c => gridRows u n c).mapM
      (fun channel => phanesMap .float channel (2 * r + 1)) = .ok ((List.finRange C).map fun c =>
        matrixOf H W fun x y =>
          MapKind.float.store (localBits (Spec.patch H W ((2 * r + 1 - 1) / 2) (gridRows u n c) x y))) := by
    intro n
    rw [List.mapM_map]
    exact mapM_ok_of fun c _ => phanesMap_eq (hr n c) hH _ _
  rw [List.mapM_map]
  exact congrArg (Except.map NpGrid.four) (mapM_ok_of fun n _ => h1 n)

theorem sum_flatten_map {X : Type} (F : X → ℝ) (L : List (List X)) :
    (L.flatten.map F).sum = (L.map fun l => (l.map F).sum).sum := by
  induction L with
  | nil => rfl
  | cons l L ih =>
    rw [List.flatten_cons, List.map_append, List.sum_append, ih, List.map_cons, List.sum_cons]

theorem sum_range_list (F : Nat → ℝ) (n : Nat) : ((List.range n).map F).sum = ∑ i : Fin n, F i := by
  induction n with
  | zero => simp
  | succ n ih => rw [List.range_succ, List.map_append, List.sum_append, ih, Fin.sum_univ_castSucc]; simp

theorem sum_finRange_list {n : Nat} (F : Fin n → ℝ) : ((List.finRange n).map F).sum = ∑ i, F i := by
  rw [← List.ofFn_eq_map, List.sum_ofFn]

theorem mapCells_sum {B C H W : Nat} (e : Fin B → Fin C → Nat → Nat → ℝ) (f : ℝ → ℝ) :
    (((((List.finRange B).map fun n => (List.finRange C).map fun c =>
      matrixOf H W (e n c)).flatten.flatten).flatten).map f).sum =
        ∑ n, ∑ c, ∑ i : Fin H, ∑ j : Fin W, f (e n c i j) := by
  rw [sum_flatten_map, sum_flatten_map, sum_flatten_map, List.map_map, ← sum_finRange_list]
  congr 1
  apply List.map_congr_left
  intro n _
  simp only [Function.comp]
  rw [List.map_map, ← sum_finRange_list]
  congr 1
  apply List.map_congr_left
  intro c _
  simp only [Function.comp]
  unfold matrixOf
  rw [List.map_map, sum_range_list]
  refine Finset.sum_congr rfl fun i _ => ?_
  simp only [Function.comp]
  rw [List.map_map, sum_range_list]
  rfl

theorem mapCells_count {B C H W : Nat} (e : Fin B → Fin C → Nat → Nat → ℝ) :
    (((((List.finRange B).map fun n => (List.finRange C).map fun c =>
      matrixOf H W (e n c)).flatten.flatten).flatten).length : ℝ) = (B * C * H * W : ℕ) := by
  have := mapCells_sum (H := H) (W := W) e fun _ => 1
  simp only [List.map_const', List.sum_replicate, nsmul_eq_mul, mul_one, Finset.sum_const,
    Finset.card_univ, Fintype.card_fin] at this
  rw [this]
  push_cast
  ring

namespace Spec

/-- Mean and standard deviation of numbers given for every cell. -/
noncomputable def cellMean {B C H W : Nat} (e : Univ ℝ B C H W) : ℝ :=
  (∑ n, ∑ c, ∑ i, ∑ j, e n c i j) / (B * C * H * W : ℕ)

noncomputable def cellStd {B C H W : Nat} (e : Univ ℝ B C H W) : ℝ :=
  Real.sqrt ((∑ n, ∑ c, ∑ i, ∑ j, (e n c i j - cellMean e) ^ 2) / (B * C * H * W : ℕ))

end Spec

theorem gridRows_rect {B C H W : Nat} (u : Univ ℝ B C H W) (n : Fin B) (c : Fin C) :
    Spec.Rect H W (gridRows u n c) := by
  refine ⟨by simp [gridRows], fun row hrow => ?_⟩
  unfold gridRows at hrow
  obtain ⟨i, _, rfl⟩ := List.mem_map.1 hrow
  simp

/-- The entropies around the cells of a universe. -/
noncomputable def cellBits {B C H W : Nat} (r : Nat) (u : Univ ℝ B C H W) : Univ ℝ B C H W :=
  fun n c i j => localBits (Spec.patch H W r (gridRows u n c) (i.val : ℕ) (j.val : ℕ))

theorem entropyRow_eq {B C H W : Nat} (r : Nat) (u : Univ ℝ B C H W) (hH : 0 < H) :
    entropyRow r u = .ok (Spec.cellMean (cellBits r u), Spec.cellStd (cellBits r u)) := by
  obtain ⟨M, h1, h2, _⟩ := phanes_four u hH r
  have hM : M = fun n c => matrixOf H W fun x y =>
      MapKind.float.store (localBits (Spec.patch H W r (gridRows u n c) x y)) := by
    funext n c
    have := h1 n c
    rw [phanesMap_eq (gridRows_rect u n c) hH] at this
    rw [show (2 * r + 1 - 1) / 2 = r by omega] at this
    exact (Except.ok.inj this).symm
  unfold entropyRow
  rw [Nat.mul_comm r 2, h2]
  simp only [bind, Except.bind, pure, Except.pure]
  rw [hM]
  have hmean : npMean (((List.finRange B).map fun n => (List.finRange C).map fun c =>
      matrixOf H W fun x y => MapKind.float.store
        (localBits (Spec.patch H W r (gridRows u n c) x y))).flatten.flatten).flatten =
      Spec.cellMean (cellBits r u) := by
    unfold npMean Spec.cellMean
    rw [mapCells_count fun (n : Fin B) (c : Fin C) (x y : ℕ) => MapKind.float.store
        (localBits (Spec.patch H W r (gridRows u n c) x y))]
    have := mapCells_sum (H := H) (W := W) (fun (n : Fin B) (c : Fin C) (x y : ℕ) =>
      MapKind.float.store (localBits (Spec.patch H W r (gridRows u n c) x y))) id
    rw [List.map_id] at this
    rw [this]
    rfl
  refine congrArg Except.ok (Prod.ext hmean ?_)
  show npStd _ = _
  unfold npStd Spec.cellStd
  rw [hmean]
  have hsum := mapCells_sum (H := H) (W := W) (fun (n : Fin B) (c : Fin C) (x y : ℕ) =>
      MapKind.float.store (localBits (Spec.patch H W r (gridRows u n c) x y)))
      fun v => (v - Spec.cellMean (cellBits r u)) ^ 2
  rw [hsum, mapCells_count fun (n : Fin B) (c : Fin C) (x y : ℕ) => MapKind.float.store
        (localBits (Spec.patch H W r (gridRows u n c) x y))]
  rfl

/-- C123: the entropy columns of the analysis are the mean and the standard deviation, over all
samples, channels and cells, of the entries of the maps. -/
theorem entropy_columns {B C H W : Nat} (r : Nat) (u : Univ ℝ B C H W) (hH : 0 < H) (hW : 0 < W) :
    ∃ e : Univ ℝ B C H W, entropyRow r u = .ok (Spec.cellMean e, Spec.cellStd e) ∧
      ∀ n c, ∃ m, phanesMap .float (gridRows u n c) (2 * r + 1) = .ok m ∧
        ∀ i j, e n c i j = Spec.wrapped H W m (i.val : ℕ) (j.val : ℕ) := by
  refine ⟨_, entropyRow_eq r u hH, fun n c => ⟨_, phanesMap_eq (gridRows_rect u n c) hH _ _, ?_⟩⟩
  intro i j
  rw [phanesMap_at (gridRows_rect u n c) hH hW (phanesMap_eq (gridRows_rect u n c) hH .float _),
    show (2 * r + 1 - 1) / 2 = r by omega]
  rfl

theorem cellMean_bounds {B C H W : Nat} {e : Univ ℝ B C H W} {lo hi : ℝ} (hN : 0 < B * C * H * W)
    (h : ∀ n c i j, lo ≤ e n c i j ∧ e n c i j < hi) : lo ≤ Spec.cellMean e ∧ Spec.cellMean e < hi := by
  have hN' : (0 : ℝ) < (B * C * H * W : ℕ) := by exact_mod_cast hN
  have hB : 0 < B := Nat.pos_of_ne_zero fun h => by simp [h] at hN
  have hC : 0 < C := Nat.pos_of_ne_zero fun h => by simp [h] at hN
  have hH : 0 < H := Nat.pos_of_ne_zero fun h => by simp [h] at hN
  have hW : 0 < W := Nat.pos_of_ne_zero fun h => by simp [h] at hN
  have : NeZero B := ⟨hB.ne'⟩
  have : NeZero C := ⟨hC.ne'⟩
  have : NeZero H := ⟨hH.ne'⟩
  have : NeZero W := ⟨hW.ne'⟩
  have hconst : ∀ v : ℝ, (∑ _n : Fin B, ∑ _c : Fin C, ∑ _i : Fin H, ∑ _j : Fin W, v) =
      v * (B * C * H * W : ℕ) := by
    intro v
    simp only [Finset.sum_const, Finset.card_univ, Fintype.card_fin, nsmul_eq_mul]
    push_cast
    ring
  unfold Spec.cellMean
  rw [le_div_iff₀ hN', div_lt_iff₀ hN', ← hconst lo, ← hconst hi]
  constructor
  · exact Finset.sum_le_sum fun n _ => Finset.sum_le_sum fun c _ => Finset.sum_le_sum fun i _ =>
      Finset.sum_le_sum fun j _ => (h n c i j).1
  · exact Finset.sum_lt_sum_of_nonempty Finset.univ_nonempty fun n _ =>
      Finset.sum_lt_sum_of_nonempty Finset.univ_nonempty fun c _ =>
      Finset.sum_lt_sum_of_nonempty Finset.univ_nonempty fun i _ =>
      Finset.sum_lt_sum_of_nonempty Finset.univ_nonempty fun j _ => (h n c i j).2

theorem gridRows_at {B C H W : Nat} (u : Univ ℝ B C H W) (n : Fin B) (c : Fin C) (hH : 0 < H)
    (hW : 0 < W) (y x : ℤ) : Spec.wrapped H W (gridRows u n c) y x =
      u n c ⟨(y % H).toNat, emod_toNat_lt y hH⟩ ⟨(x % W).toNat, emod_toNat_lt x hW⟩ := by
  unfold Spec.wrapped gridRows
  have hrow : ((List.finRange H).map fun i => (List.finRange W).map fun j => u n c i j).getD
      (y % H).toNat [] = (List.finRange W).map fun j => u n c ⟨(y % H).toNat, emod_toNat_lt y hH⟩ j := by
    rw [List.getD_eq_getElem _ _ (by simpa using emod_toNat_lt y hH)]
    simp
  rw [hrow, List.getD_eq_getElem _ _ (by simpa using emod_toNat_lt x hW)]
  simp

/-- C123: the columns do not change when the universe is moved around the torus. -/
theorem entropy_roll {B C H W : Nat} (r : Nat) (u : Univ ℝ B C H W) (hH : 0 < H) (hW : 0 < W)
    (dy dx : ℤ) : entropyRow r (Spec.roll dy dx u) = entropyRow r u := by
  have hcell : ∀ n c i j, cellBits r (Spec.roll dy dx u) n c i j =
      cellBits r u n c (Spec.rollIdx i dy) (Spec.rollIdx j dx) := by
    intro n c i j
    unfold cellBits
    have h : ∀ y x, Spec.wrapped H W (gridRows (Spec.roll dy dx u) n c) y x =
        Spec.wrapped H W (gridRows u n c) (1 * y + -dy) (1 * x + -dx) := by
      intro y x
      rw [gridRows_at _ n c hH hW, gridRows_at _ n c hH hW]
      unfold Spec.roll Spec.rollIdx
      congr 1
      · apply Fin.ext
        show (((((y % H).toNat : ℕ) : ℤ) - dy) % H).toNat = ((1 * y + -dy) % H).toNat
        rw [Int.toNat_of_nonneg (Int.emod_nonneg y (by omega)), Int.emod_sub_emod]
        congr 2
        ring
      · apply Fin.ext
        show (((((x % W).toNat : ℕ) : ℤ) - dx) % W).toNat = ((1 * x + -dx) % W).toNat
        rw [Int.toNat_of_nonneg (Int.emod_nonneg x (by omega)), Int.emod_sub_emod]
        congr 2
        ring
    rw [localBits_perm (patch_signs (Or.inl rfl) (Or.inl rfl) h _ _)]
    rw [← patch_mod hH hW]
    unfold Spec.rollIdx
    congr 3 <;> (congr 2; ring)
  have hsum : ∀ f : ℝ → ℝ, (∑ n, ∑ c, ∑ i, ∑ j, f (cellBits r (Spec.roll dy dx u) n c i j)) =
      ∑ n, ∑ c, ∑ i, ∑ j, f (cellBits r u n c i j) := by
    intro f
    simp only [hcell]
    refine Finset.sum_congr rfl fun n _ => Finset.sum_congr rfl fun c _ => ?_
    refine (Equiv.sum_comp (rollEquiv H dy) fun i => ∑ j, f (cellBits r u n c i (Spec.rollIdx j dx))).trans ?_
    refine Finset.sum_congr rfl fun i _ => ?_
    exact Equiv.sum_comp (rollEquiv W dx) fun j => f (cellBits r u n c i j)
  have hmean : Spec.cellMean (cellBits r (Spec.roll dy dx u)) = Spec.cellMean (cellBits r u) := by
    unfold Spec.cellMean
    have := hsum id
    simp only [id] at this
    rw [this]
  rw [entropyRow_eq r _ hH, entropyRow_eq r _ hH, hmean]
  unfold Spec.cellStd
  rw [hmean, hsum fun v => (v - Spec.cellMean (cellBits r u)) ^ 2]

/-- C123: the mean is not below the entropy of a flat universe, and below the logarithms of the
number of cells in a window and of 255. -/
theorem entropy_mean_bounds {B C H W : Nat} (r : Nat) (u : Univ ℝ B C H W) (hN : 0 < B * C * H * W) :
    ∃ p, entropyRow r u = .ok p ∧ -Real.logb 2 (1 + 1e-9) ≤ p.1 ∧
      p.1 < Real.logb 2 ((2 * r + 1 : ℕ) ^ 2) ∧ p.1 < Real.logb 2 255 ∧ 0 ≤ p.2 := by
  have hH : 0 < H := Nat.pos_of_ne_zero fun h => by simp [h] at hN
  refine ⟨_, entropyRow_eq r u hH, ?_⟩
  have h1 : ∀ n c i j, -Real.logb 2 (1 + 1e-9) ≤ cellBits r u n c i j ∧
      cellBits r u n c i j < Real.logb 2 ((2 * r + 1 : ℕ) ^ 2) := fun n c i j => by
    refine ⟨localBits_least (patch_ne _ _ _ _ _ _), ?_⟩
    have := (localBits_lt (patch_ne H W r (gridRows u n c) (i.val : ℕ) (j.val : ℕ))).1
    rw [patch_length] at this
    rw [← Nat.cast_pow]
    exact this
  have h2 : ∀ n c i j, -Real.logb 2 (1 + 1e-9) ≤ cellBits r u n c i j ∧
      cellBits r u n c i j < Real.logb 2 255 := fun n c i j =>
    ⟨(h1 n c i j).1, (localBits_lt (patch_ne H W r (gridRows u n c) (i.val : ℕ) (j.val : ℕ))).2⟩
  exact ⟨(cellMean_bounds hN h1).1, (cellMean_bounds hN h1).2, (cellMean_bounds hN h2).2,
    Real.sqrt_nonneg _⟩

/-- C123: universes whose samples are flat, the empty one above all, have mean `-log2(1 + 1e-9)`
(a negative number) and deviation 0. -/
theorem entropy_flat {B C H W : Nat} (r : Nat) (u : Univ ℝ B C H W) (hN : 0 < B * C * H * W)
    (hu : Spec.Homogeneous u) : entropyRow r u = .ok (-Real.logb 2 (1 + 1e-9), 0) := by
  have hN' : ((B * C * H * W : ℕ) : ℝ) ≠ 0 := by
    have : B * C * H * W ≠ 0 := hN.ne'
    exact_mod_cast this
  have hH : 0 < H := Nat.pos_of_ne_zero fun h => by simp [h] at hN
  have hW : 0 < W := Nat.pos_of_ne_zero fun h => by simp [h] at hN
  have hcell : ∀ n c i j, cellBits r u n c i j = -Real.logb 2 (1 + 1e-9) := by
    intro n c i j
    have hb : Spec.Between (Spec.patch H W r (gridRows u n c) (i.val : ℕ) (j.val : ℕ))
        (u n c i j) (u n c i j) := by
      have hall : ∀ v ∈ Spec.patch H W r (gridRows u n c) (i.val : ℕ) (j.val : ℕ), v = u n c i j := by
        intro v hv
        obtain ⟨a, b, _, _, rfl⟩ := patch_mem.1 hv
        rw [gridRows_at _ n c hH hW]
        exact hu _ _ _ _ _ _
      obtain ⟨v, hv⟩ := List.exists_mem_of_ne_nil _
        (patch_ne H W r (gridRows u n c) (i.val : ℕ) (j.val : ℕ))
      have := hall v hv
      subst this
      exact ⟨hv, hv, fun w hw => by rw [hall w hw]; exact ⟨le_refl _, le_refl _⟩⟩
    unfold cellBits
    rw [localBits_least_iff hb]
    norm_num
  have hmean : Spec.cellMean (cellBits r u) = -Real.logb 2 (1 + 1e-9) := by
    unfold Spec.cellMean
    simp only [hcell, Finset.sum_const, Finset.card_univ, Fintype.card_fin, nsmul_eq_mul]
    rw [div_eq_iff hN']
    push_cast
    ring
  rw [entropyRow_eq r u hH, hmean]
  unfold Spec.cellStd
  simp only [hmean, hcell]
  simp

/-- C123: the deviation is 0 only if all entries of all maps are equal. -/
theorem entropy_std_zero {B C H W : Nat} (r : Nat) (u : Univ ℝ B C H W) (hN : 0 < B * C * H * W) :
    ∃ e : Univ ℝ B C H W, ∃ p, entropyRow r u = .ok p ∧ p = (Spec.cellMean e, Spec.cellStd e) ∧
      (∀ n c, ∃ m, phanesMap .float (gridRows u n c) (2 * r + 1) = .ok m ∧
        ∀ i j, e n c i j = Spec.wrapped H W m (i.val : ℕ) (j.val : ℕ)) ∧
      (p.2 = 0 ↔ ∀ n c i j, e n c i j = p.1) := by
  have hN' : (0 : ℝ) < (B * C * H * W : ℕ) := by exact_mod_cast hN
  have hH : 0 < H := Nat.pos_of_ne_zero fun h => by simp [h] at hN
  have hW : 0 < W := Nat.pos_of_ne_zero fun h => by simp [h] at hN
  obtain ⟨e, h1, h2⟩ := entropy_columns r u hH hW
  refine ⟨e, _, h1, rfl, h2, ?_⟩
  show Spec.cellStd e = 0 ↔ ∀ n c i j, e n c i j = Spec.cellMean e
  unfold Spec.cellStd
  have hnn : 0 ≤ ∑ n, ∑ c, ∑ i, ∑ j, (e n c i j - Spec.cellMean e) ^ 2 :=
    Finset.sum_nonneg fun n _ => Finset.sum_nonneg fun c _ => Finset.sum_nonneg fun i _ =>
      Finset.sum_nonneg fun j _ => sq_nonneg _
  rw [Real.sqrt_eq_zero (by positivity), div_eq_zero_iff, or_iff_left hN'.ne']
  constructor
  · intro h0 n c i j
    rw [Finset.sum_eq_zero_iff_of_nonneg fun n _ => Finset.sum_nonneg fun c _ =>
      Finset.sum_nonneg fun i _ => Finset.sum_nonneg fun j _ => sq_nonneg _] at h0
    have h0 := h0 n (Finset.mem_univ _)
    rw [Finset.sum_eq_zero_iff_of_nonneg fun c _ =>
      Finset.sum_nonneg fun i _ => Finset.sum_nonneg fun j _ => sq_nonneg _] at h0
    have h0 := h0 c (Finset.mem_univ _)
    rw [Finset.sum_eq_zero_iff_of_nonneg fun i _ => Finset.sum_nonneg fun j _ => sq_nonneg _] at h0
    have h0 := h0 i (Finset.mem_univ _)
    rw [Finset.sum_eq_zero_iff_of_nonneg fun j _ => sq_nonneg _] at h0
    have h0 := h0 j (Finset.mem_univ _)
    have := pow_eq_zero_iff (n := 2) (by norm_num) |>.1 h0
    linarith
  · intro h
    simp [h]

/-- C123: a run that makes `analyzeUniverse` rows makes as many entropy rows: row `t` belongs to
the universe after `t + 1` steps. -/
theorem entropy_rows {S : Type} {B C H W : Nat} (r : Nat) (hH : 0 < H)
    (step : S → Univ ℝ B C H W → Except PyErr (Univ ℝ B C H W × S)) (k : Nat) :
    ∀ (s : S) (g old : Univ ℝ B C H W) (rows : List AnalysisRow),
      analyzeLoop step k s g old = .ok rows → ∃ es, entropyLoop r step k s g = .ok es ∧
        es.length = rows.length ∧ ∀ t (ht : t < es.length), ∃ q,
          iterate step (t + 1) s g = .ok q ∧ entropyRow r q.1 = .ok es[t] := by
  induction k with
  | zero =>
    intro s g old rows h
    cases h
    exact ⟨[], rfl, rfl, fun t ht => absurd ht (by simp)⟩
  | succ k ih =>
    intro s g old rows h
    unfold analyzeLoop at h
    unfold entropyLoop
    cases hs : step s g with
    | error e => rw [hs] at h; simp [bind, Except.bind] at h
    | ok q =>
      rw [hs] at h
      simp only [bind, Except.bind] at h ⊢
      rw [entropyRow_eq r q.1 hH]
      dsimp only
      have h0 : iterate step 1 s g = .ok q := by
        simp only [iterate, hs, bind, Except.bind]
      by_cases hz : gridMean q.1 = 0
      · rw [if_pos hz] at h ⊢
        cases h
        refine ⟨_, rfl, rfl, fun t ht => ?_⟩
        obtain rfl : t = 0 := by simp at ht; omega
        exact ⟨q, h0, entropyRow_eq r q.1 hH⟩
      · rw [if_neg hz] at h ⊢
        cases hr : analyzeLoop step k q.2 q.1 q.1 with
        | error e => rw [hr] at h; simp at h
        | ok rest =>
          rw [hr] at h
          cases h
          obtain ⟨es, h1, h2, h3⟩ := ih q.2 q.1 q.1 rest hr
          rw [h1]
          refine ⟨_, rfl, by simp [h2], fun t ht => ?_⟩
          cases t with
          | zero => exact ⟨q, h0, entropyRow_eq r q.1 hH⟩
          | succ t =>
            obtain ⟨q', h4, h5⟩ := h3 t (by simpa using ht)
            refine ⟨q', ?_, h5⟩
            simp only [iterate, hs, bind, Except.bind] at h4 ⊢
            exact h4

/-! ## The function of the module -/

namespace Spec

/-- The rows (or columns) of a window cut off at the borders: from `x - r` to `x + r - 1`. -/
def cut (r n x : Nat) : List Nat := (List.range n).filter fun a => decide (x ≤ a + r ∧ a < x + r)

/-- The cells of a window cut off at the borders. -/
def cutPatch (H W r : Nat) (g : List (List ℝ)) (x y : Nat) : List ℝ :=
  (cut r H x).flatMap fun a : ℕ => (cut r W y).map fun b : ℕ => wrapped H W g a b

end Spec

theorem pySlice_getD {K : Type} (l : List K) (d : K) (a b : Nat) (hb : b ≤ l.length) :
    pySlice l a b = (List.range' a (b - a)).map fun i => l.getD i d := by
  apply List.ext_getElem?
  intro i
  rw [List.getElem?_map]
  by_cases hi : i < b - a
  · rw [pySlice_get _ hb (by omega), List.getElem?_range' hi, Option.map_some,
      List.getElem?_eq_getElem (by omega), List.getD_eq_getElem _ _ (by omega)]
    simp
  · rw [List.getElem?_eq_none (by rw [pySlice_length _ hb]; omega),
      List.getElem?_eq_none (by simp; omega), Option.map_none]

theorem cut_range' (r n x : Nat) (hx : x < n) :
    Spec.cut r n x = List.range' (x - r) (min (x + r) n - (x - r)) := by
  unfold Spec.cut
  have h1 : List.range n = List.range' 0 (x - r) ++ (List.range' (x - r) (min (x + r) n - (x - r)) ++
      List.range' (min (x + r) n) (n - min (x + r) n)) := by
    have key : ∀ p q s : Nat, List.range (p + (q + s)) =
        List.range' 0 p ++ (List.range' p q ++ List.range' (p + q) s) := by
      intro p q s
      have h : List.range' 0 p ++ List.range' (0 + p) (q + s) = List.range' 0 (p + (q + s)) :=
        List.range'_append_1
      rw [Nat.zero_add] at h
      rw [List.range_eq_range', List.range'_append_1, h]
    have := key (x - r) (min (x + r) n - (x - r)) (n - min (x + r) n)
    rw [show x - r + (min (x + r) n - (x - r) + (n - min (x + r) n)) = n by omega,
      show x - r + (min (x + r) n - (x - r)) = min (x + r) n by omega] at this
    exact this
  rw [h1, List.filter_append, List.filter_append, List.filter_eq_nil_iff.2, List.filter_eq_self.2,
    List.filter_eq_nil_iff.2, List.nil_append, List.append_nil]
  · intro a ha
    rw [List.mem_range'_1] at ha
    simp only [decide_eq_true_eq]
    omega
  · intro a ha
    rw [List.mem_range'_1] at ha
    simp only [decide_eq_true_eq]
    omega
  · intro a ha
    rw [List.mem_range'_1] at ha
    simp only [decide_eq_true_eq]
    omega

theorem windowAxis_cut {K : Type} (l : List K) (d : K) {w x : Nat} (hx : x < l.length) :
    windowAxis l w x = (Spec.cut ((w - 1) / 2) l.length x).map fun i => l.getD i d := by
  unfold windowAxis
  dsimp only
  rw [cut_range' _ _ _ hx, show max ((x : ℤ) - ((w - 1) / 2 : ℕ)) 0 = ((x - (w - 1) / 2 : ℕ) : ℤ) by omega,
    show min ((x : ℤ) + ((w - 1) / 2 : ℕ)) (l.length : ℤ) = ((min (x + (w - 1) / 2) l.length : ℕ) : ℤ) by omega,
    pySlice_getD l d _ _ (by omega)]

theorem wrapped_nat {H W : Nat} (g : List (List ℝ)) {a b : Nat} (ha : a < H) (hb : b < W) :
    Spec.wrapped H W g a b = (g.getD a []).getD b 0 := by
  unfold Spec.wrapped
  rw [Int.emod_eq_of_lt (by omega) (by omega), Int.emod_eq_of_lt (by omega) (by omega)]
  rfl

theorem cut_mem {r n x a : Nat} : a ∈ Spec.cut r n x ↔ a < n ∧ x ≤ a + r ∧ a < x + r := by
  unfold Spec.cut
  simp

theorem window_clipped {H W : Nat} {g : List (List ℝ)} (hg : Spec.Rect H W g) (w : Nat) {x y : Nat}
    (hx : x < H) (hy : y < W) :
    ((windowAxis g w x).map fun row => windowAxis row w y).flatten =
      Spec.cutPatch H W ((w - 1) / 2) g x y := by
  unfold Spec.cutPatch
  rw [windowAxis_cut g [] (by rw [hg.1]; exact hx), List.map_map, List.flatMap_def, hg.1]
  congr 1
  apply List.map_congr_left
  intro a ha
  simp only [Function.comp]
  have ha' := (cut_mem.1 ha).1
  have hrow := rect_row hg ha'
  rw [windowAxis_cut _ 0 (by rw [hrow]; exact hy), hrow]
  apply List.map_congr_left
  intro b hb
  rw [wrapped_nat g ha' (cut_mem.1 hb).1]

theorem clipped_ne {H W r : Nat} (hr : 1 ≤ r) (g : List (List ℝ)) {x y : Nat} (hx : x < H) (hy : y < W) :
    Spec.wrapped H W g x y ∈ Spec.cutPatch H W r g x y := by
  unfold Spec.cutPatch
  exact List.mem_flatMap.2 ⟨x, cut_mem.2 ⟨hx, by omega, by omega⟩,
    List.mem_map.2 ⟨y, cut_mem.2 ⟨hy, by omega, by omega⟩, rfl⟩⟩

/-- C123, where it fails: with windows of size 1 or 2 the function of the module raises, for every
grid that is not empty. -/
theorem module_small_refuted {H W : Nat} {g : List (List ℝ)} (hg : Spec.Rect H W g) (hH : 0 < H)
    (hW : 0 < W) (nan : ℤ) (kind : MapKind) {w : Nat} (hw : w ≤ 2) :
    moduleMap nan kind g w = .error .value := by
  unfold moduleMap fillMap
  rw [hg.1, rect_width hg hH]
  obtain ⟨H, rfl⟩ : ∃ k, H = k + 1 := ⟨H - 1, by omega⟩
  obtain ⟨W, rfl⟩ : ∃ k, W = k + 1 := ⟨W - 1, by omega⟩
  have h0 : windowEntropy 0 nan
      ((windowAxis g w 0).map fun row => windowAxis row w 0).flatten = .error .value := by
    rw [window_clipped hg w hH hW, show (w - 1) / 2 = 0 by omega]
    have : Spec.cutPatch (H + 1) (W + 1) 0 g 0 0 = [] := by
      unfold Spec.cutPatch
      have : Spec.cut 0 (H + 1) 0 = [] := by
        rw [List.eq_nil_iff_forall_not_mem]
        intro a ha
        have := cut_mem.1 ha
        omega
      rw [this]
      rfl
    rw [this]
    rfl
  rw [List.range_succ_eq_map (n := H), List.mapM_cons]
  have h1 : ((List.range (W + 1)).mapM fun y => (windowEntropy 0 nan
      ((windowAxis g w 0).map fun row => windowAxis row w y).flatten).map kind.store) = .error .value := by
    rw [List.range_succ_eq_map, List.mapM_cons, h0]
    rfl
  rw [h1]
  rfl

/-- The entropy the function of the module gives a window. -/
noncomputable def moduleBits (nan : ℤ) (l : List ℝ) : ℝ :=
  if npMin l = npMax l then gridEntropy (List.replicate l.length nan)
  else gridEntropy (l.map (Spec.byteLevel 0 (npMin l) (npMax l)))

theorem window_moduleBits {nan : ℤ} {l : List ℝ} (hl : l ≠ []) :
    windowEntropy 0 nan l = .ok (moduleBits nan l) := by
  have h := between_exists hl
  unfold moduleBits
  split_ifs with he
  · rw [← he] at h
    exact window_constant h
  · refine window_value h ?_
    rw [add_zero, sub_ne_zero]
    exact fun e => he e.symm

theorem moduleMap_eq {H W : Nat} {g : List (List ℝ)} (hg : Spec.Rect H W g) (hH : 0 < H)
    (nan : ℤ) (kind : MapKind) {w : Nat} (hw : 3 ≤ w) :
    moduleMap nan kind g w =
      .ok (matrixOf H W fun x y => kind.store (moduleBits nan (Spec.cutPatch H W ((w - 1) / 2) g x y))) := by
  unfold moduleMap
  rw [hg.1, rect_width hg hH]
  refine fillMap_ok fun x hx y hy => ?_
  rw [window_clipped hg w hx hy,
    window_moduleBits (List.ne_nil_of_mem (clipped_ne (by omega) g hx hy))]
  rfl

theorem moduleBits_least_iff {nan : ℤ} (hn : 0 ≤ nan ∧ nan ≤ 255) {l : List ℝ} {lo hi : ℝ}
    (h : Spec.Between l lo hi) : moduleBits nan l = -Real.logb 2 (1 + 1e-9) ↔ lo = hi := by
  have hl : l ≠ [] := List.ne_nil_of_mem h.1
  obtain ⟨h1, h2⟩ := between_unique h (between_exists hl)
  unfold moduleBits
  rw [← h1, ← h2]
  split_ifs with he
  · refine ⟨fun _ => he, fun _ => ?_⟩
    refine (gridEntropy_least_iff ?_ ?_).2 ?_
    · intro b hb
      rw [(List.mem_replicate.1 hb).2]
      exact hn
    · have := List.length_pos_iff.2 hl
      intro e
      rw [List.replicate_eq_nil_iff] at e
      omega
    · intro b hb c hc
      rw [(List.mem_replicate.1 hb).2, (List.mem_replicate.1 hc).2]
  · have hlt : lo < hi := lt_of_le_of_ne (between_le h) he
    rw [gridEntropy_least_iff (levels_bytes h (le_refl _) (by linarith)) (by simpa using hl)]
    refine ⟨fun hall => ?_, fun e => absurd e he⟩
    have := hall _ (List.mem_map.2 ⟨hi, h.2.1, rfl⟩) _ (List.mem_map.2 ⟨lo, h.1, rfl⟩)
    rw [level_hi hlt, level_lo] at this
    omega

/-- C123: with larger windows the map of the module has at every cell the entropy of the window
cut off at the borders, and it is least exactly where that window is flat. -/
theorem module_map {H W : Nat} {g : List (List ℝ)} (hg : Spec.Rect H W g) (hH : 0 < H)
    {nan : ℤ} (hn : 0 ≤ nan ∧ nan ≤ 255) {w : Nat} (hw : 3 ≤ w) :
    ∃ m, moduleMap nan .float g w = .ok m ∧ Spec.Rect H W m ∧
      ∀ x y : ℕ, x < H → y < W → ∀ lo hi, Spec.Between (Spec.cutPatch H W ((w - 1) / 2) g x y) lo hi →
        let e := Spec.shannon Spec.byteVal
          ((Spec.cutPatch H W ((w - 1) / 2) g x y).map (Spec.byteLevel 0 lo hi))
        (lo < hi → Spec.wrapped H W m x y ≤ e ∧
          e - 256 * 1e-9 / Real.log 2 ≤ Spec.wrapped H W m x y) ∧
        (Spec.wrapped H W m x y = -Real.logb 2 (1 + 1e-9) ↔ lo = hi) := by
  refine ⟨_, moduleMap_eq hg hH nan .float hw, matrixOf_rect _ _ _, fun x y hx hy lo hi hb => ?_⟩
  have hat : Spec.wrapped H W (matrixOf H W fun x y => MapKind.float.store
      (moduleBits nan (Spec.cutPatch H W ((w - 1) / 2) g x y))) x y =
      moduleBits nan (Spec.cutPatch H W ((w - 1) / 2) g x y) := by
    rw [matrixOf_at hH (by omega), Int.emod_eq_of_lt (by omega) (by omega),
      Int.emod_eq_of_lt (by omega) (by omega)]
    rfl
  rw [hat]
  refine ⟨fun hlt => ?_, moduleBits_least_iff hn hb⟩
  obtain ⟨h1, h2⟩ := between_unique hb (between_exists (List.ne_nil_of_mem hb.1))
  unfold moduleBits
  rw [← h1, ← h2, if_neg hlt.ne]
  exact gridEntropy_shannon (levels_bytes hb (le_refl _) (by linarith))

/-- C123, where it fails: the map of the module does not move with the grid, on the torus: the
entry of a lone cell depends on whether the cell is at the border. -/
theorem module_shift_refuted {nan : ℤ} (hn : 0 ≤ nan ∧ nan ≤ 255) :
    ∃ g g' m m', Spec.Rect 3 3 g ∧ Spec.Rect 3 3 g' ∧
      (∀ y x, Spec.wrapped 3 3 g' y x = Spec.wrapped 3 3 g (y - 1) (x - 1)) ∧
      moduleMap nan .float g 3 = .ok m ∧ moduleMap nan .float g' 3 = .ok m' ∧
      Spec.wrapped 3 3 m' 1 1 ≠ Spec.wrapped 3 3 m 0 0 := by
  have hg : Spec.Rect 3 3 [[1, 0, 0], [0, 0, 0], [0, 0, 0]] := ⟨rfl, by simp⟩
  have hg' : Spec.Rect 3 3 [[0, 0, 0], [0, 1, 0], [0, 0, 0]] := ⟨rfl, by simp⟩
  obtain ⟨m, hm, _, h1⟩ := module_map hg (by omega) hn (le_refl 3)
  obtain ⟨m', hm', _, h1'⟩ := module_map hg' (by omega) hn (le_refl 3)
  refine ⟨_, _, m, m', hg, hg', fun y x => ?_, hm, hm', ?_⟩
  · have hy : (y % 3 = 0 ∧ (y - 1) % 3 = 2) ∨ (y % 3 = 1 ∧ (y - 1) % 3 = 0) ∨
      (y % 3 = 2 ∧ (y - 1) % 3 = 1) := by omega
    have hx : (x % 3 = 0 ∧ (x - 1) % 3 = 2) ∨ (x % 3 = 1 ∧ (x - 1) % 3 = 0) ∨
      (x % 3 = 2 ∧ (x - 1) % 3 = 1) := by omega
    unfold Spec.wrapped
    push_cast
    rcases hy with ⟨a, b⟩ | ⟨a, b⟩ | ⟨a, b⟩ <;> rcases hx with ⟨c, d⟩ | ⟨c, d⟩ | ⟨c, d⟩ <;>
      rw [a, b, c, d] <;> rfl
  · have hc : Spec.cutPatch 3 3 1 [[1, 0, 0], [0, 0, 0], [0, 0, 0]] 0 0 = [1] := by
      have : Spec.cut 1 3 0 = [0] := by decide
      unfold Spec.cutPatch
      rw [this]
      rfl
    have hc' : Spec.cutPatch 3 3 1 [[0, 0, 0], [0, 1, 0], [0, 0, 0]] 1 1 = [0, 0, 0, 1] := by
      have : Spec.cut 1 3 1 = [0, 1] := by decide
      unfold Spec.cutPatch
      rw [this]
      rfl
    have a := (h1 0 0 (by omega) (by omega) 1 1 (by
      show Spec.Between (Spec.cutPatch 3 3 1 _ 0 0) 1 1
      rw [hc]; simp [Spec.Between])).2.2 rfl
    have b := (h1' 1 1 (by omega) (by omega) 0 1 (by
      show Spec.Between (Spec.cutPatch 3 3 1 _ 1 1) 0 1
      rw [hc']; simp [Spec.Between])).2
    intro he
    have := b.1 (by
      rw [← a]
      exact_mod_cast he)
    norm_num at this

/-- A grid with a lone cell, its map and that of the moved grid exist; two values. -/
example : Spec.Rect 3 3 [[1, 0, 0], [0, 0, 0], [0, 0, 0]] ∧
    (∀ y x, Spec.wrapped 3 3 [[1, 0, 0], [0, 0, 0], [0, 0, 0]] y x = 0 ∨
      Spec.wrapped 3 3 [[1, 0, 0], [0, 0, 0], [0, 0, 0]] y x = 1) ∧
    Spec.Between (Spec.patch 3 3 1 [[1, 0, 0], [0, 0, 0], [0, 0, 0]] 2 2) 0 1 := by
  have h2 : ∀ y x, Spec.wrapped 3 3 [[1, 0, 0], [0, 0, 0], [0, 0, 0]] y x = 0 ∨
      Spec.wrapped 3 3 [[1, 0, 0], [0, 0, 0], [0, 0, 0]] y x = 1 := by
    intro y x
    have hy : y % 3 = 0 ∨ y % 3 = 1 ∨ y % 3 = 2 := by omega
    have hx : x % 3 = 0 ∨ x % 3 = 1 ∨ x % 3 = 2 := by omega
    unfold Spec.wrapped
    push_cast
    rcases hy with a | a | a <;> rcases hx with b | b | b <;> rw [a, b] <;> simp
  refine ⟨⟨rfl, by simp⟩, h2, patch_mem.2 ⟨0, 0, by simp, by simp, rfl⟩,
    patch_mem.2 ⟨1, 1, by simp, by simp, rfl⟩, fun v hv => ?_⟩
  obtain ⟨a, b, _, _, rfl⟩ := patch_mem.1 hv
  rcases h2 (2 + a) (2 + b) with h | h <;> rw [h] <;> norm_num

/-- C123: the module's map of a window does not change when all values are multiplied by a positive
number; -/
theorem moduleBits_scale {nan : ℤ} {l : List ℝ} {c : ℝ} (hc : 0 < c) :
    windowEntropy 0 nan (l.map (c * ·)) = windowEntropy 0 nan l := by
  by_cases hl : l = []
  · subst hl; rfl
  have h := between_exists hl
  have h' : Spec.Between (l.map (c * ·)) (c * npMin l) (c * npMax l) := by
    refine ⟨List.mem_map.2 ⟨_, h.1, rfl⟩, List.mem_map.2 ⟨_, h.2.1, rfl⟩, fun v hv => ?_⟩
    obtain ⟨w, hw, rfl⟩ := List.mem_map.1 hv
    have := h.2.2 w hw
    exact ⟨mul_le_mul_of_nonneg_left this.1 hc.le, mul_le_mul_of_nonneg_left this.2 hc.le⟩
  by_cases he : npMin l = npMax l
  · rw [← he] at h h'
    rw [window_constant h, window_constant h', List.length_map]
  · have hne : npMax l - npMin l ≠ 0 := sub_ne_zero.2 fun e => he e.symm
    rw [window_value h (by rw [add_zero]; exact hne), window_value h' (by
      rw [add_zero, ← mul_sub]; exact mul_ne_zero hc.ne' hne), List.map_map]
    congr 2
    apply List.map_congr_left
    intro v _
    unfold Spec.byteLevel
    simp only [Function.comp, add_zero]
    rw [← mul_sub, ← mul_sub, mul_div_mul_left _ _ hc.ne']

/-- C123, where it fails: the map of `Phanes` does: a pattern made faint enough looks flat. -/
theorem phanes_scale_refuted : ∃ (l : List ℝ) (c : ℝ), 0 < c ∧
    windowEntropy 1e-9 0 (l.map (c * ·)) ≠ windowEntropy 1e-9 0 l := by
  have h : Spec.Between [0, 1] 0 1 := by simp [Spec.Between]
  have h' : Spec.Between ([0, 1].map ((1e-12 : ℝ) * ·)) 0 1e-12 := by
    simp only [Spec.Between, List.map_cons, List.map_nil, mul_zero, mul_one]
    refine ⟨by simp, by simp, fun v hv => ?_⟩
    simp only [List.mem_cons, List.not_mem_nil, or_false] at hv
    rcases hv with rfl | rfl <;> norm_num
  refine ⟨[0, 1], 1e-12, by norm_num, fun he => ?_⟩
  rw [window_localBits (by simp), window_localBits (by simp)] at he
  have he := Except.ok.inj he
  have h1 := (localBits_least_iff h').2 (by norm_num)
  rw [he] at h1
  have := (localBits_least_iff h).1 h1
  norm_num at this

end Yuca
