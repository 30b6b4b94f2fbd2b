import Verif.Model.Analysis
import Verif.Props.Dynamics
import Verif.Props.Range
import Verif.Lemmas.Plane
import Mathlib.Algebra.Order.BigOperators.Ring.Finset

/-!
# C87: what `analyze_universe` measures
-/

namespace Yuca

open Arith Spec
open scoped BigOperators

variable {B H W : Nat}

namespace Spec

/-- Sum over all cells of a universe with one channel. -/
noncomputable def cellSum (f : Fin B → Fin H → Fin W → ℝ) : ℝ := ∑ n, ∑ i, ∑ j, f n i j

/-- The mean cell. -/
noncomputable def average (g : Univ ℝ B 1 H W) : ℝ :=
  cellSum (fun n i j => g n 0 i j) / (B * H * W : ℕ)

/-- The (sample) covariance of two universes. -/
noncomputable def covariance (g h : Univ ℝ B 1 H W) : ℝ :=
  cellSum (fun n i j => (g n 0 i j - average g) * (h n 0 i j - average h)) /
    (((B * H * W : ℕ) : ℝ) - 1)

/-- All cells of the batch have one value. -/
def Flat (g : Univ ℝ B 1 H W) : Prop := ∃ v, ∀ n i j, g n 0 i j = v

end Spec

theorem cellSum_eq (f : Fin B → Fin H → Fin W → ℝ) :
    cellSum f = ∑ x : Fin B × Fin H × Fin W, f x.1 x.2.1 x.2.2 := by
  simp only [cellSum, Fintype.sum_prod_type]

theorem cells_card : (Finset.univ : Finset (Fin B × Fin H × Fin W)).card = B * H * W := by
  simp [Finset.card_univ, mul_assoc]

theorem gridMean_eq (g : Univ ℝ B 1 H W) : gridMean g = average g := by
  simp [gridMean, average, cellSum]

theorem covariance_self_nonneg (g : Univ ℝ B 1 H W) (hN : 2 ≤ B * H * W) : 0 ≤ covariance g g := by
  unfold covariance
  have : (2 : ℝ) ≤ ((B * H * W : ℕ) : ℝ) := by exact_mod_cast hN
  refine div_nonneg ?_ (by linarith)
  rw [cellSum_eq]
  exact Finset.sum_nonneg fun x _ => mul_self_nonneg _

theorem gridStd_eq (g : Univ ℝ B 1 H W) : gridStd g = Real.sqrt (covariance g g) := by
  simp only [gridStd, covariance, gridMean_eq, cellSum, Fin.sum_univ_one, mul_one]
  simp only [pow_two]

theorem cellSum_centred (g : Univ ℝ B 1 H W) (hN : 2 ≤ B * H * W) :
    cellSum (fun n i j => g n 0 i j - average g) = 0 := by
  rw [cellSum_eq, Finset.sum_sub_distrib, Finset.sum_const, cells_card]
  have h0 : ((B * H * W : ℕ) : ℝ) ≠ 0 := by
    have : 0 < B * H * W := by omega
    exact_mod_cast this.ne'
  rw [nsmul_eq_mul, average, mul_div_cancel₀ _ h0, cellSum_eq, sub_self]

/-- C87: the autocorrelation of two grids with one channel is their correlation coefficient, at
zero shift and over the whole batch, dampened by a small constant. -/
theorem autocorrelate_value (g h : Univ ℝ B 1 H W) (hN : 2 ≤ B * H * W) :
    autocorrelate g h 0 0 =
      ((B * H * W : ℕ) * (1e-7 : ℝ) ^ 2 + (((B * H * W : ℕ) : ℝ) - 1) * covariance g h) /
        ((B * H * W : ℕ) * ((1e-7 + Real.sqrt (covariance g g)) *
          (1e-7 + Real.sqrt (covariance h h)))) := by
  have h1 : (2 : ℝ) ≤ ((B * H * W : ℕ) : ℝ) := by exact_mod_cast hN
  have e1 : (B * 1 * H * W : ℕ) = B * H * W := by ring
  set sg := Real.sqrt (covariance g g) with hsg
  set sh := Real.sqrt (covariance h h) with hsh
  have pg : 0 < (1e-7 : ℝ) + sg := by have := Real.sqrt_nonneg (covariance g g); norm_num; linarith
  have ph : 0 < (1e-7 : ℝ) + sh := by have := Real.sqrt_nonneg (covariance h h); norm_num; linarith
  have key : (∑ n, ∑ i, ∑ j, autoNorm g n 0 i j * autoNorm h n 0 i j) =
      ((B * H * W : ℕ) * (1e-7 : ℝ) ^ 2 + (((B * H * W : ℕ) : ℝ) - 1) * covariance g h) /
        ((1e-7 + sg) * (1e-7 + sh)) := by
    have : ∀ n i j, autoNorm g n 0 i j * autoNorm h n 0 i j =
        ((1e-7 : ℝ) ^ 2 + 1e-7 * (g n 0 i j - average g) + 1e-7 * (h n 0 i j - average h) +
          (g n 0 i j - average g) * (h n 0 i j - average h)) * (1 / ((1e-7 + sg) * (1e-7 + sh))) := by
      intro n i j
      simp only [autoNorm, gridStd_eq, gridMean_eq, ← hsg, ← hsh]
      rw [div_mul_div_comm, mul_one_div]
      congr 1
      ring
    simp only [this]
    change cellSum (fun n i j => _) = _
    rw [cellSum_eq, ← Finset.sum_mul, mul_one_div]
    congr 1
    rw [Finset.sum_add_distrib, Finset.sum_add_distrib, Finset.sum_add_distrib, ← Finset.mul_sum,
      ← Finset.mul_sum, Finset.sum_const, cells_card]
    have c1 := cellSum_centred g hN
    have c2 := cellSum_centred h hN
    rw [cellSum_eq] at c1 c2
    rw [c1, c2, nsmul_eq_mul]
    have : ∑ x : Fin B × Fin H × Fin W, (g x.1 0 x.2.1 x.2.2 - average g) *
        (h x.1 0 x.2.1 x.2.2 - average h) = (((B * H * W : ℕ) : ℝ) - 1) * covariance g h := by
      unfold covariance
      rw [mul_div_cancel₀ _ (by linarith), cellSum_eq]
    rw [this]
    ring
  unfold autocorrelate
  rw [key, e1, div_div]
  congr 1
  ring

theorem covariance_sq_le (g h : Univ ℝ B 1 H W) (hN : 2 ≤ B * H * W) :
    |covariance g h| ≤ Real.sqrt (covariance g g) * Real.sqrt (covariance h h) := by
  have h1 : (2 : ℝ) ≤ ((B * H * W : ℕ) : ℝ) := by exact_mod_cast hN
  rw [← Real.sqrt_mul (covariance_self_nonneg g hN)]
  apply Real.abs_le_sqrt
  have cs := Finset.sum_mul_sq_le_sq_mul_sq (Finset.univ : Finset (Fin B × Fin H × Fin W))
    (fun x => g x.1 0 x.2.1 x.2.2 - average g) (fun x => h x.1 0 x.2.1 x.2.2 - average h)
  unfold covariance
  rw [div_pow, div_mul_div_comm, ← pow_two (((B * H * W : ℕ) : ℝ) - 1)]
  refine div_le_div_of_nonneg_right ?_ (sq_nonneg _)
  rw [cellSum_eq, cellSum_eq, cellSum_eq]
  simpa only [pow_two] using cs

theorem covariance_zero_iff (g : Univ ℝ B 1 H W) (hN : 2 ≤ B * H * W) :
    covariance g g = 0 ↔ Flat g := by
  have h1 : (2 : ℝ) ≤ ((B * H * W : ℕ) : ℝ) := by exact_mod_cast hN
  constructor
  · intro h
    unfold covariance at h
    rw [div_eq_zero_iff, or_iff_left (by linarith), cellSum_eq,
      Finset.sum_eq_zero_iff_of_nonneg fun x _ => mul_self_nonneg _] at h
    refine ⟨average g, fun n i j => ?_⟩
    have := h (n, i, j) (Finset.mem_univ _)
    have := mul_self_eq_zero.1 this
    simp only at this
    linarith
  · rintro ⟨v, hv⟩
    have ha : average g = v := by
      unfold average
      rw [cellSum_eq]
      simp only [hv, Finset.sum_const, cells_card, nsmul_eq_mul]
      rw [mul_div_cancel_left₀]
      linarith
    unfold covariance
    rw [cellSum_eq]
    simp [hv, ha]

/-- C87: it lies between -1 (excluded) and 1, and is 1 exactly when both grids are flat (all
cells of the batch alike): a living pattern that does not change at all has less. -/
theorem autocorrelate_bounds (g h : Univ ℝ B 1 H W) (hN : 2 ≤ B * H * W) :
    -1 < autocorrelate g h 0 0 ∧ autocorrelate g h 0 0 ≤ 1 ∧
      (autocorrelate g h 0 0 = 1 ↔ Flat g ∧ Flat h) := by
  rw [autocorrelate_value g h hN, ← covariance_zero_iff g hN, ← covariance_zero_iff h hN]
  have h1 : (2 : ℝ) ≤ ((B * H * W : ℕ) : ℝ) := by exact_mod_cast hN
  have hc := abs_le.1 (covariance_sq_le g h hN)
  have s1 := Real.sqrt_nonneg (covariance g g)
  have s2 := Real.sqrt_nonneg (covariance h h)
  have z1 : Real.sqrt (covariance g g) = 0 ↔ covariance g g = 0 :=
    Real.sqrt_eq_zero (covariance_self_nonneg g hN)
  have z2 : Real.sqrt (covariance h h) = 0 ↔ covariance h h = 0 :=
    Real.sqrt_eq_zero (covariance_self_nonneg h hN)
  rw [← z1, ← z2]
  generalize Real.sqrt (covariance g g) = s at *
  generalize Real.sqrt (covariance h h) = t at *
  generalize covariance g h = c at *
  generalize ((B * H * W : ℕ) : ℝ) = N at *
  have he : (0 : ℝ) < 1e-7 := by norm_num
  generalize (1e-7 : ℝ) = e at *
  have st : 0 ≤ s * t := mul_nonneg s1 s2
  have es : 0 ≤ e * (s + t) := mul_nonneg he.le (by linarith)
  have ee : 0 < e ^ 2 := by positivity
  have hNe : 0 ≤ N * (e * (s + t)) := mul_nonneg (by linarith) es
  have hpos : 0 < N * ((e + s) * (e + t)) := by
    have : 0 < (e + s) * (e + t) := mul_pos (by linarith) (by linarith)
    exact mul_pos (by linarith) this
  have hexp : N * ((e + s) * (e + t)) = N * e ^ 2 + N * (e * (s + t)) + N * (s * t) := by ring
  have hNc : (N - 1) * c ≤ (N - 1) * (s * t) := mul_le_mul_of_nonneg_left hc.2 (by linarith)
  have hNc' : (N - 1) * -(s * t) ≤ (N - 1) * c := mul_le_mul_of_nonneg_left hc.1 (by linarith)
  have hNee : 0 < N * e ^ 2 := mul_pos (by linarith) ee
  refine ⟨?_, ?_, ?_⟩
  · rw [lt_div_iff₀ hpos]; nlinarith
  · rw [div_le_one hpos]; nlinarith
  · rw [div_eq_one_iff_eq hpos.ne']
    constructor
    · intro h
      have a1 : s * t + N * (e * (s + t)) ≤ 0 := by nlinarith
      have a2 : N * (e * (s + t)) = 0 := by linarith
      have a3 : s + t = 0 := by
        rcases mul_eq_zero.1 a2 with h | h
        · linarith
        · rcases mul_eq_zero.1 h with h | h
          · linarith
          · exact h
      constructor <;> linarith
    · rintro ⟨rfl, rfl⟩
      have : c = 0 := by
        have := hc.1; have := hc.2; nlinarith
      rw [this]; ring

/-- A batch of one universe of 2 by 1 cells. -/
example : 2 ≤ 1 * 2 * 1 := by norm_num

/-- C87: it does not matter which of the two grids comes first. -/
theorem autocorrelate_comm (g h : Univ ℝ B 1 H W) : autocorrelate g h 0 0 = autocorrelate h g 0 0 := by
  simp only [autocorrelate, mul_comm]

/-- Moving around the torus is a bijection. -/
def rollEquiv (n : Nat) (d : ℤ) : Fin n ≃ Fin n where
  toFun i := rollIdx i d
  invFun i := rollIdx i (-d)
  left_inv i := by
    apply Fin.ext
    have : (((rollIdx (rollIdx i d) (-d)).val : ℕ) : ℤ) = i.val := by
      rw [rollIdx_val, rollIdx_val, Int.emod_sub_emod, show (i.val : ℤ) - d - -d = i.val by ring,
        Int.emod_eq_of_lt (by omega) (by have := i.isLt; omega)]
    exact_mod_cast this
  right_inv i := by
    apply Fin.ext
    have : (((rollIdx (rollIdx i (-d)) d).val : ℕ) : ℤ) = i.val := by
      rw [rollIdx_val, rollIdx_val, Int.emod_sub_emod, show (i.val : ℤ) - -d - d = i.val by ring,
        Int.emod_eq_of_lt (by omega) (by have := i.isLt; omega)]
    exact_mod_cast this

theorem cellSum_roll (f : Fin B → Fin H → Fin W → ℝ) (dy dx : ℤ) :
    cellSum (fun n i j => f n (rollIdx i dy) (rollIdx j dx)) = cellSum f := by
  unfold cellSum
  refine Finset.sum_congr rfl fun n _ => ?_
  refine (Equiv.sum_comp (rollEquiv H dy) fun i => ∑ j, f n i (rollIdx j dx)).trans ?_
  refine Finset.sum_congr rfl fun i _ => ?_
  exact Equiv.sum_comp (rollEquiv W dx) fun j => f n i j

/-- C87: nor does it matter if both are moved around the torus together. -/
theorem autocorrelate_roll (g h : Univ ℝ B 1 H W) (hN : 2 ≤ B * H * W) (dy dx : ℤ) :
    autocorrelate (roll dy dx g) (roll dy dx h) 0 0 = autocorrelate g h 0 0 := by
  have ha : ∀ g : Univ ℝ B 1 H W, average (roll dy dx g) = average g := by
    intro g
    simp only [average, roll]
    rw [cellSum_roll fun n i j => g n 0 i j]
  have hc : ∀ g h : Univ ℝ B 1 H W, covariance (roll dy dx g) (roll dy dx h) = covariance g h := by
    intro g h
    simp only [covariance, ha]
    simp only [roll]
    rw [cellSum_roll fun n i j => (g n 0 i j - average g) * (h n 0 i j - average h)]
  rw [autocorrelate_value _ _ hN, autocorrelate_value _ _ hN, hc, hc, hc]

/-! ## The rows -/

/-- C87: with one channel the four autocorrelation columns hold one number: it is its own mean,
minimum and maximum, and the standard deviation is 0. -/
theorem auto_columns (g old : Univ ℝ B 1 H W) :
    (analysisRow g old).auto =
      [autocorrelate g old 0 0, 0, autocorrelate g old 0 0, autocorrelate g old 0 0] := by
  have : autoCells g old = [autocorrelate g old 0 0] := by
    simp [autoCells, List.finRange_succ]
  simp [analysisRow, this, npMean, npStd, npMin, npMax]

theorem foldl_min_least (l : List ℝ) : ∀ x, l.foldl min x ∈ x :: l ∧ ∀ y ∈ x :: l, l.foldl min x ≤ y := by
  induction l with
  | nil => intro x; simp
  | cons a l ih =>
    intro x
    obtain ⟨h1, h2⟩ := ih (min x a)
    simp only [List.foldl_cons]
    refine ⟨?_, fun y hy => ?_⟩
    · rcases List.mem_cons.1 h1 with h | h
      · rw [h]; rcases min_choice x a with h | h <;> rw [h] <;> simp
      · simp [h]
    · have h3 := h2 _ (List.mem_cons_self ..)
      rcases List.mem_cons.1 hy with rfl | hy
      · exact h3.trans (min_le_left _ _)
      · rcases List.mem_cons.1 hy with rfl | hy
        · exact h3.trans (min_le_right _ _)
        · exact h2 y (List.mem_cons_of_mem _ hy)

theorem foldl_max_greatest (l : List ℝ) :
    ∀ x, l.foldl max x ∈ x :: l ∧ ∀ y ∈ x :: l, y ≤ l.foldl max x := by
  induction l with
  | nil => intro x; simp
  | cons a l ih =>
    intro x
    obtain ⟨h1, h2⟩ := ih (max x a)
    simp only [List.foldl_cons]
    refine ⟨?_, fun y hy => ?_⟩
    · rcases List.mem_cons.1 h1 with h | h
      · rw [h]; rcases max_choice x a with h | h <;> rw [h] <;> simp
      · simp [h]
    · have h3 := h2 _ (List.mem_cons_self ..)
      rcases List.mem_cons.1 hy with rfl | hy
      · exact (le_max_left _ _).trans h3
      · rcases List.mem_cons.1 hy with rfl | hy
        · exact (le_max_right _ _).trans h3
        · exact h2 y (List.mem_cons_of_mem _ hy)

theorem mem_autoCells {C : Nat} (g old : Univ ℝ B C H W) (x : ℝ) :
    x ∈ autoCells g old ↔ x ∈ Set.range fun cd : Fin C × Fin C => autocorrelate g old cd.1 cd.2 := by
  simp [autoCells]

theorem sum_autoCells {C : Nat} (g old : Univ ℝ B C H W) (f : ℝ → ℝ) :
    ((autoCells g old).map f).sum = ∑ c, ∑ d, f (autocorrelate g old c d) := by
  have key : ∀ (l : List (Fin C)) (k : Fin C → List ℝ),
      (l.flatMap k).sum = (l.map fun c => (k c).sum).sum := by
    intro l k
    induction l with
    | nil => rfl
    | cons c l ih => simp [ih]
  simp only [autoCells, List.map_flatMap, List.map_map, Function.comp_def, key]
  simp [Finset.sum, Fin.univ_val_map, List.ofFn_eq_map]

/-- C87: with any number of channels the four columns are average, standard deviation, least and
greatest of the autocorrelations of all pairs of channels. -/
theorem auto_columns_channels {C : Nat} (hC : 1 ≤ C) (g old : Univ ℝ B C H W) :
    ∃ lo hi, IsLeast (Set.range fun cd : Fin C × Fin C => autocorrelate g old cd.1 cd.2) lo ∧
      IsGreatest (Set.range fun cd : Fin C × Fin C => autocorrelate g old cd.1 cd.2) hi ∧
      (analysisRow g old).auto =
        [(∑ c, ∑ d, autocorrelate g old c d) / (C * C : ℕ),
          Real.sqrt ((∑ c, ∑ d, (autocorrelate g old c d -
            (∑ c, ∑ d, autocorrelate g old c d) / (C * C : ℕ)) ^ 2) / (C * C : ℕ)), lo, hi] := by
  have hlen : (autoCells g old).length = C * C := by
    simp [autoCells, List.length_flatMap]
  have hmean : npMean (autoCells g old) = (∑ c, ∑ d, autocorrelate g old c d) / (C * C : ℕ) := by
    have := sum_autoCells g old id
    simp only [List.map_id, id] at this
    rw [npMean, this, hlen]
  cases hl : autoCells g old with
  | nil =>
    rw [hl] at hlen
    have : 0 < C * C := Nat.mul_pos hC hC
    simp at hlen; omega
  | cons x xs =>
    have h1 := foldl_min_least xs x
    have h2 := foldl_max_greatest xs x
    rw [← hl] at h1 h2
    refine ⟨xs.foldl min x, xs.foldl max x, ⟨(mem_autoCells _ _ _).1 h1.1, fun y hy =>
      h1.2 y ((mem_autoCells _ _ _).2 hy)⟩, ⟨(mem_autoCells _ _ _).1 h2.1, fun y hy =>
      h2.2 y ((mem_autoCells _ _ _).2 hy)⟩, ?_⟩
    simp only [analysisRow]
    rw [npStd, hmean, sum_autoCells g old fun y => (y - _) ^ 2, hlen, hl]
    rfl

/-- Two channels. -/
example : (1 : Nat) ≤ 2 := by norm_num

/-- C87: the average that is printed is three quarters of the average autocorrelation, because
the zero standard deviations are averaged in; with no steps printing fails. -/
theorem printed_average (pairs : List (Univ ℝ B 1 H W × Univ ℝ B 1 H W)) :
    printedAutocorrelation (pairs.map fun p => analysisRow p.1 p.2) =
      match pairs.getLast? with
      | none => .error .index
      | some last => .ok (3 / 4 * npMean (pairs.map fun p => autocorrelate p.1 p.2 0 0),
          autocorrelate last.1 last.2 0 0) := by
  unfold printedAutocorrelation
  rw [List.getLast?_map]
  cases hl : pairs.getLast? with
  | none => rfl
  | some last =>
    simp only [Option.map_some, auto_columns, List.headD_cons, Except.ok.injEq, Prod.mk.injEq,
      and_true]
    have hne : pairs ≠ [] := by rintro rfl; simp at hl
    have h1 : ∀ l : List (Univ ℝ B 1 H W × Univ ℝ B 1 H W),
        ((l.map fun p => analysisRow p.1 p.2).map AnalysisRow.auto).flatten.sum =
          3 * (l.map fun p => autocorrelate p.1 p.2 0 0).sum := by
      intro l
      induction l with
      | nil => simp
      | cons p l ih =>
        simp only [List.map_cons, List.flatten_cons, List.sum_append, ih, auto_columns,
          List.sum_cons, List.sum_nil]
        ring
    have h2 : ∀ l : List (Univ ℝ B 1 H W × Univ ℝ B 1 H W),
        ((l.map fun p => analysisRow p.1 p.2).map AnalysisRow.auto).flatten.length =
          4 * l.length := by
      intro l
      induction l with
      | nil => simp
      | cons p l ih =>
        simp only [List.map_cons, List.flatten_cons, List.length_append, ih, auto_columns,
          List.length_cons, List.length_nil]
        ring
    unfold npMean
    rw [h1, h2, List.length_map]
    have : (0 : ℝ) < pairs.length := by
      have := List.length_pos_iff.2 hne
      exact_mod_cast this
    push_cast
    field_simp

/-- Not all cells are dead. -/
def Spec.Lives (g : Univ ℝ B 1 H W) (n : Fin B) : Prop := ∃ i j, g n 0 i j ≠ 0

/-- A cell of the outermost rows or columns lives. -/
def Spec.Escaped (g : Univ ℝ B 1 H W) (n : Fin B) : Prop :=
  ∃ (i : Fin H) (j : Fin W), (i.val = 0 ∨ i.val = H - 1 ∨ j.val = 0 ∨ j.val = W - 1) ∧
    g n 0 i j ≠ 0

theorem double_sum_pos {f : Fin H → Fin W → ℝ} (h0 : ∀ i j, 0 ≤ f i j) :
    0 < ∑ i, ∑ j, f i j ↔ ∃ i j, f i j ≠ 0 := by
  constructor
  · intro h
    by_contra hc
    push Not at hc
    simp [hc] at h
  · rintro ⟨i, j, hij⟩
    refine lt_of_lt_of_le (lt_of_le_of_ne (h0 i j) (Ne.symm hij)) ?_
    calc f i j ≤ ∑ j, f i j := Finset.single_le_sum (fun j _ => h0 i j) (Finset.mem_univ j)
      _ ≤ _ := Finset.single_le_sum (f := fun i => ∑ j, f i j)
        (fun i _ => Finset.sum_nonneg fun j _ => h0 i j) (Finset.mem_univ i)

/-- C87: a sample counts as active exactly if it lives, and as fertile exactly if it has reached
the outermost rows or columns. -/
theorem flags_spec (g : Univ ℝ B 1 H W) (hg : ∀ n i j, 0 ≤ g n 0 i j) (n : Fin B) :
    (activeFlag g n = 1 ↔ Lives g n) ∧ (activeFlag g n = 0 ↔ ¬ Lives g n) ∧
      (fertileFlag g n = 1 ↔ Escaped g n) ∧ (fertileFlag g n = 0 ↔ ¬ Escaped g n) := by
  have ha : (0 < (∑ c : Fin 1, (∑ i, ∑ j, g n c i j) / (H * W : ℕ)) / ((1 : ℕ) : ℝ)) ↔ Lives g n := by
    simp only [Fin.sum_univ_one, Nat.cast_one, div_one]
    unfold Spec.Lives
    rw [← double_sum_pos (hg n)]
    constructor
    · intro h
      by_contra hc
      exact absurd h (not_lt.2 (div_nonpos_of_nonpos_of_nonneg (not_lt.1 hc) (Nat.cast_nonneg _)))
    · intro h
      obtain ⟨i, j, _⟩ := (double_sum_pos (hg n)).1 h
      have : 0 < H * W := Nat.mul_pos (by have := i.isLt; omega) (by have := j.isLt; omega)
      exact div_pos h (by exact_mod_cast this)
  have hf : (0 < ∑ c : Fin 1, ∑ i, ∑ j, escapeMask i j * g n c i j) ↔ Escaped g n := by
    simp only [Fin.sum_univ_one]
    rw [double_sum_pos fun i j => mul_nonneg (by unfold escapeMask; split <;> norm_num) (hg n i j)]
    unfold Spec.Escaped
    constructor
    · rintro ⟨i, j, h⟩
      refine ⟨i, j, ?_, right_ne_zero_of_mul h⟩
      have := left_ne_zero_of_mul h
      unfold escapeMask at this
      split at this
      · omega
      · simp at this
    · rintro ⟨i, j, h, h'⟩
      refine ⟨i, j, ?_⟩
      have := i.isLt
      have := j.isLt
      rw [escapeMask, if_pos (by omega), one_mul]
      exact h'
  unfold activeFlag fertileFlag
  rw [← ha, ← hf]
  refine ⟨?_, ?_, ?_, ?_⟩ <;> split <;> simp_all

/-- C87: the mortality is the fraction of dead samples, the fertility the fraction of escaped
ones. -/
theorem ratios_spec (g old : Univ ℝ B 1 H W) (hg : ∀ n i j, 0 ≤ g n 0 i j) (hB : 1 ≤ B) :
    open Classical in
    (analysisRow g old).mortality = ((Finset.univ.filter fun n => ¬ Lives g n).card : ℝ) / B ∧
      (analysisRow g old).fertility = ((Finset.univ.filter fun n => Escaped g n).card : ℝ) / B := by
  classical
  have ha : ∀ n, activeFlag g n = if Lives g n then 1 else 0 := by
    intro n
    split
    · rename_i h; exact (flags_spec g hg n).1.2 h
    · rename_i h; exact (flags_spec g hg n).2.1.2 h
  have hf : ∀ n, fertileFlag g n = if Escaped g n then 1 else 0 := by
    intro n
    split
    · rename_i h; exact (flags_spec g hg n).2.2.1.2 h
    · rename_i h; exact (flags_spec g hg n).2.2.2.2 h
  have hB' : (0 : ℝ) < B := by exact_mod_cast hB
  simp only [analysisRow, ha, hf, Finset.sum_boole]
  refine ⟨?_, trivial⟩
  have := Finset.card_filter_add_card_filter_not (s := (Finset.univ : Finset (Fin B)))
    (fun n => Lives g n)
  rw [Finset.card_univ, Fintype.card_fin] at this
  have e : ((Finset.univ.filter fun n => Lives g n).card : ℝ) +
      ((Finset.univ.filter fun n => ¬ Lives g n).card : ℝ) = B := by exact_mod_cast this
  rw [eq_div_iff hB'.ne', sub_mul, div_mul_cancel₀ _ hB'.ne']
  linarith

/-- C87: no dead sample is fertile, so the two ratios add up to at most 1. -/
theorem fertility_mortality (g old : Univ ℝ B 1 H W) (hg : ∀ n i j, 0 ≤ g n 0 i j) (hB : 1 ≤ B) :
    0 ≤ (analysisRow g old).mortality ∧ 0 ≤ (analysisRow g old).fertility ∧
      (analysisRow g old).mortality + (analysisRow g old).fertility ≤ 1 := by
  classical
  obtain ⟨h1, h2⟩ := ratios_spec g old hg hB
  rw [h1, h2]
  have hB' : (0 : ℝ) < B := by exact_mod_cast hB
  refine ⟨by positivity, by positivity, ?_⟩
  rw [← add_div, div_le_one hB']
  have : (Finset.univ.filter fun n => Escaped g n).card ≤
      (Finset.univ.filter fun n => Lives g n).card :=
    Finset.card_le_card fun n => by
      simp only [Finset.mem_filter, Finset.mem_univ, true_and]
      rintro ⟨i, j, _, h⟩
      exact ⟨i, j, h⟩
  have e := Finset.card_filter_add_card_filter_not (s := (Finset.univ : Finset (Fin B)))
    (fun n => Lives g n)
  rw [Finset.card_univ, Fintype.card_fin] at e
  have : (Finset.univ.filter fun n => ¬ Lives g n).card +
      (Finset.univ.filter fun n => Escaped g n).card ≤ B := by omega
  exact_mod_cast this

/-! ## The loop -/

theorem cca_run_unit {int : Nat} {ca : CCA ℝ 1 int} {g : Univ ℝ B 1 H W} {t : Nat}
    {r : Univ ℝ B 1 H W × CCA ℝ 1 int} (h : iterate CCA.forward (t + 1) ca g = .ok r) :
    InUnit r.1 :=
  iterate_post (fun u => InUnit u) (fun _ _ _ h => cca_unit h) t _ _ _ h

theorem analyzeLoop_spec {C : Nat} {S : Type}
    (step : S → Univ ℝ B C H W → Except PyErr (Univ ℝ B C H W × S)) (k : Nat) :
    ∀ (s : S) (g old : Univ ℝ B C H W) (rows : List AnalysisRow),
      analyzeLoop step k s g old = .ok rows →
      rows.length ≤ k ∧ (1 ≤ k → 1 ≤ rows.length) ∧ ∀ t (ht : t < rows.length), ∃ p q,
        iterate step t s g = .ok p ∧ step p.2 p.1 = .ok q ∧
        iterate step (t + 1) s g = .ok q ∧
        rows[t] = analysisRow q.1 (if t = 0 then old else p.1) ∧
        (t + 1 < rows.length → gridMean q.1 ≠ 0) ∧
        (t + 1 = rows.length → rows.length < k → gridMean q.1 = 0) := by
  induction k with
  | zero =>
    intro s g old rows h
    simp only [analyzeLoop, Except.ok.injEq] at h
    subst h
    exact ⟨le_refl _, fun h => absurd h (by omega), fun t ht => absurd ht (by simp)⟩
  | succ k ih =>
    intro s g old rows h
    unfold analyzeLoop at h
    obtain ⟨⟨g', s'⟩, h1, h2⟩ := bind_ok h
    simp only at h2
    have hi : ∀ t, iterate step (t + 1) s g = iterate step t s' g' := by
      intro t; simp only [iterate, h1, bind, Except.bind]
    split at h2
    · rename_i hz
      simp only [Except.ok.injEq] at h2
      subst h2
      refine ⟨by simp, fun _ => by simp, fun t ht => ?_⟩
      have : t = 0 := by simpa using ht
      subst this
      exact ⟨(g, s), (g', s'), rfl, h1, by rw [hi]; rfl, rfl, fun h => absurd h (by simp),
        fun _ _ => hz⟩
    · rename_i hz
      obtain ⟨rest, h3, h4⟩ := bind_ok h2
      simp only [Except.ok.injEq] at h4
      subst h4
      obtain ⟨i1, i2, i3⟩ := ih s' g' g' rest h3
      refine ⟨by simpa using i1, fun _ => by simp, fun t ht => ?_⟩
      cases t with
      | zero =>
        refine ⟨(g, s), (g', s'), rfl, h1, by rw [hi]; rfl, rfl, fun _ => hz, fun e h => ?_⟩
        simp only [List.length_cons] at e h
        have := i2 (by omega)
        omega
      | succ t =>
        obtain ⟨p, q, a1, a2, a3, a4, a5, a6⟩ := i3 t (by simpa using ht)
        refine ⟨p, q, by rw [hi]; exact a1, a2, by rw [hi]; exact a3, ?_, ?_, ?_⟩
        · simp only [List.getElem_cons_succ, a4, Nat.add_eq_zero_iff, one_ne_zero, and_false,
            if_false]
          split
          · rename_i h0; subst h0; cases a1; rfl
          · rfl
        · intro h; exact a5 (by simpa using h)
        · intro h h'; exact a6 (by simpa using h) (by simpa using h')

/-- C87: row `t` of the analysis compares the universe after `t + 1` steps with the one before;
the analysis stops after the first step that leaves a mean of 0, or after all steps. -/
theorem analyze_rows {C : Nat} {S : Type}
    (step : S → Univ ℝ B C H W → Except PyErr (Univ ℝ B C H W × S)) (k : Nat) (s : S)
    (g : Univ ℝ B C H W) (rows : List AnalysisRow) (h : analyzeUniverse step k s g = .ok rows) :
    rows.length ≤ k ∧ (1 ≤ k → 1 ≤ rows.length) ∧ ∀ t (ht : t < rows.length), ∃ p q,
      iterate step t s g = .ok p ∧ iterate step (t + 1) s g = .ok q ∧
      rows[t] = analysisRow q.1 p.1 ∧
      (t + 1 < rows.length → gridMean q.1 ≠ 0) ∧
      (t + 1 = rows.length → rows.length < k → gridMean q.1 = 0) := by
  obtain ⟨h1, h2, h3⟩ := analyzeLoop_spec step k s g g rows h
  refine ⟨h1, h2, fun t ht => ?_⟩
  obtain ⟨p, q, a1, _, a3, a4, a5, a6⟩ := h3 t ht
  refine ⟨p, q, a1, a3, ?_, a5, a6⟩
  rw [a4]
  split
  · rename_i h0; subst h0; cases a1; rfl
  · rfl

theorem gridMean_zero_iff (g : Univ ℝ B 1 H W) (hg : ∀ n i j, 0 ≤ g n 0 i j) :
    gridMean g = 0 ↔ ∀ n, ¬ Lives g n := by
  rw [gridMean_eq]
  constructor
  · intro h n hn
    obtain ⟨i, j, hij⟩ := hn
    unfold average at h
    have hc : 0 < B * H * W := Nat.mul_pos (Nat.mul_pos (by have := n.isLt; omega)
      (by have := i.isLt; omega)) (by have := j.isLt; omega)
    rw [div_eq_zero_iff, or_iff_left (by exact_mod_cast hc.ne'), cellSum_eq,
      Finset.sum_eq_zero_iff_of_nonneg fun x _ => hg _ _ _] at h
    exact hij (h (n, i, j) (Finset.mem_univ _))
  · intro h
    have : ∀ n i j, g n 0 i j = 0 := by
      intro n i j; by_contra hc; exact h n ⟨i, j, hc⟩
    simp [average, cellSum, this]

/-- C87: if the analysis of a `CCA` ends early, its last row says that all are dead: mortality 1,
fertility 0, and an autocorrelation of `10⁻⁷ / (10⁻⁷ + σ)` with the standard deviation of the
universe before. -/
theorem early_end_row {int : Nat} (ca : CCA ℝ 1 int) (k : Nat) (g : Univ ℝ B 1 H W) (hB : 1 ≤ B)
    (hN : 2 ≤ B * H * W) (rows : List AnalysisRow)
    (h : analyzeUniverse CCA.forward k ca g = .ok rows) (hk : rows.length < k) :
    ∃ r p, rows.getLast? = some r ∧ iterate CCA.forward (rows.length - 1) ca g = .ok p ∧
      r.mortality = 1 ∧ r.fertility = 0 ∧
      r.auto.head? = some (1e-7 / (1e-7 + Real.sqrt (covariance p.1 p.1))) := by
  classical
  obtain ⟨h1, h2, h3⟩ := analyze_rows _ k ca g rows h
  have hl : 1 ≤ rows.length := h2 (by omega)
  obtain ⟨p, q, a1, a3, a4, _, a6⟩ := h3 (rows.length - 1) (by omega)
  have hz := a6 (by omega) hk
  have hq : ∀ n i j, 0 ≤ q.1 n 0 i j := by
    have hu : InUnit q.1 := cca_run_unit a3
    exact fun n i j => (hu n 0 i j).1
  have hd := (gridMean_zero_iff q.1 hq).1 hz
  refine ⟨rows[rows.length - 1]'(by omega), p, ?_, a1, ?_⟩
  · rw [List.getLast?_eq_getElem?, List.getElem?_eq_getElem (by omega)]
  rw [a4]
  obtain ⟨b1, b2⟩ := ratios_spec q.1 p.1 hq hB
  have hB' : (B : ℝ) ≠ 0 := by have : B ≠ 0 := by omega
                               exact_mod_cast this
  refine ⟨?_, ?_, ?_⟩
  · rw [b1, Finset.filter_true_of_mem fun n _ => hd n, Finset.card_univ, Fintype.card_fin,
      div_self hB']
  · rw [b2, Finset.filter_false_of_mem]
    · simp
    · rintro n _ ⟨i, j, _, hij⟩; exact hd n ⟨i, j, hij⟩
  · rw [auto_columns, List.head?_cons, autocorrelate_value _ _ hN]
    have hflat : Flat q.1 := ⟨0, fun n i j => by by_contra hc; exact hd n ⟨i, j, hc⟩⟩
    have c0 := (covariance_zero_iff q.1 hN).2 hflat
    have c1 : covariance q.1 p.1 = 0 := by
      have := covariance_sq_le q.1 p.1 hN
      rw [c0, Real.sqrt_zero, zero_mul] at this
      exact abs_eq_zero.1 (le_antisymm this (abs_nonneg _))
    rw [c0, c1, Real.sqrt_zero, mul_zero, add_zero, add_zero]
    have : ((B * H * W : ℕ) : ℝ) ≠ 0 := by have : B * H * W ≠ 0 := by omega
                                           exact_mod_cast this
    have hs := Real.sqrt_nonneg (covariance p.1 p.1)
    have : (1e-7 : ℝ) + Real.sqrt (covariance p.1 p.1) ≠ 0 := by norm_num; linarith
    congr 1
    field_simp

theorem cca_sample_dies {int : Nat} {ca : CCA ℝ 1 int} {w : Fin 1 → Fin int → ℝ}
    (hw : ca.weights = .functional w) (hw0 : ∀ e o, 0 ≤ w e o) (hdt : 0 ≤ ca.dt)
    (hg : ∀ g ∈ ca.genesis, g 0 ≤ 0) {u : Univ ℝ B 1 H W} {r : Univ ℝ B 1 H W × CCA ℝ 1 int}
    (h : ca.forward u = .ok r) (n : Fin B) (hn : ¬ Lives u n) : ¬ Lives r.1 n := by
  obtain ⟨hl, _, _, h4⟩ := cca_cell hw h
  have hu : ∀ i j, u n 0 i j = 0 := by
    intro i j; by_contra hc; exact hn ⟨i, j, hc⟩
  have hm : maskIf ca.thr u n = fun _ _ _ => 0 := by
    funext e i j
    have : maskIf ca.thr u = u := by simp [maskIf]
    rw [this, Fin.fin_one_eq_zero e]
    exact hu i j
  rintro ⟨i, j, hij⟩
  apply hij
  rw [h4, hm]
  simp only [taps_zero, sub_zero, one_mul, zero_mul, add_zero, zero_add]
  have hs : ∑ o, w 0 o * chanFn ca.genesis o 0 ≤ 0 := Finset.sum_nonpos fun o _ =>
    mul_nonpos_of_nonneg_of_nonpos (hw0 0 o) (hg _ (chanFn_mem hl o))
  have : ca.dt * ∑ o, w 0 o * chanFn ca.genesis o 0 ≤ 0 := mul_nonpos_of_nonneg_of_nonpos hdt hs
  rw [clamp01_real, min_eq_right (by linarith), max_eq_left this]

/-- C87: for a `CCA` with no growth at 0 the mortality never falls. -/
theorem mortality_monotone {int : Nat} (ca : CCA ℝ 1 int) (w : Fin 1 → Fin int → ℝ)
    (hw : ca.weights = .functional w) (hw0 : ∀ e o, 0 ≤ w e o) (hdt : 0 ≤ ca.dt)
    (hg : ∀ g ∈ ca.genesis, g 0 ≤ 0) (k : Nat) (g : Univ ℝ B 1 H W) (hB : 1 ≤ B)
    (rows : List AnalysisRow) (h : analyzeUniverse CCA.forward k ca g = .ok rows)
    (t : Nat) (ht : t + 1 < rows.length) :
    rows[t].mortality ≤ rows[t + 1].mortality := by
  classical
  obtain ⟨h1, h2, h3⟩ := analyzeLoop_spec _ k ca g g rows h
  obtain ⟨p, q, a1, a2, a3, a4, _, _⟩ := h3 t (by omega)
  obtain ⟨p', q', b1, b2, b3, b4, _, _⟩ := h3 (t + 1) ht
  rw [a3] at b1
  cases b1
  have inv := iterate_inv (fun (s : CCA ℝ 1 int) (_ : Univ ℝ B 1 H W) =>
    s.weights = .functional w ∧ 0 ≤ s.dt ∧ ∀ g ∈ s.genesis, g 0 ≤ 0) (by
      rintro s b b' s' ⟨c1, c2, c3⟩ hs
      obtain ⟨_, _, c4, _⟩ := cca_cell c1 hs
      simp only at c4
      subst c4
      exact ⟨c1, c2, c3⟩) (t + 1) ca g q ⟨hw, hdt, hg⟩ a3
  have hq : ∀ n i j, 0 ≤ q.1 n 0 i j := fun n i j => (cca_run_unit a3 n 0 i j).1
  have hq' : ∀ n i j, 0 ≤ q'.1 n 0 i j := fun n i j => (cca_run_unit b3 n 0 i j).1
  rw [a4, b4, (ratios_spec _ _ hq hB).1, (ratios_spec _ _ hq' hB).1]
  refine div_le_div_of_nonneg_right ?_ (Nat.cast_nonneg _)
  have : (Finset.univ.filter fun n => ¬ Lives q.1 n).card ≤
      (Finset.univ.filter fun n => ¬ Lives q'.1 n).card :=
    Finset.card_le_card fun n => by
      simp only [Finset.mem_filter, Finset.mem_univ, true_and]
      exact cca_sample_dies inv.1 hw0 inv.2.1 inv.2.2 b2 n
  exact_mod_cast this

theorem realCA_dead_at_zero : ∀ g ∈ realCA.genesis, g 0 ≤ 0 := by
  simp only [realCA, List.mem_singleton, forall_eq, Act.eval, gaussianFn, if_true, bump, eps9]
  have h1 : Real.exp (-((0 - 0.15) / (1e-9 + 0.015)) ^ 2 / 2) ≤ Real.exp (-1) :=
    Real.exp_le_exp.2 (by norm_num)
  have h2 : Real.exp (-1) ≤ 1 / 2 := by
    rw [Real.exp_neg, ← one_div]
    exact one_div_le_one_div_of_le (by norm_num) (by have := Real.add_one_le_exp 1; linarith)
  linarith

/-- The hypotheses of `mortality_monotone` are met, and an analysis that ends early exists: the
automaton `realCA` from an empty universe. -/
example : realCA.weights = .functional (fun _ _ => 1) ∧ 0 ≤ realCA.dt ∧
    (∀ g ∈ realCA.genesis, g 0 ≤ 0) ∧
    ∃ rows, analyzeUniverse CCA.forward 5 realCA (dead 1 1 8 8) = .ok rows ∧ rows.length < 5 := by
  refine ⟨rfl, by norm_num [realCA], realCA_dead_at_zero, ?_⟩
  obtain ⟨r, hr⟩ := realCA_runs (dead 1 1 8 8) (by norm_num) (by norm_num)
  have h1 : iterate CCA.forward 1 realCA (dead 1 1 8 8) = .ok r := by
    simp only [iterate, hr, bind, Except.bind]
  have hd := cca_dead_stays realCA (fun _ _ => 1) rfl (fun _ _ => zero_le_one)
    (by norm_num [realCA]) realCA_dead_at_zero 1 r h1
  have hz : gridMean r.1 = 0 := by rw [hd]; simp [gridMean, dead]
  refine ⟨[analysisRow r.1 (dead 1 1 8 8)], ?_, by simp⟩
  obtain ⟨u, s⟩ := r
  simp only [analyzeUniverse, analyzeLoop, hr, bind, Except.bind]
  exact if_pos hz

end Yuca
