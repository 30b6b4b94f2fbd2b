import Verif.Props.Notebook
import Verif.Props.LeniaLife

/-!
# C133: the two cells about Morley (notebooks/glaberish_animations.ipynb)

Exact real arithmetic.
-/

namespace Yuca

open Arith Spec

variable {H W : Nat}

/-- The update of the Life cell (C99) is the same update. -/
theorem nbUpdateFn_life (useLenia : Bool) (birth survival : List Nat) (x : Grid ℝ H W) :
    nbUpdate useLenia birth survival x =
      nbUpdateFn useLenia nbMoore (nbGrowth birth) (nbGrowth survival)
        (fun v => nbGrowth birth v + nbGrowth survival v - 1) 1.0 x := rfl

theorem mooreLike_nbMoore : (mooreLike 1 : Grid ℝ 3 3) = nbMoore := by
  funext a b
  rw [nbMoore_eq]
  refine (mooreLike_one a b).trans ?_
  simp only [Fin.ext_iff]
  rfl

/-- The grid `x` is within `ε` of the 0/1 grid `s` and in [0, 1]. -/
def Spec.GridNear (ε : ℝ) (x : Grid ℝ H W) (s : Fin H → Fin W → Bool) : Prop :=
  ∀ i j, 0 ≤ x i j ∧ x i j ≤ 1 ∧ |x i j - bit (s i j)| ≤ ε

theorem nbConv_close {ε : ℝ} {x : Grid ℝ H W} {s : Fin H → Fin W → Bool} (h : GridNear ε x s)
    (i : Fin H) (j : Fin W) :
    |nbConv 1 (mooreLike 1) x i j - (aliveNeighbours s i j : ℕ) / 8| ≤ ε := by
  rw [mooreLike_nbMoore, nbConv_moore, aliveNeighbours, ← bits_sum, ← sub_div, abs_div]
  have := sum_close mooreOffsets (fun d => x (rollIdx i d.1) (rollIdx j d.2))
    (fun d => bit (s (rollIdx i d.1) (rollIdx j d.2))) ε (fun d => (h _ _).2.2)
  have h8 : (mooreOffsets.length : ℝ) = 8 := by norm_num [mooreOffsets]
  rw [h8] at this
  rw [abs_of_pos (by norm_num : (0 : ℝ) < 8), div_le_iff₀ (by norm_num)]
  linarith

theorem nbClip_clamp (v : ℝ) : nbClip v = clamp01 v := by
  rw [clamp01_real, nbClip]
  rcases le_total v 0 with h | h
  · rw [max_eq_right h, min_eq_left (by norm_num : (0 : ℝ) ≤ 1), min_eq_right (by linarith),
      max_eq_left h]
  · rw [max_eq_left h, min_comm, max_eq_right (le_min (by norm_num) h)]

theorem nbClip_unit (v : ℝ) : 0 ≤ nbClip v ∧ nbClip v ≤ 1 := by
  rw [nbClip_clamp]; exact clamp01_mem v

/-! ## The cell that tries Lenia -/

theorem morleyLenia_cell (birth survival : List Nat) (x : Grid ℝ H W) (i : Fin H) (j : Fin W) :
    morleyLenia birth survival x i j = nbClip (x i j +
      (cellGrowth birth (nbConv 1 (mooreLike 1) x i j) +
        cellGrowth survival (nbConv 1 (mooreLike 1) x i j))) := by
  unfold morleyLenia nbUpdateFn
  norm_num

/-- The counts of both lists. -/
def Spec.inBoth (birth survival : List Nat) : List Nat := birth.filter (· ∈ survival)

theorem morleyLenia_step {birth survival : List Nat} (hB : RuleList birth)
    (hS : RuleList survival) {ε : ℝ} (hε : ε ≤ 1 / 1000) {x : Grid ℝ H W}
    {s : Fin H → Fin W → Bool} (h : GridNear ε x s) :
    GridNear (ε + 36 * leak) (morleyLenia birth survival x)
      (lifeStep (inBoth birth survival) (birth ++ survival) s) := by
  intro i j
  rw [morleyLenia_cell]
  refine ⟨(nbClip_unit _).1, (nbClip_unit _).2, ?_⟩
  rw [nbClip_clamp]
  have hl := leak_pos
  have hl2 := leak_le
  have hx := (nbConv_close h i j).trans hε
  have hG := rule_growth hB hx
  have hP := rule_growth hS hx
  obtain ⟨h0, h1, h2⟩ := h i j
  have hε0 : 0 ≤ ε := (abs_nonneg _).trans h2
  rw [abs_le] at h2
  simp only [lifeStep, inBoth, List.mem_filter, List.mem_append, decide_eq_true_eq]
  unfold cellGrowth
  set n := nbConv 1 (mooreLike 1) x i j
  set k := aliveNeighbours s i j
  set G := (Act.smoothIntervals (smoothInterval birth) 0.0125 true).eval n
  set P := (Act.smoothIntervals (smoothInterval survival) 0.0125 true).eval n
  have t1 : bit true = 1 := rfl
  have t0 : bit false = 0 := rfl
  by_cases hb : k ∈ birth
  · obtain ⟨g1, g2⟩ := hG.1 hb
    by_cases hs : k ∈ survival
    · obtain ⟨p1, p2⟩ := hP.1 hs
      have e : bit (if s i j = true then decide (k ∈ birth ∨ k ∈ survival)
          else decide (k ∈ birth ∧ k ∈ survival)) = 1 := by
        simp [hb, hs, bit]
      rw [e]
      exact clamp_near_one (by linarith) (by linarith)
    · obtain ⟨p1, p2⟩ := hP.2 hs
      have e : bit (if s i j = true then decide (k ∈ birth ∨ k ∈ survival)
          else decide (k ∈ birth ∧ k ∈ survival)) = bit (s i j) := by
        cases s i j <;> simp [hb, hs, bit]
      rw [e]
      cases hsc : s i j
      · rw [hsc, t0] at h2
        rw [t0, sub_zero]
        exact clamp_near_zero (by linarith) (by linarith)
      · rw [hsc, t1] at h2
        rw [t1]
        exact clamp_near_one (by linarith) (by linarith)
  · obtain ⟨g1, g2⟩ := hG.2 hb
    by_cases hs : k ∈ survival
    · obtain ⟨p1, p2⟩ := hP.1 hs
      have e : bit (if s i j = true then decide (k ∈ birth ∨ k ∈ survival)
          else decide (k ∈ birth ∧ k ∈ survival)) = bit (s i j) := by
        cases s i j <;> simp [hb, hs, bit]
      rw [e]
      cases hsc : s i j
      · rw [hsc, t0] at h2
        rw [t0, sub_zero]
        exact clamp_near_zero (by linarith) (by linarith)
      · rw [hsc, t1] at h2
        rw [t1]
        exact clamp_near_one (by linarith) (by linarith)
    · obtain ⟨p1, p2⟩ := hP.2 hs
      have e : bit (if s i j = true then decide (k ∈ birth ∨ k ∈ survival)
          else decide (k ∈ birth ∧ k ∈ survival)) = 0 := by
        simp [hb, hs, bit]
      rw [e, sub_zero]
      exact clamp_near_zero (by linarith) (by linarith)

theorem bits_near (s : Fin H → Fin W → Bool) :
    GridNear 0 (fun i j => bit (s i j) : Grid ℝ H W) s := by
  intro i j
  have h : 0 ≤ bit (s i j) ∧ bit (s i j) ≤ 1 := by
    unfold bit; split <;> norm_num
  exact ⟨h.1, h.2, by simp⟩

/-- C133: the cell that tries Lenia does not run the rule B/S but the rule that is born on the
counts in both lists and survives on the counts in either: the deviation grows by at most
`4·10⁻⁷` per frame, for 2500 frames (the cell shows 32). -/
theorem morley_lenia (birth survival : List Nat) (hB : RuleList birth) (hS : RuleList survival)
    (s : Fin H → Fin W → Bool) (n : Nat) (hn : n ≤ 2500) :
    GridNear (n * (4 / 10000000)) ((morleyLenia birth survival)^[n] fun i j => bit (s i j))
      ((lifeStep (inBoth birth survival) (birth ++ survival))^[n] s) := by
  induction n with
  | zero =>
    intro i j
    have := bits_near s i j
    simpa using this
  | succ n ih =>
    have hn' : ((n + 1 : ℕ) : ℝ) ≤ 2500 := by exact_mod_cast hn
    push_cast at hn'
    have h1 := ih (by omega)
    rw [Function.iterate_succ_apply', Function.iterate_succ_apply']
    have h2 := morleyLenia_step hB hS (by linarith) h1
    have hl2 := leak_le
    intro i j
    obtain ⟨a, b, c⟩ := h2 i j
    refine ⟨a, b, c.trans ?_⟩
    push_cast
    linarith

/-- C133: so it shows the rule B/S, on all grids, if and only if every birth count is a survival
count. -/
theorem morley_lenia_iff {birth survival : List Nat} (hB : RuleList birth) (hS : RuleList survival)
    (hH : 3 ≤ H) (hW : 3 ≤ W) :
    (∀ s : Fin H → Fin W → Bool,
      GridNear (1 / 1000) (morleyLenia birth survival fun i j => bit (s i j))
        (lifeStep birth survival s)) ↔ birth ⊆ survival := by
  constructor
  · intro h k hk
    by_contra hs
    have hk8 := hB.2 k hk
    have h1 := h (cluster H W k false) ⟨1, by omega⟩ ⟨1, by omega⟩
    have h2 := morley_lenia birth survival hB hS (cluster H W k false) 1 (by norm_num)
      ⟨1, by omega⟩ ⟨1, by omega⟩
    simp only [Function.iterate_one] at h2
    have c0 : cluster H W k false ⟨1, by omega⟩ ⟨1, by omega⟩ = false := by simp [cluster]
    have l0 : lifeStep birth survival (cluster H W k false) ⟨1, by omega⟩ ⟨1, by omega⟩ = true := by
      unfold lifeStep
      rw [c0, cluster_count hk8 false hH hW]
      simp [hk]
    have l1 : lifeStep (inBoth birth survival) (birth ++ survival) (cluster H W k false)
        ⟨1, by omega⟩ ⟨1, by omega⟩ = false := by
      unfold lifeStep
      rw [c0, cluster_count hk8 false hH hW]
      simp [inBoth, hs]
    rw [l0] at h1
    rw [l1] at h2
    have t1 : bit true = 1 := rfl
    have t0 : bit false = 0 := rfl
    rw [t1] at h1
    rw [t0] at h2
    have a := abs_le.1 h1.2.2
    have b := abs_le.1 h2.2.2
    norm_num at a b
    linarith [a.1, b.2]
  · intro hsub s
    have h2 := morley_lenia birth survival hB hS s 1 (by norm_num)
    simp only [Function.iterate_one] at h2
    have e : lifeStep (inBoth birth survival) (birth ++ survival) s = lifeStep birth survival s := by
      funext i j
      unfold lifeStep
      set k := aliveNeighbours s i j
      have e1 : k ∈ inBoth birth survival ↔ k ∈ birth := by
        simp only [inBoth, List.mem_filter, decide_eq_true_eq]
        exact ⟨fun h => h.1, fun h => ⟨h, hsub h⟩⟩
      have e2 : k ∈ birth ++ survival ↔ k ∈ survival := by
        rw [List.mem_append]
        exact ⟨fun h => h.elim (fun h => hsub h) id, .inr⟩
      simp only [e1, e2]
    rw [e] at h2
    intro i j
    obtain ⟨a, b, c⟩ := h2 i j
    exact ⟨a, b, c.trans (by norm_num)⟩

/-! ## The Glaberish cell -/

/-- A grid that shows `s`: dead cells exactly 0, live cells at least `1 - 10⁻⁷`. -/
def Spec.Shown (s : Fin H → Fin W → Bool) (x : Grid ℝ H W) : Prop :=
  ∀ i j, if s i j then 1 - 8 * leak ≤ x i j ∧ x i j ≤ 1 else x i j = 0

theorem morleyGlaberish_cell (birth survival : List Nat) (x : Grid ℝ H W) (i : Fin H) (j : Fin W) :
    morleyGlaberish birth survival x i j = nbClip (x i j +
      (((1 - x i j) * cellGrowth birth (nbConv 1 (mooreLike 1) x i j) +
        x i j * cellGrowth survival (nbConv 1 (mooreLike 1) x i j)) * 2 - 1)) := by
  unfold morleyGlaberish nbUpdateFn
  rw [nbConv_eye]
  norm_num

theorem nbClip_one {v : ℝ} (h : 1 ≤ v) : nbClip v = 1 := by
  rw [nbClip, max_eq_left (by linarith), min_eq_right h]

theorem nbClip_zero {v : ℝ} (h : v ≤ 0) : nbClip v = 0 := by
  rw [nbClip, max_eq_right h, min_eq_left (by norm_num)]

/-- C133: one frame of the Glaberish cell, for any rule lists. -/
theorem morleyGlaberish_step {birth survival : List Nat} (hB : RuleList birth)
    (hS : RuleList survival) {x : Grid ℝ H W} {s : Fin H → Fin W → Bool} (h : Shown s x) :
    Shown (lifeStep birth survival s) (morleyGlaberish birth survival x) := by
  have hl := leak_pos
  have hl2 := leak_le
  have hnear : GridNear (8 * leak) x s := by
    intro i j
    have := h i j
    cases hs : s i j
    · rw [hs] at this
      simp only [Bool.false_eq_true, if_false] at this
      rw [this]
      have t0 : bit false = 0 := rfl
      rw [t0]
      refine ⟨le_refl _, by norm_num, ?_⟩
      norm_num
      exact hl.le
    · rw [hs] at this
      simp only [if_true] at this
      have t1 : bit true = 1 := rfl
      rw [t1, abs_le]
      exact ⟨by linarith, by linarith, by linarith, by linarith⟩
  intro i j
  rw [morleyGlaberish_cell]
  have hx := (nbConv_close hnear i j).trans (by linarith : 8 * leak ≤ 1 / 1000)
  have hG := rule_growth hB hx
  have hP := rule_growth hS hx
  have hc := h i j
  simp only [lifeStep]
  unfold cellGrowth
  set n := nbConv 1 (mooreLike 1) x i j
  set k := aliveNeighbours s i j
  set G := (Act.smoothIntervals (smoothInterval birth) 0.0125 true).eval n
  set P := (Act.smoothIntervals (smoothInterval survival) 0.0125 true).eval n
  rcases Bool.eq_false_or_eq_true (s i j) with hs | hs
  rotate_left
  · simp only [hs, Bool.false_eq_true, if_false, decide_eq_true_eq] at hc ⊢
    rw [hc]
    by_cases hb : k ∈ birth
    · rw [if_pos hb]
      have := (hG.1 hb).1
      refine ⟨?_, (nbClip_unit _).2⟩
      unfold nbClip
      refine le_min ((?_ : _ ≤ _).trans (le_max_left _ _)) (by linarith)
      linarith
    · rw [if_neg hb]
      have := (hG.2 hb).2
      exact nbClip_zero (by linarith)
  · simp only [hs, if_true, decide_eq_true_eq] at hc ⊢
    obtain ⟨c1, c2⟩ := hc
    have g0 : -1 ≤ G ∧ G ≤ 1 + 18 * leak := by
      by_cases hb : k ∈ birth
      · have := hG.1 hb; exact ⟨by linarith, this.2⟩
      · have := hG.2 hb; exact ⟨this.1, by linarith⟩
    by_cases hp : k ∈ survival
    · rw [if_pos hp]
      have := (hP.1 hp).1
      rw [nbClip_one]
      · exact ⟨by linarith, le_refl _⟩
      · nlinarith
    · rw [if_neg hp]
      have := (hP.2 hp).2
      apply nbClip_zero
      nlinarith

/-- C133: the Glaberish cell runs every Life-like rule for ever, Morley among them: after any
number of frames, on a torus of any size, dead cells are exactly 0 and live cells at least
`1 - 8·leak`, that is within `10⁻⁷` of 1. -/
theorem morley_glaberish (birth survival : List Nat) (hB : RuleList birth) (hS : RuleList survival)
    (s : Fin H → Fin W → Bool) (n : Nat) :
    ∀ i j, if (lifeStep birth survival)^[n] s i j
      then 1 - 1 / 10000000 ≤ (morleyGlaberish birth survival)^[n] (fun i j => bit (s i j)) i j ∧
        (morleyGlaberish birth survival)^[n] (fun i j => bit (s i j)) i j ≤ 1
      else (morleyGlaberish birth survival)^[n] (fun i j => bit (s i j)) i j = 0 := by
  have hl := leak_pos
  have hl2 := leak_le
  have main : Shown ((lifeStep birth survival)^[n] s)
      ((morleyGlaberish birth survival)^[n] fun i j => bit (s i j)) := by
    induction n with
    | zero =>
      intro i j
      simp only [Function.iterate_zero, id_eq]
      rcases Bool.eq_false_or_eq_true (s i j) with hs | hs <;> simp [hs, bit, hl.le]
    | succ n ih =>
      rw [Function.iterate_succ_apply', Function.iterate_succ_apply']
      exact morleyGlaberish_step hB hS ih
  intro i j
  have := main i j
  split at this
  · rename_i hb
    rw [if_pos hb]
    exact ⟨by linarith [this.1], this.2⟩
  · rename_i hb
    rw [if_neg hb]
    exact this

example : RuleList [3, 6, 8] ∧ RuleList [2, 4, 5] ∧ inBoth [3, 6, 8] [2, 4, 5] = [] := by
  refine ⟨by simp [RuleList], by simp [RuleList], by decide⟩

/-! ## The pattern of the two cells -/

/-- C133: with Morley's lists the Lenia cell has no births at all, so no cell outside the pattern
ever lights up; and in the pattern it starts from, every live cell has a count in one of the
lists, so all 32 frames show the same picture. -/
theorem morley_lenia_still (n : Nat) (hn : n ≤ 2500) :
    GridNear (n * (4 / 10000000))
      ((morleyLenia [3, 6, 8] [2, 4, 5])^[n] fun i j => bit (morleyStart 24 24 i j))
      (morleyStart 24 24) := by
  have h := morley_lenia [3, 6, 8] [2, 4, 5] (by simp [RuleList]) (by simp [RuleList])
    (morleyStart 24 24) n hn
  have e : lifeStep (inBoth [3, 6, 8] [2, 4, 5]) ([3, 6, 8] ++ [2, 4, 5]) (morleyStart 24 24) =
      morleyStart 24 24 := by
    have : ∀ i j, lifeStep (inBoth [3, 6, 8] [2, 4, 5]) ([3, 6, 8] ++ [2, 4, 5])
        (morleyStart 24 24) i j = morleyStart 24 24 i j := by decide +kernel
    funext i j
    exact this i j
  rwa [Function.iterate_fixed e] at h

/-- C133: under Morley itself the pattern does change. -/
theorem morley_moves : lifeStep [3, 6, 8] [2, 4, 5] (morleyStart 24 24) ≠ morleyStart 24 24 := by
  intro h
  have h1 : lifeStep [3, 6, 8] [2, 4, 5] (morleyStart 24 24) 10 5 ≠ morleyStart 24 24 10 5 := by
    decide +kernel
  exact h1 (congrFun (congrFun h 10) 5)

end Yuca
