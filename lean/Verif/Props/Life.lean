import Verif.Model.Life
import Verif.Spec.Life
import Verif.Props.Symmetry
import Mathlib.Analysis.Complex.ExponentialBounds

/-!
# C22: life-like rules simulated by a continuous automaton

Exact real arithmetic.
-/

namespace Yuca

open Arith Spec

variable {N H W : Nat}

/-- The leakage of one interval edge a sixteenth minus a thousandth away. -/
noncomputable def leak : ℝ := Real.exp (-19.68)

theorem leak_pos : 0 < leak := Real.exp_pos _

theorem leak_le : leak ≤ 1 / 100000000 := by
  unfold leak
  have h1 : (2.7182818283 : ℝ) < Real.exp 1 := Real.exp_one_gt_d9
  have h2 : Real.exp 19 = Real.exp 1 ^ 19 := by
    rw [← Real.exp_nat_mul]; norm_num
  have h3 : (100000000 : ℝ) ≤ Real.exp 19 := by
    rw [h2]
    calc (100000000 : ℝ) ≤ 2.7182818283 ^ 19 := by norm_num
      _ ≤ _ := pow_le_pow_left₀ (by norm_num) h1.le 19
  have h4 : Real.exp (-19.68) ≤ Real.exp (-19) := Real.exp_le_exp.2 (by norm_num)
  refine h4.trans ?_
  rw [Real.exp_neg, ← one_div]
  exact one_div_le_one_div_of_le (by norm_num) h3

/-- The bump of one interval. -/
noncomputable def ivTerm (b : Nat) (x : ℝ) : ℝ :=
  sigmoid1 ((2 * (b : ℝ) - 1) / 16) 0.0125 x * (1 - sigmoid1 ((2 * (b : ℝ) + 1) / 16) 0.0125 x)

theorem sigmoid1_le_exp (mu x : ℝ) : sigmoid1 mu 0.0125 x ≤ Real.exp (320 * (x - mu)) := by
  unfold sigmoid1
  have h : Real.exp (320 * (x - mu)) = 1 / Real.exp (-4 * (x - mu) / 0.0125) := by
    rw [one_div, ← Real.exp_neg]; congr 1; ring
  rw [h]
  exact one_div_le_one_div_of_le (Real.exp_pos _) (by linarith)

theorem one_sub_sigmoid1_le_exp (mu x : ℝ) :
    1 - sigmoid1 mu 0.0125 x ≤ Real.exp (-(320 * (x - mu))) := by
  have h1 : 1 - sigmoid1 mu 0.0125 x =
      Real.exp (-4 * (x - mu) / 0.0125) * sigmoid1 mu 0.0125 x := by
    unfold sigmoid1
    have := Real.exp_pos (-4 * (x - mu) / 0.0125)
    field_simp; ring
  rw [h1, show -(320 * (x - mu)) = -4 * (x - mu) / 0.0125 by ring]
  exact mul_le_of_le_one_right (Real.exp_pos _).le (sigmoid1_lt_one _ _ _).le

theorem ivTerm_nonneg (b : Nat) (x : ℝ) : 0 ≤ ivTerm b x :=
  mul_nonneg (sigmoid1_pos _ _ _).le (by have := sigmoid1_lt_one ((2 * (b : ℝ) + 1) / 16) 0.0125 x; linarith)

theorem ivTerm_le_one (b : Nat) (x : ℝ) : ivTerm b x ≤ 1 := by
  have h1 := sigmoid1_lt_one ((2 * (b : ℝ) - 1) / 16) 0.0125 x
  have h2 := sigmoid1_pos ((2 * (b : ℝ) + 1) / 16) 0.0125 x
  have h3 := sigmoid1_pos ((2 * (b : ℝ) - 1) / 16) 0.0125 x
  unfold ivTerm; nlinarith

theorem ivTerm_far {b k : Nat} (hb : b ≠ k) {x : ℝ} (hx : |x - k / 8| ≤ 1 / 1000) :
    ivTerm b x ≤ leak := by
  rw [abs_le] at hx
  have h1 := sigmoid1_lt_one ((2 * (b : ℝ) - 1) / 16) 0.0125 x
  have h2 := sigmoid1_pos ((2 * (b : ℝ) + 1) / 16) 0.0125 x
  have h3 := sigmoid1_pos ((2 * (b : ℝ) - 1) / 16) 0.0125 x
  have h4 := sigmoid1_lt_one ((2 * (b : ℝ) + 1) / 16) 0.0125 x
  unfold ivTerm leak
  rcases lt_or_gt_of_ne hb with h | h
  · have h : (b : ℝ) + 1 ≤ k := by exact_mod_cast h
    have h5 := one_sub_sigmoid1_le_exp ((2 * (b : ℝ) + 1) / 16) x
    have h6 : Real.exp (-(320 * (x - (2 * (b : ℝ) + 1) / 16))) ≤ Real.exp (-19.68) :=
      Real.exp_le_exp.2 (by linarith)
    nlinarith
  · have h : (k : ℝ) + 1 ≤ b := by exact_mod_cast h
    have h5 := sigmoid1_le_exp ((2 * (b : ℝ) - 1) / 16) x
    have h6 : Real.exp (320 * (x - (2 * (b : ℝ) - 1) / 16)) ≤ Real.exp (-19.68) :=
      Real.exp_le_exp.2 (by linarith)
    nlinarith

theorem ivTerm_near {k : Nat} {x : ℝ} (hx : |x - k / 8| ≤ 1 / 1000) : 1 - 2 * leak ≤ ivTerm k x := by
  rw [abs_le] at hx
  have h5 := one_sub_sigmoid1_le_exp ((2 * (k : ℝ) - 1) / 16) x
  have h6 : Real.exp (-(320 * (x - (2 * (k : ℝ) - 1) / 16))) ≤ leak :=
    Real.exp_le_exp.2 (by linarith)
  have h7 := sigmoid1_le_exp ((2 * (k : ℝ) + 1) / 16) x
  have h8 : Real.exp (320 * (x - (2 * (k : ℝ) + 1) / 16)) ≤ leak :=
    Real.exp_le_exp.2 (by linarith)
  have h9 := leak_le
  have h10 := leak_pos
  unfold ivTerm; nlinarith

theorem smoothInterval_eval (l : List Nat) (x : ℝ) :
    (Act.smoothIntervals (smoothInterval l) 0.0125 true).eval x =
      2 * (l.map fun b => ivTerm b x).sum - 1 := by
  simp [Act.eval, smoothIntervalsFn, smoothInterval, ivTerm, List.map_map, Function.comp_def,
    mul_comm]

theorem ivSum_nonneg (l : List Nat) (x : ℝ) : 0 ≤ (l.map fun b => ivTerm b x).sum :=
  List.sum_nonneg (by simp only [List.mem_map]; rintro _ ⟨b, _, rfl⟩; exact ivTerm_nonneg b x)

theorem ivSum_le {k : Nat} {x : ℝ} (hx : |x - k / 8| ≤ 1 / 1000) (l : List Nat) :
    (l.map fun b => ivTerm b x).sum ≤ l.count k + l.length * leak := by
  induction l with
  | nil => simp
  | cons b l ih =>
    simp only [List.map_cons, List.sum_cons, List.length_cons, List.count_cons]
    push_cast
    by_cases hb : b = k
    · subst hb
      have := ivTerm_le_one b x
      have := leak_pos
      simp only [beq_self_eq_true, if_true]
      linarith
    · have := ivTerm_far hb hx
      simp only [beq_iff_eq, hb, if_false]
      linarith

theorem ivSum_ge {k : Nat} {x : ℝ} (hx : |x - k / 8| ≤ 1 / 1000) {l : List Nat} (hk : k ∈ l) :
    1 - 2 * leak ≤ (l.map fun b => ivTerm b x).sum := by
  induction l with
  | nil => simp at hk
  | cons b l ih =>
    simp only [List.map_cons, List.sum_cons]
    rcases List.mem_cons.1 hk with rfl | h
    · have := ivTerm_near hx
      have := ivSum_nonneg l x
      linarith
    · have := ih h
      have := ivTerm_nonneg b x
      linarith

theorem ruleList_length {l : List Nat} (h : RuleList l) : l.length ≤ 9 := by
  have : l.toFinset ⊆ Finset.range 9 := by
    intro b hb
    have := h.2 b (List.mem_toFinset.1 hb)
    exact Finset.mem_range.2 (by omega)
  have := Finset.card_le_card this
  rwa [List.toFinset_card_of_nodup h.1, Finset.card_range] at this

/-- The growth function of a rule list near `k/8`: about `+1` for counts in the list, about
`-1` for the others. -/
theorem rule_growth {l : List Nat} (h : RuleList l) {k : Nat} {x : ℝ}
    (hx : |x - k / 8| ≤ 1 / 1000) :
    (k ∈ l → 1 - 4 * leak ≤ (Act.smoothIntervals (smoothInterval l) 0.0125 true).eval x ∧
      (Act.smoothIntervals (smoothInterval l) 0.0125 true).eval x ≤ 1 + 18 * leak) ∧
    (k ∉ l → -1 ≤ (Act.smoothIntervals (smoothInterval l) 0.0125 true).eval x ∧
      (Act.smoothIntervals (smoothInterval l) 0.0125 true).eval x ≤ -1 + 18 * leak) := by
  rw [smoothInterval_eval]
  have h1 := ivSum_le hx l
  have h2 := ivSum_nonneg l x
  have h3 : (l.length : ℝ) ≤ 9 := by exact_mod_cast ruleList_length h
  have h4 := leak_pos
  have h5 : (l.length : ℝ) * leak ≤ 9 * leak := mul_le_mul_of_nonneg_right h3 h4.le
  constructor
  · intro hk
    have h6 := ivSum_ge hx hk
    rw [List.count_eq_one_of_mem h.1 hk] at h1
    push_cast at h1
    constructor <;> linarith
  · intro hk
    rw [List.count_eq_zero_of_not_mem hk] at h1
    push_cast at h1
    constructor <;> linarith

/-! ## The neighborhood value -/

theorem mooreLike_one (a b : Fin 3) : mooreLike 1 a b = if a.val = 1 ∧ b.val = 1 then 0 else 1 / 8 := by
  unfold mooreLike
  rw [mooreOnes_sum]
  unfold mooreOnes
  split <;> norm_num

theorem moore_taps (x : Fin 1 → Grid ℝ H W) (o : Fin 1) (i : Fin H) (j : Fin W) :
    dot ((ConvLayer.ofKernel 1 1 .circular 3 (mooreLike 1)).taps x o i j) =
      ((mooreOffsets.map fun d => x 0 (rollIdx i d.1) (rollIdx j d.2)).sum) / 8 := by
  rw [conv_sum_one]
  have h : ∀ a b : Fin 3, mooreLike 1 a b = if a.val = 1 ∧ b.val = 1 then 0 else 1 / 8 := mooreLike_one
  simp only [Fin.sum_univ_three, h, mooreOffsets, List.map_cons, List.map_nil, List.sum_cons,
    List.sum_nil, rollIdx_eq_cyc]
  norm_num
  ring

theorem bits_sum (l : List (Int × Int)) (s : Fin H → Fin W → Bool) (i : Fin H) (j : Fin W) :
    (l.map fun d => bit (s (rollIdx i d.1) (rollIdx j d.2))).sum =
      (l.countP fun d => s (rollIdx i d.1) (rollIdx j d.2) : ℕ) := by
  induction l with
  | nil => simp
  | cons d l ih =>
    simp only [List.map_cons, List.sum_cons, ih, List.countP_cons]
    cases s (rollIdx i d.1) (rollIdx j d.2) <;> simp [bit, add_comm]

theorem sum_close (l : List (Int × Int)) (f g : Int × Int → ℝ) (ε : ℝ)
    (h : ∀ d, |f d - g d| ≤ ε) : |(l.map f).sum - (l.map g).sum| ≤ l.length * ε := by
  induction l with
  | nil => simp
  | cons d l ih =>
    simp only [List.map_cons, List.sum_cons, List.length_cons]
    push_cast
    calc |f d + (l.map f).sum - (g d + (l.map g).sum)|
        = |(f d - g d) + ((l.map f).sum - (l.map g).sum)| := by ring_nf
      _ ≤ _ := abs_add_le _ _
      _ ≤ ε + l.length * ε := add_le_add (h d) ih
      _ = _ := by ring

theorem moore_close {x : Fin 1 → Grid ℝ H W} {s : Fin H → Fin W → Bool} {ε : ℝ}
    (h : ∀ i j, |x 0 i j - bit (s i j)| ≤ ε) (o : Fin 1) (i : Fin H) (j : Fin W) :
    |dot ((ConvLayer.ofKernel 1 1 .circular 3 (mooreLike 1)).taps x o i j) -
      (aliveNeighbours s i j : ℕ) / 8| ≤ ε := by
  rw [moore_taps, aliveNeighbours, ← bits_sum, ← sub_div, abs_div]
  have := sum_close mooreOffsets (fun d => x 0 (rollIdx i d.1) (rollIdx j d.2))
    (fun d => bit (s (rollIdx i d.1) (rollIdx j d.2))) ε (fun d => h _ _)
  have h8 : (mooreOffsets.length : ℝ) = 8 := by norm_num [mooreOffsets]
  rw [h8] at this
  rw [abs_of_pos (by norm_num : (0 : ℝ) < 8), div_le_iff₀ (by norm_num)]
  linarith

/-! ## One step -/

theorem life_cell {birth survival : List Nat} {t : ℝ} {u : Univ ℝ N 1 H W}
    {r : Univ ℝ N 1 H W × CCA ℝ 1 1}
    (h : CCA.forward { lifeCA birth survival with t := t } u = .ok r) :
    (∃ t', r.2 = { lifeCA birth survival with t := t' }) ∧
    ∀ n i j, r.1 n 0 i j = clamp01 (u n 0 i j +
      ((1 - u n 0 i j) * (Act.smoothIntervals (smoothInterval birth) 0.0125 true).eval
          (dot ((ConvLayer.ofKernel 1 1 .circular 3 (mooreLike 1)).taps (u n) 0 i j)) +
        u n 0 i j * (Act.smoothIntervals (smoothInterval survival) 0.0125 true).eval
          (dot ((ConvLayer.ofKernel 1 1 .circular 3 (mooreLike 1)).taps (u n) 0 i j)))) := by
  obtain ⟨_, _, hs, hc⟩ := cca_cell (w := fun _ _ => 1) rfl h
  refine ⟨⟨_, hs⟩, fun n i j => ?_⟩
  rw [hc, maskIf_small (by norm_num)]
  simp only [lifeCA, Fin.sum_univ_one, identity_taps_dvd one_pos (dvd_refl 1), chanFn,
    Fin.val_eq_zero, List.getD_cons_zero, one_mul]
  rfl

theorem clamp_near_zero {v η : ℝ} (hη : 0 ≤ η) (h : v ≤ η) : |clamp01 v| ≤ η := by
  have h1 := clamp01_mem v
  rw [abs_of_nonneg h1.1, clamp01_real]
  exact max_le hη ((min_le_right _ _).trans h)

theorem clamp_near_one {v η : ℝ} (hη : 0 ≤ η) (h : 1 - η ≤ v) : |clamp01 v - 1| ≤ η := by
  have h1 := clamp01_mem v
  rw [abs_sub_comm, abs_of_nonneg (by linarith : 0 ≤ 1 - clamp01 v), clamp01_real]
  have : 1 - η ≤ max 0 (min 1 v) := (le_min (by linarith) h).trans (le_max_right _ _)
  linarith

/-- The four cases of one cell.  `c` is within `ε ≤ 1/1000` of the true bit, `G` and `P` are
the growth values. -/
theorem cell_cases {ε c G P : ℝ} {s inB inS : Bool} (h0 : 0 ≤ c) (h1 : c ≤ 1)
    (hε : ε ≤ 1 / 1000) (hc : |c - bit s| ≤ ε)
    (hG : if inB then 1 - 4 * leak ≤ G ∧ G ≤ 1 + 18 * leak else -1 ≤ G ∧ G ≤ -1 + 18 * leak)
    (hP : if inS then 1 - 4 * leak ≤ P ∧ P ≤ 1 + 18 * leak else -1 ≤ P ∧ P ≤ -1 + 18 * leak) :
    |clamp01 (c + ((1 - c) * G + c * P)) - bit (if s then inS else inB)| ≤
      if inB && !inS then ε + 36 * leak else 18 * leak := by
  have hl := leak_pos
  have hl2 := leak_le
  have hε0 : 0 ≤ ε := (abs_nonneg _).trans hc
  rw [abs_le] at hc
  have a1 : 0 ≤ 1 - c := by linarith
  cases s <;> cases inB <;> cases inS <;>
    simp only [bit, if_true, if_false, Bool.false_eq_true, Bool.not_true, Bool.not_false,
      Bool.and_true, Bool.and_false, sub_zero] at *
  · refine clamp_near_zero ?_ ?_ <;> nlinarith
  · refine clamp_near_zero ?_ ?_ <;> nlinarith
  · refine clamp_near_one ?_ ?_ <;> nlinarith
  · refine clamp_near_one ?_ ?_ <;> nlinarith
  · refine clamp_near_zero ?_ ?_ <;> nlinarith
  · refine clamp_near_one ?_ ?_ <;> nlinarith
  · refine clamp_near_zero ?_ ?_ <;> nlinarith
  · refine clamp_near_one ?_ ?_ <;> nlinarith

/-- The universe `u` is within `ε` of the 0/1 state `s` (cell by cell, in every sample). -/
def Spec.Near (ε : ℝ) (u : Univ ℝ N 1 H W) (s : Fin N → Fin H → Fin W → Bool) : Prop :=
  ∀ n i j, |u n 0 i j - bit (s n i j)| ≤ ε

theorem life_step {birth survival : List Nat} (hB : RuleList birth) (hS : RuleList survival)
    {t ε : ℝ} (hε : ε ≤ 1 / 1000) {u : Univ ℝ N 1 H W} (hu : InUnit u)
    {s : Fin N → Fin H → Fin W → Bool} (hs : Near ε u s) {r : Univ ℝ N 1 H W × CCA ℝ 1 1}
    (h : CCA.forward { lifeCA birth survival with t := t } u = .ok r) :
    Near (if birth ⊆ survival then 18 * leak else max (18 * leak) (ε + 36 * leak)) r.1
      (fun n => lifeStep birth survival (s n)) := by
  intro n i j
  obtain ⟨_, hc⟩ := life_cell h
  rw [hc]
  set x := dot ((ConvLayer.ofKernel 1 1 .circular 3 (mooreLike 1)).taps (u n) 0 i j) with hx
  have hclose : |x - (aliveNeighbours (s n) i j : ℕ) / 8| ≤ 1 / 1000 :=
    (moore_close (hs n) 0 i j).trans hε
  have hG := rule_growth hB hclose
  have hP := rule_growth hS hclose
  have := cell_cases (s := s n i j) (inB := decide (aliveNeighbours (s n) i j ∈ birth))
    (inS := decide (aliveNeighbours (s n) i j ∈ survival)) (hu n 0 i j).1 (hu n 0 i j).2 hε
    (hs n i j)
    (G := (Act.smoothIntervals (smoothInterval birth) 0.0125 true).eval x)
    (P := (Act.smoothIntervals (smoothInterval survival) 0.0125 true).eval x)
    (by
      by_cases hk : aliveNeighbours (s n) i j ∈ birth
      · simpa only [hk, decide_true, if_true] using hG.1 hk
      · simpa only [hk, decide_false, Bool.false_eq_true, if_false] using hG.2 hk)
    (by
      by_cases hk : aliveNeighbours (s n) i j ∈ survival
      · simpa only [hk, decide_true, if_true] using hP.1 hk
      · simpa only [hk, decide_false, Bool.false_eq_true, if_false] using hP.2 hk)
  refine this.trans ?_
  split
  · rename_i h1
    simp only [Bool.and_eq_true, Bool.not_eq_true', decide_eq_true_eq, decide_eq_false_iff_not] at h1
    split
    · rename_i h2; exact absurd (h2 h1.1) h1.2
    · exact le_max_right _ _
  · split
    · exact le_refl _
    · exact le_max_left _ _

theorem life_runs (birth survival : List Nat) (t : ℝ) (u : Univ ℝ N 1 H W) (hH : 1 ≤ H)
    (hW : 1 ≤ W) : ∃ r, CCA.forward { lifeCA birth survival with t := t } u = .ok r := by
  refine (cca_runs_iff _ u).2 ⟨?_, ?_, rfl, rfl⟩ <;>
    simp [Fits, lifeCA, identityLayer, ConvLayer.ofKernel, ConvLayer.pad, padOK, hH, hW]

/-- The 0/1 universe of a state. -/
def Spec.ofBits (s : Fin N → Fin H → Fin W → Bool) : Univ ℝ N 1 H W :=
  fun n _ i j => bit (s n i j)

theorem life_forever_aux {birth survival : List Nat} (hB : RuleList birth)
    (hS : RuleList survival) (hsub : birth ⊆ survival) (hH : 1 ≤ H) (hW : 1 ≤ W) (n : Nat) :
    ∀ (t : ℝ) (u : Univ ℝ N 1 H W) (s : Fin N → Fin H → Fin W → Bool), InUnit u →
      Near (18 * leak) u s →
      ∃ r, iterate CCA.forward n { lifeCA birth survival with t := t } u = .ok r ∧
        Near (18 * leak) r.1 (fun m => (lifeStep birth survival)^[n] (s m)) := by
  have hl := leak_le
  induction n with
  | zero => intro t u s _ hs; exact ⟨_, rfl, hs⟩
  | succ n ih =>
    intro t u s hu hs
    obtain ⟨⟨u', s'⟩, h1⟩ := life_runs birth survival t u hH hW
    obtain ⟨⟨t', ht⟩, _⟩ := life_cell h1
    have h2 := life_step hB hS (by linarith) hu hs h1
    rw [if_pos hsub] at h2
    simp only at ht
    subst ht
    obtain ⟨r, h3, h4⟩ := ih t' u' _ (cca_unit h1) h2
    exact ⟨r, by simp only [iterate, h1, bind, Except.bind]; exact h3, h4⟩

/-- C22: a life-like rule whose birth set is contained in its survival set (Conway's Life
among them) is simulated for ever: on every torus, from every 0/1 pattern and for every number
of steps, the automaton runs and its universe is within `10⁻⁶` of the true generation. -/
theorem life_forever (birth survival : List Nat) (hB : RuleList birth) (hS : RuleList survival)
    (hsub : birth ⊆ survival) (hH : 1 ≤ H) (hW : 1 ≤ W) (s : Fin N → Fin H → Fin W → Bool)
    (n : Nat) :
    ∃ r, iterate CCA.forward n (lifeCA birth survival) (ofBits s) = .ok r ∧
      Near (1 / 1000000) r.1 (fun m => (lifeStep birth survival)^[n] (s m)) := by
  have hl := leak_le
  have hp := leak_pos
  have h0 : InUnit (ofBits s) := by
    intro n e i j; simp only [ofBits, bit]; split <;> norm_num
  have h1 : Near (18 * leak) (ofBits s) s := by
    intro n i j; simp only [ofBits, sub_self, abs_zero]; linarith
  obtain ⟨r, h2, h3⟩ := life_forever_aux hB hS hsub hH hW n 0 _ s h0 h1
  exact ⟨r, h2, fun m i j => (h3 m i j).trans (by linarith)⟩

/-- Conway's Life (B3/S23) qualifies. -/
example : RuleList [3] ∧ RuleList [2, 3] ∧ [3] ⊆ [2, 3] := by
  simp [RuleList]

/-- C22: rounding a cell at one half recovers the true state exactly, for ever. -/
theorem life_exact (birth survival : List Nat) (hB : RuleList birth) (hS : RuleList survival)
    (hsub : birth ⊆ survival) (hH : 1 ≤ H) (hW : 1 ≤ W) (s : Fin N → Fin H → Fin W → Bool)
    (n : Nat) :
    ∃ r, iterate CCA.forward n (lifeCA birth survival) (ofBits s) = .ok r ∧
      ∀ m i j, (lifeStep birth survival)^[n] (s m) i j = true ↔ 1 / 2 < r.1 m 0 i j := by
  obtain ⟨r, h1, h2⟩ := life_forever birth survival hB hS hsub hH hW s n
  refine ⟨r, h1, fun m i j => ?_⟩
  have := h2 m i j
  rw [abs_le] at this
  simp only at this
  cases h : (lifeStep birth survival)^[n] (s m) i j <;> simp only [h, bit] at this ⊢ <;>
    simp at this ⊢ <;> linarith

theorem life_any_aux {birth survival : List Nat} (hB : RuleList birth)
    (hS : RuleList survival) (hH : 1 ≤ H) (hW : 1 ≤ W) (n : Nat) :
    ∀ (t ε : ℝ) (u : Univ ℝ N 1 H W) (s : Fin N → Fin H → Fin W → Bool), InUnit u → 0 ≤ ε →
      Near ε u s → ε + n * (36 * leak) ≤ 1 / 1000 →
      ∃ r, iterate CCA.forward n { lifeCA birth survival with t := t } u = .ok r ∧
        Near (ε + n * (36 * leak)) r.1 (fun m => (lifeStep birth survival)^[n] (s m)) := by
  have hl := leak_le
  have hp := leak_pos
  induction n with
  | zero => intro t ε u s _ _ hs _; exact ⟨_, rfl, by simpa using hs⟩
  | succ n ih =>
    intro t ε u s hu h0 hs hn
    push_cast at hn
    have hn0 : 0 ≤ (n : ℝ) * (36 * leak) := by positivity
    obtain ⟨⟨u', s'⟩, h1⟩ := life_runs birth survival t u hH hW
    obtain ⟨⟨t', ht⟩, _⟩ := life_cell h1
    have h2 := life_step hB hS (by linarith) hu hs h1
    have h2' : Near (ε + 36 * leak) u' (fun n => lifeStep birth survival (s n)) := by
      intro n i j
      refine (h2 n i j).trans ?_
      split
      · linarith
      · exact max_le (by linarith) (le_refl _)
    simp only at ht
    subst ht
    obtain ⟨r, h3, h4⟩ := ih t' _ u' _ (cca_unit h1) (by linarith) h2' (by linarith)
    refine ⟨r, by simp only [iterate, h1, bind, Except.bind]; exact h3, fun m i j => ?_⟩
    refine (h4 m i j).trans ?_
    push_cast
    linarith

/-- C22 for an arbitrary rule: the deviation grows by at most `4·10⁻⁷` per step, as long as it
has not reached `10⁻³`. -/
theorem life_any_rule (birth survival : List Nat) (hB : RuleList birth) (hS : RuleList survival)
    (hH : 1 ≤ H) (hW : 1 ≤ W) (s : Fin N → Fin H → Fin W → Bool) (n : Nat) (hn : n ≤ 2500) :
    ∃ r, iterate CCA.forward n (lifeCA birth survival) (ofBits s) = .ok r ∧
      Near (n * (4 / 10000000)) r.1 (fun m => (lifeStep birth survival)^[n] (s m)) := by
  have hl := leak_le
  have hp := leak_pos
  have hn' : (n : ℝ) ≤ 2500 := by exact_mod_cast hn
  have h0 : InUnit (ofBits s) := by
    intro n e i j; simp only [ofBits, bit]; split <;> norm_num
  have h1 : Near 0 (ofBits s) s := by
    intro n i j; simp only [ofBits, sub_self, abs_zero]; exact le_refl _
  obtain ⟨r, h2, h3⟩ := life_any_aux hB hS hH hW n 0 0 _ s h0 (le_refl _) h1
    (by nlinarith [mul_nonneg (Nat.cast_nonneg n : (0:ℝ) ≤ n) hp.le])
  exact ⟨r, h2, fun m i j => (h3 m i j).trans (by
    have : (n : ℝ) * (36 * leak) ≤ n * (4 / 10000000) :=
      mul_le_mul_of_nonneg_left (by linarith) (Nat.cast_nonneg n)
    linarith)⟩

example : RuleList [0, 8] ∧ RuleList [] := by simp [RuleList]

/-! ## A rule that drifts away -/

theorem alive_const (b : Bool) (i : Fin H) (j : Fin W) :
    aliveNeighbours (fun _ _ => b) i j = if b then 8 else 0 := by
  cases b <;> simp [aliveNeighbours, mooreOffsets]

theorem blink (n : Nat) :
    (lifeStep [0, 8] [])^[2 * n] (fun (_ : Fin H) (_ : Fin W) => false) = fun _ _ => false := by
  induction n with
  | zero => rfl
  | succ n ih =>
    rw [show 2 * (n + 1) = 2 * n + 1 + 1 by ring, Function.iterate_succ_apply',
      Function.iterate_succ_apply', ih]
    funext i j
    have h1 : lifeStep [0, 8] [] (fun (_ : Fin H) (_ : Fin W) => false) = fun _ _ => true := by
      funext i j; simp [lifeStep, alive_const]
    rw [h1]
    simp [lifeStep]

theorem blink_odd (n : Nat) :
    (lifeStep [0, 8] [])^[2 * n + 1] (fun (_ : Fin H) (_ : Fin W) => false) = fun _ _ => true := by
  rw [Function.iterate_succ_apply', blink]
  funext i j; simp [lifeStep, alive_const]

/-- The scalar map of B08/S on a constant universe. -/
noncomputable def driftMap : ℝ → ℝ :=
  meanField 1 1 1 (Act.smoothIntervals (smoothInterval [0, 8]) 0.0125 true).eval
    (Act.smoothIntervals (smoothInterval []) 0.0125 true).eval

theorem driftMap_eq (c : ℝ) :
    driftMap c = min 1 (max 0 ((1 - c) * (2 * (ivTerm 0 c + ivTerm 8 c) - 1))) := by
  unfold driftMap meanField
  rw [smoothInterval_eval, smoothInterval_eval]
  simp only [List.map_cons, List.map_nil, List.sum_cons, List.sum_nil, mul_one]
  congr 2
  ring

theorem leak_le_exp : leak ≤ 3 * Real.exp (-20) := by
  unfold leak
  have h : Real.exp (-19.68) = Real.exp 0.32 * Real.exp (-20) := by
    rw [← Real.exp_add]; norm_num
  rw [h]
  have h1 : Real.exp 0.32 ≤ Real.exp 1 := Real.exp_le_exp.2 (by norm_num)
  have h2 := Real.exp_one_lt_d9
  exact mul_le_mul_of_nonneg_right (by linarith) (Real.exp_pos _).le

theorem dead_leak {e : ℝ} (h0 : 0 ≤ e) (h1 : e ≤ 1 / 1000) :
    ivTerm 0 e + ivTerm 8 e ≤ 1 - Real.exp (-20) / 4 := by
  have hE := Real.exp_pos (-20)
  have a1 : ivTerm 0 e ≤ 1 - Real.exp (-20) / 2 := by
    have b1 : Real.exp (-20) / 2 ≤ sigmoid1 ((2 * ((0 : ℕ) : ℝ) + 1) / 16) 0.0125 e := by
      unfold sigmoid1
      have c1 : Real.exp (-4 * (e - (2 * ((0 : ℕ) : ℝ) + 1) / 16) / 0.0125) ≤ Real.exp 20 :=
        Real.exp_le_exp.2 (by
          push_cast; rw [div_le_iff₀ (by norm_num)]; norm_num; linarith)
      have c2 : (1 : ℝ) ≤ Real.exp 20 := Real.one_le_exp (by norm_num)
      have c3 := Real.exp_pos (-4 * (e - (2 * ((0 : ℕ) : ℝ) + 1) / 16) / 0.0125)
      rw [Real.exp_neg, inv_eq_one_div, div_div]
      exact one_div_le_one_div_of_le (by linarith) (by linarith)
    have b2 := sigmoid1_lt_one ((2 * ((0 : ℕ) : ℝ) - 1) / 16) 0.0125 e
    have b3 := sigmoid1_pos ((2 * ((0 : ℕ) : ℝ) - 1) / 16) 0.0125 e
    have b4 := sigmoid1_lt_one ((2 * ((0 : ℕ) : ℝ) + 1) / 16) 0.0125 e
    unfold ivTerm
    nlinarith
  have a2 : ivTerm 8 e ≤ Real.exp (-20) / 4 := by
    have b1 := sigmoid1_le_exp ((2 * ((8 : ℕ) : ℝ) - 1) / 16) e
    have b2 : Real.exp (320 * (e - (2 * ((8 : ℕ) : ℝ) - 1) / 16)) ≤ Real.exp (-22) :=
      Real.exp_le_exp.2 (by push_cast; linarith)
    have b3 : Real.exp (-22) ≤ Real.exp (-20) / 4 := by
      have c1 : Real.exp (-20) = Real.exp 1 ^ 2 * Real.exp (-22) := by
        rw [← Real.exp_nat_mul, ← Real.exp_add]; norm_num
      have c2 := Real.exp_one_gt_d9
      have c3 := Real.exp_pos (-22)
      rw [c1]
      nlinarith [mul_pos c3 (by linarith : (0:ℝ) < Real.exp 1)]
    have b4 := sigmoid1_pos ((2 * ((8 : ℕ) : ℝ) + 1) / 16) 0.0125 e
    have b5 := sigmoid1_pos ((2 * ((8 : ℕ) : ℝ) - 1) / 16) 0.0125 e
    unfold ivTerm
    nlinarith
  linarith

/-- Two steps of B08/S near the dead state push the deviation up by a fixed amount. -/
theorem drift_two {e : ℝ} (h0 : 0 ≤ e) (h1 : e ≤ 1 / 1000)
    (h2 : |driftMap e - 1| ≤ 1 / 1000) :
    e + Real.exp (-20) / 8 ≤ driftMap (driftMap e) := by
  have hl := leak_le
  have hp := leak_pos
  have hE := Real.exp_pos (-20)
  have hlE := leak_le_exp
  have q1 := dead_leak h0 h1
  have q2 : 1 - 2 * leak ≤ ivTerm 0 e :=
    ivTerm_near (k := 0) (by rw [abs_le]; push_cast; constructor <;> linarith)
  have q3 := ivTerm_nonneg 8 e
  have q4 := ivTerm_nonneg 0 (driftMap e)
  have q5 : 1 - 2 * leak ≤ ivTerm 8 (driftMap e) := ivTerm_near (k := 8) (by
    push_cast; rw [abs_le] at h2 ⊢; constructor <;> linarith)
  have v1 : driftMap e = (1 - e) * (2 * (ivTerm 0 e + ivTerm 8 e) - 1) := by
    rw [driftMap_eq, max_eq_right, min_eq_right]
    · nlinarith
    · exact mul_nonneg (by linarith) (by linarith)
  set q := ivTerm 0 e + ivTerm 8 e
  have w1 : e + Real.exp (-20) / 2 * (1 - e) ≤ 1 - driftMap e := by rw [v1]; nlinarith
  have w2 : 1 - driftMap e ≤ 1 / 1000 := by rw [abs_le] at h2; linarith
  have w3 : 0 ≤ 1 - driftMap e := by nlinarith
  rw [driftMap_eq (driftMap e)]
  refine le_min (by nlinarith) (le_trans ?_ (le_max_right _ _))
  have w4 : (1 - driftMap e) * (1 - 4 * leak) ≤
      (1 - driftMap e) * (2 * (ivTerm 0 (driftMap e) + ivTerm 8 (driftMap e)) - 1) :=
    mul_le_mul_of_nonneg_left (by linarith) w3
  refine le_trans ?_ w4
  have w5 : (1 - driftMap e) * (4 * leak) ≤ 1 / 1000 * (12 * Real.exp (-20)) :=
    mul_le_mul w2 (by linarith) (by linarith) (by norm_num)
  have w6 : Real.exp (-20) * e ≤ Real.exp (-20) * (1 / 1000) := mul_le_mul_of_nonneg_left h1 hE.le
  nlinarith

/-- C22, the exception: the rule B08/S (birth not contained in survival) is not simulated for
ever.  On every torus the all-dead pattern, which the true rule turns into an all-alive/all-dead
blinker, drifts until some generation is more than `10⁻³` off. -/
theorem life_general_refuted (hN : 1 ≤ N) (hH : 1 ≤ H) (hW : 1 ≤ W) :
    ¬ ∀ n, ∃ r, iterate CCA.forward n (lifeCA [0, 8] [])
        (ofBits fun (_ : Fin N) (_ : Fin H) (_ : Fin W) => false) = .ok r ∧
      Near (1 / 1000) r.1 (fun _ => (lifeStep [0, 8] [])^[n] fun _ _ => false) := by
  intro h
  have hκ : ∑ a, ∑ b, mooreLike 1 a b = 1 := by
    have h3 : ∀ a b : Fin 3, mooreLike 1 a b = if a.val = 1 ∧ b.val = 1 then 0 else 1 / 8 :=
      mooreLike_one
    show ∑ a : Fin 3, ∑ b : Fin 3, mooreLike 1 a b = 1
    simp only [Fin.sum_univ_three, h3]
    norm_num
  have key : ∀ n, |driftMap^[n] 0 - bit ((lifeStep [0, 8] [])^[n]
      (fun (_ : Fin H) (_ : Fin W) => false) ⟨0, hH⟩ ⟨0, hW⟩)| ≤ 1 / 1000 := by
    intro n
    obtain ⟨r, h1, h2⟩ := h n
    have h3 := cca_mean_field (N := N) (H := H) (W := W) 3 (mooreLike 1) _ _ 1 0.1 1 n 0 0 r (by
      have : ofBits (fun (_ : Fin N) (_ : Fin H) (_ : Fin W) => false) = fun _ _ _ _ => 0 := by
        funext n e i j; simp [ofBits, bit]
      rw [← this]; exact h1)
    have := h2 ⟨0, hN⟩ ⟨0, hH⟩ ⟨0, hW⟩
    rw [h3] at this
    have e1 : (∑ a : Fin 3, ∑ b : Fin 3, mooreLike 1 a b) = 1 := hκ
    rw [e1] at this
    exact this
  have even : ∀ n, |driftMap^[2 * n] 0 - 0| ≤ 1 / 1000 := by
    intro n; have := key (2 * n); rw [blink] at this; simpa [bit] using this
  have odd : ∀ n, |driftMap^[2 * n + 1] 0 - 1| ≤ 1 / 1000 := by
    intro n; have := key (2 * n + 1); rw [blink_odd] at this; simpa [bit] using this
  have grow : ∀ n : ℕ, n * (Real.exp (-20) / 8) ≤ driftMap^[2 * n] 0 := by
    intro n
    induction n with
    | zero => simp
    | succ n ih =>
      have e1 := even n
      have o1 := odd n
      rw [Function.iterate_succ_apply'] at o1
      rw [sub_zero, abs_le] at e1
      have hE := Real.exp_pos (-20)
      have := drift_two (le_trans (by positivity) ih) e1.2 o1
      rw [show 2 * (n + 1) = 2 * n + 1 + 1 by ring, Function.iterate_succ_apply',
        Function.iterate_succ_apply']
      push_cast
      linarith
  have hE := Real.exp_pos (-20)
  obtain ⟨n, hn⟩ := exists_nat_gt (1 / 1000 / (Real.exp (-20) / 8))
  rw [div_lt_iff₀ (by positivity)] at hn
  have := grow n
  have e1 := even n
  rw [sub_zero, abs_le] at e1
  linarith

end Yuca
