import Verif.Props.MorleyNotebook
import Verif.Props.Patterns
import Verif.Props.StepFrames
import Verif.Props.Stored
import Verif.Model.Figures

/-!
# C135: what the figures of two notebooks show

Exact real arithmetic where reals occur.
-/

namespace Yuca

open Arith Spec

/-! ## The timelapse -/

section Lapse

variable {K : Type} [Field K]

/-- The cell in row `a` and column `b` of the panel `(jj, ii)` is not on a line. -/
structure Spec.InPanel (dim jj ii a b : Nat) : Prop where
  rowHi : a < dim
  colHi : b < dim
  row : 0 < a
  col : 0 < b
  lastRow : jj * dim + a ≠ 3 * dim - 1
  lastCol : ii * dim + b ≠ 3 * dim - 1

theorem panel_ne {dim p q a : Nat} (ha : a < dim) (h : q * dim ≤ p * dim + a)
    (h' : p * dim + a < q * dim + dim) : q = p := by
  rcases Nat.lt_trichotomy q p with hlt | heq | hgt
  · have : (q + 1) * dim ≤ p * dim := Nat.mul_le_mul_right _ hlt
    rw [Nat.add_mul] at this
    omega
  · exact heq
  · have : (p + 1) * dim ≤ q * dim := Nat.mul_le_mul_right _ hgt
    rw [Nat.add_mul] at this
    omega

theorem line_ne {dim p q a : Nat} (ha : a < dim) (h0 : 0 < a) : p * dim + a ≠ q * dim := by
  intro h
  have := panel_ne ha (by omega : q * dim ≤ p * dim + a) (by omega)
  subst this
  omega

theorem lapseRound_other (step : (Nat → Nat → K) → Nat → Nat → K) {dim jj ii a b : Nat}
    (s : (Nat → Nat → K) × (Nat → Nat → K)) (p : Nat × Nat) (hp : p ≠ (jj, ii)) (hp3 : p.1 < 3)
    (ha : a < dim) (hb : b < dim) (h0 : 0 < a) (h1 : 0 < b) :
    (lapseRound step dim s p).1 (jj * dim + a) (ii * dim + b) =
      s.1 (jj * dim + a) (ii * dim + b) := by
  unfold lapseRound
  simp only [colLine, rowLine, setBlock]
  rw [if_neg (line_ne hb h1), if_neg (line_ne ha h0), if_neg]
  rw [Nat.mod_eq_of_lt hp3]
  rintro ⟨⟨h2, h3⟩, h4, h5⟩
  apply hp
  have e1 := panel_ne ha h2 h3
  have e2 := panel_ne hb h4 h5
  exact Prod.ext e1 e2

theorem lapseRound_self (step : (Nat → Nat → K) → Nat → Nat → K) {dim jj ii a b : Nat}
    (s : (Nat → Nat → K) × (Nat → Nat → K)) (hp3 : jj < 3)
    (ha : a < dim) (hb : b < dim) (h0 : 0 < a) (h1 : 0 < b) :
    (lapseRound step dim s (jj, ii)).1 (jj * dim + a) (ii * dim + b) =
      s.2 a b * (4 + ii * jj) / 8 := by
  unfold lapseRound
  simp only [colLine, rowLine, setBlock]
  rw [if_neg (line_ne hb h1), if_neg (line_ne ha h0), Nat.mod_eq_of_lt hp3, if_pos (by omega)]
  simp

theorem lapse_grid (step : (Nat → Nat → K) → Nat → Nat → K) (dim : Nat) (l : List (Nat × Nat))
    (s : (Nat → Nat → K) × (Nat → Nat → K)) :
    (l.foldl (lapseRound step dim) s).2 = step^[19 * l.length] s.2 := by
  induction l generalizing s with
  | nil => rfl
  | cons p l ih =>
    rw [List.foldl_cons, ih]
    show step^[19 * l.length] (step^[19] s.2) = _
    rw [← Function.iterate_add_apply, List.length_cons]
    congr 1

theorem lapse_others (step : (Nat → Nat → K) → Nat → Nat → K) {dim jj ii a b : Nat}
    (l : List (Nat × Nat)) (s : (Nat → Nat → K) × (Nat → Nat → K)) (hl : (jj, ii) ∉ l)
    (h3 : ∀ p ∈ l, p.1 < 3) (ha : a < dim) (hb : b < dim) (h0 : 0 < a) (h1 : 0 < b) :
    (l.foldl (lapseRound step dim) s).1 (jj * dim + a) (ii * dim + b) =
      s.1 (jj * dim + a) (ii * dim + b) := by
  induction l generalizing s with
  | nil => rfl
  | cons p l ih =>
    rw [List.foldl_cons, ih _ (fun h => hl (List.mem_cons_of_mem _ h))
      (fun q hq => h3 q (List.mem_cons_of_mem _ hq))]
    exact lapseRound_other step s p (fun h => hl (h ▸ List.mem_cons_self)) (h3 p List.mem_cons_self)
      ha hb h0 h1

/-- C135: the panel in row `jj` and column `ii` of the timelapse shows, away from its lines, the
grid after `19 (3 jj + ii)` steps, dimmed by `(4 + ii jj) / 8`: for every automaton, grid and
size. -/
theorem timelapse_panel (step : (Nat → Nat → K) → Nat → Nat → K) (grid : Nat → Nat → K)
    {dim jj ii a b : Nat} (hj : jj < 3) (hi : ii < 3) (h : InPanel dim jj ii a b) :
    timelapse step dim grid (jj * dim + a) (ii * dim + b) =
      step^[19 * (3 * jj + ii)] grid a b * (4 + ii * jj) / 8 := by
  obtain ⟨ha, hb, h0, h1, h2, h3⟩ := h
  have key : ∀ l₁ l₂ : List (Nat × Nat), lapseOrder = l₁ ++ (jj, ii) :: l₂ → (jj, ii) ∉ l₂ →
      l₁.length = 3 * jj + ii →
      timelapse step dim grid (jj * dim + a) (ii * dim + b) =
        step^[19 * (3 * jj + ii)] grid a b * (4 + ii * jj) / 8 := by
    intro l₁ l₂ hl hn hlen
    have h9 : ∀ p ∈ lapseOrder, p.1 < 3 := by decide
    unfold timelapse
    simp only [colLine, rowLine]
    rw [if_neg h3, if_neg h2, hl, List.foldl_append, List.foldl_cons,
      lapse_others step l₂ _ hn (fun p hp => h9 p (by rw [hl]; simp [hp])) ha hb h0 h1,
      lapseRound_self step _ hj ha hb h0 h1, lapse_grid, hlen]
  interval_cases jj <;> interval_cases ii
  · exact key [] _ rfl (by decide) rfl
  · exact key [(0, 0)] _ rfl (by decide) rfl
  · exact key [(0, 0), (0, 1)] _ rfl (by decide) rfl
  · exact key [(0, 0), (0, 1), (0, 2)] _ rfl (by decide) rfl
  · exact key [(0, 0), (0, 1), (0, 2), (1, 0)] _ rfl (by decide) rfl
  · exact key [(0, 0), (0, 1), (0, 2), (1, 0), (1, 1)] _ rfl (by decide) rfl
  · exact key [(0, 0), (0, 1), (0, 2), (1, 0), (1, 1), (1, 2)] _ rfl (by decide) rfl
  · exact key [(0, 0), (0, 1), (0, 2), (1, 0), (1, 1), (1, 2), (2, 0)] _ rfl (by decide) rfl
  · exact key [(0, 0), (0, 1), (0, 2), (1, 0), (1, 1), (1, 2), (2, 0), (2, 1)] _ rfl (by decide) rfl

example : InPanel 26 2 2 24 1 := by constructor <;> decide

theorem lapseRound_row (step : (Nat → Nat → K) → Nat → Nat → K) {dim r y x : Nat} (hd : 0 < dim)
    (s : (Nat → Nat → K) × (Nat → Nat → K)) (p : Nat × Nat) (hp3 : p.1 < 3) (hy : y = r * dim)
    (h : p.1 = r ∨ s.1 y x = 1 / 10) : (lapseRound step dim s p).1 y x = 1 / 10 := by
  unfold lapseRound
  simp only [colLine, rowLine, setBlock]
  split
  · rfl
  split
  · rfl
  rename_i h1 h2
  rw [if_neg]
  · rcases h with h | h
    · exact absurd (by rw [hy, h]) h2
    · exact h
  · rw [Nat.mod_eq_of_lt hp3]
    rintro ⟨⟨h3, h4⟩, _⟩
    have := panel_ne (p := r) (a := 0) hd (by omega : p.1 * dim ≤ r * dim + 0) (by omega)
    exact h2 (by rw [hy, this])

theorem lapseRound_col (step : (Nat → Nat → K) → Nat → Nat → K) {dim c y x : Nat} (hd : 0 < dim)
    (s : (Nat → Nat → K) × (Nat → Nat → K)) (p : Nat × Nat) (hx : x = c * dim)
    (h : p.2 = c ∨ s.1 y x = 1 / 10) : (lapseRound step dim s p).1 y x = 1 / 10 := by
  unfold lapseRound
  simp only [colLine, rowLine, setBlock]
  split
  · rfl
  split
  · rfl
  rename_i h1 h2
  rw [if_neg]
  · rcases h with h | h
    · exact absurd (by rw [hx, h]) h1
    · exact h
  · rintro ⟨_, h3, h4⟩
    have := panel_ne (p := c) (a := 0) hd (by omega : p.2 * dim ≤ c * dim + 0) (by omega)
    exact h1 (by rw [hx, this])

/-- C135: the lines: the first row and the first column of every panel and the last row and column
of the picture are 0.1, so these cells of the grid are not shown. -/
theorem timelapse_lines (step : (Nat → Nat → K) → Nat → Nat → K) (grid : Nat → Nat → K)
    {dim : Nat} (hd : 0 < dim) (y x k : Nat) (hk : k < 3)
    (h : y = k * dim ∨ x = k * dim ∨ y = 3 * dim - 1 ∨ x = 3 * dim - 1) :
    timelapse step dim grid y x = 1 / 10 := by
  unfold timelapse
  simp only [colLine, rowLine]
  split
  · rfl
  split
  · rfl
  rename_i h1 h2
  have h9 : ∀ p ∈ lapseOrder, p.1 < 3 := by decide
  have gen : ∀ (P : Nat × Nat → Prop),
      (∀ s p, p ∈ lapseOrder → P p ∨ s.1 y x = 1 / 10 →
        (lapseRound step dim s p).1 y x = 1 / 10) →
      ∀ (l : List (Nat × Nat)) (s : (Nat → Nat → K) × (Nat → Nat → K)), l ⊆ lapseOrder →
        (∃ p ∈ l, P p) ∨ s.1 y x = 1 / 10 → (l.foldl (lapseRound step dim) s).1 y x = 1 / 10 := by
    intro P hP l
    induction l with
    | nil => intro s _ h; rcases h with ⟨p, hp, _⟩ | h; cases hp; exact h
    | cons q l ih =>
      intro s hl h
      rw [List.foldl_cons]
      refine ih _ (fun p hp => hl (List.mem_cons_of_mem _ hp)) ?_
      rcases h with ⟨p, hp, hpp⟩ | h
      · rcases List.mem_cons.1 hp with rfl | hp
        · exact .inr (hP _ _ (hl List.mem_cons_self) (.inl hpp))
        · exact .inl ⟨p, hp, hpp⟩
      · exact .inr (hP _ _ (hl List.mem_cons_self) (.inr h))
  rcases h with h | h | h | h
  · refine gen (fun p => p.1 = k) (fun s p hp hs => ?_) lapseOrder _ (fun _ h => h) (.inl ?_)
    · exact lapseRound_row step hd s p (h9 p hp) h hs
    · interval_cases k <;> decide
  · refine gen (fun p => p.2 = k) (fun s p hp hs => ?_) lapseOrder _ (fun _ h => h) (.inl ?_)
    · exact lapseRound_col step hd s p h hs
    · interval_cases k <;> decide
  · exact absurd h h2
  · exact absurd h h1

/-- C135: the numbers written into the panels are the numbers of steps: a note that stands in the
panel `(jj, ii)` says `19 (3 jj + ii)`, and every panel has one. -/
theorem timelapse_notes : (∀ n ∈ lapseNotes, ∀ jj ii : Nat,
      (ii * 26 ≤ n.1 ∧ n.1 < ii * 26 + 26) → (jj * 26 ≤ n.2.1 ∧ n.2.1 < jj * 26 + 26) →
        n.2.2 = 19 * (3 * jj + ii)) ∧
    ∀ jj : Nat, jj < 3 → ∀ ii : Nat, ii < 3 → ∃ n ∈ lapseNotes,
      ((ii : ℚ) * 26 ≤ n.1 ∧ n.1 < ii * 26 + 26) ∧ (jj : ℚ) * 26 ≤ n.2.1 ∧ n.2.1 < jj * 26 + 26 := by
  have aux : ∀ (m k : Nat) (c : ℚ), 0 ≤ c → c < 26 → (k * 26 : ℚ) ≤ c + m * 26 →
      c + m * 26 < k * 26 + 26 → k = m := by
    intro m k c h0 h1 h2 h3
    have a1 : (k : ℚ) < m + 1 := by linarith
    have a2 : (m : ℚ) < k + 1 := by linarith
    have b1 : k < m + 1 := by exact_mod_cast a1
    have b2 : m < k + 1 := by exact_mod_cast a2
    omega
  constructor
  · intro n hn jj ii h1 h2
    simp only [lapseNotes, List.mem_flatMap, List.mem_map, List.mem_range] at hn
    obtain ⟨i, _, j, _, rfl⟩ := hn
    simp only at h1 h2 ⊢
    have e1 := aux i ii _ (by norm_num) (by norm_num) h1.1 h1.2
    have e2 := aux j jj _ (by norm_num) (by norm_num) h2.1 h2.2
    subst e1 e2
    ring
  · intro jj hj ii hi
    refine ⟨((3 / 2 + (ii : ℚ) * 26 : ℚ), (11 / 2 + (jj : ℚ) * 26 : ℚ), ((ii + 3 * jj) * 19 : ℕ)), ?_, ?_⟩
    · simp only [lapseNotes, List.mem_flatMap, List.mem_map, List.mem_range]
      exact ⟨ii, hi, jj, hj, rfl⟩
    · constructor <;> constructor <;> simp only <;> linarith

end Lapse

/-! ## The timelapse of the puffer -/

/-- A universe of one grid read at any row and column. -/
noncomputable def Spec.spread {dim : Nat} (u : Univ ℝ 1 1 dim dim) : Nat → Nat → ℝ :=
  fun y x => if h : y < dim ∧ x < dim then u 0 0 ⟨y, h.1⟩ ⟨x, h.2⟩ else 0

theorem spread_back {dim : Nat} (u : Univ ℝ 1 1 dim dim) :
    (fun _ _ i j => spread u i.val j.val : Univ ℝ 1 1 dim dim) = u := by
  funext n e i j
  have hn : n = 0 := Subsingleton.elim _ _
  have he : e = 0 := Subsingleton.elim _ _
  subst hn he
  simp [spread]

theorem onceOn_run (ca : CCA ℝ 1 1) {dim : Nat} (n : Nat) :
    ∀ (t : ℝ) (u : Univ ℝ 1 1 dim dim) r, iterate CCA.forward n { ca with t := t } u = .ok r →
      (onceOn ca dim)^[n] (spread u) = spread r.1 := by
  induction n with
  | zero =>
    intro t u r h
    simp only [iterate, Except.ok.injEq] at h
    rw [← h]; rfl
  | succ n ih =>
    intro t u r h
    simp only [iterate, bind, Except.bind] at h
    rw [cca_clock_only] at h
    cases hf : ca.forward u with
    | error e => rw [hf] at h; simp [Except.map] at h
    | ok q =>
      rw [hf] at h
      simp only [Except.map] at h
      rw [Function.iterate_succ_apply]
      have e : onceOn ca dim (spread u) = spread q.1 := by
        unfold onceOn
        rw [spread_back, hf]
        rfl
      rw [e]
      exact ih _ _ _ h

theorem pufferGrid_eq : pufferGrid = spread
    (ofBits fun _ => (onTorus pufferCells 8 5 : Fin 26 → Fin 26 → Bool) : Univ ℝ 1 1 26 26) := by
  have hp : ∀ c ∈ pufferCells, 0 ≤ c.1 ∧ c.1 < 8 ∧ 0 ≤ c.2 ∧ c.2 < 8 := by decide
  rw [← stamp_bits getPuffer_cells hp (by omega) (by omega)]
  funext y x
  unfold pufferGrid spread
  by_cases h : (8 ≤ y ∧ y < 16) ∧ 5 ≤ x ∧ x < 13
  · rw [dif_pos h, dif_pos (by omega)]
    simp only [stamp]
    rw [dif_pos (by push_cast; omega)]
    congr 1 <;> apply Fin.ext <;> push_cast <;> omega
  · rw [dif_neg h]
    by_cases h2 : y < 26 ∧ x < 26
    · rw [dif_pos h2]
      simp only [stamp]
      rw [dif_neg (by push_cast; omega)]
    · rw [dif_neg h2]

/-- C135: the nine panels of the puffer's timelapse: every cell away from the lines is, up to
`10⁻⁴`, the cell of the Morley run on 26 by 26 cells after `19 (3 jj + ii)` steps, dimmed. -/
theorem timelapse_morley {jj ii a b : Nat} (hj : jj < 3) (hi : ii < 3)
    (h : InPanel 26 jj ii a b) :
    |timelapse (onceOn (lifeCA [3, 6, 8] [2, 4, 5]) 26) 26 pufferGrid (jj * 26 + a) (ii * 26 + b) -
      bit ((lifeStep [3, 6, 8] [2, 4, 5])^[19 * (3 * jj + ii)] (onTorus pufferCells 8 5)
        (⟨a, h.rowHi⟩ : Fin 26) (⟨b, h.colHi⟩ : Fin 26)) * (4 + ii * jj) / 8| ≤ 1 / 10000 := by
  rw [timelapse_panel _ _ hj hi h]
  obtain ⟨r, h1, h2⟩ := life_any_rule (N := 1) [3, 6, 8] [2, 4, 5] (by simp [RuleList])
    (by simp [RuleList]) (by omega : 1 ≤ 26) (by omega : 1 ≤ 26)
    (fun _ => (onTorus pufferCells 8 5 : Fin 26 → Fin 26 → Bool)) (19 * (3 * jj + ii)) (by omega)
  have h3 := onceOn_run (lifeCA [3, 6, 8] [2, 4, 5]) (19 * (3 * jj + ii)) 0 _ _ h1
  rw [pufferGrid_eq, h3]
  have h4 := h2 0 ⟨a, h.rowHi⟩ ⟨b, h.colHi⟩
  simp only at h4
  have e : spread r.1 a b = r.1 0 0 ⟨a, h.rowHi⟩ ⟨b, h.colHi⟩ := by
    unfold spread
    rw [dif_pos ⟨h.rowHi, h.colHi⟩]
  rw [e]
  set v := r.1 0 0 ⟨a, h.rowHi⟩ ⟨b, h.colHi⟩
  set w := bit ((lifeStep [3, 6, 8] [2, 4, 5])^[19 * (3 * jj + ii)] (onTorus pufferCells 8 5)
        (⟨a, h.rowHi⟩ : Fin 26) (⟨b, h.colHi⟩ : Fin 26))
  have hm : ((19 * (3 * jj + ii) : ℕ) : ℝ) ≤ 152 := by exact_mod_cast (by omega)
  have hc : ((4 : ℝ) + ii * jj) / 8 ≤ 1 := by
    have : ((ii * jj : ℕ) : ℝ) ≤ 4 := by
      exact_mod_cast (by nlinarith : ii * jj ≤ 4)
    push_cast at this
    linarith
  have hc0 : (0 : ℝ) ≤ (4 + ii * jj) / 8 := by positivity
  rw [show v * (4 + ii * jj) / 8 - w * (4 + ii * jj) / 8 = (v - w) * ((4 + ii * jj) / 8) by ring,
    abs_mul, abs_of_nonneg hc0]
  calc |v - w| * ((4 + ii * jj) / 8) ≤ |v - w| * 1 :=
        mul_le_mul_of_nonneg_left hc (abs_nonneg _)
    _ ≤ 1 / 10000 := by
        rw [mul_one]
        refine h4.trans ?_
        linarith

/-! ## "Morley Puffer in Lenia (all time steps)" -/

variable {H W : Nat}

theorem halfLenia_cell (birth survival : List Nat) (x : Grid ℝ H W) (i : Fin H) (j : Fin W) :
    halfLenia birth survival x i j = nbClip (x i j +
      (cellGrowth birth (nbConv 1 (mooreLike 1) x i j) / 2 +
        cellGrowth survival (nbConv 1 (mooreLike 1) x i j) / 2)) := by
  unfold halfLenia nbUpdateFn
  norm_num

theorem halfLenia_step {birth survival : List Nat} (hB : RuleList birth)
    (hS : RuleList survival) {ε : ℝ} (hε : ε ≤ 1 / 1000) {x : Grid ℝ H W}
    {s : Fin H → Fin W → Bool} (h : GridNear ε x s) :
    GridNear (ε + 36 * leak) (halfLenia birth survival x)
      (lifeStep (inBoth birth survival) (birth ++ survival) s) := by
  intro i j
  rw [halfLenia_cell]
  refine ⟨(nbClip_unit _).1, (nbClip_unit _).2, ?_⟩
  rw [nbClip_clamp]
  have hl := leak_pos
  have hl2 := leak_le
  have hx := (nbConv_close h i j).trans hε
  have hG := rule_growth hB hx
  have hP := rule_growth hS hx
  obtain ⟨h0, h1, h2⟩ := h i j
  have hε0 : 0 ≤ ε := (abs_nonneg _).trans h2
  rw [abs_le] at h2
  simp only [lifeStep, inBoth, List.mem_filter, List.mem_append, decide_eq_true_eq]
  unfold cellGrowth
  set n := nbConv 1 (mooreLike 1) x i j
  set k := aliveNeighbours s i j
  set G := (Act.smoothIntervals (smoothInterval birth) 0.0125 true).eval n
  set P := (Act.smoothIntervals (smoothInterval survival) 0.0125 true).eval n
  have t1 : bit true = 1 := rfl
  have t0 : bit false = 0 := rfl
  have keep : (-(36 * leak) ≤ G / 2 + P / 2 ∧ G / 2 + P / 2 ≤ 36 * leak) →
      |clamp01 (x i j + (G / 2 + P / 2)) - bit (s i j)| ≤ ε + 36 * leak := by
    rintro ⟨a, b⟩
    cases hsc : s i j
    · rw [hsc, t0] at h2
      rw [t0, sub_zero]
      exact clamp_near_zero (by linarith) (by linarith)
    · rw [hsc, t1] at h2
      rw [t1]
      exact clamp_near_one (by linarith) (by linarith)
  by_cases hb : k ∈ birth
  · obtain ⟨g1, g2⟩ := hG.1 hb
    by_cases hs : k ∈ survival
    · obtain ⟨p1, p2⟩ := hP.1 hs
      have e : bit (if s i j = true then decide (k ∈ birth ∨ k ∈ survival)
          else decide (k ∈ birth ∧ k ∈ survival)) = 1 := by
        simp [hb, hs, bit]
      rw [e]
      exact clamp_near_one (by linarith) (by linarith)
    · obtain ⟨p1, p2⟩ := hP.2 hs
      have e : bit (if s i j = true then decide (k ∈ birth ∨ k ∈ survival)
          else decide (k ∈ birth ∧ k ∈ survival)) = bit (s i j) := by
        cases s i j <;> simp [hb, hs, bit]
      rw [e]
      exact keep ⟨by linarith, by linarith⟩
  · obtain ⟨g1, g2⟩ := hG.2 hb
    by_cases hs : k ∈ survival
    · obtain ⟨p1, p2⟩ := hP.1 hs
      have e : bit (if s i j = true then decide (k ∈ birth ∨ k ∈ survival)
          else decide (k ∈ birth ∧ k ∈ survival)) = bit (s i j) := by
        cases s i j <;> simp [hb, hs, bit]
      rw [e]
      exact keep ⟨by linarith, by linarith⟩
    · obtain ⟨p1, p2⟩ := hP.2 hs
      have e : bit (if s i j = true then decide (k ∈ birth ∨ k ∈ survival)
          else decide (k ∈ birth ∧ k ∈ survival)) = 0 := by
        simp [hb, hs, bit]
      rw [e, sub_zero]
      exact clamp_near_zero (by linarith) (by linarith)

/-- C135: Lenia with the growth function drawn for Morley runs the rule born on the counts of both
lists and surviving on those of either. -/
theorem half_lenia (birth survival : List Nat) (hB : RuleList birth) (hS : RuleList survival)
    (s : Fin H → Fin W → Bool) (n : Nat) (hn : n ≤ 2500) :
    GridNear (n * (4 / 10000000)) ((halfLenia birth survival)^[n] fun i j => bit (s i j))
      ((lifeStep (inBoth birth survival) (birth ++ survival))^[n] s) := by
  induction n with
  | zero =>
    intro i j
    have := bits_near s i j
    simpa using this
  | succ n ih =>
    have hn' : ((n + 1 : ℕ) : ℝ) ≤ 2500 := by exact_mod_cast hn
    push_cast at hn'
    have h1 := ih (by omega)
    rw [Function.iterate_succ_apply', Function.iterate_succ_apply']
    have h2 := halfLenia_step hB hS (by linarith) h1
    have hl2 := leak_le
    intro i j
    obtain ⟨a, b, c⟩ := h2 i j
    refine ⟨a, b, c.trans ?_⟩
    push_cast
    linarith

/-- C135: the left picture, titled "Morley Puffer in Lenia (all time steps)", is right: the puffer
stands still, up to `4·10⁻⁷` per step, for 2500 steps. -/
theorem puffer_still_lenia (n : Nat) (hn : n ≤ 2500) :
    GridNear (n * (4 / 10000000)) ((halfLenia [3, 6, 8] [2, 4, 5])^[n]
        fun i j => bit ((onTorus pufferCells 8 5 : Fin 26 → Fin 26 → Bool) i j))
      (onTorus pufferCells 8 5) := by
  have h := half_lenia [3, 6, 8] [2, 4, 5] (by simp [RuleList]) (by simp [RuleList])
    (onTorus pufferCells 8 5 : Fin 26 → Fin 26 → Bool) n hn
  have e : lifeStep (inBoth [3, 6, 8] [2, 4, 5]) ([3, 6, 8] ++ [2, 4, 5])
      (onTorus pufferCells 8 5 : Fin 26 → Fin 26 → Bool) = onTorus pufferCells 8 5 := by
    have : ∀ i j, lifeStep (inBoth [3, 6, 8] [2, 4, 5]) ([3, 6, 8] ++ [2, 4, 5])
        (onTorus pufferCells 8 5 : Fin 26 → Fin 26 → Bool) i j = onTorus pufferCells 8 5 i j := by
      decide +kernel
    funext i j
    exact this i j
  rwa [Function.iterate_fixed e] at h

end Yuca
