import Verif.Model.StepNotebook
import Mathlib.Algebra.Order.Field.Basic
import Mathlib.Tactic.Positivity
import Mathlib.Algebra.Order.BigOperators.Group.Finset
import Mathlib.Algebra.Order.BigOperators.Ring.Finset
import Mathlib.Tactic.FieldSimp
import Mathlib.Tactic.Linarith
import Mathlib.Tactic.Ring
import Mathlib.Tactic.NormNum

namespace Yuca

open scoped BigOperators
open Finset

variable {K : Type} [Field K] [LinearOrder K] [IsStrictOrderedRing K] {H W : Nat}

/-! ## C132: centre of mass -/

/-- The mass of a grid. -/
def Spec.gridMass (g : Fin H → Fin W → K) : K := ∑ i, ∑ j, g i j

/-- The average column and the average row, weighted by the cells. -/
def Spec.IsCentre (g : Fin H → Fin W → K) (x y : K) : Prop :=
  x * Spec.gridMass g = ∑ i, ∑ j, g i j * (j.val : K) ∧
  y * Spec.gridMass g = ∑ i, ∑ j, g i j * (i.val : K)

/-- No live cell among the first `s` columns, and so on. -/
def Spec.Clear (g : Fin H → Fin W → K) (s : Nat) : Edge → Prop
  | .left => ∀ i j, j.val < s → g i j = 0
  | .right => ∀ i j, W ≤ j.val + s → g i j = 0
  | .top => ∀ i j, i.val < s → g i j = 0
  | .bottom => ∀ i j, H ≤ i.val + s → g i j = 0

/-- The strip on the other side. -/
def Spec.opposite : Edge → Edge
  | .left => .right | .right => .left | .top => .bottom | .bottom => .top

theorem sliceBound_front (n s : Nat) : sliceBound n s = min s n := by
  have : ¬ ((s : Int) < 0) := by omega
  simp [sliceBound, this]

theorem sliceBound_back {n s : Nat} (hs : 0 < s) : sliceBound n (-s) = n - s := by
  have : (-(s : Int)) < 0 := by omega
  simp only [sliceBound, this, if_true]
  omega

theorem partSum_nonneg {g : Fin H → Fin W → K} (hg : ∀ i j, 0 ≤ g i j) (P : Fin H → Fin W → Bool) :
    0 ≤ partSum g P :=
  sum_nonneg fun i _ => sum_nonneg fun j _ => by split <;> [exact hg i j; exact le_rfl]

theorem partSum_eq_zero {g : Fin H → Fin W → K} (hg : ∀ i j, 0 ≤ g i j) (P : Fin H → Fin W → Bool) :
    partSum g P = 0 ↔ ∀ i j, P i j = true → g i j = 0 := by
  have h0 : ∀ i j, 0 ≤ if P i j = true then g i j else 0 := fun i j => by
    split <;> [exact hg i j; exact le_rfl]
  unfold partSum
  rw [sum_eq_zero_iff_of_nonneg fun i _ => sum_nonneg fun j _ => h0 i j]
  constructor
  · intro h i j hp
    have := (sum_eq_zero_iff_of_nonneg fun j _ => h0 i j).1 (h i (mem_univ i)) j (mem_univ j)
    rwa [if_pos hp] at this
  · intro h i _
    refine sum_eq_zero fun j _ => ?_
    split
    · exact h i j ‹_›
    · rfl

theorem edge_clear {g : Fin H → Fin W → K} (hg : ∀ i j, 0 ≤ g i j) {s : Nat} (hs : 0 < s)
    (e : Edge) : edgeSum g s e = 0 ↔ Spec.Clear g s e := by
  unfold edgeSum
  rw [partSum_eq_zero hg]
  cases e <;> simp only [Edge.cells, Spec.Clear, decide_eq_true_eq, sliceBound_front,
    sliceBound_back hs] <;> refine forall_congr' fun i => forall_congr' fun j => ?_ <;>
    refine imp_congr_left ?_ <;> have := i.isLt <;> have := j.isLt <;> omega

/-- The part averaged over is the grid without the strip opposite to the heaviest one. -/
theorem comPart_eq {s : Nat} (hs : 0 < s) (e : Edge) (i : Fin H) (j : Fin W) :
    (comPart s (some e) i j = true) ↔ ¬ ((Spec.opposite e).cells s i j = true) := by
  cases e <;> simp only [comPart, Spec.opposite, Edge.cells, decide_eq_true_eq, sliceBound_front,
    sliceBound_back hs] <;> have := i.isLt <;> have := j.isLt <;> omega

omit [LinearOrder K] [IsStrictOrderedRing K] in
theorem partSum_whole (g : Fin H → Fin W → K) (P : Fin H → Fin W → Bool)
    (h : ∀ i j, P i j = false → g i j = 0) : partSum g P = Spec.gridMass g := by
  unfold partSum Spec.gridMass
  refine sum_congr rfl fun i _ => sum_congr rfl fun j _ => ?_
  cases hp : P i j
  · simp [h i j hp]
  · simp

theorem heaviest_spec {g : Fin H → Fin W → K} (hg : ∀ i j, 0 ≤ g i j) (s : Nat) :
    (heaviest g s = none → ∀ e, edgeSum g s e = 0) ∧
    (∀ e, heaviest g s = some e → 0 < edgeSum g s e ∧ ∀ e', edgeSum g s e' ≤ edgeSum g s e) := by
  have hn : ∀ e, 0 ≤ edgeSum g s e := fun e => partSum_nonneg hg _
  have hle : ∀ e, edgeSum g s e ≤ maxEdge g s := by
    intro e; cases e <;> simp [maxEdge]
  have hm : ∀ e, edgeSum g s e = maxEdge g s → maxEdge g s ≠ 0 →
      0 < edgeSum g s e ∧ ∀ e', edgeSum g s e' ≤ edgeSum g s e := fun e he h0 =>
    ⟨lt_of_le_of_ne (hn e) (by rw [he]; exact h0.symm), fun e' => he ▸ hle e'⟩
  constructor
  · intro h e
    have h0 : maxEdge g s = 0 := by
      by_contra h0
      unfold heaviest at h
      rw [if_neg h0] at h
      split at h
      · cases h
      split at h
      · cases h
      split at h
      · cases h
      · cases h
    exact le_antisymm (h0 ▸ hle e) (hn e)
  · intro e h
    unfold heaviest at h
    split at h
    · simp at h
    rename_i h0
    split at h
    · cases h; exact hm _ ‹_› h0
    split at h
    · cases h; exact hm _ ‹_› h0
    split at h
    · cases h; exact hm _ ‹_› h0
    · cases h
      refine hm _ ?_ h0
      rename_i a b c
      rcases max_choice (max (edgeSum g s .left) (edgeSum g s .right))
        (max (edgeSum g s .top) (edgeSum g s .bottom)) with h1 | h1
      · rcases max_choice (edgeSum g s .left) (edgeSum g s .right) with h2 | h2
        · exact absurd (by rw [maxEdge, h1, h2]) b
        · exact absurd (by rw [maxEdge, h1, h2]) a
      · rcases max_choice (edgeSum g s .top) (edgeSum g s .bottom) with h2 | h2
        · exact absurd (by rw [maxEdge, h1, h2]) c
        · rw [maxEdge, h1, h2]

omit [IsStrictOrderedRing K] in
/-- A weighted average over a part outside of which the grid is dead. -/
theorem com_of_part (g : Fin H → Fin W → K) (s : Nat) (hm : Spec.gridMass g ≠ 0)
    (h : ∀ i j, comPart s (heaviest g s) i j = false → g i j = 0) :
    ∃ x y, gridCentre g s = some (x, y) ∧ Spec.IsCentre g x y := by
  obtain ⟨P, hP⟩ : ∃ P : Fin H → Fin W → Bool, P = comPart s (heaviest g s) := ⟨_, rfl⟩
  have hw : partSum g P = Spec.gridMass g := partSum_whole g P (by rw [hP]; exact h)
  have key : ∀ f : Fin H → Fin W → K, partSum (fun i j => f i j * g i j / Spec.gridMass g) P * Spec.gridMass g
      = ∑ i, ∑ j, g i j * f i j := by
    intro f
    rw [partSum_whole _ P (fun i j hp => by rw [h i j (hP ▸ hp)]; simp), Spec.gridMass, sum_mul]
    refine sum_congr rfl fun i _ => ?_
    rw [sum_mul]
    refine sum_congr rfl fun j _ => ?_
    generalize Spec.gridMass g = m at hm
    field_simp
  refine ⟨_, _, ?_, key _, key _⟩
  unfold gridCentre
  simp only [← hP]
  rw [if_neg (by rw [hw]; exact hm), hw]

/-- C132, first part: if the live cells keep out of the left or the right margin and out of the top
or the bottom margin, `get_center_of_mass` is the centre of mass. -/
theorem com_exact {g : Fin H → Fin W → K} (hg : ∀ i j, 0 ≤ g i j) {s : Nat} (hs : 0 < s)
    (hlive : ∃ i j, g i j ≠ 0) (hx : Spec.Clear g s .left ∨ Spec.Clear g s .right)
    (hy : Spec.Clear g s .top ∨ Spec.Clear g s .bottom) :
    ∃ x y, gridCentre g s = some (x, y) ∧ Spec.IsCentre g x y := by
  refine com_of_part g s ?_ ?_
  · intro h0
    obtain ⟨i, j, h⟩ := hlive
    refine h ((partSum_eq_zero hg fun _ _ => true).1 ?_ i j rfl)
    rw [partSum_whole _ _ (by simp)]; exact h0
  · intro i j h
    cases he : heaviest g s with
    | none => rw [he] at h; simp [comPart] at h
    | some e =>
      rw [he] at h
      have hopp : (Spec.opposite e).cells s i j = true := by
        by_contra h'
        rw [(comPart_eq hs e i j).2 h'] at h
        simp at h
      have hnot : ¬ Spec.Clear g s e := by
        rw [← edge_clear hg hs]
        exact (((heaviest_spec hg s).2 e he).1).ne'
      have hc : Spec.Clear g s (Spec.opposite e) := by
        cases e
        · exact hx.resolve_left hnot
        · exact hx.resolve_right hnot
        · exact hy.resolve_left hnot
        · exact hy.resolve_right hnot
      exact (partSum_eq_zero hg _).1 ((edge_clear hg hs _).2 hc) i j hopp

/-- C132, second part: if the margins on opposite sides do not overlap, there is a value exactly
when some cell is alive. -/
theorem com_none_iff {g : Fin H → Fin W → K} (hg : ∀ i j, 0 ≤ g i j) {s : Nat} (hs : 0 < s)
    (hW : 2 * s ≤ W) (hH : 2 * s ≤ H) :
    gridCentre g s = none ↔ ∀ i j, g i j = 0 := by
  have h1 : gridCentre g s = none ↔ partSum g (comPart s (heaviest g s)) = 0 := by
    unfold gridCentre
    dsimp only
    split <;> simp_all
  rw [h1, partSum_eq_zero hg]
  refine ⟨fun h => ?_, fun h i j _ => h i j⟩
  cases he : heaviest g s with
  | none => rw [he] at h; exact fun i j => h i j rfl
  | some e =>
    exfalso
    have hpos := ((heaviest_spec hg s).2 e he).1
    refine hpos.ne' ((partSum_eq_zero hg _).2 fun i j hc => ?_)
    rw [he] at h
    refine h i j ((comPart_eq hs e i j).2 ?_)
    cases e <;> simp only [Spec.opposite, Edge.cells, decide_eq_true_eq, sliceBound_front,
      sliceBound_back hs] at hc ⊢ <;> omega

/-- C132, third part: the value is a point of the grid. -/
theorem com_in_grid {g : Fin H → Fin W → K} (hg : ∀ i j, 0 ≤ g i j) (s : Nat) {x y : K}
    (h : gridCentre g s = some (x, y)) :
    0 ≤ x ∧ x + 1 ≤ W ∧ 0 ≤ y ∧ y + 1 ≤ H := by
  obtain ⟨P, hP⟩ : ∃ P : Fin H → Fin W → Bool, P = comPart s (heaviest g s) := ⟨_, rfl⟩
  unfold gridCentre at h
  simp only [← hP] at h
  split at h
  · simp at h
  rename_i hne
  simp only [Option.some.injEq, Prod.mk.injEq] at h
  obtain ⟨hx, hy⟩ := h
  have hpos : 0 < partSum g P := lt_of_le_of_ne (partSum_nonneg hg P) (Ne.symm hne)
  have key : ∀ (f : Fin H → Fin W → K) (B : K), (∀ i j, 0 ≤ f i j ∧ f i j + 1 ≤ B) →
      0 ≤ partSum (fun i j => f i j * g i j / partSum g P) P ∧
      partSum (fun i j => f i j * g i j / partSum g P) P + 1 ≤ B := by
    intro f B hf
    refine ⟨partSum_nonneg (fun i j => div_nonneg (mul_nonneg (hf i j).1 (hg i j)) hpos.le) P, ?_⟩
    have h1 : partSum (fun i j => f i j * g i j / partSum g P) P ≤
        partSum (fun i j => (B - 1) * g i j / partSum g P) P := by
      refine sum_le_sum fun i _ => sum_le_sum fun j _ => ?_
      split
      · refine div_le_div_of_nonneg_right (mul_le_mul_of_nonneg_right ?_ (hg i j)) hpos.le
        linarith [(hf i j).2]
      · exact le_rfl
    have h2 : partSum (fun i j => (B - 1) * g i j / partSum g P) P = B - 1 := by
      have : ∀ c : K, partSum (fun i j => (B - 1) * g i j / c) P = (B - 1) / c * partSum g P := by
        intro c
        rw [partSum, partSum, mul_sum]
        refine sum_congr rfl fun i _ => ?_
        rw [mul_sum]
        refine sum_congr rfl fun j _ => ?_
        split
        · ring
        · simp
      rw [this, div_mul_cancel₀ _ hne]
    linarith
  obtain ⟨a1, a2⟩ := key (fun _ j => (j.val : K)) W fun i j => by
    refine ⟨by positivity, ?_⟩
    have := j.isLt
    exact_mod_cast this
  obtain ⟨b1, b2⟩ := key (fun i _ => (i.val : K)) H fun i j => by
    refine ⟨by positivity, ?_⟩
    have := i.isLt
    exact_mod_cast this
  subst hx hy
  exact ⟨a1, a2, b1, b2⟩

/-- `g'` is the pattern of `g` moved by `a` rows and `b` columns inside the grid. -/
def Spec.Moved (g g' : Fin H → Fin W → K) (a b : Int) : Prop :=
  (∀ i j, g i j ≠ 0 → ∃ i' j', (i'.val : Int) = i.val + a ∧ (j'.val : Int) = j.val + b ∧
    g' i' j' = g i j) ∧
  (∀ i' j', g' i' j' ≠ 0 → ∃ i j, (i'.val : Int) = i.val + a ∧ (j'.val : Int) = j.val + b ∧
    g' i' j' = g i j)

omit [IsStrictOrderedRing K] in
/-- A sum over the live cells follows the pattern. -/
theorem moved_sum {g g' : Fin H → Fin W → K} {a b : Int} (h : Spec.Moved g g' a b)
    (f : Int → Int → K) :
    ∑ i, ∑ j, g' i j * f i.val j.val = ∑ i, ∑ j, g i j * f (i.val + a) (j.val + b) := by
  rw [← sum_product', ← sum_product']
  symm
  have e1 : ∀ (F : Fin H × Fin W → K), ∑ p ∈ (univ ×ˢ univ : Finset (Fin H × Fin W)), F p =
      ∑ p ∈ (univ ×ˢ univ : Finset (Fin H × Fin W)) with F p ≠ 0, F p := fun F =>
    (sum_filter_ne_zero _).symm
  rw [e1 fun p => g p.1 p.2 * f (p.1.val + a) (p.2.val + b), e1 fun p => g' p.1 p.2 * f p.1.val p.2.val]
  have ex : ∀ p : Fin H × Fin W, g p.1 p.2 * f (p.1.val + a) (p.2.val + b) ≠ 0 →
      ∃ q : Fin H × Fin W, (q.1.val : Int) = p.1.val + a ∧ (q.2.val : Int) = p.2.val + b ∧
        g' q.1 q.2 = g p.1 p.2 := fun p hp => by
    obtain ⟨i', j', h1, h2, h3⟩ := h.1 p.1 p.2 (left_ne_zero_of_mul hp)
    exact ⟨(i', j'), h1, h2, h3⟩
  refine sum_bij (fun p hp => (ex p (mem_filter.1 hp).2).choose) ?_ ?_ ?_ ?_
  · intro p hp
    obtain ⟨h1, h2, h3⟩ := (ex p (mem_filter.1 hp).2).choose_spec
    refine mem_filter.2 ⟨by simp, ?_⟩
    rw [h3, h1, h2]
    exact (mem_filter.1 hp).2
  · intro p hp q hq heq
    obtain ⟨h1, h2, _⟩ := (ex p (mem_filter.1 hp).2).choose_spec
    obtain ⟨k1, k2, _⟩ := (ex q (mem_filter.1 hq).2).choose_spec
    rw [heq] at h1 h2
    refine Prod.ext (Fin.ext ?_) (Fin.ext ?_) <;> omega
  · intro q hq
    obtain ⟨i, j, h1, h2, h3⟩ := h.2 q.1 q.2 (left_ne_zero_of_mul (mem_filter.1 hq).2)
    have hp : g i j * f (i.val + a) (j.val + b) ≠ 0 := by
      rw [← h1, ← h2, ← h3]; exact (mem_filter.1 hq).2
    refine ⟨(i, j), mem_filter.2 ⟨by simp, hp⟩, ?_⟩
    obtain ⟨k1, k2, _⟩ := (ex (i, j) hp).choose_spec
    refine Prod.ext (Fin.ext ?_) (Fin.ext ?_) <;> dsimp only at k1 k2 <;> omega
  · intro p hp
    obtain ⟨h1, h2, h3⟩ := (ex p (mem_filter.1 hp).2).choose_spec
    rw [h3, h1, h2]

/-- C132, fourth part: a pattern moved inside the grid moves its centre by the same amount. -/
theorem com_moves {g g' : Fin H → Fin W → K} {a b : Int} (hmv : Spec.Moved g g' a b)
    (hg : ∀ i j, 0 ≤ g i j) (hg' : ∀ i j, 0 ≤ g' i j) {s : Nat} (hs : 0 < s)
    (hlive : ∃ i j, g i j ≠ 0)
    (hx : Spec.Clear g s .left ∨ Spec.Clear g s .right)
    (hy : Spec.Clear g s .top ∨ Spec.Clear g s .bottom)
    (hx' : Spec.Clear g' s .left ∨ Spec.Clear g' s .right)
    (hy' : Spec.Clear g' s .top ∨ Spec.Clear g' s .bottom) :
    ∃ x y, gridCentre g s = some (x, y) ∧ gridCentre g' s = some (x + b, y + a) := by
  obtain ⟨x, y, h1, h2, h3⟩ := com_exact hg hs hlive hx hy
  have hlive' : ∃ i j, g' i j ≠ 0 := by
    obtain ⟨i, j, h⟩ := hlive
    obtain ⟨i', j', _, _, h'⟩ := hmv.1 i j h
    exact ⟨i', j', h' ▸ h⟩
  obtain ⟨x', y', k1, k2, k3⟩ := com_exact hg' hs hlive' hx' hy'
  have hm : Spec.gridMass g' = Spec.gridMass g := by
    have := moved_sum hmv fun _ _ => 1
    simpa [Spec.gridMass] using this
  have hm0 : Spec.gridMass g ≠ 0 := by
    intro h0
    obtain ⟨i, j, h⟩ := hlive
    refine h ((partSum_eq_zero hg fun _ _ => true).1 ?_ i j rfl)
    rw [partSum_whole _ _ (by simp)]; exact h0
  have hsx : ∑ i, ∑ j, g' i j * (j.val : K) = (∑ i, ∑ j, g i j * (j.val : K)) + b * Spec.gridMass g := by
    have := moved_sum hmv fun _ j => (j : K)
    simp only [Int.cast_natCast] at this
    rw [this, Spec.gridMass, mul_sum, ← sum_add_distrib]
    refine sum_congr rfl fun i _ => ?_
    rw [mul_sum, ← sum_add_distrib]
    refine sum_congr rfl fun j _ => ?_
    push_cast; ring
  have hsy : ∑ i, ∑ j, g' i j * (i.val : K) = (∑ i, ∑ j, g i j * (i.val : K)) + a * Spec.gridMass g := by
    have := moved_sum hmv fun i _ => (i : K)
    simp only [Int.cast_natCast] at this
    rw [this, Spec.gridMass, mul_sum, ← sum_add_distrib]
    refine sum_congr rfl fun i _ => ?_
    rw [mul_sum, ← sum_add_distrib]
    refine sum_congr rfl fun j _ => ?_
    push_cast; ring
  refine ⟨x, y, h1, ?_⟩
  rw [k1]
  rw [hm, hsx, ← h2, ← add_mul] at k2
  rw [hm, hsy, ← h3, ← add_mul] at k3
  rw [mul_right_cancel₀ hm0 k2, mul_right_cancel₀ hm0 k3]

/-- The cells of a strip of width `s`. -/
def Spec.InStrip (s : Nat) : Edge → Fin H → Fin W → Prop
  | .left, _, j => j.val < s
  | .right, _, j => W ≤ j.val + s
  | .top, i, _ => i.val < s
  | .bottom, i, _ => H ≤ i.val + s

open Classical in
/-- The mass in a strip. -/
noncomputable def Spec.stripMass (g : Fin H → Fin W → K) (s : Nat) (e : Edge) : K :=
  ∑ i, ∑ j, if Spec.InStrip s e i j then g i j else 0

open Classical in
/-- The grid without what is in a strip. -/
noncomputable def Spec.without (g : Fin H → Fin W → K) (s : Nat) (e : Edge) : Fin H → Fin W → K :=
  fun i j => if Spec.InStrip s e i j then 0 else g i j

/-- The order in which equally heavy strips are considered. -/
def Spec.rank : Edge → Nat
  | .right => 0 | .left => 1 | .top => 2 | .bottom => 3

theorem inStrip_iff {s : Nat} (hs : 0 < s) (e : Edge) (i : Fin H) (j : Fin W) :
    e.cells s i j = true ↔ Spec.InStrip s e i j := by
  cases e <;> simp only [Edge.cells, Spec.InStrip, decide_eq_true_eq, sliceBound_front,
    sliceBound_back hs] <;> have := i.isLt <;> have := j.isLt <;> omega

omit [LinearOrder K] [IsStrictOrderedRing K] in
theorem edgeSum_eq (g : Fin H → Fin W → K) {s : Nat} (hs : 0 < s) (e : Edge) :
    edgeSum g s e = Spec.stripMass g s e := by
  unfold edgeSum partSum Spec.stripMass
  refine sum_congr rfl fun i _ => sum_congr rfl fun j _ => ?_
  by_cases h : Spec.InStrip s e i j
  · rw [if_pos h, if_pos ((inStrip_iff hs e i j).2 h)]
  · rw [if_neg h, if_neg (fun h' => h ((inStrip_iff hs e i j).1 h'))]

/-- C132: in every case the value is the centre of what is left when the strip opposite to the
heaviest one is taken away; of equally heavy ones the right comes first, then the left, then the
top. -/
theorem com_cut {g : Fin H → Fin W → K} (hg : ∀ i j, 0 ≤ g i j) {s : Nat} (hs : 0 < s)
    (hW : 2 * s ≤ W) (hH : 2 * s ≤ H) (e : Edge) (hpos : 0 < Spec.stripMass g s e)
    (hle : ∀ e', Spec.stripMass g s e' ≤ Spec.stripMass g s e)
    (hlt : ∀ e', Spec.rank e' < Spec.rank e → Spec.stripMass g s e' < Spec.stripMass g s e) :
    ∃ x y, gridCentre g s = some (x, y) ∧
      Spec.IsCentre (Spec.without g s (Spec.opposite e)) x y := by
  simp only [← edgeSum_eq g hs] at hpos hle hlt
  have hmax : maxEdge g s = edgeSum g s e := by
    refine le_antisymm ?_ ?_
    · exact max_le (max_le (hle _) (hle _)) (max_le (hle _) (hle _))
    · cases e <;> simp [maxEdge]
  have hh : heaviest g s = some e := by
    unfold heaviest
    rw [hmax, if_neg hpos.ne']
    cases e
    · rw [if_neg (hlt .right (by decide)).ne, if_pos rfl]
    · rw [if_pos rfl]
    · rw [if_neg (hlt .right (by decide)).ne, if_neg (hlt .left (by decide)).ne, if_pos rfl]
    · rw [if_neg (hlt .right (by decide)).ne, if_neg (hlt .left (by decide)).ne,
        if_neg (hlt .top (by decide)).ne]
  obtain ⟨v, hv⟩ : ∃ v, v = Spec.without g s (Spec.opposite e) := ⟨_, rfl⟩
  obtain ⟨P, hP⟩ : ∃ P : Fin H → Fin W → Bool, P = comPart s (some e) := ⟨_, rfl⟩
  have hiff : ∀ i j, P i j = true ↔ ¬ Spec.InStrip s (Spec.opposite e) i j := fun i j => by
    rw [hP, comPart_eq hs, inStrip_iff hs]
  have hcut : ∀ f : Fin H → Fin W → K, ∀ c : K, partSum (fun i j => f i j * g i j / c) P * c =
      ∑ i, ∑ j, if c = 0 then 0 else v i j * f i j := by
    intro f c
    rw [partSum, sum_mul]
    refine sum_congr rfl fun i _ => ?_
    rw [sum_mul]
    refine sum_congr rfl fun j _ => ?_
    rw [hv, Spec.without]
    by_cases h : Spec.InStrip s (Spec.opposite e) i j
    · rw [if_pos h, if_neg (fun h' => (hiff i j).1 h' h)]; simp
    · rw [if_neg h, if_pos ((hiff i j).2 h)]
      split
      · simp [*]
      · rename_i hc; field_simp
  have hmass : partSum g P = Spec.gridMass v := by
    have := hcut (fun _ _ => 1) 1
    simpa [Spec.gridMass] using this
  have hne : partSum g P ≠ 0 := by
    intro h0
    have := (com_none_iff hg hs hW hH).1 (by unfold gridCentre; simp only [hh, ← hP]; rw [if_pos h0])
    refine hpos.ne' ((partSum_eq_zero hg _).2 fun i j _ => this i j)
  refine ⟨_, _, by unfold gridCentre; simp only [hh, ← hP]; rw [if_neg hne], ?_, ?_⟩
  all_goals
    rw [← hv, ← hmass, hcut]
    simp only [if_neg hne]

/-- Two live cells in the same row of a grid of eight rows and columns. -/
def Witness.pair (c d : Nat) : Fin 8 → Fin 8 → ℚ := fun i j =>
  if i.val = 3 ∧ (j.val = c ∨ j.val = d) then 1 else 0

/-- C132, exception: across the border the strip that is left out holds a part of the pattern.  A
pair that moves one column to the right each time is recorded at 6.5, 7 and 0.5; on the torus its
centre is at 7.5 in the middle. -/
theorem com_crossing_refuted :
    gridCentre (Witness.pair 6 7) 2 = some (13 / 2, 3) ∧
      gridCentre (Witness.pair 7 0) 2 = some (7, 3) ∧
      gridCentre (Witness.pair 0 1) 2 = some (1 / 2, 3) := by
  decide +kernel

/-- C132, exception: only one strip is left out, so a pattern on a corner is averaged over both
ends of the other axis; and with margins that overlap a live grid may have no value. -/
theorem com_corner_refuted :
    gridCentre (fun (i : Fin 4) (j : Fin 8) =>
        if (i.val = 0 ∨ i.val = 3) ∧ j.val = 7 then (1 : ℚ) else 0) 2 = some (7, 3 / 2) ∧
      gridCentre (fun (_ : Fin 4) (j : Fin 8) => if j.val = 2 then (1 : ℚ) else 0) 6 = none := by
  decide +kernel

/-- The pair across the border meets the hypotheses of `com_cut` with the right strip. -/
example : ∃ x y : ℚ, gridCentre (Witness.pair 7 0) 2 = some (x, y) ∧
    Spec.IsCentre (Spec.without (Witness.pair 7 0) 2 .left) x y := by
  have hv : ∀ e, Spec.stripMass (Witness.pair 7 0) 2 e =
      (match e with | .left => 1 | .right => 1 | .top => 0 | .bottom => 0) := by
    intro e
    rw [← edgeSum_eq _ (by norm_num)]
    cases e <;> decide +kernel
  refine com_cut (by decide +kernel) (by norm_num) (by norm_num) (by norm_num) .right ?_ ?_ ?_
  · rw [hv]; decide +kernel
  · intro e; rw [hv, hv]; cases e <;> decide +kernel
  · intro e he; cases e <;> simp [Spec.rank] at he

/-- A pair in the middle of the grid meets the hypotheses of `com_moves`. -/
example : ∃ x y : ℚ, gridCentre (Witness.pair 3 4) 1 = some (x, y) ∧
    gridCentre (Witness.pair 4 5) 1 = some (x + (1 : Int), y + (0 : Int)) := by
  refine com_moves (a := 0) (b := 1) ?_ ?_ ?_ (by norm_num) ?_ ?_ ?_ ?_ ?_
  · unfold Spec.Moved; constructor <;> decide +kernel
  · decide +kernel
  · decide +kernel
  · exact ⟨3, 3, by decide +kernel⟩
  all_goals left; unfold Spec.Clear; decide +kernel

end Yuca
