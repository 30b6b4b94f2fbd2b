import Verif.Model.Zoo
import Verif.Props.Patterns
import Verif.Props.Config

/-!
# C120: the spaceships of the pattern library fly
-/

namespace Yuca

open Arith Spec

variable {N H W : Nat}

namespace Spec

/-- The number of steps after which the spaceship is back in its first shape. -/
def shipPeriod : ZooShip → Nat
  | .p25 => 3
  | _ => 4

/-- How far it has then moved: rows down, columns to the right. -/
def shipMove : ZooShip → ℤ × ℤ
  | .p25 => (-1, 0)
  | .large => (0, 2)
  | .medium => (0, 2)
  | .small => (0, 2)
  | .reflex => (-1, 1)

/-- How many cells of the spaceship are alive after `n` steps. -/
def shipCells : ZooShip → Nat → Nat
  | .p25, _ => 25
  | .large, n => if n % 2 = 0 then 18 else 13
  | .medium, n => if n % 2 = 0 then 15 else 11
  | .small, n => if n % 2 = 0 then 12 else 9
  | .reflex, _ => 5

/-- The row and the column of every 1 of a table. -/
def tableCells (h w : Nat) (t : List (List Nat)) : List (ℤ × ℤ) :=
  (List.range h).flatMap fun i => (List.range w).filterMap fun j =>
    if (t.getD i []).getD j 0 = 1 then some ((i : ℤ), (j : ℤ)) else none

/-- The cells of the spaceship. -/
abbrev _root_.Yuca.ZooShip.start (s : ZooShip) : List (ℤ × ℤ) :=
  tableCells s.height s.width s.table

/-- The number of cells of universe `n` that are above one half. -/
noncomputable def litCells (u : Univ ℝ N 1 H W) (n : Fin N) : Nat :=
  (Finset.univ.filter fun x : Fin H × Fin W => 1 / 2 < u n 0 x.1 x.2).card

end Spec

/-! ## From tables to cells -/

theorem mem_tableCells {h w : Nat} {t : List (List Nat)} {c : ℤ × ℤ} :
    c ∈ tableCells h w t ↔ ∃ i j : Nat, i < h ∧ j < w ∧ (t.getD i []).getD j 0 = 1 ∧
      c = ((i : ℤ), (j : ℤ)) := by
  simp only [tableCells, List.mem_flatMap, List.mem_range, List.mem_filterMap,
    Option.ite_none_right_eq_some, Option.some.injEq]
  constructor
  · rintro ⟨i, hi, j, hj, h1, rfl⟩; exact ⟨i, j, hi, hj, h1, rfl⟩
  · rintro ⟨i, j, hi, hj, h1, rfl⟩; exact ⟨i, hi, j, hj, h1, rfl⟩

theorem ship_entries (s : ZooShip) : ∀ i < s.height, ∀ j < s.width,
    (s.table.getD i []).getD j 0 ≤ 1 := by
  cases s <;> decide +kernel

theorem ship_cells (s : ZooShip) (x : Fin s.height) (y : Fin s.width) :
    s.grid x y = if ((x.val : ℤ), (y.val : ℤ)) ∈ s.start then 1 else 0 := by
  have h1 := ship_entries s x x.isLt y y.isLt
  unfold ZooShip.grid
  split
  · rename_i h
    obtain ⟨i, j, _, _, h2, h3⟩ := mem_tableCells.1 h
    simp only [Prod.mk.injEq, Nat.cast_inj] at h3
    obtain ⟨rfl, rfl⟩ := h3
    rw [h2]; norm_num
  · rename_i h
    have : (s.table.getD x.val []).getD y.val 0 ≠ 1 := fun h2 =>
      h (mem_tableCells.2 ⟨_, _, x.isLt, y.isLt, h2, rfl⟩)
    have : (s.table.getD x.val []).getD y.val 0 = 0 := by omega
    rw [this]; norm_num

theorem start_box (s : ZooShip) : ∀ c ∈ s.start,
    0 ≤ c.1 ∧ c.1 < s.height ∧ 0 ≤ c.2 ∧ c.2 < s.width := by
  intro c hc
  obtain ⟨i, j, h1, h2, _, rfl⟩ := mem_tableCells.1 hc
  simp only; omega

theorem stamp_cells {h w : Nat} {p : Grid ℝ h w} {cells : List (ℤ × ℤ)}
    (hp : ∀ (x : Fin h) (y : Fin w),
      p x y = if ((x.val : ℤ), (y.val : ℤ)) ∈ cells then 1 else 0)
    (hc : ∀ c ∈ cells, 0 ≤ c.1 ∧ c.1 < h ∧ 0 ≤ c.2 ∧ c.2 < w) (hH : h ≤ H) (hW : w ≤ W)
    (a b : ℤ) :
    (stamp p a b : Univ ℝ N 1 H W) = ofBits fun _ => onTorus cells a b := by
  rw [onTorus_eq cells a b fun c h => by have := hc c h; omega]
  funext n e i j
  have hH' : 0 < (H : ℤ) := by have := i.isLt; omega
  have hW' : 0 < (W : ℤ) := by have := j.isLt; omega
  have x0 : 0 ≤ ((i.val : ℤ) - a) % H := Int.emod_nonneg _ (by omega)
  have y0 : 0 ≤ ((j.val : ℤ) - b) % W := Int.emod_nonneg _ (by omega)
  simp only [stamp, ofBits, torusOf, plane, bit, decide_eq_true_eq]
  split
  · rw [hp]
    simp only [Int.toNat_of_nonneg x0, Int.toNat_of_nonneg y0]
  · rename_i h
    rw [if_neg]
    intro hm
    have := hc _ hm
    simp only at this
    omega

/-! ## The flight on the plane -/

/-- The table as binary numbers, with two empty rows above and one below. -/
def ZooShip.rows (s : ZooShip) : List Nat :=
  [0, 0] ++ s.table.map (fun r => r.foldr (fun x acc => x + 2 * acc) 0) ++ [0]

/-- The cells of rows of binary numbers. -/
def rowCells (w : Nat) (rows : List Nat) : List (ℤ × ℤ) :=
  (List.range rows.length).flatMap fun i => (List.range w).filterMap fun j =>
    if (rows.getD i 0).testBit j then some ((i : ℤ), (j : ℤ)) else none

/-- The spaceship after `m` steps, as rows. -/
def ZooShip.after (s : ZooShip) (m : Nat) : List Nat :=
  (runRows conwayRow s.width m s.rows).getD []

/-- One period, checked by running it. -/
def ZooShip.check (s : ZooShip) : Bool :=
  rowsMatch (s.width + 1) s.rows (s.start.map fun c => (c.1 + 2, c.2 + 0)) &&
  rowsMatch (s.width + 1) (s.after (shipPeriod s))
    (s.start.map fun c => (c.1 + 2 + (shipMove s).1, c.2 + 0 + (shipMove s).2)) &&
  (s.rows.length == s.height + 3) &&
  (List.range (shipPeriod s + 1)).all fun m =>
    (runRows conwayRow s.width m s.rows).isSome &&
    rowsMatch (s.width + 1) (s.after m) (rowCells (s.width + 1) (s.after m)) &&
    decide ((rowCells (s.width + 1) (s.after m)).Nodup) &&
    ((rowCells (s.width + 1) (s.after m)).length == shipCells s m) &&
    (rowCells (s.width + 1) (s.after m)).all fun c =>
      decide (0 ≤ c.1 ∧ c.1 < s.height + 3 ∧ 0 ≤ c.2 ∧ c.2 < s.width + 1)

theorem ship_check (s : ZooShip) : s.check = true := by
  cases s <;> decide +kernel

theorem ship_facts (s : ZooShip) :
    ofRows s.rows = plane (s.start.map fun c => (c.1 + 2, c.2 + 0)) ∧
      (planeStep [3] [2, 3])^[shipPeriod s] (ofRows s.rows) =
        plane (s.start.map fun c => (c.1 + 2 + (shipMove s).1, c.2 + 0 + (shipMove s).2)) ∧
      (∀ m < shipPeriod s, Within 1 ((s.height : ℤ) + 1) 1 ((s.width : ℤ) - 1)
        ((planeStep [3] [2, 3])^[m] (ofRows s.rows))) ∧
      ∀ m ≤ shipPeriod s, ∃ cells : List (ℤ × ℤ),
        (planeStep [3] [2, 3])^[m] (ofRows s.rows) = plane cells ∧ cells.Nodup ∧
        cells.length = shipCells s m ∧
        ∀ c ∈ cells, 0 ≤ c.1 ∧ c.1 < s.height + 3 ∧ 0 ≤ c.2 ∧ c.2 < s.width + 1 := by
  have h := ship_check s
  simp only [ZooShip.check, Bool.and_eq_true, List.all_eq_true, List.mem_range, beq_iff_eq,
    decide_eq_true_eq] at h
  obtain ⟨⟨⟨h1, h2⟩, h3⟩, h4⟩ := h
  have run : ∀ m ≤ shipPeriod s, (planeStep [3] [2, 3])^[m] (ofRows s.rows) = ofRows (s.after m) ∧
      ∀ x < m, Within 1 ((s.rows.length : ℤ) - 2) 1 ((s.width : ℤ) - 1)
        ((planeStep [3] [2, 3])^[x] (ofRows s.rows)) := by
    intro m hm
    obtain ⟨⟨⟨⟨h5, _⟩, _⟩, _⟩, _⟩ := h4 m (by omega)
    obtain ⟨out, ho⟩ := Option.isSome_iff_exists.1 h5
    have := runRows_ok (w := s.width) (by simp) conway_computes m ho
    rw [ZooShip.after, ho]
    exact this
  refine ⟨rowsMatch_ok h1, ?_, fun m hm => ?_, fun m hm => ?_⟩
  · rw [(run _ le_rfl).1]; exact rowsMatch_ok h2
  · have := (run _ le_rfl).2 m hm
    rw [h3] at this
    refine within_mono this ?_ ?_ ?_ ?_ <;> push_cast <;> omega
  · obtain ⟨⟨⟨⟨_, h6⟩, h7⟩, h8⟩, h9⟩ := h4 m (by omega)
    exact ⟨_, (run m hm).1.trans (rowsMatch_ok h6), h7, h8, h9⟩

/-! ## The flight on the torus -/

theorem start_onTorus (s : ZooShip) (a b : ℤ) (hH : s.height + 3 ≤ H) (hW : s.width + 1 ≤ W) :
    (onTorus s.start a b : Fin H → Fin W → Bool) = torusOf (ofRows s.rows) (a - 2) b := by
  have h := onTorus_shift (H := H) (W := W) s.start (a - 2) b 2 0
  rw [show a - 2 + 2 = a by ring, add_zero] at h
  rw [← h, (ship_facts s).1]
  refine onTorus_eq _ _ _ fun c hc => ?_
  obtain ⟨c', hc', rfl⟩ := List.mem_map.1 hc
  have := start_box s c' hc'
  simp only
  omega

theorem ship_torus_run (s : ZooShip) (a b : ℤ) (hH : s.height + 3 ≤ H) (hW : s.width + 1 ≤ W)
    {m : Nat} (hm : m ≤ shipPeriod s) :
    (lifeStep [3] [2, 3])^[m] (onTorus s.start a b : Fin H → Fin W → Bool) =
      torusOf ((planeStep [3] [2, 3])^[m] (ofRows s.rows)) (a - 2) b := by
  rw [start_onTorus s a b hH hW]
  exact torus_run m (fun x hx => (ship_facts s).2.2.1 x (by omega)) (by omega) (by omega) _ _

theorem ship_once (s : ZooShip) (a b : ℤ) (hH : s.height + 3 ≤ H) (hW : s.width + 1 ≤ W) :
    (lifeStep [3] [2, 3])^[shipPeriod s] (onTorus s.start a b : Fin H → Fin W → Bool) =
      onTorus s.start (a + (shipMove s).1) (b + (shipMove s).2) := by
  rw [ship_torus_run s a b hH hW le_rfl, (ship_facts s).2.1]
  have h := onTorus_shift (H := H) (W := W) s.start (a - 2) b (2 + (shipMove s).1)
    (0 + (shipMove s).2)
  rw [show a - 2 + (2 + (shipMove s).1) = a + (shipMove s).1 by ring, zero_add] at h
  rw [← h]
  have e : (s.start.map fun c => (c.1 + 2 + (shipMove s).1, c.2 + 0 + (shipMove s).2)) =
      s.start.map fun c => (c.1 + (2 + (shipMove s).1), c.2 + (shipMove s).2) := by
    refine List.map_congr_left fun c _ => ?_
    simp only [add_zero, add_assoc]
  rw [e]
  refine (onTorus_eq _ _ _ fun c hc => ?_).symm
  obtain ⟨c', hc', rfl⟩ := List.mem_map.1 hc
  have hb := start_box s c' hc'
  simp only
  have hm : ∀ c ∈ s.start, c.2 + (shipMove s).2 < s.width + 1 ∧ 0 ≤ c.2 + (shipMove s).2 ∧
      -2 ≤ (shipMove s).1 ∧ (shipMove s).1 ≤ 0 := by cases s <;> decide +kernel
  have := hm c' hc'
  omega

/-- C120: on every torus with room for it, wherever it starts, Conway's Life moves each of the
spaceships by its own step every period, for ever; in between it goes through the same shapes. -/
theorem life_ship (s : ZooShip) (a b : ℤ) (hH : s.height + 3 ≤ H) (hW : s.width + 1 ≤ W)
    (k m : Nat) :
    (lifeStep [3] [2, 3])^[shipPeriod s * k + m] (onTorus s.start a b : Fin H → Fin W → Bool) =
      (lifeStep [3] [2, 3])^[m]
        (onTorus s.start (a + k * (shipMove s).1) (b + k * (shipMove s).2)) := by
  have all : ∀ k : Nat, (lifeStep [3] [2, 3])^[shipPeriod s * k]
      (onTorus s.start a b : Fin H → Fin W → Bool) =
      onTorus s.start (a + k * (shipMove s).1) (b + k * (shipMove s).2) := by
    intro k
    induction k with
    | zero => simp
    | succ k ih =>
      rw [show shipPeriod s * (k + 1) = shipPeriod s + shipPeriod s * k by ring,
        Function.iterate_add_apply, ih, ship_once s _ _ hH hW]
      push_cast
      congr 1 <;> ring
  rw [add_comm, Function.iterate_add_apply, all]

theorem torus_card {cells : List (ℤ × ℤ)} (hn : cells.Nodup)
    (hc : ∀ c ∈ cells, 0 ≤ c.1 ∧ c.1 < H ∧ 0 ≤ c.2 ∧ c.2 < W) (a b : ℤ) :
    (Finset.univ.filter fun x : Fin H × Fin W =>
      torusOf (plane cells) a b x.1 x.2 = true).card = cells.length := by
  rw [← List.toFinset_card_of_nodup hn]
  symm
  have pos : ∀ c ∈ cells, 0 < H ∧ 0 < W := fun c h => by have := hc c h; omega
  refine Finset.card_bij (fun c hcm => (
    ⟨((c.1 + a) % H).toNat, by
      have := pos c (List.mem_toFinset.1 hcm)
      have h1 := Int.emod_nonneg (c.1 + a) (by omega : (H : ℤ) ≠ 0)
      have h2 := Int.emod_lt_of_pos (c.1 + a) (by omega : 0 < (H : ℤ))
      omega⟩,
    ⟨((c.2 + b) % W).toNat, by
      have := pos c (List.mem_toFinset.1 hcm)
      have h1 := Int.emod_nonneg (c.2 + b) (by omega : (W : ℤ) ≠ 0)
      have h2 := Int.emod_lt_of_pos (c.2 + b) (by omega : 0 < (W : ℤ))
      omega⟩)) ?_ ?_ ?_
  · intro c hcm
    have hm := List.mem_toFinset.1 hcm
    have hp := pos c hm
    have hb := hc c hm
    have h1 := Int.emod_nonneg (c.1 + a) (by omega : (H : ℤ) ≠ 0)
    have h2 := Int.emod_nonneg (c.2 + b) (by omega : (W : ℤ) ≠ 0)
    simp only [Finset.mem_filter, Finset.mem_univ, true_and, torusOf, plane, decide_eq_true_eq,
      Int.toNat_of_nonneg h1, Int.toNat_of_nonneg h2, Int.emod_sub_emod, add_sub_cancel_right]
    rw [Int.emod_eq_of_lt hb.1 hb.2.1, Int.emod_eq_of_lt hb.2.2.1 hb.2.2.2]
    exact hm
  · intro c hcm d hdm h
    have hb := hc c (List.mem_toFinset.1 hcm)
    have hb' := hc d (List.mem_toFinset.1 hdm)
    simp only [Prod.mk.injEq, Fin.mk.injEq] at h
    have q1 := Int.emod_nonneg (c.1 + a) (by omega : (H : ℤ) ≠ 0)
    have q2 := Int.emod_nonneg (c.2 + b) (by omega : (W : ℤ) ≠ 0)
    have q3 := Int.emod_nonneg (d.1 + a) (by omega : (H : ℤ) ≠ 0)
    have q4 := Int.emod_nonneg (d.2 + b) (by omega : (W : ℤ) ≠ 0)
    have e1 : (c.1 + a) % H = (d.1 + a) % H := by omega
    have e2 : (c.2 + b) % W = (d.2 + b) % W := by omega
    have f1 := Int.emod_sub_cancel_right a |>.2 e1
    have f2 := Int.emod_sub_cancel_right b |>.2 e2
    simp only [add_sub_cancel_right] at f1 f2
    rw [Int.emod_eq_of_lt hb.1 hb.2.1, Int.emod_eq_of_lt hb'.1 hb'.2.1] at f1
    rw [Int.emod_eq_of_lt hb.2.2.1 hb.2.2.2, Int.emod_eq_of_lt hb'.2.2.1 hb'.2.2.2] at f2
    exact Prod.ext f1 f2
  · rintro ⟨i, j⟩ hx
    simp only [Finset.mem_filter, Finset.mem_univ, true_and, torusOf, plane,
      decide_eq_true_eq] at hx
    refine ⟨_, List.mem_toFinset.2 hx, ?_⟩
    have hi := i.isLt
    have hj := j.isLt
    simp only [Prod.mk.injEq, Fin.ext_iff, Int.emod_add_emod, sub_add_cancel]
    rw [Int.emod_eq_of_lt (by omega) (by omega), Int.emod_eq_of_lt (by omega) (by omega)]
    simp

theorem shipCells_mod (s : ZooShip) (n : Nat) : shipCells s (n % shipPeriod s) = shipCells s n := by
  have h : n % 4 % 2 = n % 2 := by omega
  cases s
  · rfl
  · show (if n % 4 % 2 = 0 then 18 else 13) = _; rw [h]; rfl
  · show (if n % 4 % 2 = 0 then 15 else 11) = _; rw [h]; rfl
  · show (if n % 4 % 2 = 0 then 12 else 9) = _; rw [h]; rfl
  · rfl

/-- C120: the number of live cells of the spaceship at every moment of its flight. -/
theorem life_ship_cells (s : ZooShip) (a b : ℤ) (hH : s.height + 3 ≤ H) (hW : s.width + 1 ≤ W)
    (n : Nat) :
    (Finset.univ.filter fun x : Fin H × Fin W =>
      (lifeStep [3] [2, 3])^[n] (onTorus s.start a b) x.1 x.2 = true).card = shipCells s n := by
  have hp : 0 < shipPeriod s := by cases s <;> decide
  have e : n = shipPeriod s * (n / shipPeriod s) + n % shipPeriod s := (Nat.div_add_mod _ _).symm
  rw [e, life_ship s a b hH hW, ← e, ship_torus_run s _ _ hH hW (Nat.mod_lt _ hp).le]
  obtain ⟨cells, h1, h2, h3, h4⟩ := (ship_facts s).2.2.2 _ (Nat.mod_lt n hp).le
  rw [h1, torus_card h2 (fun c hc => by have := h4 c hc; omega), h3, shipCells_mod]

/-! ## The flight in the continuous automaton -/

/-- C120: after `p·k + m` steps the universe is within `10⁻⁶` of generation `m` of the pattern put
`k` moves further. -/
theorem ship_flies (s : ZooShip) (hH : s.height + 3 ≤ H) (hW : s.width + 1 ≤ W) (a b : ℤ)
    (k m : Nat) :
    ∃ r, iterate CCA.forward (shipPeriod s * k + m) (lifeCA [3] [2, 3])
        (stamp s.grid a b : Univ ℝ N 1 H W) = .ok r ∧
      Near (1 / 1000000) r.1 (fun _ => (lifeStep [3] [2, 3])^[m]
        (onTorus s.start (a + k * (shipMove s).1) (b + k * (shipMove s).2))) ∧
      ∀ n, litCells r.1 n = shipCells s (shipPeriod s * k + m) := by
  rw [stamp_cells (ship_cells s) (start_box s) (by omega) (by omega)]
  obtain ⟨r, h1, h2⟩ := life_forever [3] [2, 3] (by simp [RuleList]) (by simp [RuleList]) (by simp)
    (by omega) (by omega) (fun _ : Fin N => (onTorus s.start a b : Fin H → Fin W → Bool))
    (shipPeriod s * k + m)
  refine ⟨r, h1, by simpa only [life_ship s a b hH hW] using h2, fun n => ?_⟩
  rw [← life_ship_cells s a b hH hW]
  unfold litCells
  congr 1
  ext x
  simp only [Finset.mem_filter, Finset.mem_univ, true_and]
  have := abs_le.1 (h2 n x.1 x.2)
  unfold bit at this
  constructor
  · intro h
    by_contra hc
    rw [if_neg hc] at this
    linarith
  · intro h
    rw [if_pos h] at this
    linarith

/-- C120: every period the pattern is back, one move further. -/
theorem ship_moves (s : ZooShip) (hH : s.height + 3 ≤ H) (hW : s.width + 1 ≤ W) (a b : ℤ)
    (k : Nat) :
    ∃ r, iterate CCA.forward (shipPeriod s * k) (lifeCA [3] [2, 3])
        (stamp s.grid a b : Univ ℝ N 1 H W) = .ok r ∧
      ∀ n i j, |r.1 n 0 i j - (stamp s.grid (a + k * (shipMove s).1) (b + k * (shipMove s).2) :
        Univ ℝ N 1 H W) n 0 i j| ≤ 1 / 1000000 := by
  obtain ⟨r, h1, h2, _⟩ := ship_flies (N := N) s hH hW a b k 0
  refine ⟨r, h1, fun n i j => ?_⟩
  rw [stamp_cells (ship_cells s) (start_box s) (by omega) (by omega)]
  exact h2 n i j

theorem stamp_wraps {h w : Nat} (p : Grid ℝ h w) (a b x y : ℤ) :
    (stamp p (a + H * x) (b + W * y) : Univ ℝ N 1 H W) = stamp p a b := by
  funext n c i j
  have h1 : ((i.val : ℤ) - (a + H * x)) % H = ((i.val : ℤ) - a) % H := by
    rw [show (i.val : ℤ) - (a + H * x) = i.val - a + H * (-x) by ring, Int.add_mul_emod_self_left]
  have h2 : ((j.val : ℤ) - (b + W * y)) % W = ((j.val : ℤ) - b) % W := by
    rw [show (j.val : ℤ) - (b + W * y) = j.val - b + W * (-y) by ring, Int.add_mul_emod_self_left]
  simp only [stamp, h1, h2]

/-- C120: when a whole number of turns around the universe has been made, the spaceship is back
where it started. -/
theorem ship_circles (s : ZooShip) (hH : s.height + 3 ≤ H) (hW : s.width + 1 ≤ W) (a b : ℤ)
    (k : Nat) (h1 : (H : ℤ) ∣ k * (shipMove s).1) (h2 : (W : ℤ) ∣ k * (shipMove s).2) :
    ∃ r, iterate CCA.forward (shipPeriod s * k) (lifeCA [3] [2, 3])
        (stamp s.grid a b : Univ ℝ N 1 H W) = .ok r ∧
      ∀ n i j, |r.1 n 0 i j - (stamp s.grid a b : Univ ℝ N 1 H W) n 0 i j| ≤ 1 / 1000000 := by
  obtain ⟨x, hx⟩ := h1
  obtain ⟨y, hy⟩ := h2
  have := ship_moves (N := N) s hH hW a b k
  rwa [hx, hy, stamp_wraps] at this

/-- The large spaceship goes around the default universe in 256 steps. -/
example : ZooShip.large.height + 3 ≤ 128 ∧ ZooShip.large.width + 1 ≤ 128 ∧
    ((128 : ℕ) : ℤ) ∣ (64 : ℕ) * (shipMove .large).1 ∧ ((128 : ℕ) : ℤ) ∣ (64 : ℕ) * (shipMove .large).2 ∧
    shipPeriod .large * 64 = 256 := by
  refine ⟨by decide, by decide, by decide, by decide, rfl⟩

/-! ## The stored rules -/

theorem stored_conway_eq : storedConway =
    { lifeLikeConfig 1 [3] [2, 3] with idKernelConfig := some ⟨"InnerMoore", none, none⟩ } := by
  simp only [storedConway, lifeLikeConfig, intervalTensor, smoothInterval, List.map]
  norm_num

theorem stored_morley_eq : storedMorley =
    { lifeLikeConfig 1 [3, 6, 8] [2, 4, 5] with
      idKernelConfig := some ⟨"InnerMoore", none, none⟩ } := by
  simp only [storedMorley, lifeLikeConfig, intervalTensor, smoothInterval, List.map]
  norm_num

/-- C120: the rule the spaceships were stored with, ca_configs/conway_life.npy, loads into every
`CCA` with the default arguments and gives Conway's Life; ca_configs/morley.npy gives B368/S245,
the rule of the puffer (C86). -/
theorem stored_rules_load (fs : Files) (fuel : Nat) (d : Nat → Draws) (o : CCAObj)
    (h1 : o.kw.extN = 1) (h2 : o.kw.intN = 1)
    (h3 : o.kw.mode = .circular) (h4 : o.kw.ca = .functional) (h5 : o.kw.threshold = 0.1) :
    (∃ o', o.loadConfig fs fuel d storedConway = some (.ok o') ∧
      o'.dynamics = lifeDyn [3] [2, 3] ∧ o'.t = o.t) ∧
    ∃ o', o.loadConfig fs fuel d storedMorley = some (.ok o') ∧
      o'.dynamics = lifeDyn [3, 6, 8] [2, 4, 5] ∧ o'.t = o.t := by
  constructor
  · rw [stored_conway_eq]
    obtain ⟨o', a1, a2, a3, _⟩ := load_life_like fs fuel d o [3] [2, 3] h1 h2 h3 h4 h5
    exact ⟨o', a1, a2, a3⟩
  · rw [stored_morley_eq]
    obtain ⟨o', a1, a2, a3, _⟩ := load_life_like fs fuel d o [3, 6, 8] [2, 4, 5] h1 h2 h3 h4 h5
    exact ⟨o', a1, a2, a3⟩

/-- The object is met: a default `CCA()`. -/
example (d : Draws) (hd : Spec.MixtureLength d.kernel.length) :
    ∃ o, CCAObj.defaultInit {} d = .ok o ∧ o.kw.extN = 1 ∧ o.kw.intN = 1 ∧
      o.kw.mode = .circular ∧ o.kw.ca = .functional ∧ o.kw.threshold = 0.1 := by
  obtain ⟨o, h1, h2, _⟩ := defaultInit_ok {} d (by decide) (by decide) (by decide) hd
  exact ⟨o, h1, by rw [h2]; rfl, by rw [h2]; rfl, by rw [h2]; rfl, by rw [h2]; rfl,
    by rw [h2]; rfl⟩

/-! ## On the page of the pattern browser -/

/-- A grid of the page as a universe. -/
def Spec.ofPage (g : PageGrid ℝ) : Univ ℝ 1 1 96 96 := fun _ _ i j => g i j

/-- The page calls the automaton `CCA.forward` describes. -/
def Spec.RunsCCA (B : Backend (CCA ℝ 1 1) ℝ) : Prop :=
  ∀ c g, B.call c g = (CCA.forward c (ofPage g)).map fun r => (fun i j => r.1 0 0 i j, r.2)

/-- The column of the page the spaceships start in. -/
def Spec.shipColumn : ZooShip → Nat
  | .large => 40
  | .reflex => 42
  | _ => 41

/-- The names and shapes are those of the zoo (C97). -/
theorem ship_listed (s : ZooShip) : (s.file, s.shape) ∈ shippedZoo := by
  cases s <;> decide

theorem ship_place (s : ZooShip) (hs : s ≠ .p25) :
    sliceFrom s.height = 42 ∧ sliceTo s.height = 42 + s.height ∧
      sliceFrom s.width = shipColumn s ∧
      sliceTo s.width = shipColumn s + s.width ∧ s.height ≠ 1 ∧ s.width ≠ 1 ∧
      s.height + 42 ≤ 96 ∧ s.width + shipColumn s ≤ 96 := by
  cases s
  · exact absurd rfl hs
  all_goals decide

theorem emod_page {i a h : Nat} (hi : i < 96) (ha : a + h ≤ 96) :
    ((((i : ℤ) - (a : ℤ)) % ((96 : ℕ) : ℤ)).toNat < h ↔ a ≤ i ∧ i < a + h) ∧
      (a ≤ i → (((i : ℤ) - (a : ℤ)) % ((96 : ℕ) : ℤ)).toNat = i - a) := by
  omega

/-- C120: the browser puts four of the five spaceships a little above and to the left of the middle
of its page; the fifth, which was stored without the two leading axes, raises `IndexError`. -/
theorem ship_on_page (s : ZooShip) :
    (s = .p25 → paste s.cells = .error .index) ∧
    (s ≠ .p25 → ∃ g, paste s.cells = .ok g ∧ ofPage g = stamp s.grid 42 (shipColumn s)) := by
  constructor
  · rintro rfl; rfl
  · intro hs
    obtain ⟨p1, p2, p3, p4, p5, p6, p7, p8⟩ := ship_place s hs
    have hsh : s.cells.shape = [1, 1, s.height, s.width] := by
      simp [ZooShip.cells, ZooShip.shape, hs]
    have t1 : sliceTakes s.height := Or.inl (by omega)
    have t2 : sliceTakes s.width := Or.inl (by omega)
    refine ⟨_, by simp only [paste, hsh, t1, t2, and_self, if_true]; rfl, ?_⟩
    funext n c i j
    obtain ⟨e1, e2⟩ := emod_page (a := 42) (h := s.height) i.isLt (by omega)
    obtain ⟨e3, e4⟩ := emod_page (a := shipColumn s) (h := s.width) j.isLt (by omega)
    simp only [ofPage, p5, p6, if_false, p1, p2, p3, p4, stamp]
    by_cases h : (42 ≤ i.val ∧ i.val < 42 + s.height) ∧
        shipColumn s ≤ j.val ∧ j.val < shipColumn s + s.width
    · rw [if_pos h, dif_pos ⟨e1.2 h.1, e3.2 h.2⟩]
      have q1 := e2 h.1.1
      have q2 := e4 h.2.1
      simp only [ZooShip.cells, ZooShip.grid]
      rw [← q1, ← q2]
      rfl
    · rw [if_neg h, dif_neg fun hc => h ⟨e1.1 hc.1, e3.1 hc.2⟩]

/-- `n` times the timer. -/
def Spec.firings {σ : Type} (B : Backend σ ℝ) (n : Nat) (p : Page σ ℝ) : Page σ ℝ :=
  (fun q => (q.fire B).1)^[n] p

theorem firings_ok {B : Backend (CCA ℝ 1 1) ℝ} (hB : RunsCCA B) (n : Nat) :
    ∀ (p : Page (CCA ℝ 1 1) ℝ), p.callbacks ≠ [] → ∀ r,
      iterate CCA.forward n p.ca (ofPage p.grid) = .ok r →
      ofPage (firings B n p).grid = r.1 ∧ (firings B n p).ca = r.2 ∧
        (firings B n p).step = p.step + n ∧ (firings B n p).callbacks ≠ [] ∧
        (0 < n → (firings B n p).image = (firings B n p).grid) := by
  induction n with
  | zero =>
    intro p hp r h
    cases h
    exact ⟨rfl, rfl, rfl, hp, fun h => absurd h (lt_irrefl _)⟩
  | succ n ih =>
    intro p hp r h
    rw [iterate] at h
    cases hf : CCA.forward p.ca (ofPage p.grid) with
    | error e => rw [hf] at h; cases h
    | ok q =>
      rw [hf] at h
      have hc : B.call p.ca p.grid = .ok (fun i j => q.1 0 0 i j, q.2) := by rw [hB, hf]; rfl
      have hs : p.fire B = (⟨p.index, q.2, fun i j => q.1 0 0 i j, fun i j => q.1 0 0 i j,
          p.step + 1, p.period, p.running, p.callbacks, p.caption, p.config, p.entry, p.git,
          some (p.step + 1, p.period)⟩, none) := by
        rw [Page.fire, if_neg hp, Page.update, hc]
      have hq : ofPage (fun i j => q.1 0 0 i j) = q.1 := by
        funext n c i j
        rw [Subsingleton.elim n 0, Subsingleton.elim c 0]; rfl
      have hu : ∀ m, firings B (m + 1) p = firings B m (p.fire B).1 := fun m => rfl
      rw [hu, hs]
      have := ih ⟨p.index, q.2, fun i j => q.1 0 0 i j, fun i j => q.1 0 0 i j,
          p.step + 1, p.period, p.running, p.callbacks, p.caption, p.config, p.entry, p.git,
          some (p.step + 1, p.period)⟩ hp r (by rw [hq]; exact h)
      obtain ⟨a1, a2, a3, a4, a5⟩ := this
      refine ⟨a1, a2, by rw [a3]; simp only; omega, a4, fun _ => ?_⟩
      cases n with
      | zero => rfl
      | succ m => exact a5 (Nat.succ_pos _)

/-- C120: on the page, with the timer running, the spaceship flies: after `p·k` firings what is
shown is within `10⁻⁶` of the pattern `k` moves further, and the page has counted the steps. -/
theorem ship_flies_on_page (s : ZooShip) {B : Backend (CCA ℝ 1 1) ℝ} (hB : RunsCCA B)
    (p : Page (CCA ℝ 1 1) ℝ) (hc : p.callbacks ≠ []) (ha : p.ca = lifeCA [3] [2, 3])
    (hg : paste s.cells = .ok p.grid) (k : Nat) :
    (∀ i j, |(firings B (shipPeriod s * k) p).grid i j -
        (stamp s.grid (42 + k * (shipMove s).1) (shipColumn s + k * (shipMove s).2) :
          Univ ℝ 1 1 96 96) 0 0 i j| ≤ 1 / 1000000) ∧
      (firings B (shipPeriod s * k) p).step = p.step + shipPeriod s * k ∧
      (0 < k → (firings B (shipPeriod s * k) p).image =
        (firings B (shipPeriod s * k) p).grid) := by
  have hs : s ≠ .p25 := by
    rintro rfl
    rw [(ship_on_page _).1 rfl] at hg
    cases hg
  obtain ⟨g, g1, g2⟩ := (ship_on_page s).2 hs
  rw [hg] at g1
  cases g1
  have room : s.height + 3 ≤ 96 ∧ s.width + 1 ≤ 96 := by cases s <;> decide
  obtain ⟨r, h1, h2⟩ := ship_moves (N := 1) s room.1 room.2 42 (shipColumn s) k
  rw [← g2, ← ha] at h1
  obtain ⟨a1, _, a3, _, a5⟩ := firings_ok hB _ p hc r h1
  have hp : 0 < shipPeriod s := by cases s <;> decide
  refine ⟨fun i j => ?_, a3, fun hk => a5 (Nat.mul_pos hp hk)⟩
  have := h2 0 i j
  rw [← a1] at this
  exact this

/-- A page with the small spaceship on it. -/
example : ∃ (B : Backend (CCA ℝ 1 1) ℝ) (p : Page (CCA ℝ 1 1) ℝ), RunsCCA B ∧ p.callbacks ≠ [] ∧
    p.ca = lifeCA [3] [2, 3] ∧ paste ZooShip.small.cells = .ok p.grid := by
  obtain ⟨g, g1, _⟩ := (ship_on_page .small).2 (by decide)
  exact ⟨⟨fun _ => none, fun c _ => (c, none), fun c g =>
    (CCA.forward c (ofPage g)).map fun r => (fun i j => r.1 0 0 i j, r.2)⟩,
    ⟨[], lifeCA [3] [2, 3], g, g, 0, 512, true, [512], [], [], [], [], none⟩,
    fun _ _ => rfl, by simp, rfl, g1⟩

end Yuca
