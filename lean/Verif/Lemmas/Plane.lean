import Verif.Spec.Plane
import Mathlib.Data.Nat.Bitwise

/-!
# Running life-like automata on the plane: rows of bits
-/

namespace Yuca

open Spec

/-! ## Plane and torus -/

variable {H W : Nat}

/-- The torus seen from row `a`, column `b`. -/
def torusOf (s : ℤ → ℤ → Bool) (a b : ℤ) : Fin H → Fin W → Bool := fun i j =>
  s (((i.val : ℤ) - a) % H) (((j.val : ℤ) - b) % W)

theorem rollIdx_val {n : Nat} (i : Fin n) (d : ℤ) :
    ((rollIdx i d).val : ℤ) = ((i.val : ℤ) - d) % n := by
  unfold rollIdx
  have : 0 < (n : ℤ) := by have := i.isLt; omega
  exact Int.toNat_of_nonneg (Int.emod_nonneg _ (by omega))

theorem roll_sub {n : Nat} (i : Fin n) (a d : ℤ) :
    (((rollIdx i d).val : ℤ) - a) % n = ((((i.val : ℤ) - a) % n) - d) % n := by
  rw [rollIdx_val, Int.emod_sub_emod, Int.emod_sub_emod]
  congr 1; ring

theorem emod_near {n x d : ℤ} (h0 : 0 ≤ x) (h1 : x < n) (hd : d = -1 ∨ d = 0 ∨ d = 1) :
    (x - d) % n = x - d ∨ (x = 0 ∧ d = 1 ∧ (x - d) % n = n - 1) ∨
      (x = n - 1 ∧ d = -1 ∧ (x - d) % n = 0) := by
  rcases hd with rfl | rfl | rfl
  · by_cases h : x = n - 1
    · right; right; refine ⟨h, rfl, ?_⟩
      rw [h, show n - 1 - -1 = n by ring, Int.emod_self]
    · left; exact Int.emod_eq_of_lt (by omega) (by omega)
  · left; exact Int.emod_eq_of_lt (by omega) (by omega)
  · by_cases h : x = 0
    · right; left; refine ⟨h, rfl, ?_⟩
      rw [h, show (0 : ℤ) - 1 = -1 + n - n by ring, Int.sub_emod_right,
        Int.emod_eq_of_lt (by omega) (by omega)]; ring
    · left; exact Int.emod_eq_of_lt (by omega) (by omega)

/-- A pattern that keeps off the edges of the box does not notice that the world is a torus. -/
theorem torus_step {birth survival : List Nat} {s : ℤ → ℤ → Bool}
    (hs : Within 1 ((H : ℤ) - 2) 1 ((W : ℤ) - 2) s) (a b : ℤ) :
    lifeStep birth survival (torusOf s a b : Fin H → Fin W → Bool) =
      torusOf (planeStep birth survival s) a b := by
  funext i j
  have hH : 0 < (H : ℤ) := by have := i.isLt; omega
  have hW : 0 < (W : ℤ) := by have := j.isLt; omega
  set x := ((i.val : ℤ) - a) % H with hx
  set y := ((j.val : ℤ) - b) % W with hy
  have x0 : 0 ≤ x := Int.emod_nonneg _ (by omega)
  have x1 : x < H := Int.emod_lt_of_pos _ hH
  have y0 : 0 ≤ y := Int.emod_nonneg _ (by omega)
  have y1 : y < W := Int.emod_lt_of_pos _ hW
  have off : ∀ p q : ℤ, ¬ (1 ≤ p ∧ p ≤ (H : ℤ) - 2 ∧ 1 ≤ q ∧ q ≤ (W : ℤ) - 2) → s p q = false := by
    intro p q h
    cases hpq : s p q
    · rfl
    · exact absurd (hs p q hpq) h
  have key : ∀ d e : ℤ, (d = -1 ∨ d = 0 ∨ d = 1) → (e = -1 ∨ e = 0 ∨ e = 1) →
      torusOf s a b (rollIdx i d) (rollIdx j e) = s (x - d) (y - e) := by
    intro d e hd he
    unfold torusOf
    rw [roll_sub, roll_sub]
    change s ((x - d) % H) ((y - e) % W) = _
    rcases emod_near x0 x1 hd with h | ⟨h1, h2, h3⟩ | ⟨h1, h2, h3⟩
    · rw [h]
      rcases emod_near y0 y1 he with h | ⟨h1, h2, h3⟩ | ⟨h1, h2, h3⟩
      · rw [h]
      · rw [h3, off _ _ (by omega), off _ _ (by omega)]
      · rw [h3, off _ _ (by omega), off _ _ (by omega)]
    · rw [h3, off _ _ (by omega), off _ _ (by omega)]
    · rw [h3, off _ _ (by omega), off _ _ (by omega)]
  have hc : aliveNeighbours (torusOf s a b : Fin H → Fin W → Bool) i j =
      mooreOffsets.countP fun d => s (x - d.1) (y - d.2) := by
    unfold aliveNeighbours
    apply List.countP_congr
    intro d hd
    rw [key d.1 d.2]
    · simp only [mooreOffsets, List.mem_cons, List.not_mem_nil, or_false] at hd
      rcases hd with rfl | rfl | rfl | rfl | rfl | rfl | rfl | rfl <;> simp
    · simp only [mooreOffsets, List.mem_cons, List.not_mem_nil, or_false] at hd
      rcases hd with rfl | rfl | rfl | rfl | rfl | rfl | rfl | rfl <;> simp
  unfold lifeStep
  rw [hc]
  rfl

theorem torus_run {birth survival : List Nat} (n : Nat) {s : ℤ → ℤ → Bool} {h w : ℤ}
    (hs : ∀ m < n, Within 1 h 1 w ((planeStep birth survival)^[m] s)) (hH : h + 2 ≤ H)
    (hW : w + 2 ≤ W) (a b : ℤ) :
    (lifeStep birth survival)^[n] (torusOf s a b : Fin H → Fin W → Bool) =
      torusOf ((planeStep birth survival)^[n] s) a b := by
  induction n with
  | zero => rfl
  | succ n ih =>
    rw [Function.iterate_succ_apply', ih fun m hm => hs m (by omega),
      Function.iterate_succ_apply', torus_step]
    intro i j hij
    have := hs n (by omega) i j hij
    omega

theorem planeStep_moved (birth survival : List Nat) (dy dx : ℤ) (s : ℤ → ℤ → Bool) :
    planeStep birth survival (moved dy dx s) = moved dy dx (planeStep birth survival s) := by
  funext i j
  simp only [planeStep, moved]
  have : ∀ d : ℤ × ℤ, s (i - d.1 - dy) (j - d.2 - dx) = s (i - dy - d.1) (j - dx - d.2) := by
    intro d; congr 1 <;> ring
  simp only [this]

theorem planeRun_moved (birth survival : List Nat) (dy dx : ℤ) (n : Nat) (s : ℤ → ℤ → Bool) :
    (planeStep birth survival)^[n] (moved dy dx s) =
      moved dy dx ((planeStep birth survival)^[n] s) := by
  induction n with
  | zero => rfl
  | succ n ih => rw [Function.iterate_succ_apply', ih, planeStep_moved, Function.iterate_succ_apply']

theorem plane_moved (cells : List (ℤ × ℤ)) (dy dx : ℤ) :
    moved dy dx (plane cells) = plane (cells.map fun c => (c.1 + dy, c.2 + dx)) := by
  funext i j
  simp only [moved, plane, List.mem_map, Prod.mk.injEq]
  congr 1
  apply propext
  constructor
  · intro h; exact ⟨_, h, by ring, by ring⟩
  · rintro ⟨c, hc, h1, h2⟩
    rwa [show (i - dy, j - dx) = c by ext <;> simp <;> omega]

/-- The cells of a list inside the box, seen on the torus. -/
theorem onTorus_eq (cells : List (ℤ × ℤ)) (a b : ℤ)
    (h : ∀ c ∈ cells, 0 ≤ c.1 ∧ c.1 < H ∧ 0 ≤ c.2 ∧ c.2 < W) :
    (onTorus cells a b : Fin H → Fin W → Bool) = torusOf (plane cells) a b := by
  funext i j
  have hH : 0 < (H : ℤ) := by have := i.isLt; omega
  have hW : 0 < (W : ℤ) := by have := j.isLt; omega
  have one : ∀ (n : ℤ) (i a c : ℤ), 0 ≤ i → i < n → 0 ≤ c → c < n →
      (i = (a + c) % n ↔ (i - a) % n = c) := by
    intro n i a c h0 h1 h2 h3
    constructor
    · intro h; rw [h, Int.emod_sub_emod, show a + c - a = c by ring, Int.emod_eq_of_lt h2 h3]
    · intro h; rw [← h, Int.add_emod_emod, show a + (i - a) = i by ring, Int.emod_eq_of_lt h0 h1]
  rw [Bool.eq_iff_iff]
  simp only [onTorus, List.any_eq_true, decide_eq_true_eq, torusOf, plane]
  constructor
  · rintro ⟨c, hc, h1, h2⟩
    have := h c hc
    rw [(one H i a c.1 (by omega) (by have := i.isLt; omega) this.1 this.2.1).1 h1,
      (one W j b c.2 (by omega) (by have := j.isLt; omega) this.2.2.1 this.2.2.2).1 h2]
    exact hc
  · intro hc
    have := h _ hc
    exact ⟨_, hc, (one H i a _ (by omega) (by have := i.isLt; omega) this.1 this.2.1).2 rfl,
      (one W j b _ (by omega) (by have := j.isLt; omega) this.2.2.1 this.2.2.2).2 rfl⟩

theorem onTorus_shift (cells : List (ℤ × ℤ)) (a b dy dx : ℤ) :
    (onTorus (cells.map fun c => (c.1 + dy, c.2 + dx)) a b : Fin H → Fin W → Bool) =
      onTorus cells (a + dy) (b + dx) := by
  funext i j
  simp only [onTorus, List.any_map, Function.comp_def]
  congr 1
  funext c
  rw [show a + (c.1 + dy) = a + dy + c.1 by ring, show b + (c.2 + dx) = b + dx + c.2 by ring]

/-! ## Separated patterns do not notice each other -/

theorem planeStep_dead {birth survival : List Nat} (h0 : 0 ∉ birth) {s : ℤ → ℤ → Bool} {i j : ℤ}
    (h : ∀ p q, -1 ≤ p → p ≤ 1 → -1 ≤ q → q ≤ 1 → s (i - p) (j - q) = false) :
    planeStep birth survival s i j = false := by
  have hc : (mooreOffsets.countP fun d => s (i - d.1) (j - d.2)) = 0 := by
    rw [List.countP_eq_zero]
    intro d hd
    simp only [mooreOffsets, List.mem_cons, List.not_mem_nil, or_false] at hd
    rcases hd with rfl | rfl | rfl | rfl | rfl | rfl | rfl | rfl <;> rw [h] <;> norm_num
  have h1 : s i j = false := by simpa using h 0 0
  unfold planeStep
  rw [hc, h1]
  simp [h0]

theorem planeStep_congr {birth survival : List Nat} {s t : ℤ → ℤ → Bool} {i j : ℤ}
    (h : ∀ p q, -1 ≤ p → p ≤ 1 → -1 ≤ q → q ≤ 1 → s (i - p) (j - q) = t (i - p) (j - q)) :
    planeStep birth survival s i j = planeStep birth survival t i j := by
  have hc : (mooreOffsets.countP fun d => s (i - d.1) (j - d.2)) =
      (mooreOffsets.countP fun d => t (i - d.1) (j - d.2)) := by
    apply List.countP_congr
    intro d hd
    simp only [mooreOffsets, List.mem_cons, List.not_mem_nil, or_false] at hd
    rcases hd with rfl | rfl | rfl | rfl | rfl | rfl | rfl | rfl <;> rw [h] <;> norm_num
  have h1 : s i j = t i j := by simpa using h 0 0
  unfold planeStep
  rw [hc, h1]

/-- Both patterns together. -/
def both (s t : ℤ → ℤ → Bool) : ℤ → ℤ → Bool := fun i j => s i j || t i j

/-- Two patterns with two empty columns between them. -/
theorem planeStep_both {birth survival : List Nat} (h0 : 0 ∉ birth) {s t : ℤ → ℤ → Bool}
    {r0 r1 r2 r3 c0 c1 c2 c3 : ℤ} (hs : Within r0 r1 c0 c1 s) (ht : Within r2 r3 c2 c3 t)
    (hc : c1 + 3 ≤ c2) :
    planeStep birth survival (both s t) =
      both (planeStep birth survival s) (planeStep birth survival t) := by
  funext i j
  have offs : ∀ p q, c1 < q → s p q = false := by
    intro p q h; cases hpq : s p q
    · rfl
    · have := hs p q hpq; omega
  have offt : ∀ p q, q < c2 → t p q = false := by
    intro p q h; cases hpq : t p q
    · rfl
    · have := ht p q hpq; omega
  by_cases h : j ≤ c1 + 1
  · have h1 : planeStep birth survival t i j = false :=
      planeStep_dead h0 fun p q _ _ _ _ => offt _ _ (by omega)
    rw [both, h1, Bool.or_false]
    exact planeStep_congr fun p q _ _ _ _ => by rw [both, offt _ _ (by omega), Bool.or_false]
  · have h1 : planeStep birth survival s i j = false :=
      planeStep_dead h0 fun p q _ _ _ _ => offs _ _ (by omega)
    rw [both, h1, Bool.false_or]
    exact planeStep_congr fun p q _ _ _ _ => by rw [both, offs _ _ (by omega), Bool.false_or]

theorem planeRun_both {birth survival : List Nat} (h0 : 0 ∉ birth) {s t : ℤ → ℤ → Bool}
    {r0 r1 r2 r3 c0 c1 c2 c3 : ℤ} (n : Nat)
    (hs : ∀ m < n, Within r0 r1 c0 c1 ((planeStep birth survival)^[m] s))
    (ht : ∀ m < n, Within r2 r3 c2 c3 ((planeStep birth survival)^[m] t))
    (hc : c1 + 3 ≤ c2) :
    (planeStep birth survival)^[n] (both s t) =
      both ((planeStep birth survival)^[n] s) ((planeStep birth survival)^[n] t) := by
  induction n with
  | zero => rfl
  | succ n ih =>
    rw [Function.iterate_succ_apply', ih (fun m hm => hs m (by omega)) fun m hm => ht m (by omega),
      Function.iterate_succ_apply', Function.iterate_succ_apply',
      planeStep_both h0 (hs n (by omega)) (ht n (by omega)) hc]

/-! ## Rows of bits -/

/-- `a` without the bits of `b`. -/
def butNot (a b : Nat) : Nat := a ^^^ (a &&& b)

/-- Sum and carry of three bits. -/
def fullAdd (a b c : Nat) : Nat × Nat := (a ^^^ b ^^^ c, (a &&& b) ||| (c &&& (a ^^^ b)))

/-- The binary digits of the number of neighbours, for a whole row at once. -/
def countBits (u m d : Nat) : Nat × Nat × Nat × Nat :=
  let p := fullAdd (u <<< 1) u (u >>> 1)
  let q := fullAdd (d <<< 1) d (d >>> 1)
  let g := m <<< 1
  let h := m >>> 1
  let r := fullAdd p.1 q.1 (g ^^^ h)
  let v := fullAdd p.2 q.2 (g &&& h)
  (r.1, v.1 ^^^ r.2, v.2 ^^^ (v.1 &&& r.2), v.2 &&& (v.1 &&& r.2))

/-- Conway's Life. -/
def conwayRow (u m d : Nat) : Nat :=
  let c := countBits u m d
  butNot (c.2.1 &&& (c.1 ||| m)) c.2.2.1

/-- Move/Morley, B368/S245. -/
def morleyRow (u m d : Nat) : Nat :=
  let c := countBits u m d
  butNot (butNot (c.1 &&& c.2.1) c.2.2.1 ||| butNot (c.2.1 &&& c.2.2.1) c.1 ||| c.2.2.2) m |||
    (m &&& (butNot c.2.1 (c.1 ||| c.2.2.1) ||| butNot c.2.2.1 c.2.1))

def goRows (row : Nat → Nat → Nat → Nat) : Nat → List Nat → List Nat
  | _, [] => []
  | u, m :: rest => row u m (rest.headD 0) :: goRows row m rest

/-- The rows as a plane pattern. -/
def ofRows (rows : List Nat) : ℤ → ℤ → Bool := fun i j =>
  decide (0 ≤ i ∧ 0 ≤ j) && (rows.getD i.toNat 0).testBit j.toNat

theorem testBit_butNot (a b j : Nat) : (butNot a b).testBit j = (a.testBit j && !b.testBit j) := by
  unfold butNot
  rw [Nat.testBit_xor, Nat.testBit_and]
  cases a.testBit j <;> cases b.testBit j <;> rfl

theorem testBit_shl (a j : Nat) : (a <<< 1).testBit j = (decide (1 ≤ j) && a.testBit (j - 1)) := by
  rw [Nat.testBit_shiftLeft]

theorem testBit_shr (a j : Nat) : (a >>> 1).testBit j = a.testBit (1 + j) := by
  rw [Nat.testBit_shiftRight]

/-- The cell above its neighbours in one column, the bits given in the order of
`mooreOffsets`. -/
def cellRule (birth survival : List Nat) (m : Bool) (n : List Bool) : Bool :=
  if m then decide (n.countP id ∈ survival) else decide (n.countP id ∈ birth)

theorem conwayRow_bit (u m d j : Nat) :
    (conwayRow u m d).testBit j = cellRule [3] [2, 3] (m.testBit j)
      [d.testBit (1 + j), d.testBit j, (d <<< 1).testBit j, m.testBit (1 + j), (m <<< 1).testBit j,
        u.testBit (1 + j), u.testBit j, (u <<< 1).testBit j] := by
  simp only [conwayRow, countBits, fullAdd, testBit_butNot, Nat.testBit_xor, Nat.testBit_and,
    Nat.testBit_or, testBit_shr]
  generalize d.testBit (1 + j) = x1
  generalize d.testBit j = x2
  generalize (d <<< 1).testBit j = x3
  generalize m.testBit (1 + j) = x4
  generalize (m <<< 1).testBit j = x5
  generalize u.testBit (1 + j) = x6
  generalize u.testBit j = x7
  generalize (u <<< 1).testBit j = x8
  generalize m.testBit j = x9
  revert x1 x2 x3 x4 x5 x6 x7 x8 x9
  decide +kernel

theorem morleyRow_bit (u m d j : Nat) :
    (morleyRow u m d).testBit j = cellRule [3, 6, 8] [2, 4, 5] (m.testBit j)
      [d.testBit (1 + j), d.testBit j, (d <<< 1).testBit j, m.testBit (1 + j), (m <<< 1).testBit j,
        u.testBit (1 + j), u.testBit j, (u <<< 1).testBit j] := by
  simp only [morleyRow, countBits, fullAdd, testBit_butNot, Nat.testBit_xor, Nat.testBit_and,
    Nat.testBit_or, testBit_shr]
  generalize d.testBit (1 + j) = x1
  generalize d.testBit j = x2
  generalize (d <<< 1).testBit j = x3
  generalize m.testBit (1 + j) = x4
  generalize (m <<< 1).testBit j = x5
  generalize u.testBit (1 + j) = x6
  generalize u.testBit j = x7
  generalize (u <<< 1).testBit j = x8
  generalize m.testBit j = x9
  revert x1 x2 x3 x4 x5 x6 x7 x8 x9
  decide +kernel

theorem goRows_getD (row : Nat → Nat → Nat → Nat) (rows : List Nat) (u i : Nat)
    (hi : i < rows.length) :
    (goRows row u rows).getD i 0 =
      row (if i = 0 then u else rows.getD (i - 1) 0) (rows.getD i 0) (rows.getD (i + 1) 0) := by
  induction rows generalizing u i with
  | nil => simp at hi
  | cons m rest ih =>
    cases i with
    | zero => cases rest <;> simp [goRows]
    | succ i =>
      simp only [goRows, List.getD_cons_succ]
      rw [ih m i (by simpa using hi)]
      cases i <;> simp

theorem goRows_length (row : Nat → Nat → Nat → Nat) (rows : List Nat) (u : Nat) :
    (goRows row u rows).length = rows.length := by
  induction rows generalizing u with
  | nil => rfl
  | cons m rest ih => simp [goRows, ih]

/-- The rows compute the cells. -/
def Computes (birth survival : List Nat) (row : Nat → Nat → Nat → Nat) : Prop :=
  ∀ u m d j, (row u m d).testBit j = cellRule birth survival (m.testBit j)
      [d.testBit (1 + j), d.testBit j, (d <<< 1).testBit j, m.testBit (1 + j), (m <<< 1).testBit j,
        u.testBit (1 + j), u.testBit j, (u <<< 1).testBit j]

/-- Nothing alive in row and column 0, in the last row, or from column `w` on. -/
def inside (w : Nat) (rows : List Nat) : Bool :=
  rows.headD 0 == 0 && rows.getLastD 0 == 0 && rows.all fun m => m % 2 == 0 && m >>> w == 0

theorem inside_within {w : Nat} {rows : List Nat} (h : inside w rows = true) :
    Within 1 ((rows.length : ℤ) - 2) 1 ((w : ℤ) - 1) (ofRows rows) := by
  intro i j hij
  simp only [ofRows, Bool.and_eq_true, decide_eq_true_eq] at hij
  obtain ⟨⟨hi, hj⟩, hb⟩ := hij
  simp only [inside, Bool.and_eq_true, beq_iff_eq, List.all_eq_true] at h
  obtain ⟨⟨h1, h2⟩, h3⟩ := h
  have hlt : i.toNat < rows.length := by
    by_contra hc
    rw [List.getD_eq_default _ _ (by omega)] at hb
    simp at hb
  have hm : rows.getD i.toNat 0 ∈ rows := by
    rw [List.getD_eq_getElem _ _ hlt]; exact List.getElem_mem hlt
  obtain ⟨h4, h5⟩ := h3 _ hm
  refine ⟨?_, ?_, ?_, ?_⟩
  · by_contra hc
    have : i.toNat = 0 := by omega
    rw [this] at hb
    cases rows with
    | nil => simp at hlt
    | cons a l => simp at h1; simp [h1] at hb
  · by_contra hc
    have : i.toNat = rows.length - 1 := by omega
    rw [this] at hb
    have hne : rows ≠ [] := by intro h; rw [h] at hlt; simp at hlt
    have e : rows.getD (rows.length - 1) 0 = rows.getLastD 0 := by
      rw [List.getD_eq_getElem _ _ (by omega), List.getLastD_eq_getLast?,
        List.getLast?_eq_some_getLast hne, Option.getD_some, List.getLast_eq_getElem]
    rw [e, h2] at hb
    simp at hb
  · by_contra hc
    have : j.toNat = 0 := by omega
    rw [this, Nat.testBit_zero] at hb
    simp only [decide_eq_true_eq] at hb
    omega
  · by_contra hc
    have h6 : (rows.getD i.toNat 0 >>> w).testBit (j.toNat - w) = true := by
      rw [Nat.testBit_shiftRight, show w + (j.toNat - w) = j.toNat by omega]; exact hb
    rw [h5] at h6
    simp at h6

theorem ofRows_neg_row (rows : List Nat) (i j : ℤ) (h : i < 0) : ofRows rows i j = false := by
  simp [ofRows]; intro h1; omega

theorem ofRows_nat (rows : List Nat) (i j : Nat) :
    ofRows rows i j = (rows.getD i 0).testBit j := by simp [ofRows]

theorem rows_step {birth survival : List Nat} {row : Nat → Nat → Nat → Nat} (h0 : 0 ∉ birth)
    (hr : Computes birth survival row) {w : Nat} {rows : List Nat} (h : inside w rows = true) :
    planeStep birth survival (ofRows rows) = ofRows (goRows row 0 rows) := by
  have hin := inside_within h
  have off : ∀ p q, ¬ (1 ≤ p ∧ p ≤ (rows.length : ℤ) - 2 ∧ 1 ≤ q) → ofRows rows p q = false := by
    intro p q hpq
    cases hc : ofRows rows p q
    · rfl
    · have := hin p q hc; omega
  funext i j
  by_cases hi : 0 ≤ i ∧ i < rows.length ∧ 0 ≤ j
  · obtain ⟨h1, h2, h3⟩ := hi
    obtain ⟨i, rfl⟩ := Int.eq_ofNat_of_zero_le h1
    obtain ⟨j, rfl⟩ := Int.eq_ofNat_of_zero_le h3
    rw [ofRows_nat, goRows_getD row rows 0 i (by omega), hr]
    have up : (if i = 0 then 0 else rows.getD (i - 1) 0).testBit = fun k : Nat =>
        ofRows rows ((i : ℤ) - 1) k := by
      funext k
      split
      · rename_i h; rw [h, off _ _ (by omega)]; simp
      · rw [show ((i : ℤ) - 1) = ((i - 1 : Nat) : ℤ) by omega, ofRows_nat]
    have left : ∀ (m : Nat) (p : ℤ), (∀ k : Nat, m.testBit k = ofRows rows p k) →
        (m <<< 1).testBit j = ofRows rows p ((j : ℤ) - 1) := by
      intro m p hm
      rw [testBit_shl]
      cases j with
      | zero => rw [off _ _ (by omega)]; simp
      | succ j => simp [hm]
    have um : ∀ k : Nat, (rows.getD i 0).testBit k = ofRows rows (i : ℤ) k :=
      fun k => (ofRows_nat ..).symm
    have dn : ∀ k : Nat, (rows.getD (i + 1) 0).testBit k = ofRows rows ((i : ℤ) + 1) k := by
      intro k
      rw [show ((i : ℤ) + 1) = ((i + 1 : Nat) : ℤ) by omega, ofRows_nat]
    rw [left _ _ (fun k => congrFun up k), left _ _ um, left _ _ dn, up, um, um, dn, dn]
    unfold planeStep cellRule
    simp only [mooreOffsets, List.countP_cons, List.countP_nil, id]
    have e1 : ((1 + j : Nat) : ℤ) = (j : ℤ) + 1 := by omega
    simp only [e1, sub_neg_eq_add, sub_zero]
  · have r : ofRows (goRows row 0 rows) i j = false := by
      simp only [ofRows, Bool.and_eq_false_iff, decide_eq_false_iff_not]
      by_cases h1 : 0 ≤ i ∧ 0 ≤ j
      · right
        rw [List.getD_eq_default _ _ (by rw [goRows_length]; omega)]
        simp
      · left; exact h1
    rw [r]
    exact planeStep_dead h0 fun p q _ _ _ _ => off _ _ (by omega)

/-- `n` steps inside the box. -/
def runRows (row : Nat → Nat → Nat → Nat) (w : Nat) : Nat → List Nat → Option (List Nat)
  | 0, rows => some rows
  | n + 1, rows => if inside w rows then runRows row w n (goRows row 0 rows) else none

theorem runRows_ok {birth survival : List Nat} {row : Nat → Nat → Nat → Nat} (h0 : 0 ∉ birth)
    (hr : Computes birth survival row) {w : Nat} (n : Nat) {rows out : List Nat}
    (h : runRows row w n rows = some out) :
    (planeStep birth survival)^[n] (ofRows rows) = ofRows out ∧
      ∀ m < n, Within 1 ((rows.length : ℤ) - 2) 1 ((w : ℤ) - 1)
        ((planeStep birth survival)^[m] (ofRows rows)) := by
  induction n generalizing rows with
  | zero =>
    simp only [runRows, Option.some.injEq] at h
    subst h
    exact ⟨rfl, fun m hm => absurd hm (by omega)⟩
  | succ n ih =>
    simp only [runRows] at h
    split at h
    · rename_i hin
      obtain ⟨h1, h2⟩ := ih h
      rw [goRows_length] at h2
      rw [← rows_step h0 hr hin] at h1 h2
      refine ⟨by rw [Function.iterate_succ_apply]; exact h1, fun m hm => ?_⟩
      cases m with
      | zero => exact inside_within hin
      | succ m => rw [Function.iterate_succ_apply]; exact h2 m (by omega)
    · simp at h

end Yuca
