import Verif.Model.Patterns
import Verif.Lemmas.Plane
import Verif.Props.Life

/-!
# C86: the glider glides and the puffer puffs
-/

namespace Yuca

open Arith Spec

variable {N H W : Nat}

namespace Spec

/-- A universe that is empty except for the pattern, whose top left corner is at `(a, b)`; the
pattern continues around the edges. -/
noncomputable def stamp {h w : Nat} (p : Grid ℝ h w) (a b : ℤ) : Univ ℝ N 1 H W := fun _ _ i j =>
  if hxy : (((i.val : ℤ) - a) % H).toNat < h ∧ (((j.val : ℤ) - b) % W).toNat < w then
    p ⟨_, hxy.1⟩ ⟨_, hxy.2⟩
  else 0

/-- The glider in its four phases. -/
def gliderPhase : Fin 4 → List (ℤ × ℤ)
  | 0 => [(1, 2), (2, 1), (2, 2), (3, 1), (3, 3)]
  | 1 => [(1, 1), (1, 2), (2, 1), (2, 3), (3, 1)]
  | 2 => [(1, 1), (1, 2), (2, 0), (2, 1), (3, 2)]
  | 3 => [(1, 0), (1, 1), (1, 2), (2, 0), (3, 1)]

/-- The puffer. -/
def pufferCells : List (ℤ × ℤ) :=
  [(3, 1), (4, 1), (2, 2), (5, 2), (1, 3), (2, 3), (3, 3), (4, 3), (5, 3), (6, 3), (2, 4), (5, 4),
    (2, 5), (5, 5), (3, 6), (4, 6)]

/-- What the puffer leaves behind. -/
def ashCells : List (ℤ × ℤ) :=
  [(2, -1), (3, -1), (4, -1), (5, -1), (2, 0), (3, 0), (4, 0), (5, 0)]

/-- The puffer `13 k` columns further right, and `k` lumps of ash behind it, 13 columns apart. -/
def pufferTrail (k : Nat) : List (ℤ × ℤ) :=
  (pufferCells.map fun c => (c.1, c.2 + 13 * (k : ℤ))) ++
    (List.range k).flatMap fun m : Nat => ashCells.map fun c => (c.1, c.2 + 13 * (m : ℤ))

end Spec

theorem stamp_bits {p : Grid ℝ 8 8} {cells : List (ℤ × ℤ)}
    (hp : ∀ x y : Fin 8, p x y = if ((x.val : ℤ), (y.val : ℤ)) ∈ cells then 1 else 0)
    (hc : ∀ c ∈ cells, 0 ≤ c.1 ∧ c.1 < 8 ∧ 0 ≤ c.2 ∧ c.2 < 8) (hH : 8 ≤ H) (hW : 8 ≤ W)
    (a b : ℤ) :
    (stamp p a b : Univ ℝ N 1 H W) = ofBits fun _ => onTorus cells a b := by
  rw [onTorus_eq cells a b fun c h => by have := hc c h; omega]
  funext n e i j
  have hH' : 0 < (H : ℤ) := by omega
  have hW' : 0 < (W : ℤ) := by omega
  have x0 : 0 ≤ ((i.val : ℤ) - a) % H := Int.emod_nonneg _ (by omega)
  have y0 : 0 ≤ ((j.val : ℤ) - b) % W := Int.emod_nonneg _ (by omega)
  simp only [stamp, ofBits, torusOf, plane, bit, decide_eq_true_eq]
  split
  · rw [hp]
    simp only [Int.toNat_of_nonneg x0, Int.toNat_of_nonneg y0]
  · rename_i h
    rw [if_neg]
    intro hm
    have := hc _ hm
    simp only at this
    omega

theorem getGlider_cells (x y : Fin 8) :
    getGlider x y = if ((x.val : ℤ), (y.val : ℤ)) ∈ gliderPhase 0 then 1 else 0 := by
  simp only [getGlider, setOnes, npZeros, gliderPhase]
  fin_cases x <;> fin_cases y <;> simp

theorem getPuffer_cells (x y : Fin 8) :
    getPuffer x y = if ((x.val : ℤ), (y.val : ℤ)) ∈ pufferCells then 1 else 0 := by
  simp only [getPuffer, setOnes, npZeros, pufferCells]
  fin_cases x <;> fin_cases y <;> simp

/-- Do the rows hold exactly these cells? -/
def rowsMatch (w : Nat) (rows : List Nat) (cells : List (ℤ × ℤ)) : Bool :=
  (rows.all fun m => m >>> w == 0) &&
  (cells.all fun c => decide (0 ≤ c.1 ∧ 0 ≤ c.2) && (rows.getD c.1.toNat 0).testBit c.2.toNat) &&
  (List.range rows.length).all fun i => (List.range w).all fun j =>
    !(rows.getD i 0).testBit j || decide (((i : ℤ), (j : ℤ)) ∈ cells)

theorem rowsMatch_ok {w : Nat} {rows : List Nat} {cells : List (ℤ × ℤ)}
    (h : rowsMatch w rows cells = true) : ofRows rows = plane cells := by
  simp only [rowsMatch, Bool.and_eq_true, List.all_eq_true, beq_iff_eq, decide_eq_true_eq,
    List.mem_range, Bool.or_eq_true, Bool.not_eq_true'] at h
  obtain ⟨⟨h1, h2⟩, h3⟩ := h
  funext i j
  rw [Bool.eq_iff_iff]
  simp only [ofRows, plane, Bool.and_eq_true, decide_eq_true_eq]
  constructor
  · rintro ⟨⟨hi, hj⟩, hb⟩
    have hlt : i.toNat < rows.length := by
      by_contra hc
      rw [List.getD_eq_default _ _ (by omega)] at hb
      simp at hb
    have hm : rows.getD i.toNat 0 ∈ rows := by
      rw [List.getD_eq_getElem _ _ hlt]; exact List.getElem_mem hlt
    have hw : j.toNat < w := by
      by_contra hc
      have h6 : (rows.getD i.toNat 0 >>> w).testBit (j.toNat - w) = true := by
        rw [Nat.testBit_shiftRight, show w + (j.toNat - w) = j.toNat by omega]; exact hb
      rw [h1 _ hm] at h6
      simp at h6
    have := h3 _ hlt _ hw
    rw [hb] at this
    simpa [Int.toNat_of_nonneg hi, Int.toNat_of_nonneg hj] using this
  · intro hc
    exact h2 _ hc

/-! ## The glider -/

theorem conway_computes : Computes [3] [2, 3] conwayRow := conwayRow_bit

theorem glider_run (m : Fin 4) :
    (planeStep [3] [2, 3])^[m.val] (plane ((gliderPhase 0).map fun c => (c.1 + 1, c.2 + 1))) =
      plane ((gliderPhase m).map fun c => (c.1 + 1, c.2 + 1)) := by
  have h0 : ofRows [0, 0, 8, 12, 20, 0] = plane ((gliderPhase 0).map fun c => (c.1 + 1, c.2 + 1)) :=
    rowsMatch_ok (w := 5) (by decide +kernel)
  rw [← h0]
  fin_cases m
  · exact h0
  · rw [(runRows_ok (w := 5) (by simp) conway_computes 1
      (out := [0, 0, 12, 20, 4, 0]) (by decide +kernel)).1]
    exact rowsMatch_ok (w := 5) (by decide +kernel)
  · rw [(runRows_ok (w := 5) (by simp) conway_computes 2
      (out := [0, 0, 12, 6, 8, 0]) (by decide +kernel)).1]
    exact rowsMatch_ok (w := 5) (by decide +kernel)
  · rw [(runRows_ok (w := 5) (by simp) conway_computes 3
      (out := [0, 0, 14, 2, 4, 0]) (by decide +kernel)).1]
    exact rowsMatch_ok (w := 5) (by decide +kernel)

theorem glider_period :
    (planeStep [3] [2, 3])^[4] (plane ((gliderPhase 0).map fun c => (c.1 + 1, c.2 + 1))) =
        plane (gliderPhase 0) ∧
      ∀ m < 4, Within 1 4 1 4 ((planeStep [3] [2, 3])^[m]
        (plane ((gliderPhase 0).map fun c => (c.1 + 1, c.2 + 1)))) := by
  have h0 : ofRows [0, 0, 8, 12, 20, 0] = plane ((gliderPhase 0).map fun c => (c.1 + 1, c.2 + 1)) :=
    rowsMatch_ok (w := 5) (by decide +kernel)
  rw [← h0]
  have := runRows_ok (w := 5) (by simp) conway_computes 4
      (rows := [0, 0, 8, 12, 20, 0]) (out := [0, 4, 6, 10, 0, 0]) (by decide +kernel)
  refine ⟨this.1.trans (rowsMatch_ok (w := 5) (by decide +kernel)), fun m hm => ?_⟩
  simpa using this.2 m hm

theorem gliderPhase_box (m : Fin 4) : ∀ c ∈ gliderPhase m,
    0 ≤ c.1 ∧ c.1 ≤ 3 ∧ 0 ≤ c.2 ∧ c.2 ≤ 3 := by
  revert m; decide

theorem glider_onTorus (m : Fin 4) (a b : ℤ) (hH : 6 ≤ H) (hW : 6 ≤ W) :
    (onTorus (gliderPhase m) a b : Fin H → Fin W → Bool) =
      torusOf (plane ((gliderPhase m).map fun c => (c.1 + 1, c.2 + 1))) (a - 1) (b - 1) := by
  have h := onTorus_shift (H := H) (W := W) (gliderPhase m) (a - 1) (b - 1) 1 1
  rw [show a - 1 + 1 = a by ring, show b - 1 + 1 = b by ring] at h
  rw [← h]
  refine onTorus_eq _ _ _ fun c hc => ?_
  obtain ⟨c', hc', rfl⟩ := List.mem_map.1 hc
  have := gliderPhase_box m c' hc'
  simp only
  omega

/-- C86: on every torus of at least 6 by 6 cells, Life takes the glider through its four phases and
one cell up and to the left every four generations, for ever. -/
theorem life_glider (hH : 6 ≤ H) (hW : 6 ≤ W) (a b : ℤ) (k : Nat) (m : Fin 4) :
    (lifeStep [3] [2, 3])^[4 * k + m.val]
        (onTorus (gliderPhase 0) a b : Fin H → Fin W → Bool) =
      onTorus (gliderPhase m) (a - k) (b - k) := by
  have per : ∀ a b : ℤ, (lifeStep [3] [2, 3])^[4]
      (onTorus (gliderPhase 0) a b : Fin H → Fin W → Bool) =
      onTorus (gliderPhase 0) (a - 1) (b - 1) := by
    intro a b
    rw [glider_onTorus 0 a b hH hW, torus_run 4 glider_period.2 (by omega) (by omega),
      glider_period.1]
    refine (onTorus_eq _ _ _ fun c hc => ?_).symm
    have := gliderPhase_box 0 c hc
    omega
  have all : ∀ k : Nat, (lifeStep [3] [2, 3])^[4 * k]
      (onTorus (gliderPhase 0) a b : Fin H → Fin W → Bool) =
      onTorus (gliderPhase 0) (a - k) (b - k) := by
    intro k
    induction k with
    | zero => simp
    | succ k ih =>
      rw [show 4 * (k + 1) = 4 + 4 * k by ring, Function.iterate_add_apply, ih, per]
      push_cast
      congr 1 <;> ring
  rw [show 4 * k + m.val = m.val + 4 * k by ring, Function.iterate_add_apply, all,
    glider_onTorus 0 _ _ hH hW, torus_run m.val (h := 4) (w := 4)
      (fun x hx => glider_period.2 x (by omega)) (by omega) (by omega), glider_run,
    glider_onTorus m _ _ hH hW]

/-- C86: the pattern `get_glider()` under the continuous automaton of Conway's Life: on every
torus that holds the pattern, wherever it is put, after `4k + m` steps the universe is within
`10⁻⁶` of the glider in phase `m`, `k` cells further up and to the left. -/
theorem glider_flies (hH : 8 ≤ H) (hW : 8 ≤ W) (a b : ℤ) (k : Nat) (m : Fin 4) :
    ∃ r, iterate CCA.forward (4 * k + m.val) (lifeCA [3] [2, 3])
        (stamp getGlider a b : Univ ℝ N 1 H W) = .ok r ∧
      Near (1 / 1000000) r.1 fun _ => onTorus (gliderPhase m) (a - k) (b - k) := by
  rw [stamp_bits getGlider_cells (fun c hc => by have := gliderPhase_box 0 c hc; omega) hH hW]
  obtain ⟨r, h1, h2⟩ := life_forever [3] [2, 3] (by simp [RuleList]) (by simp [RuleList]) (by simp)
    (by omega) (by omega) (fun _ : Fin N => (onTorus (gliderPhase 0) a b : Fin H → Fin W → Bool))
    (4 * k + m.val)
  refine ⟨r, h1, ?_⟩
  simpa only [life_glider (by omega : 6 ≤ H) (by omega : 6 ≤ W)] using h2

/-- C86: every four steps the pattern is back, one cell further up and to the left. -/
theorem glider_moves (hH : 8 ≤ H) (hW : 8 ≤ W) (a b : ℤ) (k : Nat) :
    ∃ r, iterate CCA.forward (4 * k) (lifeCA [3] [2, 3])
        (stamp getGlider a b : Univ ℝ N 1 H W) = .ok r ∧
      ∀ n i j, |r.1 n 0 i j - (stamp getGlider (a - k) (b - k) : Univ ℝ N 1 H W) n 0 i j| ≤
        1 / 1000000 := by
  obtain ⟨r, h1, h2⟩ := glider_flies (N := N) hH hW a b k 0
  refine ⟨r, h1, fun n i j => ?_⟩
  rw [stamp_bits getGlider_cells (fun c hc => by have := gliderPhase_box 0 c hc; omega) hH hW]
  exact h2 n i j

theorem stamp_around {h w : Nat} (p : Grid ℝ h w) (a b : ℤ) :
    (stamp p (a - H) (b - W) : Univ ℝ N 1 H W) = stamp p a b := by
  funext n c i j
  have h1 : ((i.val : ℤ) - (a - H)) % H = ((i.val : ℤ) - a) % H := by
    rw [show (i.val : ℤ) - (a - H) = i.val - a + H by ring, Int.add_emod_right]
  have h2 : ((j.val : ℤ) - (b - W)) % W = ((j.val : ℤ) - b) % W := by
    rw [show (j.val : ℤ) - (b - W) = j.val - b + W by ring, Int.add_emod_right]
  simp only [stamp, h1, h2]

/-- C86: on a square torus of side `H` the glider is back where it started after `4 H` steps. -/
theorem glider_circles (hH : 8 ≤ H) (a b : ℤ) :
    ∃ r, iterate CCA.forward (4 * H) (lifeCA [3] [2, 3])
        (stamp getGlider a b : Univ ℝ N 1 H H) = .ok r ∧
      ∀ n i j, |r.1 n 0 i j - (stamp getGlider a b : Univ ℝ N 1 H H) n 0 i j| ≤ 1 / 1000000 := by
  have := glider_moves (N := N) hH hH a b H
  rwa [stamp_around] at this

/-- The sides of the default universe. -/
example : 8 ≤ 128 := by norm_num

/-! ## The puffer -/

theorem morley_computes : Computes [3, 6, 8] [2, 4, 5] morleyRow := morleyRow_bit

/-- One period of the lone puffer. -/
theorem puffer_period :
    (planeStep [3, 6, 8] [2, 4, 5])^[170] (plane (pufferCells.map fun c => (c.1 + 3, c.2 + 5))) =
        plane ((pufferTrail 1).map fun c => (c.1 + 3, c.2 + 5)) ∧
      ∀ m < 170, Within 1 12 1 25 ((planeStep [3, 6, 8] [2, 4, 5])^[m]
        (plane (pufferCells.map fun c => (c.1 + 3, c.2 + 5)))) := by
  have h0 : ofRows [0, 0, 0, 0, 256, 1920, 2368, 2368, 1920, 256, 0, 0, 0, 0] = plane (pufferCells.map fun c => (c.1 + 3, c.2 + 5)) :=
    rowsMatch_ok (w := 26) (by decide +kernel)
  rw [← h0]
  have := runRows_ok (w := 26) (by simp) morley_computes 170
    (rows := [0, 0, 0, 0, 256, 1920, 2368, 2368, 1920, 256, 0, 0, 0, 0])
    (out := [0, 0, 0, 0, 2097152, 15728688, 19398704, 19398704, 15728688, 2097152, 0, 0, 0, 0]) (by decide +kernel)
  refine ⟨this.1.trans (rowsMatch_ok (w := 26) (by decide +kernel)), fun m hm => ?_⟩
  simpa using this.2 m hm

theorem within_moved {r0 r1 c0 c1 dy dx : ℤ} {s : ℤ → ℤ → Bool} :
    Within r0 r1 c0 c1 (moved dy dx s) ↔ Within (r0 - dy) (r1 - dy) (c0 - dx) (c1 - dx) s := by
  constructor
  · intro h i j hij
    have := h (i + dy) (j + dx) (by simpa [moved] using hij)
    omega
  · intro h i j hij
    have := h _ _ hij
    omega

theorem moved_inj {dy dx : ℤ} {s t : ℤ → ℤ → Bool} (h : moved dy dx s = moved dy dx t) : s = t := by
  funext i j
  have := congrFun (congrFun h (i + dy)) (j + dx)
  simpa [moved] using this

/-- Move/Morley. -/
abbrev morley : (ℤ → ℤ → Bool) → ℤ → ℤ → Bool := planeStep [3, 6, 8] [2, 4, 5]

/-- The lone puffer. -/
theorem puffer_alone :
    morley^[170] (plane pufferCells) = plane (pufferTrail 1) ∧
      ∀ m < 170, Within (-2) 9 (-4) 20 (morley^[m] (plane pufferCells)) := by
  obtain ⟨h1, h2⟩ := puffer_period
  rw [← plane_moved, ← plane_moved, planeRun_moved] at h1
  refine ⟨moved_inj h1, fun m hm => ?_⟩
  have := h2 m hm
  rw [← plane_moved, planeRun_moved, within_moved] at this
  simpa using this

/-- The ash blinks with period two. -/
theorem ash_period :
    morley^[2] (plane ashCells) = plane ashCells ∧
      ∀ m < 2, Within 2 5 (-2) 1 (morley^[m] (plane ashCells)) := by
  have h0 : ofRows [0, 12, 12, 12, 12, 0] = plane (ashCells.map fun c => (c.1 + -1, c.2 + 3)) :=
    rowsMatch_ok (w := 5) (by decide +kernel)
  have := runRows_ok (w := 5) (by simp) morley_computes 2
    (rows := [0, 12, 12, 12, 12, 0]) (out := [0, 12, 12, 12, 12, 0]) (by decide +kernel)
  rw [h0, ← plane_moved, planeRun_moved] at this
  refine ⟨moved_inj this.1, fun m hm => ?_⟩
  have := this.2 m hm
  rw [planeRun_moved, within_moved] at this
  simpa using this

theorem ash_even (k : Nat) : morley^[2 * k] (plane ashCells) = plane ashCells := by
  rw [Function.iterate_mul]
  exact Function.iterate_fixed ash_period.1 k

theorem ash_within (m : Nat) : Within 2 5 (-2) 1 (morley^[m] (plane ashCells)) := by
  have h : m = m % 2 + 2 * (m / 2) := by omega
  rw [h, Function.iterate_add_apply, ash_even]
  exact ash_period.2 _ (by omega)

/-- `k` lumps of ash. -/
def ashTrail (k : Nat) : List (ℤ × ℤ) :=
  (List.range k).flatMap fun m : Nat => ashCells.map fun c => (c.1, c.2 + 13 * (m : ℤ))

theorem ashTrail_succ (k : Nat) :
    plane (ashTrail (k + 1)) = both (plane (ashTrail k)) (moved 0 (13 * (k : ℤ)) (plane ashCells)) := by
  funext i j
  rw [plane_moved]
  simp only [ashTrail, List.range_succ, List.flatMap_append, List.flatMap_cons, List.flatMap_nil,
    List.append_nil, both, plane, List.mem_append, Bool.decide_or, add_zero]
  rfl

theorem pufferTrail_eq (k : Nat) :
    plane (pufferTrail k) =
      both (plane (ashTrail k)) (moved 0 (13 * (k : ℤ)) (plane pufferCells)) := by
  funext i j
  rw [plane_moved]
  simp only [pufferTrail, both, plane, List.mem_append, Bool.decide_or, add_zero]
  rw [Bool.or_comm]
  rfl

theorem within_mono {r0 r1 c0 c1 r2 r3 c2 c3 : ℤ} {s : ℤ → ℤ → Bool} (h : Within r0 r1 c0 c1 s)
    (h1 : r2 ≤ r0) (h2 : r1 ≤ r3) (h3 : c2 ≤ c0) (h4 : c1 ≤ c3) : Within r2 r3 c2 c3 s := by
  intro i j hij; have := h i j hij; omega

theorem within_both {r0 r1 c0 c1 : ℤ} {s t : ℤ → ℤ → Bool} (hs : Within r0 r1 c0 c1 s)
    (ht : Within r0 r1 c0 c1 t) : Within r0 r1 c0 c1 (both s t) := by
  intro i j hij
  simp only [both, Bool.or_eq_true] at hij
  rcases hij with h | h
  · exact hs i j h
  · exact ht i j h

theorem plane_nil (m : Nat) : morley^[m] (plane []) = plane [] := by
  refine Function.iterate_fixed ?_ m
  funext i j
  exact planeStep_dead (by simp) fun _ _ _ _ _ _ => rfl

theorem ash_moved_within (k m : Nat) :
    Within 2 5 (13 * (k : ℤ) - 2) (13 * (k : ℤ) + 1)
      (morley^[m] (moved 0 (13 * (k : ℤ)) (plane ashCells))) := by
  rw [planeRun_moved, within_moved]
  have := ash_within m
  refine within_mono this ?_ ?_ ?_ ?_ <;> omega

theorem ashTrail_within (k : Nat) : ∀ m, Within 2 5 (-2) (13 * (k : ℤ) - 12)
    (morley^[m] (plane (ashTrail k))) := by
  induction k with
  | zero => intro m; rw [show ashTrail 0 = [] from rfl, plane_nil]; intro i j h; simp [plane] at h
  | succ k ih =>
    intro m
    rw [ashTrail_succ, planeRun_both (by simp) m (fun x _ => ih x)
      (fun x _ => ash_moved_within k x) (by omega)]
    push_cast
    exact within_both (within_mono (ih m) (by omega) (by omega) (by omega) (by omega))
      (within_mono (ash_moved_within k m) (by omega) (by omega) (by omega) (by omega))

theorem ashTrail_even (k m : Nat) : morley^[2 * m] (plane (ashTrail k)) = plane (ashTrail k) := by
  induction k with
  | zero => rw [show ashTrail 0 = [] from rfl, plane_nil]
  | succ k ih =>
    rw [ashTrail_succ, planeRun_both (by simp) _ (fun x _ => ashTrail_within k x)
      (fun x _ => ash_moved_within k x) (by omega), ih, planeRun_moved, ash_even]

theorem puffer_moved_within (k : Nat) {m : Nat} (hm : m < 170) :
    Within (-2) 9 (13 * (k : ℤ) - 4) (13 * (k : ℤ) + 20)
      (morley^[m] (moved 0 (13 * (k : ℤ)) (plane pufferCells))) := by
  rw [planeRun_moved, within_moved]
  refine within_mono (puffer_alone.2 m hm) ?_ ?_ ?_ ?_ <;> omega

theorem trail_one : plane (pufferTrail 1) =
    both (plane ashCells) (moved 0 13 (plane pufferCells)) := by
  have := pufferTrail_eq 1
  rw [ashTrail_succ] at this
  rw [this]
  funext i j
  simp [both, moved, plane, ashTrail]

theorem both_assoc (s t u : ℤ → ℤ → Bool) : both (both s t) u = both s (both t u) := by
  funext i j; simp [both, Bool.or_assoc]

theorem trail_within (k : Nat) {m : Nat} (hm : m < 170) :
    Within (-2) 9 (-4) (13 * (k : ℤ) + 20) (morley^[m] (plane (pufferTrail k))) := by
  rw [pufferTrail_eq, planeRun_both (by simp) m (fun x _ => ashTrail_within k x)
    (fun x hx => puffer_moved_within k (by omega)) (by omega)]
  exact within_both (within_mono (ashTrail_within k m) (by omega) (by omega) (by omega) (by omega))
    (within_mono (puffer_moved_within k hm) (by omega) (by omega) (by omega) (by omega))

theorem trail_period (k : Nat) :
    morley^[170] (plane (pufferTrail k)) = plane (pufferTrail (k + 1)) := by
  rw [pufferTrail_eq, planeRun_both (by simp) 170 (fun x _ => ashTrail_within k x)
    (fun x hx => puffer_moved_within k hx) (by omega), show 170 = 2 * 85 by norm_num,
    ashTrail_even, planeRun_moved, show 2 * 85 = 170 by norm_num, puffer_alone.1, trail_one,
    pufferTrail_eq, ashTrail_succ, both_assoc]
  congr 1
  funext i j
  simp only [both, moved, sub_zero]
  push_cast
  rw [show j - 13 * (k : ℤ) - 13 = j - 13 * ((k : ℤ) + 1) by ring]

theorem trail_box (k : Nat) : ∀ c ∈ pufferTrail k,
    1 ≤ c.1 ∧ c.1 ≤ 6 ∧ -1 ≤ c.2 ∧ c.2 ≤ 13 * (k : ℤ) + 6 := by
  have hp : ∀ c ∈ pufferCells, 1 ≤ c.1 ∧ c.1 ≤ 6 ∧ 1 ≤ c.2 ∧ c.2 ≤ 6 := by decide
  have ha : ∀ c ∈ ashCells, 2 ≤ c.1 ∧ c.1 ≤ 5 ∧ -1 ≤ c.2 ∧ c.2 ≤ 0 := by decide
  intro c hc
  simp only [pufferTrail, List.mem_append, List.mem_map, List.mem_flatMap, List.mem_range] at hc
  rcases hc with ⟨c', h, rfl⟩ | ⟨m, hm, c', h, rfl⟩
  · have := hp c' h; simp only; omega
  · have := ha c' h; simp only; omega

theorem trail_onTorus (k : Nat) (a b : ℤ) (hH : 14 ≤ H) (hW : 13 * k + 14 ≤ W) :
    (onTorus (pufferTrail k) a b : Fin H → Fin W → Bool) =
      torusOf (plane ((pufferTrail k).map fun c => (c.1 + 3, c.2 + 5))) (a - 3) (b - 5) := by
  have h := onTorus_shift (H := H) (W := W) (pufferTrail k) (a - 3) (b - 5) 3 5
  rw [show a - 3 + 3 = a by ring, show b - 5 + 5 = b by ring] at h
  rw [← h]
  refine onTorus_eq _ _ _ fun c hc => ?_
  obtain ⟨c', hc', rfl⟩ := List.mem_map.1 hc
  have := trail_box k c' hc'
  simp only
  omega

/-- C86: on every torus with room for it, Move/Morley (B368/S245) takes the puffer 13 columns to
the right every 170 generations, and each time it leaves a lump of eight cells behind. -/
theorem life_puffer (k : Nat) (hH : 14 ≤ H) (hW : 13 * k + 14 ≤ W) (a b : ℤ) :
    (lifeStep [3, 6, 8] [2, 4, 5])^[170 * k]
        (onTorus pufferCells a b : Fin H → Fin W → Bool) = onTorus (pufferTrail k) a b := by
  induction k with
  | zero => simp [pufferTrail]
  | succ k ih =>
    rw [show 170 * (k + 1) = 170 + 170 * k by ring, Function.iterate_add_apply, ih (by omega),
      trail_onTorus k a b hH (by omega), torus_run 170 (h := 12) (w := 13 * (k : ℤ) + 25) ?_
        (by omega) (by omega), ← plane_moved, planeRun_moved, trail_period, plane_moved,
      trail_onTorus (k + 1) a b hH (by omega)]
    intro m hm
    rw [← plane_moved, planeRun_moved, within_moved]
    exact within_mono (trail_within k hm) (by omega) (by omega) (by omega) (by omega)

/-- C86: the pattern `get_puffer()` under the continuous automaton of B368/S245: for up to 14
periods of 170 steps, on every torus with room for it and wherever it is put, the universe is
within `4·10⁻⁷` per step of the puffer `13 k` columns further right with `k` lumps of ash behind
it. -/
theorem puffer_puffs (k : Nat) (hk : k ≤ 14) (hH : 14 ≤ H) (hW : 13 * k + 14 ≤ W) (a b : ℤ) :
    ∃ r, iterate CCA.forward (170 * k) (lifeCA [3, 6, 8] [2, 4, 5])
        (stamp getPuffer a b : Univ ℝ N 1 H W) = .ok r ∧
      Near ((170 * k : ℕ) * (4 / 10000000)) r.1 fun _ => onTorus (pufferTrail k) a b := by
  have hp : ∀ c ∈ pufferCells, 0 ≤ c.1 ∧ c.1 < 8 ∧ 0 ≤ c.2 ∧ c.2 < 8 := by decide
  rw [stamp_bits getPuffer_cells hp (by omega) (by omega)]
  obtain ⟨r, h1, h2⟩ := life_any_rule [3, 6, 8] [2, 4, 5] (by simp [RuleList])
    (by simp [RuleList]) (by omega : 1 ≤ H) (by omega : 1 ≤ W)
    (fun _ : Fin N => (onTorus pufferCells a b : Fin H → Fin W → Bool)) (170 * k) (by omega)
  refine ⟨r, h1, ?_⟩
  simpa only [life_puffer k hH hW] using h2

/-- A run of fourteen periods fits in a universe of side 196. -/
example : 14 ≤ 14 ∧ 14 ≤ 196 ∧ 13 * 14 + 14 ≤ 196 := by norm_num

end Yuca
