import Verif.Model.Gliders
import Verif.Props.StepNotebook
import Verif.Props.Stored
import Mathlib.Tactic.Linarith
import Mathlib.Tactic.FieldSimp
import Mathlib.Tactic.IntervalCases

/-!
# C136: gliders and entropy maps in two notebooks

Exact arithmetic.
-/

namespace Yuca

section Tracks

variable {β γ ε : Type}

theorem lastHundred_range (f : Nat → γ) (n : Nat) :
    lastHundred (((List.range n).drop (n - 101)).map f) ++ [f n] =
      ((List.range (n + 1)).drop (n + 1 - 101)).map f := by
  unfold lastHundred
  rw [← List.map_drop, List.drop_drop, List.length_map, List.length_drop, List.length_range,
    List.range_succ, List.drop_append_of_le_length (by simp), List.map_append]
  rw [show n - 101 + (n - (n - 101) - 100) = n + 1 - 101 by omega, List.map_cons, List.map_nil]

/-- C136: after `n` frames with the centres displayed the list holds the centres after each of the
last 101 steps, or of all if there are fewer. -/
theorem glider_frames (ca : β → β) (centre : β → γ) (grid : β) (n : Nat) :
    (gliderFrames true ca centre grid n).grid = ca^[n] grid ∧
      (gliderFrames true ca centre grid n).com =
        ((List.range n).drop (n - 101)).map (fun k => centre (ca^[k + 1] grid)) ∧
      (gliderFrames true ca centre grid n).com.length = min n 101 := by
  have key : (gliderFrames true ca centre grid n).grid = ca^[n] grid ∧
      (gliderFrames true ca centre grid n).com =
        ((List.range n).drop (n - 101)).map (fun k => centre (ca^[k + 1] grid)) := by
    induction n with
    | zero => exact ⟨rfl, rfl⟩
    | succ n ih =>
      obtain ⟨h1, h2⟩ := ih
      unfold gliderFrames at h1 h2 ⊢
      rw [Function.iterate_succ_apply']
      simp only [gliderFrame, if_true, h1, h2]
      rw [← Function.iterate_succ_apply' ca]
      exact ⟨rfl, lastHundred_range (fun k => centre (ca^[k + 1] grid)) n⟩
  refine ⟨key.1, key.2, ?_⟩
  rw [key.2, List.length_map, List.length_drop, List.length_range]
  omega

/-- C136: with `display_center = False`, as the notebook sets it, only the grids move. -/
theorem glider_hidden (ca : β → β) (centre : β → γ) (grid : β) (n : Nat) :
    gliderFrames false ca centre grid n = ⟨ca^[n] grid, [], []⟩ := by
  induction n with
  | zero => rfl
  | succ n ih =>
    unfold gliderFrames at ih ⊢
    rw [Function.iterate_succ_apply', ih, Function.iterate_succ_apply']
    rfl

/-- C136: the colours: the oldest point has progress 0, the progress grows along the list, and the
newest point never reaches 1. -/
theorem track_points (com : List γ) (i : Nat) (hi : i < com.length) :
    (trackPoints com).length = com.length ∧
      (trackPoints com)[i]? = some ((i : ℚ) / com.length, com[i]) ∧
      0 ≤ (i : ℚ) / com.length ∧ (i : ℚ) / com.length < 1 := by
  have hp : (0 : ℚ) < com.length := by exact_mod_cast (by omega : 0 < com.length)
  refine ⟨by simp [trackPoints], by simp [trackPoints, hi], by positivity, ?_⟩
  rw [div_lt_one hp]
  exact_mod_cast hi

/-- C136, exception: trimming the list does not remove points: after `n` frames the axes carry every
point of every frame. -/
theorem glider_drawn (ca : β → β) (centre : β → γ) (grid : β) (n : Nat) :
    (gliderFrames true ca centre grid n).drawn =
      (List.range n).flatMap fun k => trackPoints (gliderFrames true ca centre grid (k + 1)).com := by
  induction n with
  | zero => rfl
  | succ n ih =>
    rw [List.range_succ, List.flatMap_append, ← ih]
    show (gliderFrames true ca centre grid (n + 1)).drawn = _ ++ (trackPoints _ ++ [])
    rw [List.append_nil]
    unfold gliderFrames
    rw [Function.iterate_succ_apply']
    simp only [gliderFrame, if_true]

/-- So the centre after every single step stays visible in the whole animation. -/
theorem glider_never_fades (ca : β → β) (centre : β → γ) (grid : β) (n k : Nat) (hk : k < n) :
    ∃ p, (p, centre (ca^[k + 1] grid)) ∈ (gliderFrames true ca centre grid n).drawn := by
  rw [glider_drawn]
  have hl := (glider_frames ca centre grid (k + 1)).2
  have hlast : (gliderFrames true ca centre grid (k + 1)).com[min (k + 1) 101 - 1]? =
      some (centre (ca^[k + 1] grid)) := by
    rw [hl.1, List.getElem?_map, List.getElem?_drop, List.getElem?_range (by omega)]
    simp only [Option.map_some]
    rw [show k + 1 - 101 + (min (k + 1) 101 - 1) = k by omega]
  have hi : min (k + 1) 101 - 1 < (gliderFrames true ca centre grid (k + 1)).com.length := by
    rw [hl.2]; omega
  obtain ⟨_, h2, _⟩ := track_points _ _ hi
  rw [List.getElem?_eq_getElem hi, Option.some.injEq] at hlast
  rw [hlast] at h2
  exact ⟨_, List.mem_flatMap.2 ⟨k, List.mem_range.2 hk, List.mem_of_getElem? h2⟩⟩

/-- C136: the still picture: the first panel makes two steps per round and lists both centres. -/
theorem still_first (ca : β → β) (centre : β → γ) (grid : β) (n : Nat) :
    (stillRound0 ca centre)^[n] (grid, []) =
      (ca^[2 * n] grid, (List.range (2 * n)).map fun k => centre (ca^[k + 1] grid)) := by
  induction n with
  | zero => rfl
  | succ n ih =>
    rw [Function.iterate_succ_apply', ih, show 2 * (n + 1) = 2 * n + 1 + 1 by omega,
      List.range_succ, List.range_succ]
    simp only [stillRound0, Function.iterate_succ_apply', List.map_append, List.map_cons,
      List.map_nil]

/-- C136: the other three make one. -/
theorem still_others (ca : β → β) (centre : β → γ) (grid : β) (n : Nat) :
    (stillRound ca centre)^[n] (grid, []) =
      (ca^[n] grid, (List.range n).map fun k => centre (ca^[k + 1] grid)) := by
  induction n with
  | zero => rfl
  | succ n ih =>
    rw [Function.iterate_succ_apply', ih, List.range_succ]
    simp only [stillRound, Function.iterate_succ_apply', List.map_append, List.map_cons,
      List.map_nil]

/-- C136, refuted for the still picture: so its panels do not show the same number of steps. -/
theorem still_refuted (n : Nat) (hn : 0 < n) : ∃ (ca : ℕ → ℕ) (g : ℕ),
    ((stillRound0 ca id)^[n] (g, [])).1 ≠ ((stillRound ca id)^[n] (g, [])).1 ∧
      ((stillRound0 ca id)^[n] (g, [])).2.length = 2 * ((stillRound ca id)^[n] (g, [])).2.length := by
  have it : ∀ n : ℕ, (fun m : ℕ => m + 1)^[n] 0 = n := by
    intro n
    induction n with
    | zero => rfl
    | succ n ih => rw [Function.iterate_succ_apply', ih]
  refine ⟨fun m => m + 1, 0, ?_, ?_⟩
  · rw [still_first, still_others]
    simp only [it]
    omega
  · rw [still_first, still_others]
    simp

/-- C136: the entropy map beside the grid after `n` steps is that of the grid after
`32 ⌊(n-1)/32⌋ + 1` steps: up to 31 steps old. -/
theorem entropy_frames (ca : β → β) (h : β → ε) (grid : β) (first : ε) (n : Nat) (hn : 0 < n) :
    entropyFrames ca h grid first n =
      (ca^[n] grid, h (ca^[(n - 1) / 32 * 32 + 1] grid)) := by
  induction n with
  | zero => omega
  | succ n ih =>
    unfold entropyFrames at ih ⊢
    rw [List.range_succ, List.foldl_append, List.foldl_cons, List.foldl_nil]
    by_cases h0 : n = 0
    · subst h0
      rfl
    · rw [ih (by omega)]
      simp only [entropyFrame, Nat.add_sub_cancel, ← Function.iterate_succ_apply' ca]
      by_cases hm : n % 32 = 0
      · rw [if_pos hm, show n / 32 * 32 = n by omega]
      · rw [if_neg hm, show (n - 1) / 32 = n / 32 by omega]

/-- The map is that of the grid shown only in every 32nd frame. -/
theorem entropy_age (n : Nat) (hn : 0 < n) :
    (n - 1) / 32 * 32 + 1 ≤ n ∧ n < (n - 1) / 32 * 32 + 1 + 32 ∧
      ((n - 1) / 32 * 32 + 1 = n ↔ n % 32 = 1) := by
  omega

/-- C136, refuted for the animation: the map need not be that of the grid beside it. -/
theorem entropy_refuted : ∃ (ca : ℕ → ℕ) (h : ℕ → ℕ) (g : ℕ),
    (entropyFrames ca h g 0 2).2 ≠ h (entropyFrames ca h g 0 2).1 :=
  ⟨fun m => m + 1, id, 0, by decide⟩

end Tracks

/-! ## A glider's track is a line -/

section Line

variable {K : Type} [Field K] [LinearOrder K] [IsStrictOrderedRing K] {H W : Nat}

omit [LinearOrder K] [IsStrictOrderedRing K] in
theorem moved_trans {f g h : Fin H → Fin W → K} {a b c d : Int} (h1 : Spec.Moved f g a b)
    (h2 : Spec.Moved g h c d) : Spec.Moved f h (a + c) (b + d) := by
  constructor
  · intro i j hn
    obtain ⟨i', j', e1, e2, e3⟩ := h1.1 i j hn
    obtain ⟨i2, j2, f1, f2, f3⟩ := h2.1 i' j' (by rw [e3]; exact hn)
    exact ⟨i2, j2, by omega, by omega, by rw [f3, e3]⟩
  · intro i2 j2 hn
    obtain ⟨i', j', f1, f2, f3⟩ := h2.2 i2 j2 hn
    obtain ⟨i, j, e1, e2, e3⟩ := h1.2 i' j' (by rw [← f3]; exact hn)
    exact ⟨i, j, by omega, by omega, by rw [f3, e3]⟩

/-- C136: a pattern that has moved by `(a, b)` after every `p` steps and keeps clear of one of two
opposite edges draws its centres `p` steps apart along a line. -/
theorem glider_line (ca : (Fin H → Fin W → K) → Fin H → Fin W → K) (g : Fin H → Fin W → K)
    (p n : Nat) {a b : Int}
    (hmv : ∀ k < n, Spec.Moved (ca^[k * p] g) (ca^[(k + 1) * p] g) a b)
    (h0 : ∀ k ≤ n, ∀ i j, 0 ≤ ca^[k * p] g i j) {s : Nat} (hs : 0 < s)
    (hlive : ∃ i j, g i j ≠ 0)
    (hx : ∀ k ≤ n, Spec.Clear (ca^[k * p] g) s .left ∨ Spec.Clear (ca^[k * p] g) s .right)
    (hy : ∀ k ≤ n, Spec.Clear (ca^[k * p] g) s .top ∨ Spec.Clear (ca^[k * p] g) s .bottom) :
    ∃ x y : K, ∀ k ≤ n, gridCentre (ca^[k * p] g) s = some (x + (k : K) * (b : K), y + (k : K) * (a : K)) := by
  have z : ca^[0 * p] g = g := by simp
  have mv : ∀ k ≤ n, Spec.Moved g (ca^[k * p] g) (k * a) (k * b) := by
    intro k
    induction k with
    | zero =>
      intro _
      rw [z]
      constructor
      · intro i j _; exact ⟨i, j, by simp, by simp, rfl⟩
      · intro i j _; exact ⟨i, j, by simp, by simp, rfl⟩
    | succ k ih =>
      intro hk
      have := moved_trans (ih (by omega)) (hmv k (by omega))
      convert this using 1 <;> push_cast <;> ring
  have h00 := h0 0 (by omega)
  have hx0 := hx 0 (by omega)
  have hy0 := hy 0 (by omega)
  rw [z] at h00 hx0 hy0
  obtain ⟨x, y, hc, _⟩ := com_exact h00 hs hlive hx0 hy0
  refine ⟨x, y, fun k hk => ?_⟩
  obtain ⟨x', y', e1, e2⟩ := com_moves (mv k hk) h00 (h0 k hk) hs hlive hx0 hy0 (hx k hk) (hy k hk)
  rw [hc] at e1
  cases e1
  rw [e2]
  push_cast
  rfl

/-- A cell that is handed on to the right. -/
def Witness.handOn (g : Fin 3 → Fin 8 → ℚ) (i : Fin 3) (j : Fin 8) : ℚ :=
  if j = 0 then 0 else g i (j - 1)

/-- One live cell. -/
def Witness.lonelyCell (i : Fin 3) (j : Fin 8) : ℚ := if i = 1 ∧ j = 2 then 1 else 0

/-- It meets the hypotheses of `glider_line` with period 1 for three steps. -/
example : ∃ x y : ℚ, ∀ k ≤ 3, gridCentre (Witness.handOn^[k * 1] Witness.lonelyCell) 1 =
    some (x + (k : ℚ) * ((1 : Int) : ℚ), y + (k : ℚ) * ((0 : Int) : ℚ)) := by
  refine glider_line Witness.handOn Witness.lonelyCell 1 3 ?_ ?_ (by omega) ⟨1, 2, by decide +kernel⟩
    ?_ ?_
  · unfold Spec.Moved; decide +kernel
  · decide +kernel
  · intro k hk
    left
    unfold Spec.Clear
    revert k
    decide +kernel
  · intro k hk
    left
    unfold Spec.Clear
    revert k
    decide +kernel

end Line

/-! ## The grids the pictures start from -/

section Starts

variable {K : Type} [Zero K]

/-- C136: the first picture can be drawn for these sizes and no others. -/
theorem teaser_ok_iff (dim : Nat) (rand : Nat → Nat → K) :
    (∃ g, teaserGrid dim rand = .ok g) ↔
      dim = 6 ∨ dim = 7 ∨ (dim % 8 ≠ 3 ∧ dim % 8 ≠ 6 ∧ dim % 8 ≠ 7) := by
  unfold teaserGrid
  dsimp only
  have key : (dim / 4 = 3 * dim / 8 - dim / 8 ∨ dim / 4 = 1) ↔
      dim = 6 ∨ dim = 7 ∨ (dim % 8 ≠ 3 ∧ dim % 8 ≠ 6 ∧ dim % 8 ≠ 7) := by
    obtain ⟨q, r, hr, rfl⟩ : ∃ q r, r < 8 ∧ dim = 8 * q + r :=
      ⟨dim / 8, dim % 8, by omega, by omega⟩
    interval_cases r <;> omega
  by_cases h : dim / 4 = 3 * dim / 8 - dim / 8 ∨ dim / 4 = 1
  · rw [if_pos h]
    exact ⟨fun _ => key.1 h, fun _ => ⟨_, rfl⟩⟩
  · rw [if_neg h]
    refine ⟨?_, fun hh => absurd (key.2 hh) h⟩
    rintro ⟨g, hg⟩
    cases hg

/-- C136: 256 columns, as in the notebook, or any multiple of 8: a quarter of the width, in the
middle of the left half. -/
theorem teaser_cells (q : Nat) (hq : 0 < q) (rand : Nat → Nat → K) :
    ∃ g, teaserGrid (8 * q) rand = .ok g ∧
      (∀ y x, x < 2 * q → g y (q + x) = rand y x) ∧
      ∀ y x, (x < q ∨ 3 * q ≤ x) → g y x = 0 := by
  unfold teaserGrid
  rw [if_pos (by omega)]
  refine ⟨_, rfl, ?_, ?_⟩
  · intro y x hx
    rw [if_pos (by omega), if_neg (by omega)]
    congr 1
    omega
  · intro y x hx
    rw [if_neg (by omega)]

/-- C136: the square of the animation: all of `init`, zeros around it, in the exact middle if 4
divides the size. -/
theorem square_cells (dim : Nat) (init : Nat → Nat → K) :
    (∀ y x, y < 2 * (dim / 4) → x < 2 * (dim / 4) →
      dim / 4 + y < dim ∧ dim / 4 + x < dim ∧
        squareGrid dim init (dim / 4 + y) (dim / 4 + x) = init y x) ∧
    (∀ y x, (y < dim / 4 ∨ 3 * (dim / 4) ≤ y ∨ x < dim / 4 ∨ 3 * (dim / 4) ≤ x) →
      squareGrid dim init y x = 0) ∧
    (dim - 3 * (dim / 4) = dim / 4 ↔ dim % 4 = 0) := by
  refine ⟨fun y x hy hx => ⟨by omega, by omega, ?_⟩, fun y x h => ?_, by omega⟩
  · unfold squareGrid
    dsimp only
    rw [if_pos (by omega), Nat.add_sub_cancel_left, Nat.add_sub_cancel_left]
  · unfold squareGrid
    dsimp only
    rw [if_neg (by omega)]

end Starts

/-- C136: every pattern of these pictures is in the zoo, and the config it is run with holds the
rule of the config it was stored with. -/
theorem glider_rules : ∀ p ∈ gliderPatterns, ∃ c, (p.1, c) ∈ zooConfigs ∧
    ∃ s ∈ storedRules, ∃ u ∈ storedRules, s.file = c ∧ u.file = p.2 ∧ s.radius = u.radius ∧
      s.kernel = u.kernel ∧ s.genesis = u.genesis ∧ s.persistence = u.persistence ∧
      s.dt = u.dt := by
  have : ∀ p ∈ gliderPatterns, ∃ z ∈ zooConfigs, z.1 = p.1 ∧
    ∃ s ∈ storedRules, ∃ u ∈ storedRules, s.file = z.2 ∧ u.file = p.2 ∧ s.radius = u.radius ∧
      s.kernel = u.kernel ∧ s.genesis = u.genesis ∧ s.persistence = u.persistence ∧
      s.dt = u.dt := by decide +kernel
  intro p hp
  obtain ⟨z, hz, rfl', h⟩ := this p hp
  exact ⟨z.2, by rw [← rfl']; exact hz, h⟩

end Yuca
