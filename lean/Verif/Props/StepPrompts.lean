import Verif.Props.StepNotebook
import Verif.Props.StepControl
import Mathlib.Algebra.Order.Floor.Ring
import Mathlib.Algebra.Order.Floor.Semiring
import Mathlib.Tactic.FieldSimp

namespace Yuca

open Spec

/-! ## C132: prompts and placement -/

/-- C132: the pattern with the chosen number is taken for every number the list shows; negative
answers count from the end.  A number beyond the list is cut to its length, not to its last
position, and raises. -/
theorem choose_pattern (index : List Str) (a : Int) :
    (∀ h : 0 ≤ a ∧ a < index.length, choosePattern index (some a) = .ok (index[a.toNat]'(by omega))) ∧
    (∀ h : -(index.length : Int) ≤ a ∧ a < 0,
      choosePattern index (some a) = .ok (index[index.length - a.natAbs]'(by omega))) ∧
    (a < -(index.length : Int) → choosePattern index (some a) = .error .index) := by
  refine ⟨fun ⟨h0, h1⟩ => ?_, fun ⟨h0, h1⟩ => ?_, fun h => ?_⟩
  · unfold choosePattern
    simp only [min_eq_right h1.le, if_pos h0]
    rw [List.getElem?_eq_getElem (by omega)]
  · unfold choosePattern
    have e : min (index.length : Int) a = a := min_eq_right (by omega)
    simp only [e, if_neg (not_le.2 h1), if_pos h0]
    have e2 : (a + index.length).toNat = index.length - a.natAbs := by omega
    rw [e2, List.getElem?_eq_getElem (by omega)]
  · unfold choosePattern
    have e : min (index.length : Int) a = a := min_eq_right (by omega)
    have : ¬ (0 ≤ a) := by omega
    simp only [e, if_neg this, if_neg (not_le.2 h)]

/-- C132, exception: an answer of at least the number of patterns is not cut to the last pattern
but raises IndexError. -/
theorem choose_beyond_refuted (index : List Str) (a : Int) (h : index.length ≤ a) :
    choosePattern index (some a) = .error .index := by
  unfold choosePattern
  have h0 : (0 : Int) ≤ index.length := by omega
  simp only [min_eq_left h, if_pos h0]
  rw [List.getElem?_eq_none (by simp)]

/-- C132: an answer that is no number picks the second pattern. -/
theorem choose_default (index : List Str) (h : 1 < index.length) :
    choosePattern index none = .ok index[1] := by
  unfold choosePattern
  simp [List.getElem?_eq_getElem h]

/-- The answers 0 and -1 with the shipped patterns. -/
example : choosePattern (shippedZoo.map fun x => x.1.toList) (some 2) = .ok "frog000".toList ∧
    choosePattern (shippedZoo.map fun x => x.1.toList) (some (-1)) = .ok "wobbler000".toList ∧
    choosePattern (shippedZoo.map fun x => x.1.toList) (some 49) = .error .index := by
  decide +kernel

/-- C132: what a prompt gives lies between its bounds, and an answer between them is kept. -/
theorem prompt_clip {K : Type} [LinearOrder K] {lo hi dflt : K} (hlh : lo ≤ hi)
    (hd : lo ≤ dflt ∧ dflt ≤ hi) (a : Option K) :
    lo ≤ promptClip lo hi dflt a ∧ promptClip lo hi dflt a ≤ hi ∧
      (∀ x, a = some x → lo ≤ x → x ≤ hi → promptClip lo hi dflt a = x) ∧
      (a = none → promptClip lo hi dflt a = dflt) := by
  cases a with
  | none => exact ⟨hd.1, hd.2, fun x h => by simp at h, fun _ => rfl⟩
  | some v =>
    refine ⟨le_min (le_max_left _ _) hlh, min_le_right _ _, ?_, fun h => by simp at h⟩
    intro x h h1 h2
    cases h
    simp [promptClip, max_eq_right h1, min_eq_left h2]

example : promptClip (1 : Int) 1024 1 (some 5000) = 1024 ∧ promptClip (1 : Int) 1024 1 (some 0) = 1 ∧
    promptClip (1 : Int) 1024 1 (some 48) = 48 := by decide

/-- C132: what is raised for the arrays that are not placed: IndexError for fewer than two axes,
RuntimeError for a longer leading axis. -/
theorem place_errors {K : Type} [Zero K] (p : Cells K) :
    (p.shape.length < 2 → placeCentred p = .error .index) ∧
    ∀ lead h w, p.shape = lead ++ [h, w] → (∃ d ∈ lead, d ≠ 1) →
      placeCentred p = .error .runtime := by
  constructor
  · intro h
    rw [← List.length_reverse] at h
    unfold placeCentred
    split
    · rename_i hr
      rw [hr] at h
      simp at h
    · rfl
  · rintro lead h w hs ⟨d, hd, h1⟩
    have hr : p.shape.reverse = w :: h :: lead.reverse := by simp [hs]
    unfold placeCentred
    rw [hr]
    dsimp only
    rw [if_neg]
    intro hc
    rw [List.all_reverse, List.all_eq_true] at hc
    exact h1 (by simpa using hc d hd)

example : ([2, 5, 5] : List Nat) = [2] ++ [5, 5] ∧ (∃ d ∈ [2], d ≠ 1) ∧ ([5] : List Nat).length < 2 := by
  decide

/-- C132: a stored array is placed exactly when all axes before the last two have length 1; the
grid has at least 128 rows and columns and twice those of the pattern, the pattern is in it, cell
for cell, with margins of at least half its size that differ by at most one, and all else is dead. -/
theorem place_centred {K : Type} [Zero K] (p : Cells K) (lead : List Nat) (h w : Nat)
    (hs : p.shape = lead ++ [h, w]) :
    ((∃ r, placeCentred p = .ok r) ↔ ∀ d ∈ lead, d = 1) ∧
    ∀ X Y c, placeCentred p = .ok (X, Y, c) →
      X = max 128 (2 * h) ∧ Y = max X (2 * w) ∧
      ∃ ox oy, (ox + h ≤ X ∧ oy + w ≤ Y) ∧
        (X - (ox + h) = ox ∨ X - (ox + h) = ox + 1) ∧ (Y - (oy + w) = oy ∨ Y - (oy + w) = oy + 1) ∧
        (h ≤ 2 * ox + 1 ∧ w ≤ 2 * oy + 1) ∧
        (∀ i j, i < h → j < w → c (ox + i) (oy + j) = p.cell 0 0 i j) ∧
        (∀ i j, (i < ox ∨ ox + h ≤ i ∨ j < oy ∨ oy + w ≤ j) → c i j = 0) := by
  have hr : p.shape.reverse = w :: h :: lead.reverse := by simp [hs]
  have hall : (lead.reverse.all (· = 1)) = true ↔ ∀ d ∈ lead, d = 1 := by simp
  constructor
  · unfold placeCentred
    rw [hr]
    dsimp only
    rw [← hall]
    split
    · rename_i hc; exact ⟨fun _ => hc, fun _ => ⟨_, rfl⟩⟩
    · rename_i hc; exact ⟨fun ⟨_, h⟩ => by simp at h, fun h => absurd h hc⟩
  · intro X Y c hp
    unfold placeCentred at hp
    rw [hr] at hp
    dsimp only at hp
    split at hp
    · simp only [Except.ok.injEq, Prod.mk.injEq] at hp
      obtain ⟨rfl, rfl, rfl⟩ := hp
      have hx : dimX h = max 128 (2 * h) := by unfold dimX; omega
      have hy : dimY h w = max (dimX h) (2 * w) := by unfold dimY; omega
      refine ⟨hx, hy, (dimX h - h) / 2, (dimY h w - w) / 2, ⟨by omega, by omega⟩, by omega,
        by omega, ⟨by omega, by omega⟩, ?_, ?_⟩
      · intro i j hi hj
        dsimp only
        rw [if_pos (by omega)]
        congr 1 <;> omega
      · intro i j hij
        dsimp only
        rw [if_neg (by omega)]
    · simp at hp

/-- The shipped patterns that cannot be placed. -/
def Spec.unplaced : List String :=
  ["uskate_berrycup000", "uskate_berrycup001", "uskate_daedalus000", "uskate_daedalus001",
   "uskate_glider000", "uskate_glider001"]

/-- C132, exception: of the shipped patterns the six with two channels raise. -/
theorem place_shipped (p : Cells ℝ) (n : String) (hn : (n, p.shape) ∈ shippedZoo) :
    (∃ r, placeCentred p = .ok r) ↔ n ∉ Spec.unplaced := by
  obtain ⟨sh, hsh⟩ : ∃ sh, sh = p.shape := ⟨_, rfl⟩
  have key : ∀ x ∈ shippedZoo, (∃ r, (match x.2.reverse with
      | w :: h :: lead => lead.all (· = 1)
      | _ => false) = r ∧ (r = true ↔ x.1 ∉ Spec.unplaced)) ∧
      (∃ lead h w, x.2 = lead ++ [h, w]) := by
    have k1 : ∀ x ∈ shippedZoo, ((match x.2.reverse with
      | w :: h :: lead => lead.all (· = 1)
      | _ => false) = true ↔ x.1 ∉ Spec.unplaced) := by decide +kernel
    have k2 : ∀ x ∈ shippedZoo, 2 ≤ x.2.length := by decide +kernel
    intro x hx
    refine ⟨⟨_, rfl, k1 x hx⟩, ?_⟩
    have := k2 x hx
    have hl : x.2.reverse.length = x.2.length := by simp
    match hrev : x.2.reverse, hl with
    | [], h => simp at h; omega
    | [_], h => simp at h; omega
    | w :: h :: l, _ =>
      refine ⟨l.reverse, h, w, ?_⟩
      have := congrArg List.reverse hrev
      simpa using this
  obtain ⟨⟨r, hr, hiff⟩, lead, h, w, he⟩ := key _ hn
  dsimp only at hr hiff he
  rw [(place_centred p lead h w he).1, ← hiff, ← hr, he]
  simp

/-- The frog lies in rows and columns 46 to 81 of a grid of 128 rows and columns. -/
example : ∃ c, placeCentred (⟨[1, 1, 36, 36], fun _ _ _ _ => (1 : ℚ)⟩) = .ok (128, 128, c) ∧
    c 46 46 = 1 ∧ c 81 81 = 1 ∧ c 45 46 = 0 ∧ c 82 46 = 0 :=
  ⟨_, rfl, by decide +kernel, by decide +kernel, by decide +kernel, by decide +kernel⟩

end Yuca
