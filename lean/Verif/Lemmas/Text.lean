import Verif.Model.Text
import Mathlib.Data.List.Infix
import Mathlib.Order.Basic
import Mathlib.Tactic.IntervalCases

/-!
# Facts about the text operations
-/

namespace Yuca

/-- The number a string of digits denotes. -/
def Spec.value (s : Str) : Nat := s.foldl (fun acc c => acc * 10 + (c.toNat - 48)) 0

theorem digitChar_toNat {d : Nat} (h : d < 10) : (Nat.digitChar d).toNat - 48 = d := by
  interval_cases d <;> rfl

theorem digitChar_digit {d : Nat} (h : d < 10) : (Nat.digitChar d).isDigit = true := by
  interval_cases d <;> rfl

theorem value_digits (l : List Nat) (h : ∀ d ∈ l, d < 10) :
    Spec.value (l.reverse.map Nat.digitChar) = Nat.ofDigits 10 l := by
  unfold Spec.value
  induction l with
  | nil => simp [Nat.ofDigits]
  | cons d l ih =>
    have hd := h d (by simp)
    have hl : ∀ d ∈ l, d < 10 := fun x hx => h x (by simp [hx])
    simp only [List.reverse_cons, List.map_append, List.foldl_append, ih hl, List.map_cons,
      List.map_nil, List.foldl_cons, List.foldl_nil, digitChar_toNat hd, Nat.ofDigits_cons]
    omega

/-- Decimal notation denotes the number. -/
theorem value_decimal (n : Nat) : Spec.value (decimal n) = n := by
  unfold decimal
  split
  · rename_i h; rw [h]; rfl
  · rw [value_digits _ fun d hd => Nat.digits_lt_base (by norm_num) hd, Nat.ofDigits_digits]

theorem value_pad (w n : Nat) : Spec.value (padZero w n) = n := by
  unfold padZero
  have : ∀ k, Spec.value (List.replicate k '0' ++ decimal n) = Spec.value (decimal n) := by
    intro k
    induction k with
    | zero => rfl
    | succ k ih =>
      rw [List.replicate_succ, List.cons_append]
      unfold Spec.value at ih ⊢
      rw [List.foldl_cons]
      exact ih
  rw [this, value_decimal]

/-- Different numbers get different padded names. -/
theorem padZero_inj {w m n : Nat} (h : padZero w m = padZero w n) : m = n := by
  have := congrArg Spec.value h
  rwa [value_pad, value_pad] at this

theorem decimal_ne_nil (n : Nat) : decimal n ≠ [] := by
  unfold decimal
  split
  · simp
  · simp only [ne_eq, List.map_eq_nil_iff, List.reverse_eq_nil_iff]
    exact Nat.digits_ne_nil_iff_ne_zero.2 (by assumption)

theorem decimal_digits (n : Nat) : ∀ c ∈ decimal n, c.isDigit = true := by
  unfold decimal
  split
  · simp
  · intro c hc
    simp only [List.mem_map, List.mem_reverse] at hc
    obtain ⟨d, hd, rfl⟩ := hc
    exact digitChar_digit (Nat.digits_lt_base (by norm_num) hd)

theorem padZero_digits (w n : Nat) : ∀ c ∈ padZero w n, c.isDigit = true := by
  unfold padZero
  intro c hc
  rcases List.mem_append.1 hc with h | h
  · rw [(List.mem_replicate.1 h).2]; rfl
  · exact decimal_digits n c h

theorem padZero_ne_nil (w n : Nat) : padZero w n ≠ [] := by
  unfold padZero
  simp [decimal_ne_nil]

/-- `pat in s` is the substring relation. -/
theorem hasSub_iff (pat s : Str) : hasSub pat s = true ↔ pat <:+: s := by
  induction s with
  | nil =>
    simp only [hasSub, List.isPrefixOf_iff_prefix, List.prefix_nil, List.infix_nil]
  | cons c s ih =>
    simp only [hasSub, Bool.or_eq_true, List.isPrefixOf_iff_prefix, ih]
    rw [List.infix_cons_iff]

theorem splitOn_ne_nil (c : Char) (s : Str) : splitOn c s ≠ [] := by
  cases s with
  | nil => simp [splitOn]
  | cons x xs =>
    rw [splitOn]
    split
    · simp
    · split <;> simp

/-- The first field. -/
theorem splitOn_head (c : Char) (s : Str) : (splitOn c s)[0]? = some (s.takeWhile (· ≠ c)) := by
  induction s with
  | nil => rfl
  | cons x xs ih =>
    rw [splitOn]
    by_cases h : x = c
    · rw [if_pos h, List.takeWhile_cons_of_neg (by simp [h])]
      rfl
    · rw [if_neg h, List.takeWhile_cons_of_pos (by simp [h])]
      cases hs : splitOn c xs with
      | nil => exact absurd hs (splitOn_ne_nil c xs)
      | cons a t =>
        rw [hs] at ih
        simp only [List.getElem?_cons_zero, Option.some.injEq] at ih ⊢
        rw [ih]

/-- Splitting off a first field without the separator. -/
theorem splitOn_append (c : Char) (a b : Str) (h : c ∉ a) :
    splitOn c (a ++ c :: b) = a :: splitOn c b := by
  induction a with
  | nil => rw [List.nil_append, splitOn, if_pos rfl]
  | cons x xs ih =>
    simp only [List.mem_cons, not_or] at h
    rw [List.cons_append, splitOn, if_neg (fun e => h.1 e.symm), ih h.2]

theorem splitOn_none (c : Char) (a : Str) (h : c ∉ a) : splitOn c a = [a] := by
  induction a with
  | nil => rfl
  | cons x xs ih =>
    simp only [List.mem_cons, not_or] at h
    rw [splitOn, if_neg (fun e => h.1 e.symm), ih h.2]

/-- The field after the first separator. -/
theorem splitOn_second (c : Char) (a b : Str) (h : c ∉ a) :
    (splitOn c (a ++ c :: b))[1]? = some (b.takeWhile (· ≠ c)) := by
  rw [splitOn_append c a b h, List.getElem?_cons_succ, splitOn_head]

/-- The first line. -/
theorem lines_append (a b : Str) (h : '\n' ∉ a) :
    lines (a ++ '\n' :: b) = (a ++ ['\n']) :: lines b := by
  induction a with
  | nil => rw [List.nil_append, lines, if_pos rfl]; rfl
  | cons x xs ih =>
    simp only [List.mem_cons, not_or] at h
    rw [List.cons_append, lines, if_neg (fun e => h.1 e.symm), ih h.2]
    rfl

theorem lines_last (a : Str) (h : '\n' ∉ a) (hne : a ≠ []) : lines a = [a] := by
  induction a with
  | nil => exact absurd rfl hne
  | cons x xs ih =>
    simp only [List.mem_cons, not_or] at h
    rw [lines, if_neg (fun e => h.1 e.symm)]
    cases xs with
    | nil => rfl
    | cons y ys => rw [ih h.2 (by simp)]

theorem of_mem_splitOn {s x : Str} {c d : Char} (hx : x ∈ splitOn c s) (hd : d ∈ x) : d ∈ s := by
  induction s generalizing x with
  | nil =>
    rw [splitOn, List.mem_singleton] at hx
    subst hx
    cases hd
  | cons y s ih =>
    rw [splitOn] at hx
    split at hx
    · rcases List.mem_cons.1 hx with rfl | hx
      · cases hd
      · exact List.mem_cons_of_mem _ (ih hx hd)
    · cases hs : splitOn c s with
      | nil => exact absurd hs (splitOn_ne_nil c s)
      | cons z t =>
        rw [hs] at hx ih
        rcases List.mem_cons.1 hx with rfl | hx
        · rcases List.mem_cons.1 hd with rfl | hd
          · exact List.mem_cons_self ..
          · exact List.mem_cons_of_mem _ (ih (List.mem_cons_self ..) hd)
        · exact List.mem_cons_of_mem _ (ih (List.mem_cons_of_mem _ hx) hd)

theorem of_mem_lines {s l : Str} {d : Char} (hl : l ∈ lines s) (hd : d ∈ l) : d ∈ s := by
  induction s generalizing l with
  | nil => rw [lines] at hl; cases hl
  | cons x xs ih =>
    rw [lines] at hl
    split at hl
    · rename_i hx
      rcases List.mem_cons.1 hl with rfl | hl
      · rw [List.mem_singleton.1 hd, hx]
        exact List.mem_cons_self ..
      · exact List.mem_cons_of_mem _ (ih hl hd)
    · cases hs : lines xs with
      | nil =>
        rw [hs] at hl
        rw [List.mem_singleton.1 hl] at hd
        rw [List.mem_singleton.1 hd]
        exact List.mem_cons_self ..
      | cons h t =>
        rw [hs] at hl ih
        rcases List.mem_cons.1 hl with rfl | hl
        · rcases List.mem_cons.1 hd with rfl | hd
          · exact List.mem_cons_self ..
          · exact List.mem_cons_of_mem _ (ih (List.mem_cons_self ..) hd)
        · exact List.mem_cons_of_mem _ (ih (List.mem_cons_of_mem _ hl) hd)

/-- Text mode leaves no carriage return. -/
theorem univNewlines_no_return (s : Str) : '\r' ∉ univNewlines s := by
  induction s using univNewlines.induct with
  | case1 => rw [univNewlines]; exact List.not_mem_nil
  | case2 xs ih => rw [univNewlines]; simpa using ih
  | case3 xs h ih =>
    rw [univNewlines]
    · simpa using ih
    · exact h
  | case4 x xs h1 h2 ih =>
    rw [univNewlines]
    · simp only [List.mem_cons, not_or]
      exact ⟨fun e => h2 e.symm, ih⟩
    · exact h1
    · exact h2

theorem univNewlines_id (s : Str) (h : '\r' ∉ s) : univNewlines s = s := by
  induction s with
  | nil => rfl
  | cons x xs ih =>
    simp only [List.mem_cons, not_or] at h
    have hx : x ≠ '\r' := fun e => h.1 e.symm
    rw [univNewlines]
    · rw [ih h.2]
    · intro ys he _; exact hx he
    · intro he; exact hx he

/-- `splitext` of a name with an extension. -/
theorem stem_ext (s e : Str) (he : '.' ∉ e) (hs : ∃ c ∈ s, c ≠ '.') : stem (s ++ '.' :: e) = s := by
  unfold stem
  have h1 : ((s ++ '.' :: e).reverse.takeWhile (· ≠ '.')).length = e.length := by
    rw [List.reverse_append, List.reverse_cons, List.append_assoc, List.takeWhile_append_of_pos]
    · simp
    · intro c hc
      have : c ∈ e := List.mem_reverse.1 hc
      simp only [ne_eq, decide_not, Bool.not_eq_eq_eq_not, Bool.not_true, decide_eq_false_iff_not]
      rintro rfl
      exact he this
  simp only [h1]
  rw [if_neg (by simp only [List.length_append, List.length_cons]; omega)]
  have h2 : (s ++ '.' :: e).take ((s ++ '.' :: e).length - e.length - 1) = s := by
    have : (s ++ '.' :: e).length - e.length - 1 = s.length := by
      simp only [List.length_append, List.length_cons]; omega
    rw [this, List.take_left']
    rfl
  rw [h2, if_neg]
  obtain ⟨c, hc, hne⟩ := hs
  simp only [List.all_eq_true, decide_eq_true_eq, not_forall]
  exact ⟨c, hc, hne⟩

theorem sortStr_perm (l : List Str) : (sortStr l).Perm l := List.mergeSort_perm ..

theorem sortStr_sorted (l : List Str) : (sortStr l).Pairwise (· ≤ ·) := by
  have := List.pairwise_mergeSort (le := fun a b : Str => decide (a ≤ b))
    (fun a b c h1 h2 => decide_eq_true (List.le_trans (of_decide_eq_true h1) (of_decide_eq_true h2)))
    (fun a b => by
      rcases List.le_total a b with h | h <;> simp [h]) l
  exact this.imp fun h => of_decide_eq_true h

end Yuca
