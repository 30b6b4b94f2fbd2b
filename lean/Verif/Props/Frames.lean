import Verif.Model.Frames
import Verif.Lemmas.Text
import Mathlib.Logic.Function.Iterate
import Mathlib.Data.Nat.Digits.Lemmas
import Mathlib.Data.List.Sort

/-! # C46: a gif plays the trajectory in order -/

namespace Yuca

/-! ## Names sort like numbers -/

theorem digit_le {c : Char} (hc : c.isDigit = true) : 48 ≤ c.toNat ∧ c.toNat ≤ 57 := by
  unfold Char.isDigit at hc
  simp only [ge_iff_le, Bool.and_eq_true, decide_eq_true_eq] at hc
  exact hc

theorem foldl_lt (a b : Str) (hl : a.length = b.length) (ha : ∀ c ∈ a, c.isDigit = true)
    (x y : Nat) (h : x < y) :
    a.foldl (fun n c => n * 10 + (c.toNat - 48)) x <
      b.foldl (fun n c => n * 10 + (c.toNat - 48)) y := by
  induction a generalizing b x y with
  | nil =>
    cases b with
    | nil => exact h
    | cons _ _ => simp at hl
  | cons c a ih =>
    cases b with
    | nil => simp at hl
    | cons e b =>
      rw [List.foldl_cons, List.foldl_cons]
      have h9 := digit_le (ha c (List.mem_cons_self ..))
      exact ih b (by simpa using hl) (fun c hc => ha c (List.mem_cons_of_mem _ hc)) _ _ (by omega)

theorem value_lt (a b : Str) (hl : a.length = b.length) (ha : ∀ c ∈ a, c.isDigit = true)
    (hb : ∀ c ∈ b, c.isDigit = true) (h : a < b) : Spec.value a < Spec.value b := by
  have key : ∀ (a b : Str) (x : Nat), a.length = b.length → (∀ c ∈ a, c.isDigit = true) →
      (∀ c ∈ b, c.isDigit = true) → a < b →
      a.foldl (fun n c => n * 10 + (c.toNat - 48)) x <
        b.foldl (fun n c => n * 10 + (c.toNat - 48)) x := by
    intro a
    induction a with
    | nil =>
      intro b x hl _ _ h
      cases b with
      | nil => exact absurd h (List.lt_irrefl _)
      | cons _ _ => simp at hl
    | cons c a ih =>
      intro b x hl ha hb h
      cases b with
      | nil => simp at hl
      | cons e b =>
        rw [List.foldl_cons, List.foldl_cons]
        rcases List.cons_lt_cons_iff.1 h with h' | ⟨rfl, h'⟩
        · have h1 := digit_le (ha c (List.mem_cons_self ..))
          have h2 := digit_le (hb e (List.mem_cons_self ..))
          have h3 : c.toNat < e.toNat := h'
          exact foldl_lt a b (by simpa using hl) (fun c hc => ha c (List.mem_cons_of_mem _ hc)) _ _
            (by omega)
        · exact ih b _ (by simpa using hl) (fun c hc => ha c (List.mem_cons_of_mem _ hc))
            (fun c hc => hb c (List.mem_cons_of_mem _ hc)) h'
  exact key a b 0 hl ha hb h

theorem decimal_length {n w : Nat} (hw : 1 ≤ w) (h : n < 10 ^ w) : (decimal n).length ≤ w := by
  unfold decimal
  split
  · simpa using hw
  · rw [List.length_map, List.length_reverse]
    exact (Nat.digits_length_le_iff (by norm_num) n).2 h

theorem padZero_length {n w : Nat} (hw : 1 ≤ w) (h : n < 10 ^ w) : (padZero w n).length = w := by
  have := decimal_length hw h
  unfold padZero
  rw [List.length_append, List.length_replicate]
  omega

theorem lt_of_suffix (a b t : Str) (hl : a.length = b.length) (h : a ++ t < b ++ t) : a < b := by
  induction a generalizing b with
  | nil =>
    cases b with
    | nil => exact absurd h (List.lt_irrefl _)
    | cons _ _ => simp at hl
  | cons c a ih =>
    cases b with
    | nil => simp at hl
    | cons e b =>
      rw [List.cons_append, List.cons_append] at h
      rcases List.cons_lt_cons_iff.1 h with h' | ⟨rfl, h'⟩
      · exact List.cons_lt_cons_iff.2 (Or.inl h')
      · exact List.cons_lt_cons_iff.2 (Or.inr ⟨rfl, ih b (by simpa using hl) h'⟩)

theorem lt_of_prefix (s a b : Str) (h : s ++ a < s ++ b) : a < b := by
  induction s with
  | nil => exact h
  | cons c s ih =>
    rw [List.cons_append, List.cons_append] at h
    rcases List.cons_lt_cons_iff.1 h with h' | ⟨_, h'⟩
    · exact absurd h' (Nat.lt_irrefl c.toNat)
    · exact ih h'

/-- C46: frame names sort in step order, for up to 10^10 steps. -/
theorem frameName_sorted (numSteps i j : Nat) (hn : numSteps ≤ 10 ^ 10) (hi : i < j)
    (hj : j < numSteps) : frameName numSteps i ≤ frameName numSteps j ∧
      frameName numSteps i ≠ frameName numSteps j := by
  unfold frameName
  generalize hw : (if numSteps / 10 + 1 ≤ 5 then 5 else 10) = w
  have hlt : j < 10 ^ w := by
    rw [← hw]
    split
    · omega
    · omega
  have hw1 : 1 ≤ w := by
    rw [← hw]
    split <;> omega
  constructor
  · intro h
    rw [List.append_assoc, List.append_assoc] at h
    have h2 := lt_of_suffix _ _ _
      (by rw [padZero_length hw1 hlt, padZero_length hw1 (by omega)]) (lt_of_prefix _ _ _ h)
    have h3 := value_lt _ _ (by rw [padZero_length hw1 hlt, padZero_length hw1 (by omega)])
      (padZero_digits _ _) (padZero_digits _ _) h2
    rw [value_pad, value_pad] at h3
    omega
  · intro h
    have := padZero_inj (List.append_cancel_left (List.append_cancel_right h))
    omega

theorem frameName_png (numSteps i : Nat) : hasSub "png".toList (frameName numSteps i) = true := by
  rw [hasSub_iff]
  exact ⟨"frame_".toList ++ padZero (if numSteps / 10 + 1 ≤ 5 then 5 else 10) i ++ ['.'], [], by
    simp [frameName]⟩

/-! ## The loop -/

/-- The number of frames: the first step at which the grid is dead, at most `numSteps`. -/
def Spec.IsFrameCount {V I : Type} (m : Movie V I) (speedup numSteps : Nat) (v : V) (k : Nat) :
    Prop :=
  k ≤ numSteps ∧ (∀ i < k, m.dead (m.frame^[speedup * i] v) = false) ∧
    (k < numSteps → m.dead (m.frame^[speedup * k] v) = true)

section
variable {V I : Type} (m : Movie V I) (speedup numSteps : Nat)

/-- The files of the first `k` steps from step `s`. -/
def Spec.files (v : V) (s k : Nat) : List (Str × I) :=
  (List.range k).map fun i => (frameName numSteps (s + i), m.picture (m.frame^[speedup * i] v))

theorem frameLoop_spec (hn : numSteps ≤ 10 ^ 10) (k s : Nat) (v : V) (last : Option Nat)
    (d : List (Str × I)) (hs : s + k = numSteps)
    (hd : ∀ f ∈ d, ∀ j, s ≤ j → j < numSteps → f.1 ≠ frameName numSteps j) :
    ∃ c, c ≤ k ∧ (∀ i < c, m.dead (m.frame^[speedup * i] v) = false) ∧
      (c < k → m.dead (m.frame^[speedup * c] v) = true) ∧
      frameLoop m speedup numSteps k s v last d =
        (d ++ Spec.files m speedup numSteps v s c,
          if c < k then some (s + c) else if k = 0 then last else some (s + k - 1)) := by
  induction k generalizing s v last d with
  | zero =>
    refine ⟨0, le_rfl, fun i hi => by omega, fun h => by omega, ?_⟩
    rw [frameLoop, if_neg (by omega), if_pos rfl]
    simp [Spec.files]
  | succ k ih =>
    rw [frameLoop]
    cases hdead : m.dead v with
    | true =>
      refine ⟨0, by omega, fun i hi => by omega, fun _ => by simpa using hdead, ?_⟩
      rw [if_pos rfl, if_pos (by omega)]
      simp [Spec.files]
    | false =>
      rw [if_neg (by simp)]
      have hw : writeFile d (frameName numSteps s) (m.picture v) =
          d ++ [(frameName numSteps s, m.picture v)] := by
        unfold writeFile
        rw [List.filter_eq_self.2]
        intro f hf
        simpa using hd f hf s (le_refl _) (by omega)
      obtain ⟨c, h1, h2, h3, h4⟩ := ih (s + 1) (m.frame^[speedup] v) (some s)
        (writeFile d (frameName numSteps s) (m.picture v)) (by omega) (by
          rw [hw]
          intro f hf j hj1 hj2
          rcases List.mem_append.1 hf with hf | hf
          · exact hd f hf j (by omega) hj2
          · rw [List.mem_singleton.1 hf]
            exact (frameName_sorted numSteps s j hn (by omega) hj2).2)
      have it : ∀ i, m.frame^[speedup * i] (m.frame^[speedup] v) =
          m.frame^[speedup * (i + 1)] v := by
        intro i
        rw [← Function.iterate_add_apply, Nat.mul_succ]
      refine ⟨c + 1, by omega, ?_, ?_, ?_⟩
      · intro i hi
        cases i with
        | zero => simpa using hdead
        | succ i => rw [← it]; exact h2 i (by omega)
      · intro h
        rw [← it]
        exact h3 (by omega)
      · rw [h4, hw]
        refine Prod.ext ?_ ?_
        · simp only [Spec.files, List.range_succ_eq_map, List.map_cons, List.map_map,
            List.append_assoc, List.singleton_append]
          congr 2
          apply List.map_congr_left
          intro i _
          simp only [Function.comp_apply, Nat.succ_eq_add_one]
          rw [it, show s + 1 + i = s + (i + 1) by omega]
        · simp only
          rcases Nat.lt_or_ge c k with h | h
          · rw [if_pos h, if_pos (by omega)]
            congr 1
            omega
          · rw [if_neg (show ¬ c < k by omega), if_neg (show ¬ c + 1 < k + 1 by omega),
              if_neg (show ¬ k + 1 = 0 by omega)]
            split
            · subst_vars
              congr 1
            · congr 1
              omega

end

theorem files_sorted {V I : Type} (m : Movie V I) (speedup numSteps : Nat) (v : V) (k : Nat)
    (hn : numSteps ≤ 10 ^ 10) (hk : k ≤ numSteps) :
    ((Spec.files m speedup numSteps v 0 k).map Prod.fst).Pairwise (· ≤ ·) ∧
    ((Spec.files m speedup numSteps v 0 k).map Prod.fst).Nodup := by
  have hm : (Spec.files m speedup numSteps v 0 k).map Prod.fst =
      (List.range k).map (frameName numSteps) := by
    simp [Spec.files, Function.comp_def]
  rw [hm]
  have hp : (List.range k).Pairwise fun i j => frameName numSteps i ≤ frameName numSteps j ∧
      frameName numSteps i ≠ frameName numSteps j := by
    have hmem : ∀ j ∈ List.range k, j < numSteps := fun j hj =>
      lt_of_lt_of_le (List.mem_range.1 hj) hk
    refine List.Pairwise.imp_of_mem ?_ List.pairwise_lt_range
    intro i j _ hj hij
    exact frameName_sorted numSteps i j hn hij (hmem j hj)
  refine ⟨?_, ?_⟩
  · rw [List.pairwise_map]
    exact hp.imp fun h => h.1
  · rw [List.Nodup, List.pairwise_map]
    exact hp.imp fun h => h.2

theorem lookup_all {I : Type} (d : List (Str × I)) (hd : (d.map Prod.fst).Nodup) :
    ((d.map Prod.fst).filterMap fun n => (d.find? fun f => decide (f.1 = n)).map Prod.snd) =
      d.map Prod.snd := by
  rw [List.filterMap_map]
  have : ∀ f ∈ d, (d.find? fun g => decide (g.1 = f.1)) = some f := by
    intro f hf
    cases hfind : d.find? fun g => decide (g.1 = f.1) with
    | none =>
      have := List.find?_eq_none.1 hfind f hf
      simp at this
    | some g =>
      have h1 := List.find?_some hfind
      have h2 := List.mem_of_find?_eq_some hfind
      rw [decide_eq_true_iff] at h1
      rw [List.inj_on_of_nodup_map hd h2 hf h1]
  have h2 : d.filterMap ((fun n => (d.find? fun f => decide (f.1 = n)).map Prod.snd) ∘ Prod.fst) =
      d.filterMap (fun f => some f.2) := by
    apply List.filterMap_congr
    intro f hf
    simp only [Function.comp_apply]
    rw [this f hf]
    rfl
  rw [h2]
  simp

/-- C46: the gif shows the states of the trajectory in step order, the first one twice, up to the
step where the grid vanishes; no gif is made of fewer than two rounds of the loop. -/
theorem gif_plays_trajectory {V I : Type} (m : Movie V I) (speedup numSteps : Nat) (v : V)
    (h1 : 1 ≤ numSteps) (hn : numSteps ≤ 10 ^ 10) :
    ∃ k, Spec.IsFrameCount m speedup numSteps v k ∧
      saveFigSequence m speedup numSteps v [] =
        .ok (if k = 0 ∨ numSteps = 1 then none else
          some (m.picture v ::
            (List.range k).map fun i => m.picture (m.frame^[speedup * i] v))) := by
  obtain ⟨c, k1, k2, k3, k4⟩ := frameLoop_spec m speedup numSteps hn numSteps 0 v none []
    (by omega) (by simp)
  refine ⟨c, ⟨k1, k2, k3⟩, ?_⟩
  unfold saveFigSequence
  rw [k4]
  have hgif : 0 < c → makeGif ([] ++ Spec.files m speedup numSteps v 0 c) =
      .ok (m.picture v :: (List.range c).map fun i => m.picture (m.frame^[speedup * i] v)) := by
    intro hc
    rw [List.nil_append]
    obtain ⟨hs, hnd⟩ := files_sorted m speedup numSteps v c hn k1
    unfold makeGif
    have hsort : sortStr ((Spec.files m speedup numSteps v 0 c).map Prod.fst) =
        (Spec.files m speedup numSteps v 0 c).map Prod.fst :=
      (sortStr_perm _).eq_of_pairwise (fun a b _ _ h1 h2 => List.le_antisymm h1 h2)
        (sortStr_sorted _) hs
    have hfilter : ((Spec.files m speedup numSteps v 0 c).map Prod.fst).filter
        (hasSub "png".toList) = (Spec.files m speedup numSteps v 0 c).map Prod.fst := by
      rw [List.filter_eq_self]
      intro n hn
      simp only [Spec.files, List.map_map, List.mem_map, Function.comp_apply] at hn
      obtain ⟨i, _, rfl⟩ := hn
      exact frameName_png _ _
    simp only
    rw [hsort, hfilter, lookup_all _ hnd]
    obtain ⟨c', rfl⟩ : ∃ c', c = c' + 1 := ⟨c - 1, by omega⟩
    simp [Spec.files, List.range_succ_eq_map]
  simp only [Nat.zero_add]
  rcases Nat.lt_or_ge c numSteps with hlt | hge
  · rw [if_pos hlt]
    simp only
    rcases Nat.eq_zero_or_pos c with rfl | hc
    · rw [if_neg (by omega), if_pos (Or.inl rfl)]
    · rw [if_pos hc, hgif hc, if_neg (by omega)]
      rfl
  · rw [if_neg (by omega), if_neg (by omega)]
    simp only
    rcases Nat.lt_or_ge 1 numSteps with h2 | h2
    · rw [if_pos (by omega), hgif (by omega), if_neg (by omega)]
      rfl
    · rw [if_neg (by omega), if_pos (Or.inr (by omega))]

/-- C46: with no steps the call raises (`step` is never assigned). -/
theorem gif_no_steps {V I : Type} (m : Movie V I) (speedup : Nat) (v : V) (d : List (Str × I)) :
    saveFigSequence m speedup 0 v d = .error .unbound := rfl

/-- C46, refuted without the assumption that the frames directory has no pictures: a frame left
over by an interrupted run ends up in the gif. -/
theorem stale_frame_refuted : ∃ (m : Movie Nat Nat) (d : List (Str × Nat)) (g : List Nat),
    saveFigSequence m 1 2 0 d = .ok (some g) ∧ 99 ∈ g ∧ ∀ i, m.picture (m.frame^[1 * i] 0) = i := by
  refine ⟨⟨fun n => n + 1, fun _ => false, id⟩, [(frameName 2 7, 99)], [0, 0, 1, 99], ?_,
    by simp, ?_⟩
  · have hs : sortStr [frameName 2 7, frameName 2 0, frameName 2 1] =
        [frameName 2 0, frameName 2 1, frameName 2 7] := by
      refine (sortStr_perm _).trans ?_ |>.eq_of_pairwise
        (fun a b _ _ h1 h2 => List.le_antisymm h1 h2) (sortStr_sorted _) ?_
      · exact (List.Perm.swap _ _ _).trans (List.Perm.cons _ (List.Perm.swap _ _ _))
      · have h01 := (frameName_sorted 8 0 1 (by norm_num) (by omega) (by omega)).1
        have h07 := (frameName_sorted 8 0 7 (by norm_num) (by omega) (by omega)).1
        have h17 := (frameName_sorted 8 1 7 (by norm_num) (by omega) (by omega)).1
        refine List.Pairwise.cons ?_ (List.Pairwise.cons ?_ (List.pairwise_singleton _ _))
        · intro b hb
          rcases List.mem_cons.1 hb with rfl | hb
          · exact h01
          · rw [List.mem_singleton.1 hb]; exact h07
        · intro b hb
          rw [List.mem_singleton.1 hb]
          exact h17
    have hne : ∀ i j, i ≠ j → frameName 2 i ≠ frameName 2 j := by
      intro i j hij h
      exact hij (padZero_inj (List.append_cancel_left (List.append_cancel_right h)))
    have h70 := hne 7 0 (by omega)
    have h71 := hne 7 1 (by omega)
    have h01 := hne 0 1 (by omega)
    simp only [saveFigSequence, frameLoop, writeFile, Bool.false_eq_true, if_false,
      List.filter_cons, List.filter_nil, h70, h71, h01, ne_eq, not_false_eq_true, decide_true,
      if_true, List.cons_append, List.nil_append, Nat.zero_add, Nat.lt_add_one]
    simp only [makeGif, List.map_cons, List.map_nil, hs]
    simp only [List.filter_cons, frameName_png, if_true, List.filter_nil, List.filterMap_cons,
      List.filterMap_nil, List.find?_cons, h70, h71, h01, decide_false, decide_true, Option.map_some]
    rfl
  · intro i
    rw [Nat.one_mul]
    show (fun n => n + 1)^[i] 0 = i
    induction i with
    | zero => rfl
    | succ i ih => rw [Function.iterate_succ_apply', ih]

/-- A movie of three steps. -/
example : (1 : Nat) ≤ 3 ∧ 3 ≤ 10 ^ 10 ∧
    Spec.IsFrameCount (⟨fun n => n + 1, fun n => decide (n = 2), id⟩ : Movie Nat Nat) 1 3 0 2 := by
  refine ⟨by omega, by omega, by omega, ?_, fun _ => rfl⟩
  intro i hi
  interval_cases i <;> rfl

end Yuca
