import Verif.Lemmas.Shell
import Verif.Props.Frames
import Mathlib.Data.Fintype.Pigeonhole

/-!
# C118: what the shell commands do to the files
(yuca/utils.py:147-258, test_commit.py:4-32)
-/

namespace Yuca

namespace Spec

/-- Letters, digits, `.`, `_`, `-` and `/`: text that means itself to the shell; not an option. -/
def PlainPath (s : Str) : Prop :=
  (∀ c ∈ s, c.isAlphanum = true ∨ c ∈ ['.', '_', '-', '/']) ∧ s ≠ [] ∧ s.head? ≠ some '-'

/-- Nothing is at or below a path. -/
def Fresh {I : Type} (fs : Fs I) (p : Path) : Prop := ∀ q, p <+: q → fs.get q = none

/-- A directory once the frames folder has been made: one already, or on the way to that folder. -/
def Ready {I : Type} (fs : Fs I) (p q : Path) : Prop :=
  fs.get q = some .dir ∨ (q <+: p ∧ q ≠ p)

end Spec

open Spec

variable {V I : Type}

theorem plain_usual {s : Str} (h : PlainPath s) : (∀ c ∈ s, Usual c) ∧ '*' ∉ s := by
  have key : ∀ c : Char, (c.isAlphanum = true ∨ c ∈ ['.', '_', '-', '/']) →
      ∀ d : Char, d.isAlphanum = false → d ∉ ['.', '_', '-', '/'] → c ≠ d := by
    rintro c hc d h1 h2 rfl
    rcases hc with hc | hc
    · rw [h1] at hc; cases hc
    · exact h2 hc
  refine ⟨fun c hc => ?_, fun hc => key _ (h.1 _ hc) '*' (by decide) (by decide) rfl⟩
  have k := key c (h.1 c hc)
  refine ⟨k _ (by decide) (by decide), ?_, ?_⟩
  · rintro (e | e)
    · exact k ' ' (by decide) (by decide) e
    · exact k '\t' (by decide) (by decide) e
  · rw [special, decide_eq_false_iff_not]
    intro hm
    simp only [List.mem_cons, List.not_mem_nil, or_false] at hm
    rcases hm with e | e | e | e | e | e | e | e | e | e | e | e | e | e | e | e | e | e | e | e | e |
      e | e <;> exact k _ (by decide) (by decide) e

theorem rmTree_plain (fs : Fs I) {s : Str} (h : PlainPath s) :
    shRun fs ("rm -r ".toList ++ s) = .ok (fs.rmTree (parsePath s)) := by
  obtain ⟨hu, hs⟩ := plain_usual h
  rw [shRun_rmTree fs (lex_one hu h.2.1) (by simpa [plainWord_text] using h.2.2)]
  simp [expand_plain fs hs]

theorem mkdirs_plain (fs : Fs I) {s : Str} (h : PlainPath s) :
    shRun fs ("mkdir -p ".toList ++ s) = .ok (fs.mkdirs (parsePath s)) := by
  obtain ⟨hu, hs⟩ := plain_usual h
  rw [shRun_mkdirs fs (lex_one hu h.2.1) (by simpa [plainWord_text] using h.2.2)]
  simp [expand_plain fs hs]

theorem pathJoin_head {a s : Str} (ha : a ≠ []) (hs : s.head? ≠ some '/') :
    (pathJoin a s).head? = a.head? := by
  unfold pathJoin
  rw [if_neg hs]
  cases a with
  | nil => exact absurd rfl ha
  | cons c a => split <;> rfl

theorem mem_pathJoin {a s : Str} {c : Char} (h : c ∈ pathJoin a s) : c ∈ a ∨ c ∈ s ∨ c = '/' := by
  unfold pathJoin at h
  split at h
  · exact Or.inr (Or.inl h)
  · split at h
    · rcases List.mem_append.1 h with h | h
      · exact Or.inl h
      · exact Or.inr (Or.inl h)
    · rcases List.mem_append.1 h with h | h
      · exact Or.inl h
      · rcases List.mem_cons.1 h with h | h
        · exact Or.inr (Or.inr h)
        · exact Or.inr (Or.inl h)

/-- The last command of `make_gif`. -/
theorem rmPng_plain (fs : Fs I) {s : Str} (h : PlainPath s) :
    shRun fs ("rm ".toList ++ pathJoin s "*png".toList) =
      .ok ((expand fs (plainWord (pathJoin s "*png".toList))).foldl Fs.rmFile fs) := by
  obtain ⟨hu, hs⟩ := plain_usual h
  have h1 : ∀ c ∈ pathJoin s "*png".toList, Usual c := by
    intro c hc
    rcases mem_pathJoin hc with hc | hc | rfl
    · exact hu c hc
    · exact usual_of_forall (a := "*png".toList) (by decide) c hc
    · exact usual_of_forall (a := ['/']) (by decide) '/' (by simp)
  have h2 : pathJoin s "*png".toList ≠ [] := by
    intro e
    have := pathJoin_head (s := "*png".toList) h.2.1 (by decide)
    rw [e] at this
    exact h.2.1 (List.head?_eq_none_iff.1 this.symm)
  rw [shRun_rmFile fs (lex_one h1 h2) (by
    intro w hw
    rw [List.mem_singleton.1 hw, plainWord_text, pathJoin_head h.2.1 (by decide)]
    exact h.2.2)]
  simp

/-- C118: the last command of `make_gif` removes exactly the files directly in the frames folder
whose name ends in `png` and does not begin with a dot. -/
theorem rm_png_exact (fs : Fs I) {s : Str} (h : PlainPath s) :
    ∃ fs', shRun fs ("rm ".toList ++ pathJoin s "*png".toList) = .ok fs' ∧ ∀ q,
      ((∃ x, q = parsePath s ++ [x] ∧ "png".toList <:+ x ∧ x.head? ≠ some '.') →
        (∃ c, fs.get q = some (.file c)) → fs'.get q = none) ∧
      (¬ (∃ x, q = parsePath s ++ [x] ∧ "png".toList <:+ x ∧ x.head? ≠ some '.') ∨
        (¬ ∃ c, fs.get q = some (.file c)) → fs'.get q = fs.get q) := by
  obtain ⟨hu, hs⟩ := plain_usual h
  refine ⟨_, rmPng_plain fs h, fun q => ?_⟩
  have hfile : fs.isFile q = true ↔ ∃ c, fs.get q = some (.file c) := by
    unfold Fs.isFile
    split
    · rename_i c hc
      simp [hc]
    · rename_i hc
      simp only [Bool.false_eq_true, false_iff]
      rintro ⟨c, e⟩
      exact hc c e
  have hmem : fs.isFile q = true → q ∈ fs.map Prod.fst := by
    intro hf
    by_contra hn
    have hq : q ≠ [] := by
      rintro rfl
      simp [Fs.isFile, Fs.get_nil] at hf
    have := (Fs.get_none_iff fs hq).2 (fun e he e1 => hn (List.mem_map.2 ⟨e, he, e1⟩))
    simp [Fs.isFile, this] at hf
  rw [Fs.foldl_rmFile]
  refine ⟨fun hx hc => ?_, fun hx => ?_⟩
  · have hf := hfile.2 hc
    rw [if_pos ⟨((expand_png fs hs).2 q hf (hmem hf)).2 hx, hf⟩]
  · rw [if_neg]
    rintro ⟨h1, h2⟩
    rcases hx with hx | hx
    · exact hx (((expand_png fs hs).2 q h2 (hmem h2)).1 h1)
    · exact hx (hfile.1 h2)

/-! ## Writing the frames -/

theorem frameName_name (n i : Nat) : IsName (frameName n i) := by
  unfold frameName
  refine ⟨by simp, fun e => ?_, fun e => ?_⟩
  · have := congrArg List.length e
    simp at this
  · simp only [List.mem_append, padZero, List.mem_replicate] at e
    rcases e with (e | e | e) | e
    · revert e; decide
    · exact absurd e.2 (by decide)
    · unfold decimal at e
      split at e
      · revert e; decide
      · obtain ⟨d, hd, e⟩ := List.mem_map.1 e
        have hd10 : d < 10 := Nat.digits_lt_base (by decide) (List.mem_reverse.1 hd)
        revert e
        interval_cases d <;> decide
    · revert e; decide

/-- Entries of the pictures. -/
def Spec.picEntries (p : Path) (pics : List (Str × I)) : Fs I :=
  pics.map fun f => (p ++ [f.1], .file (.pic f.2))

theorem dropLast_snoc (p : Path) (x : Str) : (p ++ [x]).dropLast = p := by simp

theorem isDir_iff (fs : Fs I) (p : Path) : fs.isDir p = true ↔ fs.get p = some .dir := by
  unfold Fs.isDir
  split
  · rename_i h; simp [h]
  · rename_i h
    simp only [Bool.false_eq_true, false_iff]
    exact h

theorem snoc_ne_nil (p : Path) (x : Str) : p ++ [x] ≠ [] := by simp

theorem writePics_fresh {s : Str} (pics : List (Str × I)) (hn : ∀ f ∈ pics, IsName f.1)
    (hd : (pics.map Prod.fst).Nodup) : ∀ (fs : Fs I), fs.get (parsePath s) = some .dir →
    (∀ f ∈ pics, fs.get (parsePath s ++ [f.1]) = none) →
    writePics s fs pics = (fs ++ picEntries (parsePath s) pics, .ok ()) := by
  induction pics with
  | nil => intro fs _ _; simp [writePics, picEntries]
  | cons f pics ih =>
    intro fs hdir hnone
    obtain ⟨name, i⟩ := f
    have hname := hn _ (List.mem_cons_self ..)
    have h0 := hnone _ (List.mem_cons_self ..)
    simp only at hname h0
    rw [List.map_cons, List.nodup_cons] at hd
    rw [writePics, parsePath_join s hname, Fs.write, dropLast_snoc, if_pos]
    · simp only
      have hput : fs.put (parsePath s ++ [name]) (.file (.pic i)) =
          fs ++ [(parsePath s ++ [name], .file (.pic i))] := by
        unfold Fs.put
        rw [List.filter_eq_self.2]
        intro e he
        simpa using (Fs.get_none_iff fs (snoc_ne_nil _ _)).1 h0 e he
      rw [ih (fun f hf => hn f (List.mem_cons_of_mem _ hf)) hd.2, hput]
      · simp [picEntries]
      · rw [Fs.get_put (snoc_ne_nil _ _), if_neg, hdir]
        simp
      · intro f hf
        rw [Fs.get_put (snoc_ne_nil _ _), if_neg, hnone f (List.mem_cons_of_mem _ hf)]
        intro e
        have : f.1 = name := by simpa using e
        exact hd.1 (this ▸ List.mem_map.2 ⟨f, hf, rfl⟩)
    · exact ⟨(isDir_iff _ _).2 hdir, by rw [isDir_iff, h0]; simp⟩

theorem entries_append (fs gs : Fs I) (p : Path) :
    Fs.entries (fs ++ gs) p = fs.entries p ++ gs.entries p := by
  simp [Fs.entries, List.filterMap_append]

theorem entries_fresh {fs : Fs I} {p : Path} (h : ∀ x, fs.get (p ++ [x]) = none) :
    fs.entries p = [] := by
  unfold Fs.entries
  rw [List.filterMap_eq_nil_iff]
  intro e he
  cases hl : e.1.getLast? with
  | none => rfl
  | some x =>
    simp only
    rw [if_neg]
    intro hp
    obtain ⟨q, hq⟩ := List.getLast?_eq_some_iff.1 hl
    have : e.1 = p ++ [x] := by rw [hq] at hp ⊢; simpa using hp
    exact (Fs.get_none_iff fs (snoc_ne_nil p x)).1 (h x) e he this

theorem entries_pics (p : Path) (pics : List (Str × I)) :
    Fs.entries (picEntries p pics) p = pics.map fun f => (f.1, .file (.pic f.2)) := by
  induction pics with
  | nil => rfl
  | cons f pics ih =>
    unfold picEntries Fs.entries at *
    rw [List.map_cons, List.filterMap_cons, ih]
    simp

theorem readPics_pics (pics : List (Str × I)) (h : ∀ f ∈ pics, hasSub "png".toList f.1 = true) :
    readPics (pics.map fun f => (f.1, FsNode.file (Content.pic f.2))) = .ok pics := by
  induction pics with
  | nil => rfl
  | cons f pics ih =>
    rw [List.map_cons, readPics, if_pos (h f (List.mem_cons_self ..)), ih fun g hg => h g (List.mem_cons_of_mem _ hg)]
    rfl

theorem get_append_pics (fs : Fs I) (p q : Path) (pics : List (Str × I)) (hq : ¬ p <+: q) :
    Fs.get (fs ++ picEntries p pics) q = fs.get q := by
  unfold Fs.get
  split
  · rfl
  · rw [List.find?_append]
    have : (picEntries p pics).find? (fun e => decide (e.1 = q)) = none := by
      rw [List.find?_eq_none]
      intro e he hd
      rw [decide_eq_true_iff] at hd
      unfold picEntries at he
      obtain ⟨f, _, rfl⟩ := List.mem_map.1 he
      exact hq (hd ▸ List.prefix_append _ _)
    rw [this, Option.or_none]

/-! ## Nothing else is touched -/

theorem write_get {fs fs' : Fs I} {p : Path} {c : Content I} (h : fs.write p c = .ok fs') :
    ∀ q, fs'.get q = if q = p then some (.file c) else fs.get q := by
  unfold Fs.write at h
  split at h
  · rename_i hc
    cases h
    apply Fs.get_put
    rintro rfl
    exact hc.2 rfl
  · cases h

theorem osMkdir_get {fs fs' : Fs I} {p : Path} (h : osMkdir fs p = .ok fs') :
    ∀ q, fs'.get q = if q = p then some .dir else fs.get q := by
  unfold osMkdir at h
  split at h
  · rename_i hc
    cases h
    apply Fs.get_put
    rintro rfl
    exact absurd hc.2 (by simp [Fs.get_nil])
  · cases h

theorem writePics_touches {s : Str} (pics : List (Str × I)) (hn : ∀ f ∈ pics, IsName f.1) :
    ∀ (fs : Fs I) (q : Path), ¬ parsePath s <+: q → (writePics s fs pics).1.get q = fs.get q := by
  induction pics with
  | nil => intro fs q _; rfl
  | cons f pics ih =>
    intro fs q hq
    obtain ⟨name, i⟩ := f
    have hname := hn _ (List.mem_cons_self ..)
    rw [writePics, parsePath_join s hname]
    cases hw : fs.write (parsePath s ++ [name]) (.pic i) with
    | error e => rfl
    | ok fs' =>
      simp only
      rw [ih (fun f hf => hn f (List.mem_cons_of_mem _ hf)) fs' q hq, write_get hw, if_neg]
      rintro rfl
      exact hq (List.prefix_append _ _)

theorem frameLoop_names (m : Movie V I) (speedup numSteps k : Nat) :
    ∀ (s : Nat) (v : V) (last : Option Nat) (d : List (Str × I)),
    ∀ f ∈ (frameLoop m speedup numSteps k s v last d).1, f ∈ d ∨ ∃ i, f.1 = frameName numSteps i := by
  induction k with
  | zero => intro s v last d f hf; exact Or.inl hf
  | succ k ih =>
    intro s v last d f hf
    rw [frameLoop] at hf
    split at hf
    · exact Or.inl hf
    · rcases ih _ _ _ _ f hf with h | h
      · unfold writeFile at h
        rcases List.mem_append.1 h with h | h
        · exact Or.inl (List.mem_filter.1 h).1
        · exact Or.inr ⟨s, by rw [List.mem_singleton.1 h]⟩
      · exact Or.inr h

theorem rmPng_touches (fs : Fs I) {s : Str} (h : PlainPath s) {fs' : Fs I}
    (hr : shRun fs ("rm ".toList ++ pathJoin s "*png".toList) = .ok fs') (q : Path)
    (hq : ¬ parsePath s <+: q) : fs'.get q = fs.get q := by
  rw [rmPng_plain fs h] at hr
  cases hr
  rw [Fs.foldl_rmFile, if_neg]
  rintro ⟨h1, _⟩
  exact hq ((expand_png fs (plain_usual h).2).1 q h1)

theorem makeGif_touches (fs : Fs I) {s : Str} (h : PlainPath s) (gifDir tag : Str) (gifId : Nat) :
    ∃ fs' r, makeGifFs fs s gifDir tag gifId = .ok (fs', r) ∧ ∀ q, ¬ parsePath s <+: q →
      q ≠ parsePath gifDir → q ≠ parsePath (pathJoin gifDir (gifName tag gifId)) →
      fs'.get q = fs.get q := by
  unfold makeGifFs
  simp only
  split
  · exact ⟨fs, _, rfl, fun q _ _ _ => rfl⟩
  · split
    · exact ⟨fs, _, rfl, fun q _ _ _ => rfl⟩
    · split
      · exact ⟨fs, _, rfl, fun q _ _ _ => rfl⟩
      · rename_i fs1 h1
        have k1 : ∀ q, q ≠ parsePath gifDir → fs1.get q = fs.get q := by
          intro q hq
          split at h1
          · cases h1; rfl
          · rw [osMkdir_get h1, if_neg hq]
        split
        · exact ⟨fs1, _, rfl, fun q _ hq _ => k1 q hq⟩
        · rename_i fs2 h2
          rw [rmPng_plain fs2 h]
          refine ⟨_, _, rfl, fun q hp hq hg => ?_⟩
          rw [rmPng_touches fs2 h (rmPng_plain fs2 h) q hp, write_get h2, if_neg hg, k1 q hq]

/-- C118: whatever the automaton, the files there are and the exceptions that come up,
`save_fig_sequence` with a plain frames folder changes nothing outside that folder but the gif and
its folder, and the directories on the way to the frames folder; and when it returns, the frames
folder is gone with everything in it. -/
theorem gif_touches (m : Movie V I) (speedup numSteps : Nat) (v : V) (fs : Fs I) {framesPath : Str}
    (h : PlainPath framesPath) (gifPath : Str) (tag : GifTag) (gifId : Nat) :
    ∃ fs' r, saveFigFs m speedup numSteps v fs framesPath gifPath tag gifId = .ok (fs', r) ∧
      (∀ q, ¬ parsePath framesPath <+: q → q ≠ parsePath (pathJoin gifPath tag.folder) →
        q ≠ parsePath (pathJoin (pathJoin gifPath tag.folder) (gifName tag.text gifId)) →
        fs'.get q = fs.get q ∨
          (q <+: parsePath framesPath ∧ fs.get q = none ∧ fs'.get q = some .dir)) ∧
      (r = .ok () → parsePath framesPath ≠ [] → Fresh fs' (parsePath framesPath)) := by
  unfold saveFigFs
  obtain ⟨fs1, h1, k1⟩ : ∃ fs1, (if osExists fs framesPath then Except.ok fs
      else shRun fs ("mkdir -p ".toList ++ framesPath)) = .ok fs1 ∧
      ∀ q, fs1.get q = fs.get q ∨ (q <+: parsePath framesPath ∧ fs.get q = none ∧
        fs1.get q = some .dir) := by
    split
    · exact ⟨fs, rfl, fun q => Or.inl rfl⟩
    · exact ⟨_, mkdirs_plain fs h, fun q => Fs.get_mkdirs_or fs _ q⟩
  rw [h1]
  simp only
  have hn : ∀ f ∈ (frameLoop m speedup numSteps numSteps 0 v none []).1, IsName f.1 := by
    intro f hf
    rcases frameLoop_names m speedup numSteps numSteps 0 v none [] f hf with h | ⟨i, h⟩
    · cases h
    · rw [h]; exact frameName_name _ _
  have k2 := writePics_touches (s := framesPath) _ hn fs1
  cases hw : writePics framesPath fs1 (frameLoop m speedup numSteps numSteps 0 v none []).1 with
  | mk fs2 r2 =>
  rw [hw] at k2
  have k12 : ∀ q, ¬ parsePath framesPath <+: q → fs2.get q = fs.get q ∨
      (q <+: parsePath framesPath ∧ fs.get q = none ∧ fs2.get q = some .dir) := by
    intro q hq
    rw [k2 q hq]
    exact k1 q
  cases r2 with
  | error e => exact ⟨fs2, _, rfl, fun q hq _ _ => k12 q hq, fun e => by cases e⟩
  | ok _ =>
    simp only
    cases (frameLoop m speedup numSteps numSteps 0 v none []).2 with
    | none => exact ⟨fs2, _, rfl, fun q hq _ _ => k12 q hq, fun e => by cases e⟩
    | some step =>
      simp only
      obtain ⟨fs3, r3, h3, k3⟩ : ∃ fs3 r3, (if 0 < step then
            makeGifFs fs2 framesPath (pathJoin gifPath tag.folder) tag.text gifId
          else .ok (fs2, .ok ())) = .ok (fs3, r3) ∧ ∀ q, ¬ parsePath framesPath <+: q →
            q ≠ parsePath (pathJoin gifPath tag.folder) →
            q ≠ parsePath (pathJoin (pathJoin gifPath tag.folder) (gifName tag.text gifId)) →
            fs3.get q = fs2.get q := by
        split
        · exact makeGif_touches fs2 h _ _ _
        · exact ⟨fs2, _, rfl, fun q _ _ _ => rfl⟩
      rw [h3]
      have k13 : ∀ q, ¬ parsePath framesPath <+: q →
          q ≠ parsePath (pathJoin gifPath tag.folder) →
          q ≠ parsePath (pathJoin (pathJoin gifPath tag.folder) (gifName tag.text gifId)) →
          fs3.get q = fs.get q ∨
          (q <+: parsePath framesPath ∧ fs.get q = none ∧ fs3.get q = some .dir) := by
        intro q hq hg hf
        rw [k3 q hq hg hf]
        exact k12 q hq
      cases r3 with
      | error e => exact ⟨fs3, _, rfl, k13, fun e => by cases e⟩
      | ok _ =>
        simp only
        rw [rmTree_plain fs3 h]
        refine ⟨_, _, rfl, fun q hq hg hf => ?_, fun _ hp q hq => ?_⟩
        · have hrm : (fs3.rmTree (parsePath framesPath)).get q = fs3.get q := by
            by_cases hp : parsePath framesPath = []
            · rw [Fs.rmTree, if_pos hp]
            · rw [Fs.get_rmTree hp, if_neg hq]
          rw [hrm]
          exact k13 q hq hg hf
        · rw [Fs.get_rmTree hp, if_pos hq]

/-! ## A gif of a trajectory -/

theorem gifName_name {tag : Str} (h : '/' ∉ tag) (gifId : Nat) : IsName (gifName tag gifId) := by
  unfold gifName
  refine ⟨by simp, fun e => ?_, fun e => ?_⟩
  · have := congrArg List.length e
    simp at this
  · simp only [List.mem_append, padZero, List.mem_replicate] at e
    rcases e with (((e | e) | e) | e | e) | e
    · revert e; decide
    · exact h e
    · revert e; decide
    · exact absurd e.2 (by decide)
    · unfold decimal at e
      split at e
      · revert e; decide
      · obtain ⟨d, hd, e⟩ := List.mem_map.1 e
        have hd10 : d < 10 := Nat.digits_lt_base (by decide) (List.mem_reverse.1 hd)
        revert e
        interval_cases d <;> decide
    · revert e; decide

theorem prefix_ne_not {p q : Path} (h : q <+: p) (hne : q ≠ p) : ¬ p <+: q := fun h' =>
  hne (h.eq_of_length (le_antisymm h.length_le h'.length_le))

/-- C118: with a plain frames folder that does not exist yet, a run of `save_fig_sequence` makes
the gif of the trajectory (unless the grid vanishes at once or there is only one step), makes the
missing directories on the way to the frames folder, and leaves every other file as it was: no
frame stays behind. -/
theorem gif_files (m : Movie V I) (speedup numSteps : Nat) (v : V) (fs : Fs I)
    {framesPath : Str} (h : PlainPath framesPath) (gifPath : Str) (tag : GifTag) (gifId : Nat)
    (h1 : 1 ≤ numSteps) (hn : numSteps ≤ 10 ^ 10)
    (hfresh : Fresh fs (parsePath framesPath))
    (hway : ∀ q, q <+: parsePath framesPath → fs.isFile q = false)
    (hgp : pathJoin gifPath tag.folder ≠ []) (htag : '/' ∉ tag.text)
    (hgdir : Ready fs (parsePath framesPath) (parsePath (pathJoin gifPath tag.folder)) ∨
      (fs.get (parsePath (pathJoin gifPath tag.folder)) = none ∧
        Ready fs (parsePath framesPath) (parsePath (pathJoin gifPath tag.folder)).dropLast))
    (hgout : ¬ parsePath framesPath <+:
      parsePath (pathJoin gifPath tag.folder) ++ [gifName tag.text gifId])
    (hgfile : ¬ Ready fs (parsePath framesPath)
      (parsePath (pathJoin gifPath tag.folder) ++ [gifName tag.text gifId])) :
    ∃ k fs', IsFrameCount m speedup numSteps v k ∧
      saveFigFs m speedup numSteps v fs framesPath gifPath tag gifId = .ok (fs', .ok ()) ∧
      ∀ q, fs'.get q =
        if ¬ (k = 0 ∨ numSteps = 1) ∧
            q = parsePath (pathJoin gifPath tag.folder) ++ [gifName tag.text gifId] then
          some (.file (.gif (m.picture v ::
            (List.range k).map fun i => m.picture (m.frame^[speedup * i] v))))
        else if ¬ (k = 0 ∨ numSteps = 1) ∧ q = parsePath (pathJoin gifPath tag.folder) then
          some .dir
        else if q <+: parsePath framesPath ∧ q ≠ parsePath framesPath then some .dir
        else fs.get q := by
  generalize hp : parsePath framesPath = p at *
  generalize hg : pathJoin gifPath tag.folder = gifDir at *
  generalize hgg : parsePath gifDir = g at *
  have hpne : p ≠ [] := by
    rintro rfl
    have := hfresh [] (List.prefix_refl _)
    cases this
  have hexists : osExists fs framesPath = false := by
    unfold osExists
    rw [hp, hfresh p (List.prefix_refl _)]
    simp
  -- the directories
  have hmk : ∀ q, (fs.mkdirs p).get q = if q <+: p then some .dir else fs.get q := by
    intro q
    rw [Fs.get_mkdirs fs hway]
    by_cases hq : q <+: p
    · have hw := hway q hq
      unfold Fs.isFile at hw
      cases hget : fs.get q with
      | none => rw [if_pos ⟨hq, rfl⟩, if_pos hq]
      | some n =>
        rw [hget] at hw
        cases n with
        | dir => rw [if_neg (by simp), if_pos hq]
        | file c => cases hw
    · rw [if_neg (fun e => hq e.1), if_neg hq]
  have hready : ∀ q, Ready fs p q → (fs.mkdirs p).get q = some .dir := by
    rintro q (hq | hq)
    · rw [hmk]
      split
      · rfl
      · exact hq
    · rw [hmk, if_pos hq.1]
  -- the pictures
  obtain ⟨c, c1, c2, c3, c4⟩ := frameLoop_spec m speedup numSteps hn numSteps 0 v none []
    (by omega) (by simp)
  obtain ⟨k, hk, hgif⟩ := gif_plays_trajectory m speedup numSteps v h1 hn
  rw [List.nil_append] at c4
  generalize hpics : Spec.files m speedup numSteps v 0 c = pics at c4
  have hnames : ∀ f ∈ pics, ∃ i, f.1 = frameName numSteps i := by
    intro f hf
    rw [← hpics] at hf
    unfold Spec.files at hf
    obtain ⟨i, _, rfl⟩ := List.mem_map.1 hf
    exact ⟨_, rfl⟩
  have hnodup : (pics.map Prod.fst).Nodup := hpics ▸ (files_sorted m speedup numSteps v c hn c1).2
  have hwrite : writePics framesPath (fs.mkdirs p) pics =
      ((fs.mkdirs p) ++ picEntries p pics, .ok ()) := by
    have := writePics_fresh (s := framesPath) pics (fun f hf => by
      obtain ⟨i, e⟩ := hnames f hf
      rw [e]; exact frameName_name _ _) hnodup (fs.mkdirs p)
    rw [hp] at this
    refine this ?_ ?_
    · rw [hmk, if_pos (List.prefix_refl _)]
    · intro f hf
      rw [hmk, if_neg, hfresh _ (List.prefix_append _ _)]
      intro e
      have := e.length_le
      simp at this
  refine ⟨k, ?_⟩
  unfold saveFigFs
  rw [if_neg (by simp [hexists]), mkdirs_plain fs h, hp, c4]
  simp only
  rw [hwrite]
  simp only
  generalize hlast : (if c < numSteps then some (0 + c) else
    if numSteps = 0 then none else some (0 + numSteps - 1)) = last at c4 ⊢
  unfold saveFigSequence at hgif
  rw [c4] at hgif
  cases last with
  | none => simp at hgif
  | some step =>
  simp only at hgif ⊢
  by_cases hstep : 0 < step
  · rw [if_pos hstep] at hgif ⊢
    -- a gif is made
    have hmade : ¬ (k = 0 ∨ numSteps = 1) ∧ makeGif pics = .ok (m.picture v ::
        (List.range k).map fun i => m.picture (m.frame^[speedup * i] v)) := by
      cases hm : makeGif pics with
      | error e => rw [hm] at hgif; cases hgif
      | ok l =>
        rw [hm] at hgif
        simp only [Except.map, Except.ok.injEq] at hgif
        by_cases hk0 : k = 0 ∨ numSteps = 1
        · rw [if_pos hk0] at hgif; cases hgif
        · rw [if_neg hk0] at hgif
          exact ⟨hk0, by rw [Option.some.inj hgif]⟩
    obtain ⟨hk0, hm⟩ := hmade
    have hentries : Fs.entries ((fs.mkdirs p) ++ picEntries p pics) p =
        pics.map fun f => (f.1, .file (.pic f.2)) := by
      rw [entries_append, entries_pics, entries_fresh, List.nil_append]
      intro x
      rw [hmk, if_neg, hfresh _ (List.prefix_append _ _)]
      intro e
      have := e.length_le
      simp at this
    have hpics2 : ∀ f ∈ pics, hasSub "png".toList f.1 = true := by
      intro f hf
      obtain ⟨i, e⟩ := hnames f hf
      rw [e]; exact frameName_png _ _
    have hgg2 : parsePath (pathJoin gifDir (gifName tag.text gifId)) = g ++ [gifName tag.text gifId] := by
      rw [parsePath_join _ (gifName_name htag _), hgg]
    have hgp1 : ¬ p <+: g := fun e => hgout (e.trans (List.prefix_append _ _))
    have get2 : ∀ q, ¬ p <+: q → Fs.get ((fs.mkdirs p) ++ picEntries p pics) q =
        (fs.mkdirs p).get q := fun q hq => get_append_pics _ _ _ _ hq
    have hpdir : Fs.get ((fs.mkdirs p) ++ picEntries p pics) p = some .dir := by
      unfold Fs.get
      rw [if_neg hpne, List.find?_append]
      have hd : (fs.mkdirs p).get p = some .dir := by rw [hmk, if_pos (List.prefix_refl _)]
      unfold Fs.get at hd
      rw [if_neg hpne] at hd
      cases hf : (fs.mkdirs p).find? fun e => decide (e.1 = p) with
      | none => rw [hf] at hd; cases hd
      | some e => rw [hf] at hd; simpa using hd
    obtain ⟨fs1, m1, g1⟩ : ∃ fs1, (if osExists ((fs.mkdirs p) ++ picEntries p pics) gifDir = true
        then Except.ok ((fs.mkdirs p) ++ picEntries p pics)
        else osMkdir ((fs.mkdirs p) ++ picEntries p pics) (parsePath gifDir)) = .ok fs1 ∧
        ∀ q, ¬ p <+: q → fs1.get q = if q = g then some .dir else (fs.mkdirs p).get q := by
      have hne : gifDir.isEmpty = false := by
        cases gifDir with
        | nil => exact absurd rfl hgp
        | cons => rfl
      unfold osExists
      rw [hgg, hne, get2 g hgp1]
      by_cases hr : Ready fs p g
      · rw [hready g hr]
        refine ⟨(fs.mkdirs p) ++ picEntries p pics, by simp, fun q hq => ?_⟩
        rw [get2 q hq]
        split
        · rename_i e; rw [e, hready g hr]
        · rfl
      · rcases hgdir with hr' | ⟨hnone, hr'⟩
        · exact absurd hr' hr
        · have hgnp : ¬ g <+: p := by
            intro e
            by_cases hgpeq : g = p
            · exact hgp1 (hgpeq ▸ List.prefix_refl _)
            · exact hr (Or.inr ⟨e, hgpeq⟩)
          have hgnone : (fs.mkdirs p).get g = none := by rw [hmk, if_neg hgnp, hnone]
          rw [hgnone]
          have hdl : ¬ p <+: g.dropLast := fun e => hgp1 (e.trans (List.dropLast_prefix _))
          have hmkdir : osMkdir ((fs.mkdirs p) ++ picEntries p pics) g =
              .ok (Fs.put ((fs.mkdirs p) ++ picEntries p pics) g .dir) := by
            unfold osMkdir
            rw [if_pos ⟨(isDir_iff _ _).2 (by rw [get2 _ hdl, hready _ hr']),
              by rw [get2 _ hgp1, hgnone]; rfl⟩]
          refine ⟨_, by rw [if_neg (by simp), hmkdir], fun q hq => ?_⟩
          rw [osMkdir_get hmkdir]
          split
          · rfl
          · exact get2 q hq
    have hwr : fs1.write (g ++ [gifName tag.text gifId]) (.gif (m.picture v ::
        (List.range k).map fun i => m.picture (m.frame^[speedup * i] v))) =
        .ok (fs1.put (g ++ [gifName tag.text gifId]) (.file (.gif (m.picture v ::
        (List.range k).map fun i => m.picture (m.frame^[speedup * i] v))))) := by
      unfold Fs.write
      rw [dropLast_snoc, if_pos]
      refine ⟨(isDir_iff _ _).2 (by rw [g1 _ hgp1, if_pos rfl]), ?_⟩
      rw [isDir_iff, g1 _ hgout, if_neg (by simp), hmk]
      split
      · rename_i e
        exfalso
        exact hgfile (Or.inr ⟨e, fun e2 => hgout (e2 ▸ List.prefix_refl _)⟩)
      · exact fun e => hgfile (Or.inl e)
    obtain ⟨fs3, hrm⟩ : ∃ fs3, shRun (fs1.put (g ++ [gifName tag.text gifId])
        (.file (.gif (m.picture v ::
        (List.range k).map fun i => m.picture (m.frame^[speedup * i] v)))))
        ("rm ".toList ++ pathJoin framesPath "*png".toList) = .ok fs3 := ⟨_, rmPng_plain _ h⟩
    have hmakefs : makeGifFs ((fs.mkdirs p) ++ picEntries p pics) framesPath gifDir tag.text gifId =
        .ok (fs3, .ok ()) := by
      unfold makeGifFs
      simp only
      rw [hp, if_neg (by rw [(isDir_iff _ _).2 hpdir]; simp), hentries, readPics_pics _ hpics2]
      simp only [Except.bind]
      rw [hm]
      simp only
      rw [m1]
      simp only
      rw [hgg2, hwr]
      simp only
      rw [hrm]
    rw [hg, hmakefs]
    simp only
    rw [rmTree_plain _ h, hp]
    refine ⟨_, hk, rfl, fun q => ?_⟩
    rw [Fs.get_rmTree hpne]
    by_cases hq : p <+: q
    · rw [if_pos hq, if_neg, if_neg, if_neg, hfresh q hq]
      · rintro ⟨e1, e2⟩
        exact prefix_ne_not e1 e2 hq
      · rintro ⟨_, rfl⟩
        exact hgp1 hq
      · rintro ⟨_, rfl⟩
        exact hgout hq
    · rw [if_neg hq, rmPng_touches _ h hrm q (by rw [hp]; exact hq), write_get hwr]
      simp only [hk0, not_false_eq_true, true_and]
      split
      · rfl
      · rw [g1 q hq, hmk]
        split
        · rfl
        · by_cases hqp : q <+: p
          · rw [if_pos hqp, if_pos ⟨hqp, fun e => hq (e ▸ List.prefix_refl _)⟩]
          · rw [if_neg hqp, if_neg (fun e => hqp e.1)]
  · rw [if_neg hstep] at hgif ⊢
    have hk0 : k = 0 ∨ numSteps = 1 := by
      by_contra hk0
      rw [if_neg hk0] at hgif
      simp at hgif
    simp only
    rw [rmTree_plain _ h, hp]
    refine ⟨_, hk, rfl, fun q => ?_⟩
    have hno : ∀ P : Prop, ¬ (¬ (k = 0 ∨ numSteps = 1) ∧ P) := fun P e => e.1 hk0
    rw [Fs.get_rmTree hpne, if_neg (hno (q = g ++ [gifName tag.text gifId])), if_neg (hno (q = g))]
    by_cases hq : p <+: q
    · rw [if_pos hq, if_neg, hfresh q hq]
      rintro ⟨e1, e2⟩
      exact prefix_ne_not e1 e2 hq
    · rw [if_neg hq, get_append_pics _ _ _ _ hq, hmk]
      by_cases hqp : q <+: p
      · rw [if_pos hqp, if_pos ⟨hqp, fun e => hq (e ▸ List.prefix_refl _)⟩]
      · rw [if_neg hqp, if_neg (fun e => hqp e.1)]

/-! ## One gif after another -/

/-- The conditions of `gif_files`. -/
structure Spec.GifReady (fs : Fs I) (framesPath gifPath : Str) (tag : GifTag) (gifId : Nat) :
    Prop where
  plain : PlainPath framesPath
  fresh : Fresh fs (parsePath framesPath)
  way : ∀ q, q <+: parsePath framesPath → fs.isFile q = false
  place : pathJoin gifPath tag.folder ≠ []
  noSlash : '/' ∉ tag.text
  dir : Ready fs (parsePath framesPath) (parsePath (pathJoin gifPath tag.folder)) ∨
      (fs.get (parsePath (pathJoin gifPath tag.folder)) = none ∧
        Ready fs (parsePath framesPath) (parsePath (pathJoin gifPath tag.folder)).dropLast)
  out : ¬ parsePath framesPath <+:
      parsePath (pathJoin gifPath tag.folder) ++ [gifName tag.text gifId]
  free : ¬ Ready fs (parsePath framesPath)
      (parsePath (pathJoin gifPath tag.folder) ++ [gifName tag.text gifId])

/-- The gif of a trajectory of `k` frames. -/
def Spec.gifOf (m : Movie V I) (speedup : Nat) (v : V) (k : Nat) : FsNode I :=
  .file (.gif (m.picture v :: (List.range k).map fun i => m.picture (m.frame^[speedup * i] v)))

/-- C118: two gifs after another from the same frames folder.  The second shows its own trajectory
only; the first is still there if its name is another one, and is lost if both have the same tag
and were made in the same millisecond of a second. -/
theorem gif_twice (m m' : Movie V I) (speedup speedup' n n' : Nat) (v v' : V) (fs : Fs I)
    (framesPath gifPath : Str) (tag tag' : GifTag) (gifId gifId' : Nat)
    (r : GifReady fs framesPath gifPath tag gifId) (hn : 2 ≤ n ∧ n ≤ 10 ^ 10)
    (hn' : 2 ≤ n' ∧ n' ≤ 10 ^ 10) (hv : m.dead v = false) (hv' : m'.dead v' = false)
    (hfolder : tag'.folder = tag.folder) (hslash : '/' ∉ tag'.text)
    (hout' : ¬ parsePath framesPath <+:
      parsePath (pathJoin gifPath tag.folder) ++ [gifName tag'.text gifId'])
    (hfree' : ¬ Ready fs (parsePath framesPath)
      (parsePath (pathJoin gifPath tag.folder) ++ [gifName tag'.text gifId'])) :
    ∃ k k' fs1 fs2, IsFrameCount m speedup n v k ∧ IsFrameCount m' speedup' n' v' k' ∧
      saveFigFs m speedup n v fs framesPath gifPath tag gifId = .ok (fs1, .ok ()) ∧
      saveFigFs m' speedup' n' v' fs1 framesPath gifPath tag' gifId' = .ok (fs2, .ok ()) ∧
      fs2.get (parsePath (pathJoin gifPath tag.folder) ++ [gifName tag'.text gifId']) =
        some (gifOf m' speedup' v' k') ∧
      (gifName tag.text gifId ≠ gifName tag'.text gifId' →
        fs2.get (parsePath (pathJoin gifPath tag.folder) ++ [gifName tag.text gifId]) =
          some (gifOf m speedup v k)) := by
  obtain ⟨r1, r2, r3, r4, r5, r6, r7, r8⟩ := r
  obtain ⟨k, fs1, hk, e1, g1⟩ := gif_files m speedup n v fs r1 gifPath tag gifId (by omega) hn.2 r2
    r3 r4 r5 r6 r7 r8
  have hk0 : ¬ (k = 0 ∨ n = 1) := by
    rintro (rfl | h)
    · have := hk.2.2 (by omega)
      simp [hv] at this
    · omega
  have hgp : ¬ parsePath framesPath <+: parsePath (pathJoin gifPath tag.folder) := fun e =>
    r7 (e.trans (List.prefix_append _ _))
  have hg1 : fs1.get (parsePath (pathJoin gifPath tag.folder)) = some .dir := by
    rw [g1, if_neg (by simp), if_pos ⟨hk0, rfl⟩]
  obtain ⟨k', fs2, hk', e2, g2⟩ := gif_files m' speedup' n' v' fs1 r1 gifPath tag' gifId' (by omega)
    hn'.2 (by
      intro q hq
      rw [g1, if_neg, if_neg, if_neg, r2 q hq]
      · rintro ⟨h1, h2⟩
        exact prefix_ne_not h1 h2 hq
      · rintro ⟨_, rfl⟩
        exact hgp hq
      · rintro ⟨_, rfl⟩
        exact r7 hq)
    (by
      intro q hq
      have hqf : q ≠ parsePath (pathJoin gifPath tag.folder) ++ [gifName tag.text gifId] := by
        rintro rfl
        exact r8 (Or.inr ⟨hq, fun e => r7 (e ▸ List.prefix_refl _)⟩)
      unfold Fs.isFile
      rw [g1, if_neg (fun e => hqf e.2)]
      by_cases h1 : ¬ (k = 0 ∨ n = 1) ∧ q = parsePath (pathJoin gifPath tag.folder)
      · rw [if_pos h1]
      · rw [if_neg h1]
        by_cases h2 : q <+: parsePath framesPath ∧ q ≠ parsePath framesPath
        · rw [if_pos h2]
        · rw [if_neg h2]
          exact r3 q hq)
    (by rw [hfolder]; exact r4) hslash (by rw [hfolder]; exact Or.inl (Or.inl hg1))
    (by rw [hfolder]; exact hout') (by
      rw [hfolder]
      rintro (h | h)
      · rw [g1] at h
        by_cases h1 : parsePath (pathJoin gifPath tag.folder) ++ [gifName tag'.text gifId'] =
            parsePath (pathJoin gifPath tag.folder) ++ [gifName tag.text gifId]
        · rw [if_pos ⟨hk0, h1⟩] at h
          cases h
        · rw [if_neg (fun e => h1 e.2), if_neg (by simp)] at h
          by_cases h2 : parsePath (pathJoin gifPath tag.folder) ++ [gifName tag'.text gifId'] <+:
              parsePath framesPath ∧ parsePath (pathJoin gifPath tag.folder) ++
                [gifName tag'.text gifId'] ≠ parsePath framesPath
          · exact hfree' (Or.inr h2)
          · rw [if_neg h2] at h
            exact hfree' (Or.inl h)
      · exact hfree' (Or.inr h))
  have hk0' : ¬ (k' = 0 ∨ n' = 1) := by
    rintro (rfl | h)
    · have := hk'.2.2 (by omega)
      simp [hv'] at this
    · omega
  refine ⟨k, k', fs1, fs2, hk, hk', e1, e2, ?_, fun hne => ?_⟩
  · rw [g2, hfolder, if_pos ⟨hk0', rfl⟩]
    rfl
  · rw [g2, hfolder, if_neg (fun e => hne (by simpa using e.2)), if_neg (by simp), if_neg, g1,
      if_pos ⟨hk0, rfl⟩]
    · rfl
    · rintro ⟨h1, h2⟩
      exact r8 (Or.inr ⟨h1, h2⟩)

/-- C118: there are only a thousand names for the gifs of one tag, so among more than a thousand of
them two have the same name and the later replaces the earlier. -/
theorem gif_names_few (tag : Str) (ids : Fin 1001 → Nat) (h : ∀ i, ids i < 1000) :
    ∃ i j, i ≠ j ∧ gifName tag (ids i) = gifName tag (ids j) := by
  obtain ⟨i, j, hne, e⟩ := Fintype.exists_ne_map_eq_of_card_lt
    (fun i => (⟨ids i, h i⟩ : Fin 1000)) (by simp)
  refine ⟨i, j, hne, ?_⟩
  have : ids i = ids j := congrArg Fin.val e
  rw [this]

/-! ## A blank in the path -/

/-- C118, refuted for a frames folder whose name contains a blank: the last command removes the two
paths on both sides of the blank, whatever they hold. -/
theorem rm_blank (fs : Fs I) {a b : Str} (ha : PlainPath a) (hb : PlainPath b) :
    ∃ fs', shRun fs ("rm -r ".toList ++ (a ++ ' ' :: b)) = .ok fs' ∧
      (parsePath a ≠ [] → Fresh fs' (parsePath a)) ∧ (parsePath b ≠ [] → Fresh fs' (parsePath b)) ∧
      ∀ q, ¬ parsePath a <+: q → ¬ parsePath b <+: q → fs'.get q = fs.get q := by
  obtain ⟨ua, sa⟩ := plain_usual ha
  obtain ⟨ub, sb⟩ := plain_usual hb
  have hl : shLex false none (a ++ ' ' :: b) = .ok [plainWord a, plainWord b] := by
    rw [lex_cons ua ha.2.1, lex_one ub hb.2.1]
    rfl
  have hrun := shRun_rmTree fs hl (by
    intro w hw
    simp only [List.mem_cons, List.not_mem_nil, or_false] at hw
    rcases hw with rfl | rfl
    · rw [plainWord_text]; exact ha.2.2
    · rw [plainWord_text]; exact hb.2.2)
  refine ⟨_, hrun, ?_⟩
  simp only [List.flatMap_cons, List.flatMap_nil, expand_plain fs sa, expand_plain fs sb,
    List.append_nil, List.singleton_append, List.foldl_cons, List.foldl_nil]
  have hrm : ∀ (gs : Fs I) (p q : Path), ¬ p <+: q → (gs.rmTree p).get q = gs.get q := by
    intro gs p q hq
    by_cases hp : p = []
    · rw [Fs.rmTree, if_pos hp]
    · rw [Fs.get_rmTree hp, if_neg hq]
  have hgone : ∀ (gs : Fs I) (p q : Path), gs.get q = none → (gs.rmTree p).get q = none := by
    intro gs p q hq
    by_cases hp : p = []
    · rw [Fs.rmTree, if_pos hp, hq]
    · rw [Fs.get_rmTree hp]
      split
      · rfl
      · exact hq
  refine ⟨fun hp q hq => ?_, fun hp q hq => ?_, fun q h1 h2 => ?_⟩
  · apply hgone
    rw [Fs.get_rmTree hp, if_pos hq]
  · rw [Fs.get_rmTree hp, if_pos hq]
  · rw [hrm _ _ _ h2, hrm _ _ _ h1]

theorem mem_splitOn {s : Str} {c d : Char} (h : d ∈ s) (hne : d ≠ c) :
    ∃ x ∈ splitOn c s, d ∈ x := by
  induction s with
  | nil => cases h
  | cons y s ih =>
    rw [splitOn]
    by_cases hy : y = c
    · rw [if_pos hy]
      have hd : d ∈ s := by
        rcases List.mem_cons.1 h with e | e
        · exact absurd (e.trans hy) hne
        · exact e
      obtain ⟨x, hx, hdx⟩ := ih hd
      exact ⟨x, List.mem_cons_of_mem _ hx, hdx⟩
    · rw [if_neg hy]
      cases hs : splitOn c s with
      | nil => exact absurd hs (splitOn_ne_nil c s)
      | cons z t =>
        rw [hs] at ih
        simp only
        rcases List.mem_cons.1 h with rfl | e
        · exact ⟨_, List.mem_cons_self .., List.mem_cons_self ..⟩
        · obtain ⟨x, hx, hdx⟩ := ih e
          rcases List.mem_cons.1 hx with rfl | hx
          · exact ⟨_, List.mem_cons_self .., List.mem_cons_of_mem _ hdx⟩
          · exact ⟨x, List.mem_cons_of_mem _ hx, hdx⟩

/-- A path with a blank has a name with a blank. -/
theorem blank_name {s : Str} (h : ' ' ∈ s) : ∃ x ∈ parsePath s, ' ' ∈ x := by
  obtain ⟨x, hx, hb⟩ := mem_splitOn h (show ' ' ≠ '/' by decide)
  refine ⟨x, ?_, hb⟩
  unfold parsePath
  refine List.mem_append_right _ (List.mem_filter.2 ⟨hx, ?_⟩)
  cases x with
  | nil => cases hb
  | cons y t =>
    simp only [List.isEmpty_cons, Bool.false_or, Bool.not_eq_true', decide_eq_false_iff_not]
    intro e
    rw [e] at hb
    revert hb
    decide

theorem no_blank_name {s : Str} (h : ' ' ∉ s) : ∀ x ∈ parsePath s, ' ' ∉ x := by
  intro x hx hb
  unfold parsePath at hx
  rcases List.mem_append.1 hx with hx | hx
  · split at hx
    · rw [List.mem_singleton.1 hx] at hb
      revert hb
      decide
    · cases hx
  · exact h (of_mem_splitOn (List.mem_filter.1 hx).1 hb)

theorem plain_no_blank {s : Str} (h : PlainPath s) : ' ' ∉ s := fun e =>
  ((plain_usual h).1 ' ' e).2.1 (Or.inl rfl)

/-- C118, refuted: with a blank in its name, a missing frames folder is not made (two others may
be), and the first frame cannot be written. -/
theorem blank_not_made (m : Movie V I) (speedup numSteps : Nat) (v : V) (fs : Fs I) {a b : Str}
    (ha : PlainPath a) (hb : PlainPath b) (gifPath : Str) (tag : GifTag) (gifId : Nat)
    (hmiss : fs.get (parsePath (a ++ ' ' :: b)) = none) (h1 : 1 ≤ numSteps)
    (hv : m.dead v = false) :
    ∃ fs', saveFigFs m speedup numSteps v fs (a ++ ' ' :: b) gifPath tag gifId =
      .ok (fs', .error .notFound) := by
  obtain ⟨ua, sa⟩ := plain_usual ha
  obtain ⟨ub, sb⟩ := plain_usual hb
  have hl : shLex false none (a ++ ' ' :: b) = .ok [plainWord a, plainWord b] := by
    rw [lex_cons ua ha.2.1, lex_one ub hb.2.1]
    rfl
  have hrun := shRun_mkdirs fs hl (by
    intro w hw
    simp only [List.mem_cons, List.not_mem_nil, or_false] at hw
    rcases hw with rfl | rfl
    · rw [plainWord_text]; exact ha.2.2
    · rw [plainWord_text]; exact hb.2.2)
  simp only [List.flatMap_cons, List.flatMap_nil, expand_plain fs sa, expand_plain fs sb,
    List.append_nil, List.singleton_append, List.foldl_cons, List.foldl_nil] at hrun
  have hnot : ∀ {s : Str}, PlainPath s → ¬ parsePath (a ++ ' ' :: b) <+: parsePath s := by
    intro s hs e
    obtain ⟨x, hx, hxb⟩ := blank_name (s := a ++ ' ' :: b) (by simp)
    exact no_blank_name (plain_no_blank hs) x (e.subset hx) hxb
  have hstill : ((fs.mkdirs (parsePath a)).mkdirs (parsePath b)).get (parsePath (a ++ ' ' :: b)) =
      none := by
    rcases Fs.get_mkdirs_or (fs.mkdirs (parsePath a)) (parsePath b) (parsePath (a ++ ' ' :: b))
      with e | e
    · rw [e]
      rcases Fs.get_mkdirs_or fs (parsePath a) (parsePath (a ++ ' ' :: b)) with e | e
      · rw [e, hmiss]
      · exact absurd e.1 (hnot ha)
    · exact absurd e.1 (hnot hb)
  refine ⟨(fs.mkdirs (parsePath a)).mkdirs (parsePath b), ?_⟩
  unfold saveFigFs
  rw [if_neg (by simp [osExists, hmiss]), hrun]
  simp only
  obtain ⟨f, fs', hf, hname⟩ : ∃ f l, (frameLoop m speedup numSteps numSteps 0 v none []).1 = f :: l ∧
      IsName f.1 := by
    obtain ⟨n, rfl⟩ : ∃ n, numSteps = n + 1 := ⟨numSteps - 1, by omega⟩
    have hne : (frameLoop m speedup (n + 1) (n + 1) 0 v none []).1 ≠ [] := by
      rw [frameLoop, if_neg (by simp [hv])]
      have grow : ∀ k s w l (d : List (Str × I)), d ≠ [] →
          (frameLoop m speedup (n + 1) k s w l d).1 ≠ [] := by
        intro k
        induction k with
        | zero => intro s w l d hd; exact hd
        | succ k ih =>
          intro s w l d hd
          rw [frameLoop]
          split
          · exact hd
          · exact ih _ _ _ _ (by simp [writeFile])
      exact grow _ _ _ _ _ (by simp [writeFile])
    cases hl : (frameLoop m speedup (n + 1) (n + 1) 0 v none []).1 with
    | nil => exact absurd hl hne
    | cons f l =>
      refine ⟨f, l, rfl, ?_⟩
      rcases frameLoop_names m speedup (n + 1) (n + 1) 0 v none [] f (by rw [hl]; simp) with h | h
      · cases h
      · obtain ⟨i, e⟩ := h
        rw [e]
        exact frameName_name _ _
  rw [hf]
  obtain ⟨name, i⟩ := f
  rw [writePics, parsePath_join _ hname, Fs.write, dropLast_snoc, if_neg]
  rintro ⟨e, _⟩
  rw [isDir_iff, hstill] at e
  cases e

/-- The conditions of `rm_blank`, `blank_not_made` and `blank_loses`. -/
example : PlainPath "my".toList ∧ PlainPath "data/frames".toList ∧ parsePath "my".toList ≠ [] :=
  ⟨⟨by decide, by decide, by decide⟩, ⟨by decide, by decide, by decide⟩, by decide⟩

/-- The movie of a counter. -/
def Witness.counter : Movie Nat Nat := ⟨fun n => n + 1, fun _ => false, id⟩

/-- C118, refuted: whenever a run with a blank in the frames folder returns, the two paths on both
sides of the blank are gone, whatever they held. -/
theorem blank_loses (m : Movie V I) (speedup numSteps : Nat) (v : V) (fs fs' : Fs I) {a b : Str}
    (ha : PlainPath a) (hb : PlainPath b) (gifPath : Str) (tag : GifTag) (gifId : Nat)
    (h : saveFigFs m speedup numSteps v fs (a ++ ' ' :: b) gifPath tag gifId = .ok (fs', .ok ())) :
    (parsePath a ≠ [] → Fresh fs' (parsePath a)) ∧ (parsePath b ≠ [] → Fresh fs' (parsePath b)) := by
  unfold saveFigFs at h
  split at h
  · cases h
  · simp only at h
    split at h
    · cases h
    · split at h
      · cases h
      · split at h
        · cases h
        · cases h
        · rename_i fs3 _
          obtain ⟨fs4, e, h1, h2, _⟩ := rm_blank fs3 ha hb
          rw [e] at h
          cases h
          exact ⟨h1, h2⟩

/-- C118, refuted: a run with the existing frames folder `my data` deletes the unrelated folder
`my`, and leaves its own frame behind. -/
theorem blank_refuted : ∃ (fs fs' : Fs Nat), fs.get ["my".toList, "thesis".toList] =
      some (.file (.other "text".toList)) ∧
    saveFigFs Witness.counter 1 1 5 fs "my data".toList "assets".toList (.one "t".toList) 7 =
      .ok (fs', .ok ()) ∧
    fs'.get ["my".toList, "thesis".toList] = none ∧
    fs'.get ["my data".toList, frameName 1 0] = some (.file (.pic 5)) := by
  refine ⟨[(["my data".toList], .dir), (["my".toList], .dir),
    (["my".toList, "thesis".toList], .file (.other "text".toList)), (["assets".toList], .dir)],
    [(["my data".toList], .dir), (["assets".toList], .dir),
      (["my data".toList, frameName 1 0], .file (.pic 5))], ?_⟩
  decide +kernel

/-- C118, refuted: files of the user in an existing frames folder are deleted too. -/
theorem frames_folder_refuted : ∃ (fs fs' : Fs Nat), fs.get ["f".toList, "notes".toList] =
      some (.file (.other "text".toList)) ∧
    saveFigFs Witness.counter 1 1 5 fs "f".toList "assets".toList (.one "t".toList) 7 =
      .ok (fs', .ok ()) ∧
    fs'.get ["f".toList, "notes".toList] = none := by
  refine ⟨[(["f".toList], .dir), (["f".toList, "notes".toList], .file (.other "text".toList)),
    (["assets".toList], .dir)], [(["assets".toList], .dir)], ?_⟩
  decide +kernel

/-- The conditions of `gif_files` and `gif_twice` are met by the defaults in a folder with
`assets`. -/
example : GifReady ([(["assets".toList], .dir)] : Fs Nat) "./assets/gif_frames".toList
    "./assets".toList (.one "no_tag".toList) 7 := by
  have hp : parsePath "./assets/gif_frames".toList = ["assets".toList, "gif_frames".toList] := by
    decide
  have hg : parsePath (pathJoin "./assets".toList (GifTag.one "no_tag".toList).folder) =
      ["assets".toList, "no_tag".toList] := by decide
  refine ⟨⟨by decide, by decide, by decide⟩, ?_, ?_, by decide, by decide, ?_, ?_, ?_⟩
  · rw [hp]
    rintro q ⟨t, rfl⟩
    rfl
  · rw [hp]
    intro q hq
    have : q = [] ∨ q = ["assets".toList] ∨ q = ["assets".toList, "gif_frames".toList] := by
      obtain ⟨t, ht⟩ := hq
      rcases q with _ | ⟨x, _ | ⟨y, _ | ⟨z, q⟩⟩⟩
      · exact Or.inl rfl
      · simp at ht; simp [ht]
      · simp at ht; simp [ht]
      · simp at ht
    rcases this with rfl | rfl | rfl <;> rfl
  · rw [hp, hg]
    exact Or.inr ⟨rfl, Or.inl rfl⟩
  · rw [hp, hg]
    decide
  · rw [hp, hg]
    rintro (h | h)
    · exact absurd h (by decide)
    · exact absurd h.1 (by decide)

/-! ## `test_commit` -/

theorem lex_quoted (s : Str) (h : '\'' ∉ s) (rest : Str) : ∀ cur,
    shLex true (some cur) (s ++ '\'' :: rest) =
      shLex false (some (cur ++ s.map fun c => (c, true))) rest := by
  induction s with
  | nil => intro cur; rw [List.nil_append, shLex, if_pos rfl]; simp
  | cons c s ih =>
    intro cur
    simp only [List.mem_cons, not_or] at h
    rw [List.cons_append, shLex, if_neg (fun e => h.1 e.symm), ih h.2]
    simp

theorem lex_open (s : Str) (h : '\'' ∉ s) (rest : Str) :
    shLex false none ('\'' :: (s ++ '\'' :: rest)) =
      shLex false (some (s.map fun c => (c, true))) rest := by
  rw [shLex, if_pos rfl, Option.getD_none, lex_quoted s h]
  rfl

theorem lex_blank (cur : List ShChar) (rest : Str) : shLex false (some cur) (' ' :: rest) =
    (shLex false none rest).map fun ws => cur :: ws := by
  rw [shLex, if_neg (by decide), if_pos (Or.inl rfl)]
  rfl

theorem quoted_text (s : Str) : wordText (s.map fun c => (c, true)) = s := by
  simp [wordText, Function.comp_def]

/-- The words a message should add to the commit command. -/
def Spec.messageWords : Option Str → List Str
  | none => []
  | some msg => ["-m".toList, msg]

/-- C118: without apostrophes the commit command has exactly the intended words, whatever else the
summary and the message contain. -/
theorem commit_words (summary : Str) (message : Option Str) (hs : '\'' ∉ summary)
    (hm : ∀ msg, message = some msg → '\'' ∉ msg) :
    (shWords (commitCommand summary message)).map (·.map wordText) =
      .ok (["git".toList, "commit".toList, "-m".toList,
        "test commit summary: ".toList ++ summary] ++ messageWords message) := by
  have hsplit : commitCommand summary message = "git".toList ++ ' ' :: ("commit".toList ++ ' ' ::
      ("-m".toList ++ ' ' :: ('\'' :: (("test commit summary: ".toList ++ summary) ++ '\'' :: (' ' ::
        match (motive := Option Str → Str) message with
        | none => []
        | some msg => "-m".toList ++ ' ' :: ('\'' :: (msg ++ '\'' :: []))))))) := by
    unfold commitCommand
    cases message <;> simp
  rw [hsplit, shWords, lex_cons (usual_of_forall (by decide)) (by decide),
    lex_cons (usual_of_forall (by decide)) (by decide),
    lex_cons (usual_of_forall (by decide)) (by decide), lex_open _ (by
      rw [List.mem_append]
      rintro (h | h)
      · revert h; decide
      · exact hs h), lex_blank]
  cases message with
  | none =>
    rw [show shLex false none [] = .ok [] from rfl]
    simp only [Except.map, List.map_cons, List.map_nil, plainWord_text, quoted_text,
      messageWords, List.append_nil]
  | some msg =>
    simp only
    rw [lex_cons (usual_of_forall (by decide)) (by decide), lex_open _ (hm msg rfl),
      show ∀ w, shLex false (some w) [] = .ok [w] from fun _ => rfl]
    simp only [Except.map, List.map_cons, List.map_nil, plainWord_text, quoted_text]
    rfl

/-- Whether a command line ends inside quotes depends on the number of apostrophes, as long as no
other special character is used. -/
theorem lex_parity (s : Str) (hs : ∀ c ∈ s, special c = false) : ∀ (q : Bool) cur,
    (q = true → ∃ w, cur = some w) →
    (shLex q cur s = .error .unterminated ↔ (Odd (s.count '\'') ↔ q = false)) := by
  induction s with
  | nil =>
    intro q cur _
    cases q <;> simp [shLex]
  | cons c s ih =>
    intro q cur hq
    have ih' := ih fun c h => hs c (List.mem_cons_of_mem _ h)
    have hc := hs c (List.mem_cons_self ..)
    by_cases h : c = '\''
    · subst h
      rw [List.count_cons_self, Nat.odd_add_one]
      cases q with
      | false =>
        rw [shLex, if_pos rfl, ih' true _ (fun _ => ⟨_, rfl⟩)]
        simp
      | true =>
        rw [shLex, if_pos rfl, ih' false _ (fun e => by cases e)]
        simp
    · rw [List.count_cons_of_ne h]
      cases q with
      | false =>
        rw [shLex, if_neg h]
        split
        · rw [← ih' false none (fun e => by cases e)]
          cases shLex false none s <;> simp [Except.map]
        · rw [hc, if_neg (by decide), ih' false _ (fun e => by cases e)]
      | true =>
        rw [shLex, if_neg h, ih' true _ (fun _ => ⟨_, rfl⟩)]

/-- C118, refuted for messages with apostrophes: if the message has no other character special to
the shell, the commit is not made at all exactly when the number of apostrophes is odd. -/
theorem commit_unterminated_iff (summary msg : Str) (hs : '\'' ∉ summary)
    (hm : ∀ c ∈ msg, special c = false) :
    shWords (commitCommand summary (some msg)) = .error .unterminated ↔ Odd (msg.count '\'') := by
  have hsplit : commitCommand summary (some msg) = "git".toList ++ ' ' :: ("commit".toList ++ ' ' ::
      ("-m".toList ++ ' ' :: ('\'' :: (("test commit summary: ".toList ++ summary) ++ '\'' :: (' ' ::
        ("-m".toList ++ ' ' :: ('\'' :: (msg ++ ['\'']))))))))  := by
    unfold commitCommand
    simp
  have hmap : ∀ {α β : Type} (x : Except ShErr α) (f : α → β),
      x.map f = .error .unterminated ↔ x = .error .unterminated := by
    intro α β x f
    cases x <;> simp [Except.map]
  rw [hsplit, shWords, lex_cons (usual_of_forall (by decide)) (by decide), hmap,
    lex_cons (usual_of_forall (by decide)) (by decide), hmap,
    lex_cons (usual_of_forall (by decide)) (by decide), hmap, lex_open _ (by
      rw [List.mem_append]
      rintro (h | h)
      · revert h; decide
      · exact hs h), lex_blank, hmap, lex_cons (usual_of_forall (by decide)) (by decide), hmap,
    lex_parity _ (by
      intro c hc
      rcases List.mem_cons.1 hc with rfl | hc
      · decide
      · rcases List.mem_append.1 hc with hc | hc
        · exact hm c hc
        · rw [List.mem_singleton.1 hc]; decide) false none (fun e => by cases e)]
  rw [List.count_cons_self, List.count_append]
  simp only [List.count_singleton_self, iff_true]
  rw [show List.count '\'' msg + 1 + 1 = List.count '\'' msg + 2 by rfl, Nat.odd_add]
  simp

/-- C118, refuted: an apostrophe in the message loses the commit; two can put words of the message
in the place of options and files. -/
theorem commit_apostrophe_refuted :
    shWords (commitCommand "TOTAL 90%".toList (some "don't".toList)) = .error .unterminated ∧
    (shWords (commitCommand "TOTAL 90%".toList (some "a' --amend 'b".toList))).map
      (·.map wordText) = .ok ["git".toList, "commit".toList, "-m".toList,
        "test commit summary: TOTAL 90%".toList, "-m".toList, "a".toList, "--amend".toList,
        "b".toList] := by
  decide +kernel

/-- C118: `test_commit` commits the last line of the report that contains `TOTAL`; if there is none,
it raises after the message has been appended to the report, and nothing is committed. -/
theorem test_commit_outcome (report : Str) (message : Option Str) :
    (testCommit report message).1 = report ++ (match message with
      | none => "no additional message".toList
      | some msg => "message: ".toList ++ msg) ∧
    ((∀ l ∈ lines report, ¬ "TOTAL".toList <:+: l) →
      (testCommit report message).2 = .error .unbound) ∧
    ∀ before l after, lines report = before ++ l :: after → "TOTAL".toList <:+: l →
      (∀ l' ∈ after, ¬ "TOTAL".toList <:+: l') → '\'' ∉ l →
      (∀ msg, message = some msg → '\'' ∉ msg) →
      (testCommit report message).2 = .ok (.ok (["git".toList, "commit".toList, "-m".toList,
        "test commit summary: ".toList ++ l] ++ messageWords message)) := by
  refine ⟨rfl, fun h => ?_, fun before l after hl hT hA hq hm => ?_⟩
  · have : totalLine report = none := by
      unfold totalLine
      rw [List.filter_eq_nil_iff.2]
      · rfl
      · intro l hl
        rw [hasSub_iff]
        exact h l hl
    unfold testCommit
    rw [this]
  · have : totalLine report = some l := by
      unfold totalLine
      rw [hl, List.filter_append, List.filter_cons, if_pos ((hasSub_iff _ _).2 hT),
        (List.filter_eq_nil_iff (l := after)).2]
      · simp
      · intro l' hl'
        rw [hasSub_iff]
        exact hA l' hl'
    unfold testCommit
    rw [this]
    simp only
    rw [commit_words l message hq hm]

/-- A report with a total. -/
example : totalLine "Name  Cover\nTOTAL  91%\n".toList = some "TOTAL  91%\n".toList := by
  decide +kernel

/-! ## Names and unreadable files -/

/-- C118: the name of the gif: `gif_`, the tag, the millisecond in four digits; with two tags the
first is the folder and the second is in the name. -/
theorem gif_name (tag : GifTag) (gifId : Nat) (h : gifId < 1000) :
    (∀ t, tag = .one t → tag.folder = t ∧ tag.text = t) ∧
    (∀ f t, tag = .two f t → tag.folder = f ∧ tag.text = t) ∧
    ∃ ds : Str, gifName tag.text gifId = "gif_".toList ++ tag.text ++ ('_' :: ds) ++ ".gif".toList ∧
      ds.length = 4 ∧ (∀ c ∈ ds, c.isDigit = true) ∧ value ds = gifId := by
  refine ⟨by rintro t rfl; exact ⟨rfl, rfl⟩, by rintro f t rfl; exact ⟨rfl, rfl⟩, padZero 4 gifId, ?_,
    padZero_length (by decide) (by omega), padZero_digits _ _, value_pad _ _⟩
  simp [gifName]

theorem readPics_bad {es : List (Str × FsNode I)} {name : Str} {n : FsNode I} (h : (name, n) ∈ es)
    (hp : hasSub "png".toList name = true) (hn : ∀ i, n ≠ .file (.pic i)) :
    readPics es = .error .runtime := by
  induction es with
  | nil => cases h
  | cons e es ih =>
    obtain ⟨name', n'⟩ := e
    rcases List.mem_cons.1 h with h | h
    · cases h
      unfold readPics
      rw [if_pos hp]
      match n, hn with
      | .dir, _ => rfl
      | .file (.gif _), _ => rfl
      | .file (.other _), _ => rfl
      | .file (.pic i), hn => exact absurd rfl (hn i)
    · unfold readPics
      rw [ih h]
      split
      · split <;> rfl
      · rfl

/-- C118: a folder, or a file that is not a picture, with `png` in its name makes `make_gif` raise
before anything is written or removed. -/
theorem gif_unreadable (fs : Fs I) (framesPath gifDir tag : Str) (gifId : Nat)
    (hd : fs.isDir (parsePath framesPath) = true) {name : Str} {n : FsNode I}
    (h : (name, n) ∈ fs.entries (parsePath framesPath)) (hp : hasSub "png".toList name = true)
    (hn : ∀ i, n ≠ .file (.pic i)) :
    makeGifFs fs framesPath gifDir tag gifId = .ok (fs, .error .runtime) := by
  unfold makeGifFs
  dsimp only
  rw [if_neg (by rw [hd]; simp), readPics_bad h hp hn]
  rfl

/-- Such a folder. -/
example : ∃ (fs : Fs Nat) (name : Str) (n : FsNode Nat), fs.isDir (parsePath "frames".toList) = true ∧
    (name, n) ∈ fs.entries (parsePath "frames".toList) ∧ hasSub "png".toList name = true ∧
    ∀ i, n ≠ .file (.pic i) := by
  refine ⟨[(["frames".toList], .dir), (["frames".toList, "a.png".toList], .dir)], "a.png".toList, .dir,
    by decide +kernel, by decide +kernel, by decide +kernel, by rintro i ⟨⟩⟩

end Yuca
