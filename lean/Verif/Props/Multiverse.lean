import Verif.Model.Multiverse
import Verif.Lemmas.Text

/-!
# C88: where the analysis results go
-/

namespace Yuca

namespace Spec

/-- A path to a directory other than the root, without a trailing slash. -/
def DirPath (p : Str) : Prop := p ≠ [] ∧ p.getLast? ≠ some '/'

/-- A name without slashes. -/
def Name (d : Str) : Prop := d ≠ [] ∧ '/' ∉ d

/-- The analyses of these files, one after the other, give these results. -/
inductive Analyses {S R : Type} (analyse : S → Str → Except PyErr (R × S)) :
    S → List Str → List R → S → Prop
  | nil (s : S) : Analyses analyse s [] [] s
  | cons {s s' t : S} {f : Str} {fs : List Str} {r : R} {rs : List R} :
      analyse s f = .ok (r, s') → Analyses analyse s' fs rs t →
      Analyses analyse s (f :: fs) (r :: rs) t

/-- The files of the listing that are analysed. -/
def npyFiles (l : List Str) : List Str := l.filter fun f => hasSub "npy".toList f

end Spec

open Spec

theorem pathHead_child {p c : Str} (hp : DirPath p) (hc : '/' ∉ c) :
    pathHead (p ++ '/' :: c) = p := by
  have h1 : (p ++ '/' :: c).reverse.takeWhile (· ≠ '/') = c.reverse := by
    rw [List.reverse_append, List.reverse_cons, List.append_assoc, List.takeWhile_append_of_pos]
    · simp
    · intro x hx
      simp only [ne_eq, decide_not, Bool.not_eq_true', decide_eq_false_iff_not]
      rintro rfl
      exact hc (List.mem_reverse.1 hx)
  have h2 : (p ++ '/' :: c).take ((p ++ '/' :: c).length - c.reverse.length) = p ++ ['/'] := by
    have e : (p ++ '/' :: c) = (p ++ ['/']) ++ c := by simp
    have el : (p ++ '/' :: c).length - c.reverse.length = (p ++ ['/']).length := by
      simp only [List.length_append, List.length_cons, List.length_reverse, List.length_nil]; omega
    rw [el, e, List.take_left']
    rfl
  unfold pathHead
  rw [h1, h2]
  obtain ⟨q, x, rfl⟩ : ∃ q x, p = q ++ [x] := by
    rcases List.eq_nil_or_concat p with h | ⟨q, x, h⟩
    · exact absurd h hp.1
    · exact ⟨q, x, by simpa using h⟩
  have hx : x ≠ '/' := by
    have := hp.2
    simpa using this
  have h3 : (q ++ [x] ++ ['/']).all (· = '/') = false := by
    simp [hx]
  simp only [h3, Bool.false_eq_true, if_false]
  simp [hx]

theorem dirPath_child {p c : Str} (hc : Name c) : DirPath (p ++ '/' :: c) := by
  refine ⟨by simp, ?_⟩
  intro h
  have hm : c.getLast? = some '/' := by
    have hne := hc.1
    cases c with
    | nil => exact absurd rfl hne
    | cons a l => simpa [List.getLast?_append, List.getLast?_cons_cons] using h
  exact hc.2 (List.mem_of_getLast? hm)

theorem join_name {p c : Str} (hp : DirPath p) (hc : c.head? ≠ some '/') :
    pathJoin p c = p ++ '/' :: c := by
  unfold pathJoin
  rw [if_neg hc, if_neg]
  rintro (h | h)
  · exact hp.1 h
  · exact hp.2 h

theorem name_head {c : Str} (hc : '/' ∉ c) : c.head? ≠ some '/' := by
  cases c with
  | nil => simp
  | cons a l => simp only [List.head?_cons, ne_eq, Option.some.injEq]; rintro rfl; simp at hc

/-- C88: with a trailing slash (the default `ca_configs/` of the command line) the results go to
the directory `ca_analysis` beside the configs. -/
theorem save_beside (p c : Str) (hp : DirPath p) (hc : Name c) :
    saveDir p (c ++ ['/']) = p ++ "/ca_analysis".toList := by
  have h1 : configDir p (c ++ ['/']) = p ++ '/' :: c ++ ['/'] := by
    unfold configDir
    rw [join_name hp]
    · simp
    · have := name_head hc.2
      cases c with
      | nil => exact absurd rfl hc.1
      | cons a l => simpa using this
  unfold saveDir
  rw [h1, pathHead_child (dirPath_child hc) (by simp), pathHead_child hp hc.2, join_name hp (by decide)]
  rfl

/-- C88: without it (the default `configs` of `Phanes`) they go to the parent of the current
directory. -/
theorem save_in_parent (p c d : Str) (hp : DirPath p) (hc : Name c) (hd : Name d) :
    saveDir (p ++ '/' :: c) d = p ++ "/ca_analysis".toList := by
  unfold saveDir configDir
  rw [join_name (dirPath_child hc) (name_head hd.2), pathHead_child (dirPath_child hc) hd.2,
    pathHead_child hp hc.2, join_name hp (by decide)]
  rfl

example : DirPath "/home/user/yuca".toList ∧ Name "ca_configs".toList ∧ Name "configs".toList := by
  unfold DirPath Name; decide

theorem multiverse_skip {S R : Type} (cwd dir cppn : Str) (ex : Str → Bool)
    (an : S → Str → Except PyErr (R × S)) (s : S) (l : List Str) :
    multiverse cwd dir cppn ex an s l = multiverse cwd dir cppn ex an s (npyFiles l) := by
  induction l generalizing s with
  | nil => rfl
  | cons f l ih =>
    by_cases h : hasSub "npy".toList f = true
    · have hf : npyFiles (f :: l) = f :: npyFiles l := by
        unfold npyFiles; rw [List.filter_cons_of_pos h]
      rw [hf]
      simp only [multiverse, h, if_true]
      split
      · rfl
      · simp only [ih]
    · have hf : npyFiles (f :: l) = npyFiles l := by
        unfold npyFiles; rw [List.filter_cons_of_neg h]
      rw [hf, ← ih]
      simp only [multiverse, h]
      simp

/-- C88: if the result directory exists, the result of every config up to the first that fails is
saved, in the order of the listing; the failing one ends the run. -/
theorem multiverse_saves {S R : Type} (cwd dir cppn : Str) (ex : Str → Bool)
    (an : S → Str → Except PyErr (R × S)) (s t : S) (l pre post : List Str) (rs : List R)
    (hex : ex (saveDir cwd dir) = true) (hl : npyFiles l = pre ++ post)
    (hrun : Analyses an s pre rs t) :
    (post = [] → multiverse cwd dir cppn ex an s l =
      (List.zipWith (fun f r => (savePath cwd dir cppn f, f, r)) pre rs, pre.length, none)) ∧
    ∀ f rest e, post = f :: rest → an t f = .error e →
      multiverse cwd dir cppn ex an s l =
        (List.zipWith (fun f r => (savePath cwd dir cppn f, f, r)) pre rs, pre.length, some e) := by
  rw [multiverse_skip, hl]
  have hn : ∀ f ∈ pre ++ post, hasSub "npy".toList f = true := by
    intro f hf
    rw [← hl] at hf
    exact (List.mem_filter.1 hf).2
  clear hl
  induction hrun with
  | nil s =>
    refine ⟨fun h => by subst h; rfl, fun f rest e h he => ?_⟩
    subst h
    have := hn f (by simp)
    simp only [List.nil_append, multiverse, this, if_true, he]
    rfl
  | @cons s s' t f fs r rs h1 _ ih =>
    have hf := hn f (by simp)
    obtain ⟨i1, i2⟩ := ih (fun g hg => hn g (by simp at hg ⊢; tauto))
    constructor
    · intro h
      have := i1 h
      simp only [List.cons_append, multiverse, hf, if_true, h1, hex, this]
      rfl
    · intro g rest e h he
      have := i2 g rest e h he
      simp only [List.cons_append, multiverse, hf, if_true, h1, hex, this]
      rfl

/-- C88: nothing creates the result directory; if it is missing the first config is analysed in
full, then the run fails and nothing is saved. -/
theorem multiverse_no_directory {S R : Type} (cwd dir cppn : Str) (ex : Str → Bool)
    (an : S → Str → Except PyErr (R × S)) (s s' : S) (l rest : List Str) (f : Str) (r : R)
    (hex : ex (saveDir cwd dir) = false) (hl : npyFiles l = f :: rest)
    (hf : an s f = .ok (r, s')) :
    multiverse cwd dir cppn ex an s l = ([], 1, some .notFound) := by
  rw [multiverse_skip, hl]
  have : hasSub "npy".toList f = true := by
    have : f ∈ npyFiles l := by rw [hl]; simp
    exact (List.mem_filter.1 this).2
  simp only [multiverse, this, if_true, hf, hex]
  rfl

example : npyFiles ["readme.md".toList, "s613.npy".toList] = ["s613.npy".toList] := by
  decide +kernel

/-- C88: different config files `x.npy` have different result files. -/
theorem savePath_inj (cwd dir cppn s t : Str) (hs : ∃ c ∈ s, c ≠ '.') (ht : ∃ c ∈ t, c ≠ '.')
    (hs' : '/' ∉ s) (ht' : '/' ∉ t)
    (h : savePath cwd dir cppn (s ++ ".npy".toList) = savePath cwd dir cppn (t ++ ".npy".toList)) :
    s = t := by
  have e1 : stem (s ++ ".npy".toList) = s := stem_ext s ['n', 'p', 'y'] (by decide) hs
  have e2 : stem (t ++ ".npy".toList) = t := stem_ext t ['n', 'p', 'y'] (by decide) ht
  unfold savePath at h
  rw [e1, e2] at h
  have hd : ∀ x : Str, '/' ∉ x → (∃ c ∈ x, c ≠ '.') → (x ++ ("cppn".toList ++ cppn ++
      "_analysis.npy".toList)).head? ≠ some '/' := by
    intro x hx hne
    cases x with
    | nil => simp at hne
    | cons a l => simp only [List.cons_append, List.head?_cons, ne_eq, Option.some.injEq]
                  rintro rfl; simp at hx
  unfold pathJoin at h
  rw [if_neg (hd s hs' hs), if_neg (hd t ht' ht)] at h
  split at h
  · exact List.append_cancel_right (List.append_cancel_left h)
  · have := List.append_cancel_left h
    simp only [List.cons.injEq, true_and] at this
    exact List.append_cancel_right this

/-- C88, exception: a stray file with the same stem overwrites the result of the config. -/
theorem savePath_clash (cwd dir cppn : Str) :
    savePath cwd dir cppn "a.npy".toList = savePath cwd dir cppn "a.npy~".toList := by
  have e1 : stem "a.npy".toList = ['a'] := by decide
  have e2 : stem "a.npy~".toList = ['a'] := by decide
  unfold savePath
  rw [e1, e2]

end Yuca
