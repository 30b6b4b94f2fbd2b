import Verif.Model.Shell
import Verif.Lemmas.Text

/-!
# Lemmas about paths, file systems and the shell fragment
-/

namespace Yuca

/-! ## Paths -/

theorem splitOn_join (c : Char) (a b : Str) :
    splitOn c (a ++ c :: b) = splitOn c a ++ splitOn c b := by
  induction a with
  | nil => rw [List.nil_append, show splitOn c [] = [[]] from rfl, splitOn, if_pos rfl]; rfl
  | cons x xs ih =>
    rw [List.cons_append, splitOn, splitOn]
    by_cases h : x = c
    · rw [if_pos h, if_pos h, ih]; rfl
    · rw [if_neg h, if_neg h, ih]
      cases hs : splitOn c xs with
      | nil => exact absurd hs (splitOn_ne_nil c xs)
      | cons a t => rfl

theorem splitWord_text (w : List ShChar) :
    (splitWord w).map wordText = splitOn '/' (wordText w) := by
  induction w with
  | nil => rfl
  | cons x xs ih =>
    rw [splitWord, wordText, List.map_cons, splitOn]
    by_cases h : x.1 = '/'
    · rw [if_pos h, if_pos h, List.map_cons, ih]; rfl
    · rw [if_neg h, if_neg h]
      change _ = match splitOn '/' (wordText xs) with | h :: t => (x.1 :: h) :: t | [] => [[x.1]]
      rw [← ih]
      cases splitWord xs with
      | nil => rfl
      | cons a t => rfl

theorem splitWord_join (a b : List ShChar) (q : Bool) :
    splitWord (a ++ ('/', q) :: b) = splitWord a ++ splitWord b := by
  induction a with
  | nil => rw [List.nil_append, show splitWord [] = [[]] from rfl, splitWord, if_pos rfl]; rfl
  | cons x xs ih =>
    rw [List.cons_append, splitWord, splitWord]
    by_cases h : x.1 = '/'
    · rw [if_pos h, if_pos h, ih]; rfl
    · rw [if_neg h, if_neg h, ih]
      cases hs : splitWord xs with
      | nil =>
        have := splitWord_text xs
        rw [hs] at this
        exact absurd this.symm (splitOn_ne_nil _ _)
      | cons a t => rfl

theorem patNames_text (w : List ShChar) : (patNames w).map wordText = parsePath (wordText w) := by
  unfold patNames parsePath
  rw [List.map_append, ← splitWord_text, List.filter_map]
  congr 1
  · have : (wordText w).head? = w.head?.map Prod.fst := by simp [wordText]
    rw [this]
    split <;> rfl
  · congr 1
    apply List.filter_congr
    intro c _
    simp [wordText]

/-- Names: text that is one component of a path. -/
def Spec.IsName (s : Str) : Prop := s ≠ [] ∧ s ≠ ['.'] ∧ '/' ∉ s

theorem filter_name {s : Str} (h : Spec.IsName s) :
    (splitOn '/' s).filter (fun c => !(c.isEmpty || decide (c = ['.']))) = [s] := by
  rw [splitOn_none _ _ h.2.2]
  simp [h.1, h.2.1]

theorem getLast_slash {a : Str} (h : a.getLast? = some '/') : ∃ b, a = b ++ ['/'] := by
  rw [List.getLast?_eq_some_iff] at h
  exact h

/-- A name appended to a path. -/
theorem parsePath_join (a : Str) {s : Str} (h : Spec.IsName s) :
    parsePath (pathJoin a s) = parsePath a ++ [s] := by
  have hh : s.head? ≠ some '/' := by
    intro e
    exact h.2.2 (List.mem_of_mem_head? e)
  unfold pathJoin
  rw [if_neg hh]
  split
  · rename_i ha
    rcases ha with rfl | ha
    · rw [List.nil_append, parsePath, if_neg hh, filter_name h]
      simp [parsePath, splitOn]
    · obtain ⟨b, rfl⟩ := getLast_slash ha
      rw [List.append_assoc, List.singleton_append, parsePath, parsePath, splitOn_join, splitOn_join,
        List.filter_append, List.filter_append, filter_name h]
      have : (b ++ '/' :: s).head? = (b ++ ['/']).head? := by cases b <;> rfl
      rw [this]
      simp [splitOn]
  · rename_i ha
    push Not at ha
    rw [parsePath, parsePath, splitOn_join, List.filter_append, filter_name h]
    have : (a ++ '/' :: s).head? = a.head? := by
      cases a with
      | nil => exact absurd rfl ha.1
      | cons => rfl
    rw [this, List.append_assoc]

theorem splitWord_none (w : List ShChar) (h : '/' ∉ wordText w) : splitWord w = [w] := by
  induction w with
  | nil => rfl
  | cons x xs ih =>
    simp only [wordText, List.map_cons, List.mem_cons, not_or] at h
    rw [splitWord, if_neg (fun e => h.1 e.symm), ih h.2]

/-- Unquoted text as a word. -/
def plainWord (s : Str) : List ShChar := s.map fun c => (c, false)

theorem plainWord_text (s : Str) : wordText (plainWord s) = s := by
  simp [plainWord, wordText, Function.comp_def]

theorem patNames_join (a : Str) {s : Str} (h : Spec.IsName s) :
    patNames (plainWord (pathJoin a s)) = patNames (plainWord a) ++ [plainWord s] := by
  have hh : s.head? ≠ some '/' := by
    intro e
    exact h.2.2 (List.mem_of_mem_head? e)
  have hs : splitWord (plainWord s) = [plainWord s] :=
    splitWord_none _ (by rw [plainWord_text]; exact h.2.2)
  have hf : (splitWord (plainWord s)).filter (fun c => !(c.isEmpty || decide (wordText c = ['.'])))
      = [plainWord s] := by
    rw [hs]
    have : (plainWord s).isEmpty = false := by
      cases s with
      | nil => exact absurd rfl h.1
      | cons => rfl
    simp [this, plainWord_text, h.2.1]
  unfold pathJoin
  rw [if_neg hh]
  split
  · rename_i ha
    rcases ha with rfl | ha
    · rw [List.nil_append, patNames, hf, if_neg]
      · simp [patNames, plainWord, splitWord]
      · simpa [plainWord] using hh
    · obtain ⟨b, rfl⟩ := getLast_slash ha
      have e1 : plainWord (b ++ ['/'] ++ s) = plainWord b ++ ('/', false) :: plainWord s := by
        simp [plainWord]
      have e2 : plainWord (b ++ ['/']) = plainWord b ++ ('/', false) :: [] := by
        simp [plainWord]
      rw [e1, e2, patNames, patNames, splitWord_join, splitWord_join,
        List.filter_append, List.filter_append, hf]
      have : (plainWord b ++ ('/', false) :: plainWord s).head? =
          (plainWord b ++ [('/', false)]).head? := by cases b <;> rfl
      rw [this]
      simp [splitWord]
  · rename_i ha
    push Not at ha
    have e1 : plainWord (a ++ '/' :: s) = plainWord a ++ ('/', false) :: plainWord s := by
      simp [plainWord]
    rw [e1, patNames, patNames, splitWord_join, List.filter_append, hf]
    have : (plainWord a ++ ('/', false) :: plainWord s).head? = (plainWord a).head? := by
      cases a with
      | nil => exact absurd rfl ha.1
      | cons => rfl
    rw [this, List.append_assoc]

/-! ## File systems -/

namespace Fs
variable {I : Type}

theorem find_filter (P : Path → Bool) (q : Path) (hq : P q = true) : ∀ (fs : Fs I),
    ((fs.filter fun e => P e.1).find? fun e => decide (e.1 = q)) =
      fs.find? fun e => decide (e.1 = q)
  | [] => rfl
  | e :: fs => by
    rw [List.filter_cons]
    by_cases he : e.1 = q
    · rw [he, if_pos hq, List.find?_cons_of_pos (by simp [he]),
        List.find?_cons_of_pos (by simp [he])]
    · rw [List.find?_cons_of_neg (a := e) (by simp [he]), ← find_filter P q hq fs]
      split
      · rw [List.find?_cons_of_neg (by simp [he])]
      · rfl

theorem get_filter (P : Path → Bool) (q : Path) (fs : Fs I) :
    get (fs.filter fun e => P e.1) q =
      if q = [] then some .dir else if P q then fs.get q else none := by
  unfold get
  split
  · rfl
  · split
    · rename_i h
      rw [find_filter P q h]
    · rename_i h
      have : ((fs.filter fun e => P e.1).find? fun e => decide (e.1 = q)) = none := by
        rw [List.find?_eq_none]
        intro e he
        rw [List.mem_filter] at he
        intro hq
        rw [decide_eq_true_iff] at hq
        rw [hq] at he
        exact h he.2
      rw [this]
      rfl

theorem get_nil (fs : Fs I) : fs.get [] = some .dir := rfl

theorem get_append_single (fs : Fs I) (p q : Path) (n : FsNode I) :
    get (fs ++ [(p, n)]) q = if q = [] then some .dir else
      match fs.get q with
      | some x => some x
      | none => if q = p then some n else none := by
  unfold get
  by_cases hq : q = []
  · rw [if_pos hq, if_pos hq]
  · rw [if_neg hq, if_neg hq, if_neg hq, List.find?_append]
    cases h : fs.find? fun e => decide (e.1 = q) with
    | some e => simp
    | none =>
      by_cases hp : p = q
      · simp [hp]
      · have hp' : ¬ q = p := fun e => hp e.symm
        simp [hp, hp']

theorem get_put {p : Path} (hp : p ≠ []) (fs : Fs I) (n : FsNode I) (q : Path) :
    (fs.put p n).get q = if q = p then some n else fs.get q := by
  unfold put
  rw [get_append_single, get_filter (fun e => decide (e ≠ p))]
  by_cases hq : q = []
  · subst hq
    rw [if_pos rfl, if_neg (fun e => hp e.symm)]
    rfl
  · rw [if_neg hq, if_neg hq]
    by_cases h : q = p
    · rw [if_pos h]
      simp [h]
    · rw [if_neg h, if_pos (by simp [h]), if_neg h]
      cases fs.get q <;> rfl

theorem get_rmTree {p : Path} (hp : p ≠ []) (fs : Fs I) (q : Path) :
    (fs.rmTree p).get q = if p <+: q then none else fs.get q := by
  unfold rmTree
  rw [if_neg hp, get_filter (fun e => !(p.isPrefixOf e))]
  by_cases hq : q = []
  · subst hq
    rw [if_pos rfl, if_neg (by simpa using hp)]
    rfl
  · rw [if_neg hq]
    by_cases h : p <+: q
    · rw [if_pos h, if_neg]
      simpa using h
    · rw [if_neg h, if_pos]
      rw [Bool.not_eq_true', Bool.eq_false_iff]
      exact fun e => h (List.isPrefixOf_iff_prefix.1 e)

theorem get_rmFile (fs : Fs I) (p q : Path) :
    (fs.rmFile p).get q = if q = p ∧ fs.isFile p then none else fs.get q := by
  unfold rmFile
  split
  · rename_i h
    rw [get_filter (fun e => decide (e ≠ p))]
    by_cases hq : q = []
    · subst hq
      have : p ≠ [] := by
        rintro rfl
        simp [isFile, get_nil] at h
      rw [if_pos rfl, if_neg (by simp [Ne.symm this])]
      rfl
    · rw [if_neg hq]
      by_cases hp : q = p
      · simp [hp, h]
      · simp [hp]
  · rename_i h
    rw [if_neg (by simp [h])]

theorem foldl_mk (L : List Path) (hL : ∀ p ∈ L, p ≠ []) : ∀ (fs : Fs I) (q : Path),
    (L.foldl (fun fs q => if (fs.get q).isSome then fs else fs.put q .dir) fs).get q =
      if q ∈ L ∧ fs.get q = none then some .dir else fs.get q := by
  induction L with
  | nil => intro fs q; simp
  | cons p L ih =>
    intro fs q
    have hL' : ∀ p ∈ L, p ≠ [] := fun p h => hL p (List.mem_cons_of_mem _ h)
    rw [List.foldl_cons, ih hL']
    have hp := hL p (List.mem_cons_self ..)
    cases hg : fs.get p with
    | some n =>
      simp only [Option.isSome_some, if_true]
      by_cases hq : q = p
      · subst hq; simp [hg]
      · simp [hq]
    | none =>
      simp only [Option.isSome_none, Bool.false_eq_true, if_false]
      rw [get_put hp]
      by_cases hq : q = p
      · subst hq; simp [hg]
      · simp [hq]

theorem mem_steps (p q : Path) :
    q ∈ ((List.range p.length).map fun k => p.take (k + 1)) ↔ q ≠ [] ∧ q <+: p := by
  rw [List.mem_map]
  constructor
  · rintro ⟨k, hk, rfl⟩
    rw [List.mem_range] at hk
    refine ⟨?_, List.take_prefix _ _⟩
    intro h
    have := congrArg List.length h
    simp at this
    subst this
    simp at hk
  · rintro ⟨h1, h2⟩
    have hl := h2.length_le
    have h3 : 0 < q.length := List.length_pos_of_ne_nil h1
    refine ⟨q.length - 1, List.mem_range.2 (by omega), ?_⟩
    rw [show q.length - 1 + 1 = q.length by omega]
    exact (List.prefix_iff_eq_take.1 h2).symm

theorem any_steps (fs : Fs I) (p : Path) :
    (((List.range p.length).map fun k => p.take (k + 1)).any fs.isFile = true) ↔
      ∃ r, r <+: p ∧ fs.isFile r = true := by
  rw [List.any_eq_true]
  constructor
  · rintro ⟨r, hr, h⟩
    exact ⟨r, ((mem_steps p r).1 hr).2, h⟩
  · rintro ⟨r, hr, h⟩
    refine ⟨r, (mem_steps p r).2 ⟨?_, hr⟩, h⟩
    rintro rfl
    simp [isFile, get_nil] at h

/-- `mkdir -p` makes the missing directories on the way. -/
theorem get_mkdirs (fs : Fs I) {p : Path} (h : ∀ r, r <+: p → fs.isFile r = false) (q : Path) :
    (fs.mkdirs p).get q = if q <+: p ∧ fs.get q = none then some .dir else fs.get q := by
  unfold mkdirs
  simp only
  rw [if_neg, foldl_mk _ (fun r hr => ((mem_steps p r).1 hr).1)]
  · by_cases hq : q = []
    · subst hq; simp [get_nil]
    · simp only [mem_steps, hq, ne_eq, not_false_eq_true, true_and]
  · rw [any_steps]
    rintro ⟨r, hr, e⟩
    rw [h r hr] at e
    cases e

/-- A file on the way: nothing is made. -/
theorem mkdirs_blocked (fs : Fs I) {p r : Path} (hr : r <+: p) (h : fs.isFile r = true) :
    fs.mkdirs p = fs := by
  unfold mkdirs
  simp only
  rw [if_pos ((any_steps fs p).2 ⟨r, hr, h⟩)]

theorem get_mkdirs_or (fs : Fs I) (p q : Path) : (fs.mkdirs p).get q = fs.get q ∨
    (q <+: p ∧ fs.get q = none ∧ (fs.mkdirs p).get q = some .dir) := by
  by_cases h : ∃ r, r <+: p ∧ fs.isFile r = true
  · obtain ⟨r, h1, h2⟩ := h
    exact Or.inl (by rw [mkdirs_blocked fs h1 h2])
  · have h' : ∀ r, r <+: p → fs.isFile r = false := fun r hr =>
      Bool.eq_false_iff.2 fun e => h ⟨r, hr, e⟩
    rw [get_mkdirs fs h']
    split
    · rename_i hq
      exact Or.inr ⟨hq.1, hq.2, rfl⟩
    · exact Or.inl rfl

theorem foldl_rmFile (L : List Path) : ∀ (fs : Fs I) (q : Path),
    (L.foldl rmFile fs).get q = if q ∈ L ∧ fs.isFile q then none else fs.get q := by
  induction L with
  | nil => intro fs q; simp
  | cons p L ih =>
    intro fs q
    rw [List.foldl_cons, ih, get_rmFile]
    by_cases hq : q = p
    · subst hq
      by_cases hf : fs.isFile q
      · simp [hf]
      · have : (fs.rmFile q).isFile q = fs.isFile q := by
          unfold isFile
          rw [get_rmFile]
          simp [hf]
        simp [hf, this]
    · have : (fs.rmFile p).isFile q = fs.isFile q := by
        unfold isFile
        rw [get_rmFile]
        simp [hq]
      simp [hq, this]

theorem get_none_iff (fs : Fs I) {q : Path} (hq : q ≠ []) :
    fs.get q = none ↔ ∀ e ∈ fs, e.1 ≠ q := by
  unfold get
  rw [if_neg hq]
  simp

end Fs

/-! ## The shell -/

/-- Characters that stand for themselves outside quotes (or are the pattern `*`). -/
def Usual (c : Char) : Prop := c ≠ '\'' ∧ ¬ (c = ' ' ∨ c = '\t') ∧ special c = false

theorem lex_run (s : Str) (hs : ∀ c ∈ s, Usual c) : ∀ cur rest,
    shLex false (some cur) (s ++ ' ' :: rest) =
      (shLex false none rest).map fun ws => (cur ++ plainWord s) :: ws := by
  induction s with
  | nil =>
    intro cur rest
    rw [List.nil_append, shLex, if_neg (by decide), if_pos (by decide)]
    simp [plainWord]
  | cons c s ih =>
    intro cur rest
    obtain ⟨h1, h2, h3⟩ := hs c (List.mem_cons_self ..)
    rw [List.cons_append, shLex, if_neg h1, if_neg h2, h3, if_neg (by decide),
      ih fun c h => hs c (List.mem_cons_of_mem _ h)]
    simp [plainWord]

theorem lex_end (s : Str) (hs : ∀ c ∈ s, Usual c) : ∀ cur,
    shLex false (some cur) s = .ok [cur ++ plainWord s] := by
  induction s with
  | nil => intro cur; simp [shLex, plainWord]
  | cons c s ih =>
    intro cur
    obtain ⟨h1, h2, h3⟩ := hs c (List.mem_cons_self ..)
    rw [shLex, if_neg h1, if_neg h2, h3, if_neg (by decide),
      ih fun c h => hs c (List.mem_cons_of_mem _ h)]
    simp [plainWord]

/-- The first word. -/
theorem lex_cons {a : Str} (ha : ∀ c ∈ a, Usual c) (hne : a ≠ []) (rest : Str) :
    shLex false none (a ++ ' ' :: rest) =
      (shLex false none rest).map fun ws => plainWord a :: ws := by
  cases a with
  | nil => exact absurd rfl hne
  | cons c a =>
    obtain ⟨h1, h2, h3⟩ := ha c (List.mem_cons_self ..)
    rw [List.cons_append, shLex, if_neg h1, if_neg h2, h3, if_neg (by decide),
      lex_run a fun c h => ha c (List.mem_cons_of_mem _ h)]
    simp [plainWord]

/-- The last word. -/
theorem lex_one {a : Str} (ha : ∀ c ∈ a, Usual c) (hne : a ≠ []) :
    shLex false none a = .ok [plainWord a] := by
  cases a with
  | nil => exact absurd rfl hne
  | cons c a =>
    obtain ⟨h1, h2, h3⟩ := ha c (List.mem_cons_self ..)
    rw [shLex, if_neg h1, if_neg h2, h3, if_neg (by decide),
      lex_end a fun c h => ha c (List.mem_cons_of_mem _ h)]
    simp [plainWord]

theorem usual_of_forall {a : Str} (h : a.all (fun c => decide (c ≠ '\'') &&
    (decide (¬ (c = ' ' ∨ c = '\t')) && !special c)) = true) : ∀ c ∈ a, Usual c := by
  intro c hc
  have := List.all_eq_true.1 h c hc
  simp only [Bool.and_eq_true, decide_eq_true_eq, Bool.not_eq_true'] at this
  exact this

variable {I : Type}

theorem shRun_rmTree (fs : Fs I) {s : Str} {ws : List (List ShChar)}
    (h : shLex false none s = .ok ws) (hd : ∀ w ∈ ws, (wordText w).head? ≠ some '-') :
    shRun fs ("rm -r ".toList ++ s) = .ok ((ws.flatMap (expand fs)).foldl Fs.rmTree fs) := by
  have hw : shWords ("rm -r ".toList ++ s) =
      .ok (plainWord "rm".toList :: plainWord "-r".toList :: ws) := by
    rw [show "rm -r ".toList ++ s = "rm".toList ++ ' ' :: ("-r".toList ++ ' ' :: s) from rfl, shWords,
      lex_cons (usual_of_forall (by decide)) (by decide),
      lex_cons (usual_of_forall (by decide)) (by decide), h]
    rfl
  unfold shRun
  rw [hw]
  simp only [plainWord_text, if_true]
  rw [if_neg]
  simpa using hd

theorem shRun_rmFile (fs : Fs I) {s : Str} {ws : List (List ShChar)}
    (h : shLex false none s = .ok ws) (hd : ∀ w ∈ ws, (wordText w).head? ≠ some '-') :
    shRun fs ("rm ".toList ++ s) = .ok ((ws.flatMap (expand fs)).foldl Fs.rmFile fs) := by
  have hw : shWords ("rm ".toList ++ s) = .ok (plainWord "rm".toList :: ws) := by
    rw [show "rm ".toList ++ s = "rm".toList ++ ' ' :: s from rfl, shWords,
      lex_cons (usual_of_forall (by decide)) (by decide), h]
    rfl
  unfold shRun
  rw [hw]
  simp only [plainWord_text, if_true]
  cases ws with
  | nil => simp
  | cons w ws =>
    have hw := hd w (List.mem_cons_self ..)
    have : ¬ wordText w = "-r".toList := by
      intro e
      rw [e] at hw
      exact hw rfl
    simp only [this, if_false]
    rw [if_neg]
    simpa using hd

theorem shRun_mkdirs (fs : Fs I) {s : Str} {ws : List (List ShChar)}
    (h : shLex false none s = .ok ws) (hd : ∀ w ∈ ws, (wordText w).head? ≠ some '-') :
    shRun fs ("mkdir -p ".toList ++ s) = .ok ((ws.flatMap (expand fs)).foldl Fs.mkdirs fs) := by
  have hw : shWords ("mkdir -p ".toList ++ s) =
      .ok (plainWord "mkdir".toList :: plainWord "-p".toList :: ws) := by
    rw [show "mkdir -p ".toList ++ s = "mkdir".toList ++ ' ' :: ("-p".toList ++ ' ' :: s) from rfl,
      shWords, lex_cons (usual_of_forall (by decide)) (by decide),
      lex_cons (usual_of_forall (by decide)) (by decide), h]
    rfl
  unfold shRun
  rw [hw]
  simp only [plainWord_text, if_true]
  rw [if_neg (by decide)]
  simp only
  rw [if_neg]
  simpa using hd

theorem expand_plain (fs : Fs I) {s : Str} (h : '*' ∉ s) :
    expand fs (plainWord s) = [parsePath s] := by
  unfold expand
  rw [if_neg, plainWord_text]
  simpa [plainWord] using h

theorem matchName_plain {w : List ShChar} (h : ('*', false) ∉ w) (t : Str) :
    matchName w t = true ↔ t = wordText w := by
  induction w generalizing t with
  | nil => simp [matchName, wordText]
  | cons c w ih =>
    simp only [List.mem_cons, not_or] at h
    unfold matchName
    rw [if_neg (fun e => h.1 e.symm)]
    cases t with
    | nil => simp [wordText]
    | cons x t => simp [ih h.2, wordText]

theorem matchName_star {w : List ShChar} (h : ('*', false) ∉ w) (t : Str) :
    matchName (('*', false) :: w) t = true ↔ wordText w <:+ t := by
  unfold matchName
  rw [if_pos rfl, List.any_eq_true]
  constructor
  · rintro ⟨x, hx, hm⟩
    rw [matchName_plain h] at hm
    rw [← hm]
    exact (List.mem_tails _ _).1 hx
  · intro hs
    exact ⟨_, (List.mem_tails _ _).2 hs, (matchName_plain h _).2 rfl⟩

theorem matchPath_cons (w : List ShChar) (ws : List (List ShChar)) (x : Str) (q : Path) :
    matchPath (w :: ws) (x :: q) = ((matchName w x &&
      (decide (x.head? ≠ some '.') || decide (w.head?.map Prod.fst = some '.'))) &&
        matchPath ws q) := by
  unfold matchPath
  simp only [List.length_cons, List.zip_cons_cons, List.all_cons, add_left_inj]
  exact Bool.and_left_comm _ _ _

theorem matchPath_append {ws : List (List ShChar)} (h : ∀ w ∈ ws, ('*', false) ∉ w)
    (w : List ShChar) (q : Path) : matchPath (ws ++ [w]) q = true ↔
      ∃ x, q = ws.map wordText ++ [x] ∧ matchName w x = true ∧
        (x.head? ≠ some '.' ∨ w.head?.map Prod.fst = some '.') := by
  induction ws generalizing q with
  | nil =>
    cases q with
    | nil => simp [matchPath]
    | cons x q =>
      rw [List.nil_append, matchPath_cons]
      cases q with
      | nil => simp [matchPath]
      | cons y q => simp [matchPath]
  | cons v ws ih =>
    have hv := h v (List.mem_cons_self ..)
    cases q with
    | nil => simp [matchPath]
    | cons y q =>
      rw [List.cons_append, matchPath_cons, Bool.and_eq_true, Bool.and_eq_true,
        matchName_plain hv, ih fun w hw => h w (List.mem_cons_of_mem _ hw)]
      have hdot : y = wordText v → (decide (y.head? ≠ some '.') ||
          decide (v.head?.map Prod.fst = some '.')) = true := by
        rintro rfl
        simp only [wordText, List.head?_map, Bool.or_eq_true, decide_eq_true_eq]
        exact (em _).symm
      constructor
      · rintro ⟨⟨rfl, _⟩, x, rfl, hx⟩
        exact ⟨x, rfl, hx⟩
      · rintro ⟨x, hq, hx⟩
        simp only [List.map_cons, List.cons_append, List.cons.injEq] at hq
        exact ⟨⟨hq.1, hdot hq.1⟩, x, hq.2, hx⟩

theorem mem_splitWord {w c : List ShChar} (hc : c ∈ splitWord w) : ∀ x ∈ c, x ∈ w := by
  induction w generalizing c with
  | nil => simp [splitWord] at hc; simp [hc]
  | cons y w ih =>
    rw [splitWord] at hc
    split at hc
    · rcases List.mem_cons.1 hc with rfl | hc
      · simp
      · exact fun x hx => List.mem_cons_of_mem _ (ih hc x hx)
    · cases hs : splitWord w with
      | nil =>
        rw [hs] at hc
        simp only [List.mem_singleton] at hc
        subst hc
        intro x hx
        rw [List.mem_singleton.1 hx]
        exact List.mem_cons_self ..
      | cons h t =>
        rw [hs] at hc ih
        rcases List.mem_cons.1 hc with rfl | hc
        · intro x hx
          rcases List.mem_cons.1 hx with rfl | hx
          · exact List.mem_cons_self ..
          · exact List.mem_cons_of_mem _ (ih (List.mem_cons_self ..) x hx)
        · exact fun x hx => List.mem_cons_of_mem _ (ih (List.mem_cons_of_mem _ hc) x hx)

theorem patNames_plain {a : Str} (h : '*' ∉ a) : ∀ w ∈ patNames (plainWord a), ('*', false) ∉ w := by
  intro w hw
  unfold patNames at hw
  rcases List.mem_append.1 hw with hw | hw
  · split at hw
    · rw [List.mem_singleton.1 hw]; decide
    · simp at hw
  · intro hc
    have := mem_splitWord (List.mem_filter.1 hw).1 _ hc
    simp only [plainWord, List.mem_map, Prod.mk.injEq, and_true, exists_eq_right] at this
    exact h this

/-- What `dir/*png` stands for: the paths in the directory whose name ends in `png` and does not
begin with a dot. -/
theorem match_png {a : Str} (h : '*' ∉ a) (q : Path) :
    matchPath (patNames (plainWord (pathJoin a "*png".toList))) q = true ↔
      ∃ x, q = parsePath a ++ [x] ∧ "png".toList <:+ x ∧ x.head? ≠ some '.' := by
  rw [patNames_join a ⟨by decide, by decide, by decide⟩, matchPath_append (patNames_plain h),
    patNames_text, plainWord_text]
  have : plainWord "*png".toList = ('*', false) :: plainWord "png".toList := rfl
  rw [this]
  simp only [matchName_star (show ('*', false) ∉ plainWord "png".toList by decide), plainWord_text]
  simp

theorem expand_png (fs : Fs I) {a : Str} (h : '*' ∉ a) :
    (∀ q ∈ expand fs (plainWord (pathJoin a "*png".toList)), parsePath a <+: q) ∧
    ∀ q, fs.isFile q = true → q ∈ fs.map Prod.fst →
      (q ∈ expand fs (plainWord (pathJoin a "*png".toList)) ↔
        ∃ x, q = parsePath a ++ [x] ∧ "png".toList <:+ x ∧ x.head? ≠ some '.') := by
  have hstar : (plainWord (pathJoin a "*png".toList)).contains ('*', false) = true := by
    have : '*' ∈ pathJoin a "*png".toList := by
      unfold pathJoin
      rw [if_neg (by decide)]
      split <;> simp
    simpa [plainWord] using this
  have hlit : parsePath (wordText (plainWord (pathJoin a "*png".toList))) =
      parsePath a ++ ["*png".toList] := by
    rw [plainWord_text, parsePath_join a ⟨by decide, by decide, by decide⟩]
  unfold expand
  rw [if_pos hstar, hlit]
  have hm : ∀ q, q ∈ (fs.map Prod.fst).filter
      (matchPath (patNames (plainWord (pathJoin a "*png".toList)))) ↔ q ∈ fs.map Prod.fst ∧
      ∃ x, q = parsePath a ++ [x] ∧ "png".toList <:+ x ∧ x.head? ≠ some '.' := by
    intro q
    rw [List.mem_filter, match_png h]
  cases hf : (fs.map Prod.fst).filter
      (matchPath (patNames (plainWord (pathJoin a "*png".toList)))) with
  | nil =>
    rw [hf] at hm
    refine ⟨fun q hq => ?_, fun q h1 h2 => ?_⟩
    · rw [List.mem_singleton.1 hq]
      exact List.prefix_append _ _
    · constructor
      · intro hq
        refine ⟨_, List.mem_singleton.1 hq, by decide, by decide⟩
      · intro hx
        exact absurd ((hm q).2 ⟨h2, hx⟩) (by simp)
  | cons m ms =>
    rw [hf] at hm
    refine ⟨fun q hq => ?_, fun q h1 h2 => ?_⟩
    · obtain ⟨_, x, rfl, _⟩ := (hm q).1 hq
      exact List.prefix_append _ _
    · exact (hm q).trans ⟨fun e => e.2, fun e => ⟨h2, e⟩⟩

end Yuca
