import Verif.Model.Evolve
import Verif.Lemmas.Text
import Mathlib.Data.List.Infix
import Mathlib.Data.List.Perm.Basic
import Mathlib.Data.List.Lex

/-!
# Starting an experiment (C54, C55)
-/

namespace Yuca

/-! ## Dispatch -/

/-- The names of the automaton classes. -/
def Spec.caName : CaClass → Str
  | .metaCA => "MetaCA".toList
  | .cca => "CCA".toList
  | .nca => "NCA".toList
  | .rxnDfn => "RxnDfn".toList
  | .code => "CODE".toList
  | .lenia => "Lenia".toList
  | .randomStepCA => "RandomStepCA".toList

/-- The names of the environment classes. -/
def Spec.envName : EnvClass → Str
  | .simpleHalting => "SimpleHaltingWrapper".toList
  | .halting => "HaltingWrapper".toList
  | .random => "RandomWrapper".toList
  | .glider => "GliderWrapper".toList

/-- C54: the tag decides the search. -/
theorem searchKind_spec (tag : Str) :
    (searchKind tag = .pattern ↔ "pattern".toList <:+: tag) ∧
      (searchKind tag = .coevo ↔ ¬ "pattern".toList <:+: tag ∧ "coevo".toList <:+: tag) ∧
      (searchKind tag = .universe_ ↔ ¬ "pattern".toList <:+: tag ∧ ¬ "coevo".toList <:+: tag) := by
  unfold searchKind
  simp only [← hasSub_iff]
  cases hasSub "pattern".toList tag <;> cases hasSub "coevo".toList tag <;> simp

/-- A string without the separator is in one of the two parts. -/
theorem infix_sep {pat l r : Str} {c : Char} (hc : c ∉ pat) :
    pat <:+: l ++ c :: r ↔ pat <:+: l ∨ pat <:+: r := by
  constructor
  · rintro ⟨s, t, h⟩
    rw [List.append_assoc, List.append_eq_append_iff] at h
    rcases h with ⟨u, hl, hu⟩ | ⟨u, hs, hu⟩
    · -- `pat ++ t = u ++ c :: r`
      rw [List.append_eq_append_iff] at hu
      rcases hu with ⟨v, hv, _⟩ | ⟨v, hv, hw⟩
      · left
        exact ⟨s, v, by rw [hl, hv, List.append_assoc]⟩
      · cases v with
        | nil => left; exact ⟨s, [], by rw [hl]; simp at hv; simp [hv]⟩
        | cons d v =>
          exfalso
          injection hw with h1 h2
          subst h1
          exact hc (by rw [hv]; simp)
    · -- `c :: r = u ++ (pat ++ t)`
      cases u with
      | nil =>
        cases pat with
        | nil => left; exact List.nil_infix
        | cons d p =>
          exfalso
          simp only [List.nil_append, List.cons_append, List.cons.injEq] at hu
          exact hc (by rw [hu.1]; simp)
      | cons d u =>
        right
        simp only [List.cons_append, List.cons.injEq] at hu
        exact ⟨u, t, by rw [hu.2, List.append_assoc]⟩
  · rintro (⟨s, t, rfl⟩ | ⟨s, t, rfl⟩)
    · exact ⟨s, t ++ c :: r, by simp⟩
    · exact ⟨l ++ c :: s, t, by simp⟩

/-- C54: `"pattern" in self.exp_id` (yuca/cmaes.py:448, 533, 571) decides as the tag does: the
prefix and the time cannot add the word. -/
theorem expId_pattern (tag : Str) (time : Nat) :
    "pattern".toList <:+: expId tag time ↔ searchKind tag = .pattern := by
  rw [(searchKind_spec tag).1]
  have h1 : expId tag time = ['e', 'x', 'p'] ++ '_' :: (tag ++ '_' :: decimal time) := rfl
  rw [h1, infix_sep (by decide), infix_sep (by decide)]
  have h2 : ¬ "pattern".toList <:+: ['e', 'x', 'p'] := by
    intro h
    have := h.length_le
    exact absurd this (by decide)
  have h3 : ¬ "pattern".toList <:+: decimal time := by
    intro h
    have hp : 'p' ∈ decimal time := h.subset (by decide)
    have := decimal_digits time 'p' hp
    exact absurd this (by decide)
  rw [or_iff_right h2, or_iff_left h3]

/-- C54: the name of every class stands for the class. -/
theorem caFn_name (c : CaClass) : caFn (Spec.caName c) = .ok c := by
  cases c <;> decide

theorem envFn_name (c : EnvClass) :
    envFn (Spec.envName c) = if c = .glider then .error .assertion else .ok c := by
  cases c <;> decide

/-- C54: a class is chosen only if its name occurs in the argument; if no name occurs, an
assertion fails. -/
theorem caFn_spec (s : Str) :
    (∀ c, caFn s = .ok c → Spec.caName c <:+: s) ∧
      ((∀ c, ¬ Spec.caName c <:+: s) ↔ caFn s = .error .assertion) := by
  have hn : ∀ c, Spec.caName c <:+: s ↔ hasSub (Spec.caName c) s = true := fun c =>
    (hasSub_iff _ _).symm
  simp only [hn]
  unfold caFn
  have e : ∀ c, hasSub (Spec.caName c) s = match c with
    | .metaCA => hasSub "MetaCA".toList s
    | .cca => hasSub "CCA".toList s
    | .nca => hasSub "NCA".toList s
    | .rxnDfn => hasSub "RxnDfn".toList s
    | .code => hasSub "CODE".toList s
    | .lenia => hasSub "Lenia".toList s
    | .randomStepCA => hasSub "RandomStepCA".toList s := by
    intro c; cases c <;> rfl
  simp only [e]
  cases h1 : hasSub "MetaCA".toList s
  · cases h2 : hasSub "CCA".toList s
    · cases h3 : hasSub "NCA".toList s
      · cases h4 : hasSub "RxnDfn".toList s
        · cases h5 : hasSub "CODE".toList s
          · cases h6 : hasSub "Lenia".toList s
            · cases h7 : hasSub "RandomStepCA".toList s
              · simp only [Bool.false_eq_true, if_false]
                refine ⟨fun c hc => by simp at hc, fun _ => trivial, fun _ c => by cases c <;> simp⟩
              · refine ⟨fun c hc => by simp at hc; subst hc; rfl, fun h => absurd (h .randomStepCA) (by simp), fun h => by simp at h⟩
            · refine ⟨fun c hc => by simp at hc; subst hc; rfl, fun h => absurd (h .lenia) (by simp), fun h => by simp at h⟩
          · refine ⟨fun c hc => by simp at hc; subst hc; rfl, fun h => absurd (h .code) (by simp), fun h => by simp at h⟩
        · refine ⟨fun c hc => by simp at hc; subst hc; rfl, fun h => absurd (h .rxnDfn) (by simp), fun h => by simp at h⟩
      · refine ⟨fun c hc => by simp at hc; subst hc; rfl, fun h => absurd (h .nca) (by simp), fun h => by simp at h⟩
    · refine ⟨fun c hc => by simp at hc; subst hc; rfl, fun h => absurd (h .cca) (by simp), fun h => by simp at h⟩
  · refine ⟨fun c hc => by simp at hc; subst hc; rfl, fun h => absurd (h .metaCA) (by simp), fun h => by simp at h⟩

theorem envFn_spec (s : Str) :
    (∀ c, envFn s = .ok c → Spec.envName c <:+: s ∧ c ≠ .glider) ∧
      ((∀ c, c ≠ .glider → ¬ Spec.envName c <:+: s) ↔ envFn s = .error .assertion) := by
  have hn : ∀ c, Spec.envName c <:+: s ↔ hasSub (Spec.envName c) s = true := fun c =>
    (hasSub_iff _ _).symm
  simp only [hn]
  unfold envFn
  have e : ∀ c, hasSub (Spec.envName c) s = match c with
    | .simpleHalting => hasSub "SimpleHaltingWrapper".toList s
    | .halting => hasSub "HaltingWrapper".toList s
    | .random => hasSub "RandomWrapper".toList s
    | .glider => hasSub "GliderWrapper".toList s := by
    intro c; cases c <;> rfl
  simp only [e]
  cases h1 : hasSub "SimpleHaltingWrapper".toList s
  · cases h2 : hasSub "HaltingWrapper".toList s
    · cases h3 : hasSub "RandomWrapper".toList s
      · simp only [Bool.false_eq_true, if_false]
        refine ⟨fun c hc => by simp at hc, fun _ => trivial, fun _ c hg => by cases c <;> simp_all⟩
      · refine ⟨fun c hc => by simp at hc; subst hc; simp, fun h => absurd (h .random) (by simp), fun h => by simp at h⟩
    · refine ⟨fun c hc => by simp at hc; subst hc; simp, fun h => absurd (h .halting) (by simp), fun h => by simp at h⟩
  · refine ⟨fun c hc => by simp at hc; subst hc; simp, fun h => absurd (h .simpleHalting) (by simp), fun h => by simp at h⟩

open Classical in
theorem decide_infix (n s : Str) : decide (n <:+: s) = hasSub n s := by
  rw [Bool.eq_iff_iff, decide_eq_true_eq, hasSub_iff]

/-- The order in which class names are tried. -/
def Spec.caOrder : List CaClass :=
  [.metaCA, .cca, .nca, .rxnDfn, .code, .lenia, .randomStepCA]

/-- The order in which wrapper names are tried. -/
def Spec.envOrder : List EnvClass := [.simpleHalting, .halting, .random]

open Classical in
/-- C54: the first class, in this order, whose name occurs in the argument. -/
theorem caFn_first (s : Str) :
    caFn s = match Spec.caOrder.find? (fun c => decide (Spec.caName c <:+: s)) with
      | some c => .ok c
      | none => .error .assertion := by
  have hd : ∀ c, decide (Spec.caName c <:+: s) = hasSub (Spec.caName c) s := fun c =>
    decide_infix _ s
  simp only [hd, Spec.caOrder, List.find?_cons, List.find?_nil]
  unfold caFn Spec.caName
  dsimp only
  repeat' split
  all_goals first | rfl | simp_all only [Option.some.injEq, reduceCtorEq]

open Classical in
/-- C54: the same for the environments of a universe search. -/
theorem envFn_first (s : Str) :
    envFn s = match Spec.envOrder.find? (fun c => decide (Spec.envName c <:+: s)) with
      | some c => .ok c
      | none => .error .assertion := by
  have hd : ∀ c, decide (Spec.envName c <:+: s) = hasSub (Spec.envName c) s := fun c =>
    decide_infix _ s
  simp only [hd, Spec.envOrder, List.find?_cons, List.find?_nil]
  unfold envFn Spec.envName
  dsimp only
  repeat' split
  all_goals first | rfl | simp_all only [Option.some.injEq, reduceCtorEq]

/-- C54: what `evolve` runs. -/
theorem evolve_spec {a : EvolveArgs} {p : EvolvePlan} (h : evolve a = .ok p) :
    p.kind = searchKind a.tag ∧ caFn a.caFn = .ok p.ca ∧
      (p.kind ≠ .universe_ → p.env = .glider) ∧
      (p.kind = .universe_ → envFn a.envFn = .ok p.env) ∧
      (p.float64 = true ↔ "float64".toList <:+: a.dtype) ∧
      (p.ca = .rxnDfn → p.external = 2) ∧ (p.ca ≠ .rxnDfn → p.external = a.external) ∧
      (p.ca ≠ .nca → p.hidden = a.hidden) ∧
      (p.ca = .nca → p.hidden = some (a.hidden.getD (if p.kind = .pattern then 256 else 16))) := by
  have key : ∀ k env, (caFn a.caFn).map (evolvePlan k env a) = .ok p →
      p.kind = k ∧ p.env = env ∧ caFn a.caFn = .ok p.ca ∧ p = evolvePlan k env a p.ca := by
    intro k env h
    cases hc : caFn a.caFn with
    | error e => rw [hc] at h; simp [Except.map] at h
    | ok c =>
      rw [hc] at h
      simp only [Except.map, Except.ok.injEq] at h
      subst h
      exact ⟨rfl, rfl, rfl, rfl⟩
  have fin : ∀ k env, p = evolvePlan k env a p.ca →
      (p.float64 = true ↔ "float64".toList <:+: a.dtype) ∧
      (p.ca = .rxnDfn → p.external = 2) ∧ (p.ca ≠ .rxnDfn → p.external = a.external) ∧
      (p.ca ≠ .nca → p.hidden = a.hidden) ∧
      (p.ca = .nca → p.hidden = some (a.hidden.getD (if p.kind = .pattern then 256 else 16))) := by
    intro k env hp
    obtain ⟨pk, pc, pe, pf, ph, px⟩ := p
    simp only [evolvePlan, EvolvePlan.mk.injEq] at hp
    obtain ⟨rfl, _, rfl, rfl, rfl, rfl⟩ := hp
    refine ⟨hasSub_iff _ _, ?_, ?_, ?_, ?_⟩
    · rintro rfl; rfl
    · cases pc <;> simp
    · cases pc <;> simp
    · rintro rfl
      cases pk <;> rfl
  unfold evolve at h
  cases hk : searchKind a.tag with
  | pattern =>
    rw [hk] at h
    obtain ⟨h1, h2, h3, h4⟩ := key _ _ h
    exact ⟨h1, h3, fun _ => h2, fun hu => by rw [h1] at hu; simp at hu, fin _ _ h4⟩
  | coevo =>
    rw [hk] at h
    obtain ⟨h1, h2, h3, h4⟩ := key _ _ h
    exact ⟨h1, h3, fun _ => h2, fun hu => by rw [h1] at hu; simp at hu, fin _ _ h4⟩
  | universe_ =>
    rw [hk] at h
    cases he : envFn a.envFn with
    | error e => rw [he] at h; simp at h
    | ok env =>
      rw [he] at h
      obtain ⟨h1, h2, h3, h4⟩ := key _ _ h
      exact ⟨h1, h3, fun hu => absurd h1 hu, fun _ => by rw [h2], fin _ _ h4⟩

/-- C54: when it raises, and that it raises nothing else. -/
theorem evolve_error_iff (a : EvolveArgs) :
    evolve a = .error .assertion ↔
      (∀ c, ¬ Spec.caName c <:+: a.caFn) ∨
        (searchKind a.tag = .universe_ ∧ ∀ c, c ≠ .glider → ¬ Spec.envName c <:+: a.envFn) := by
  rw [(caFn_spec a.caFn).2, (envFn_spec a.envFn).2]
  unfold evolve
  cases searchKind a.tag <;> cases hc : caFn a.caFn <;> cases he : envFn a.envFn <;>
    simp [Except.map]
  rename_i e _
  have : envFn a.envFn = .error .assertion ∨ ∃ c, envFn a.envFn = .ok c := by
    unfold envFn
    repeat' split
    all_goals simp
  have hca : caFn a.caFn = .error .assertion ∨ ∃ c, caFn a.caFn = .ok c := by
    unfold caFn
    repeat' split
    all_goals simp
  rw [he] at this
  rw [hc] at hca
  simp_all

/-- C54, where it fails: a name that merely contains a known one is accepted, and
`GliderWrapper` cannot be chosen for a universe search. -/
theorem names_refuted : caFn "MyCCA2".toList = .ok .cca ∧
    envFn "GliderWrapper".toList = .error .assertion := by decide

/-- C54, where it fails: in a pattern search or a coevolution the environment asked for is
ignored. -/
theorem env_ignored_refuted (a : EvolveArgs) (h : searchKind a.tag ≠ .universe_) (env : Str) :
    evolve { a with envFn := env } = evolve a := by
  unfold evolve
  cases hk : searchKind a.tag <;> simp_all <;> rfl

example : evolve ⟨"my_coevo".toList, "RxnDfn".toList, [], "float64".toList, none, 1⟩ =
    .ok ⟨.coevo, .rxnDfn, .glider, true, none, 2⟩ := by decide

/-! ## The recorded command line -/

/-- A group: a token with a dash and the tokens without that follow it. -/
def Spec.Group (g : List Str) : Prop := ∃ h t, g = h :: t ∧ '-' ∈ h ∧ ∀ x ∈ t, '-' ∉ x

theorem dash_iff (a : Str) : hasSub ['-'] a = true ↔ '-' ∈ a := by
  rw [hasSub_iff, List.singleton_infix_iff]

theorem groupArgs_spec (args : List Str) : ∀ acc : List (List Str), (∀ g ∈ acc, Spec.Group g) →
    acc ≠ [] → ∃ gs, groupArgs acc args = .ok gs ∧ (∀ g ∈ gs, Spec.Group g) ∧
      gs.flatten = acc.reverse.flatten ++ args := by
  induction args with
  | nil =>
    intro acc h _
    exact ⟨acc.reverse, rfl, fun g hg => h g (List.mem_reverse.1 hg), by simp⟩
  | cons a rest ih =>
    intro acc h hne
    unfold groupArgs
    by_cases ha : hasSub ['-'] a = true
    · rw [if_pos ha]
      obtain ⟨gs, h1, h2, h3⟩ := ih ([a] :: acc) (by
        intro g hg
        rcases List.mem_cons.1 hg with rfl | hg
        · exact ⟨a, [], rfl, (dash_iff a).1 ha, by simp⟩
        · exact h g hg) (by simp)
      exact ⟨gs, h1, h2, by rw [h3]; simp⟩
    · rw [if_neg ha]
      cases acc with
      | nil => exact absurd rfl hne
      | cons g gs' =>
        obtain ⟨gs, h1, h2, h3⟩ := ih ((g ++ [a]) :: gs') (by
          intro x hx
          rcases List.mem_cons.1 hx with rfl | hx
          · obtain ⟨hd, t, rfl, h4, h5⟩ := h g (by simp)
            refine ⟨hd, t ++ [a], by simp, h4, ?_⟩
            intro y hy
            rcases List.mem_append.1 hy with hy | hy
            · exact h5 y hy
            · rw [List.mem_singleton] at hy
              subst hy
              exact fun h => ha ((dash_iff y).2 h)
          · exact h x (by simp [hx])) (by simp)
        exact ⟨gs, h1, h2, by rw [h3]; simp⟩

/-- C55: the grouping fails exactly if the first token has no dash. -/
theorem groupArgs_error_iff (args : List Str) :
    groupArgs [] args = .error .index ↔ ∃ a rest, args = a :: rest ∧ '-' ∉ a := by
  cases args with
  | nil => simp [groupArgs]
  | cons a rest =>
    unfold groupArgs
    by_cases ha : hasSub ['-'] a = true
    · rw [if_pos ha]
      obtain ⟨gs, h1, _⟩ := groupArgs_spec rest [[a]] (by
        intro g hg
        rw [List.mem_singleton] at hg
        subst hg
        exact ⟨a, [], rfl, (dash_iff a).1 ha, by simp⟩) (by simp)
      rw [h1]
      constructor
      · intro h; simp at h
      · rintro ⟨a', r, h, hd⟩
        injection h with h' _
        subst h'
        exact absurd ((dash_iff a).1 ha) hd
    · rw [if_neg ha]
      exact ⟨fun _ => ⟨a, rest, rfl, fun h => ha ((dash_iff a).2 h)⟩, fun _ => rfl⟩

/-- Otherwise it succeeds, keeps every token in its place, and every group starts with the only
token with a dash in it. -/
theorem groupArgs_ok {args : List Str} (h : ∀ a ∈ args.head?, '-' ∈ a) :
    ∃ gs, groupArgs [] args = .ok gs ∧ gs.flatten = args ∧ ∀ g ∈ gs, Spec.Group g := by
  cases args with
  | nil => exact ⟨[], rfl, rfl, by simp⟩
  | cons a rest =>
    have ha := h a (by simp)
    unfold groupArgs
    rw [if_pos ((dash_iff a).2 ha)]
    obtain ⟨gs, h1, h2, h3⟩ := groupArgs_spec rest [[a]] (by
      intro g hg
      rw [List.mem_singleton] at hg
      subst hg
      exact ⟨a, [], rfl, ha, by simp⟩) (by simp)
    exact ⟨gs, h1, by rw [h3]; rfl, h2⟩

/-- C55: the record holds every token exactly as often as the command line. -/
theorem entryArgs_tokens {args : List Str} (h : ∀ a ∈ args.head?, '-' ∈ a) :
    ∃ r, entryArgs args = .ok r ∧ r.flatten.Perm args ∧ (∀ g ∈ r, Spec.Group g) ∧
      r.Pairwise (· ≤ ·) := by
  obtain ⟨gs, h1, h2, h3⟩ := groupArgs_ok h
  have hp : (gs.mergeSort fun a b => decide (a ≤ b)).Perm gs := List.mergeSort_perm ..
  refine ⟨_, by rw [entryArgs, h1]; rfl, ?_, fun g hg => h3 g (hp.mem_iff.1 hg), ?_⟩
  · have := hp.flatten
    rwa [h2] at this
  · have := List.pairwise_mergeSort (le := fun a b : List Str => decide (a ≤ b))
      (fun a b c h1 h2 => decide_eq_true (List.le_trans (of_decide_eq_true h1) (of_decide_eq_true h2)))
      (fun a b => by rcases List.le_total a b with h | h <;> simp [h]) gs
    exact this.imp fun h => of_decide_eq_true h

theorem sort_eq_iff_perm (gs gs' : List (List Str)) :
    (gs.mergeSort fun a b => decide (a ≤ b)) = (gs'.mergeSort fun a b => decide (a ≤ b)) ↔
      gs.Perm gs' := by
  have sorted : ∀ l : List (List Str), (l.mergeSort fun a b => decide (a ≤ b)).Pairwise (· ≤ ·) := by
    intro l
    have := List.pairwise_mergeSort (le := fun a b : List Str => decide (a ≤ b))
      (fun a b c h1 h2 =>
        decide_eq_true (List.le_trans (of_decide_eq_true h1) (of_decide_eq_true h2)))
      (fun a b => by rcases List.le_total a b with h | h <;> simp [h]) l
    exact this.imp fun h => of_decide_eq_true h
  have hp : ∀ l : List (List Str), (l.mergeSort fun a b => decide (a ≤ b)).Perm l :=
    fun l => List.mergeSort_perm ..
  constructor
  · intro h
    exact (hp gs).symm.trans (h ▸ hp gs')
  · intro h
    exact ((hp gs).trans (h.trans (hp gs').symm)).eq_of_pairwise
      (fun a b _ _ h1 h2 => List.le_antisymm h1 h2) (sorted gs) (sorted gs')

/-- C55: two command lines leave the same record exactly if their groups are the same up to
order. -/
theorem entryArgs_eq_iff {args args' : List Str} {gs gs' : List (List Str)}
    (h : groupArgs [] args = .ok gs) (h' : groupArgs [] args' = .ok gs') :
    entryArgs args = entryArgs args' ↔ gs.Perm gs' := by
  rw [← sort_eq_iff_perm, entryArgs, entryArgs, h, h']
  simp [Except.map]

/-- C55, where it fails: a value with a dash becomes a group of its own, and the record no longer
tells which option it belongs to. -/
theorem entryArgs_refuted :
    entryArgs ["-t".toList, "x-1".toList, "-i".toList, "y-2".toList] =
      entryArgs ["-t".toList, "y-2".toList, "-i".toList, "x-1".toList] := by
  refine (entryArgs_eq_iff (gs := [["-t".toList], ["x-1".toList], ["-i".toList], ["y-2".toList]])
    (gs' := [["-t".toList], ["y-2".toList], ["-i".toList], ["x-1".toList]]) (by decide)
    (by decide)).2 ?_
  decide

/-- An ordinary command line. -/
example : groupArgs [] ["-t".toList, "coevo".toList, "-s".toList, "1".toList, "2".toList] =
    .ok [["-t".toList, "coevo".toList], ["-s".toList, "1".toList, "2".toList]] := by decide

end Yuca
