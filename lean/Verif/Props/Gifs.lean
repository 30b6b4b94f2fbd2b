import Verif.Model.Gifs
import Verif.Props.Evolution
import Verif.Lemmas.Text

/-!
# The gifs of a search (C94)
-/

namespace Yuca

variable {n : Nat}

/-! ## The loops -/

/-- A loop whose rounds leave the search alone. -/
theorem gifLoop_take (body : Nat → Cma n → Vec n → Except PyErr (Cma n × List Shot)) (c : Cma n)
    (f : Vec n → Shot) (hb : ∀ i v, c.population[i]? = some v → body i c v = .ok (c, [f v]))
    (k j : Nat) (hk : j + k ≤ c.population.length) :
    gifLoop body (List.range' j k) c = .ok (c, ((c.population.drop j).take k).map f) := by
  induction k generalizing j with
  | zero => rfl
  | succ k ih =>
    have hj : j < c.population.length := by omega
    rw [List.range'_succ, gifLoop, List.getElem?_eq_getElem hj]
    dsimp only
    rw [hb j _ (List.getElem?_eq_getElem hj)]
    dsimp only
    rw [ih (j + 1) (by omega), List.drop_eq_getElem_cons hj]
    rfl

/-- A loop whose rounds overwrite their agent. -/
theorem gifLoop_set (body : Nat → Cma n → Vec n → Except PyErr (Cma n × List Shot)) (c : Cma n)
    (E : List (Vec n)) (f : Nat → Vec n → Shot)
    (hb : ∀ p i v e, E[i]? = some e → body i { c with population := p } v =
      .ok ({ c with population := p.set i e }, [f i e]))
    (k j : Nat) (p : List (Vec n)) (hk : j + k ≤ p.length) (hE : j + k ≤ E.length) :
    gifLoop body (List.range' j k) { c with population := p } =
      .ok ({ c with population := p.take j ++ ((E.drop j).take k ++ p.drop (j + k)) },
        ((E.drop j).take k).mapIdx fun i e => f (j + i) e) := by
  induction k generalizing j p with
  | zero => simp [gifLoop]
  | succ k ih =>
    have hj : j < p.length := by omega
    have hj' : j < E.length := by omega
    rw [List.range'_succ, gifLoop]
    dsimp only
    rw [List.getElem?_eq_getElem hj]
    dsimp only
    rw [hb p j _ _ (List.getElem?_eq_getElem hj')]
    dsimp only
    rw [ih (j + 1) _ (by rw [List.length_set]; omega) (by omega), List.drop_eq_getElem_cons hj',
      List.take_succ_cons, List.mapIdx_cons]
    dsimp only
    have h1 : (p.set j E[j]).take (j + 1) = p.take j ++ [E[j]] := by
      rw [List.take_succ_eq_append_getElem (by rw [List.length_set]; exact hj),
        List.take_set_of_le (Nat.le_refl _), List.getElem_set_self]
    have h2 : (p.set j E[j]).drop (j + 1 + k) = p.drop (j + (k + 1)) := by
      rw [List.drop_set_of_lt (by omega)]
      congr 1
      omega
    rw [h1, h2]
    simp only [List.append_assoc, List.cons_append, List.nil_append]
    congr 2
    congr 1
    apply List.mapIdx_eq_mapIdx_iff.2
    intro i hi
    rw [show j + 1 + i = j + (i + 1) by omega]

/-- A loop whose first round changes the search, and whose other rounds only make gifs. -/
theorem gifLoop_same (body : Nat → Cma n → Vec n → Except PyErr (Cma n × List Shot))
    (c c' : Cma n) (L : List Shot) (hb : ∀ i v, body i c v = .ok (c', L))
    (hb' : ∀ i v, body i c' v = .ok (c', L)) (k : Nat) (hk : 1 ≤ k)
    (hlen : k ≤ c.population.length) (hlen' : k ≤ c'.population.length) :
    gifLoop body (List.range k) c = .ok (c', (List.replicate k L).flatten) := by
  have rest : ∀ k j, j + k ≤ c'.population.length →
      gifLoop body (List.range' j k) c' = .ok (c', (List.replicate k L).flatten) := by
    intro k
    induction k with
    | zero => intro _ _; rfl
    | succ k ih =>
      intro j h
      rw [List.range'_succ, gifLoop, List.getElem?_eq_getElem (by omega)]
      dsimp only
      rw [hb']
      dsimp only
      rw [ih (j + 1) (by omega)]
      rfl
  obtain ⟨k, rfl⟩ : ∃ m, k = m + 1 := ⟨k - 1, by omega⟩
  rw [List.range_eq_range', List.range'_succ, gifLoop, List.getElem?_eq_getElem (by omega)]
  dsimp only
  rw [hb]
  dsimp only
  rw [rest k _ (by omega)]
  rfl

/-! ## How a run ends -/

section Runs

variable {uni : Bool} {argsort : List Fit → List Nat} {G : Nat} {fit : Nat → Vec n → Fit}

/-- The last generation of a run. -/
theorem runGens_last (draw : Nat → Draw n) (k g : Nat) (hk : 1 ≤ k) (s s' : Run n)
    (h : runGens uni argsort G fit draw k g s = .ok s') :
    ∃ g' t b, g ≤ g' ∧ g' < g + k ∧ genStep uni argsort G fit g' (draw g') t = .ok (s', b) ∧
      s'.logs.length = s.logs.length + (g' - g) + 1 ∧ t.cma.popSize = s.cma.popSize ∧
      t.cma.population.length = s.cma.population.length := by
  induction k generalizing g s with
  | zero => omega
  | succ k ih =>
    rw [runGens] at h
    cases hg : genStep uni argsort G fit g (draw g) s with
    | error e => rw [hg] at h; cases h
    | ok sb =>
      obtain ⟨s₁, b⟩ := sb
      rw [hg] at h
      obtain ⟨l, hl, _⟩ := log_step _ _ _ _ _ hg
      have hlen : s₁.logs.length = s.logs.length + 1 := by rw [hl]; simp
      have here : s' = s₁ → ∃ g' t b, g ≤ g' ∧ g' < g + (k + 1) ∧
          genStep uni argsort G fit g' (draw g') t = .ok (s', b) ∧
          s'.logs.length = s.logs.length + (g' - g) + 1 ∧ t.cma.popSize = s.cma.popSize ∧
          t.cma.population.length = s.cma.population.length := by
        rintro rfl
        exact ⟨g, s, b, Nat.le_refl _, by omega, hg, by omega, rfl, rfl⟩
      cases b with
      | true => cases h; exact here rfl
      | false =>
        rcases Nat.eq_zero_or_pos k with rfl | hk
        · cases h; exact here rfl
        · obtain ⟨g', t, b, h1, h2, h3, h4, h5, h6⟩ := ih (g + 1) hk s₁ h
          obtain ⟨b1, b2, _⟩ := bookkeeping_step _ _ _ _ _ hg
          exact ⟨g', t, b, by omega, by omega, h3, by omega, h5.trans b1, h6.trans b2⟩

/-- After a generation the elite and the logged elite have `elite_keep` members. -/
theorem genStep_elite {g : Nat} {r : Draw n} {s s' : Run n} {b : Bool}
    (hr : Spec.DrawOk s.cma.popSize r) (h : genStep uni argsort G fit g r s = .ok (s', b)) :
    (∃ E, s'.cma.elite = some E ∧ E.length = eliteKeep s.cma.popSize) ∧
      ∃ l, s'.logs = s.logs ++ [l] ∧ l.elite.length = eliteKeep s.cma.popSize ∧
        l.evaluated = s.cma.population.take s.cma.popSize ∧
        (g = G - 1 → s'.cma.population = s.cma.population) := by
  obtain ⟨_, s₁, h1, h2⟩ := genStep_ok h
  have rankLen : ∀ (c c' : Cma n) (f : List Fit), c.popSize = s.cma.popSize →
      c.rank argsort f = .ok c' → ∃ E, c' = c.adapt E ∧ E.length = eliteKeep s.cma.popSize := by
    intro c c' f hp hc
    obtain ⟨idx, E, ht, hg, rfl⟩ := rank_ok hc
    refine ⟨E, rfl, ?_⟩
    rw [gather_length hg]
    rw [hp] at ht
    unfold truncation at ht
    split at ht
    · cases ht
    · cases ht
      rw [List.length_take, List.length_reverse]
      omega
  have key : ∃ E, s₁.cma.elite = some E ∧ E.length = eliteKeep s.cma.popSize ∧
      s₁.logs = s.logs ∧ s₁.cma.popSize = s.cma.popSize ∧
      (g = G - 1 → s₁.cma.population = s.cma.population) := by
    rcases h1 with ⟨_, h1⟩ | ⟨hne, c, h1, rfl⟩
    · obtain ⟨c, hc, rfl⟩ := run_rank_ok h1
      obtain ⟨E, rfl, hE⟩ := rankLen _ _ _ rfl hc
      exact ⟨E, rfl, hE, rfl, rfl, fun _ => rfl⟩
    · obtain ⟨idx, E, hs, hg, hE, _, _, hps, _⟩ := update_ok h1
      exact ⟨E, hE, by rw [gather_length hg]; exact select_length hr hs, rfl, hps,
        fun hh => absurd hh hne⟩
  obtain ⟨E, hE, hElen, hlogs, hps, hpop⟩ := key
  rcases h2 with ⟨_, _, rfl⟩ | ⟨_, _, h3⟩
  · refine ⟨⟨E, hE, hElen⟩, _, by rw [← hlogs], ?_, rfl, hpop⟩
    rw [hE]
    exact hElen
  · obtain ⟨c, hc, rfl⟩ := run_rank_ok h3
    obtain ⟨E', rfl, hE'⟩ := rankLen _ _ _ hps hc
    refine ⟨⟨E', rfl, hE'⟩, _, by rw [← hlogs], ?_, rfl, hpop⟩
    dsimp only
    rw [hE]
    exact hElen

/-- What every run with correct draws ends with. -/
theorem runGens_end (draw : Nat → Draw n) (k g : Nat) (hk : 1 ≤ k) (s s' : Run n)
    (hr : ∀ g, Spec.DrawOk s.cma.popSize (draw g))
    (h : runGens uni argsort G fit draw k g s = .ok s') :
    s'.cma.popSize = s.cma.popSize ∧ s'.cma.population.length = s.cma.population.length ∧
      (∃ E, s'.cma.elite = some E ∧ E.length = eliteKeep s.cma.popSize) ∧
      ∃ l, s'.logs.getLast? = some l ∧ l.elite.length = eliteKeep s.cma.popSize ∧
        l.evaluated.length = s.cma.popSize ∧
        (s'.logs.length = s.logs.length + (G - g) →
          l.evaluated = s'.cma.population.take s.cma.popSize) := by
  obtain ⟨g', t, b, h1, h2, h3, h4, h5, h6⟩ := runGens_last draw k g hk s s' h
  obtain ⟨hE, l, hl, hll, hev, hpop⟩ := genStep_elite (by rw [h5]; exact hr g') h3
  obtain ⟨b1, b2, _⟩ := bookkeeping_step _ _ _ _ _ h3
  rw [h5] at hE hll hev b1
  refine ⟨b1, b2.trans h6, hE, l, by rw [hl]; simp, hll, ?_, ?_⟩
  · rw [hev, List.length_take, ← h5]
    have := (genStep_ok h3).1
    omega
  · intro hfull
    rw [hev, hpop (by omega)]

/-- The population a seed starts with holds at least `population_size` agents. -/
theorem initialize_length (build : Build n) (z₁ z₂ : Nat → Vec n) (c : Cma n) :
    c.popSize ≤ (Cma.initialize build z₂ (Cma.reset build z₁ c)).population.length := by
  simp only [Cma.initialize, Cma.reset, List.length_append, List.length_mapIdx, List.length_map,
    List.length_range', List.length_nil]
  omega

end Runs

/-! ## What the gifs show -/

section Show

variable {argsort : List Fit → List Nat} {G : Nat} {fit : Nat → Vec n → Fit}

/-- The gif of a rule: random start, one step before the first frame, 256 frames. -/
def Spec.ruleShot (a : GifArgs) (tag : Str) (v : Vec n) : Shot :=
  ⟨some (List.ofFn v), none, true, 256, a.dir, tag⟩

/-- The gif of a pattern: the rule is left as it is. -/
def Spec.patternShot (a : GifArgs) (tag : Str) (v : Vec n) : Shot :=
  ⟨none, some (List.ofFn v), true, 256, a.dir, tag⟩

/-- The gif of a coevolved agent: its own rule and its own pattern, from the first frame on. -/
def Spec.pairShot (a : GifArgs) (tag : Str) (v : Vec n) : Shot :=
  ⟨some ((List.ofFn v).drop a.weights), some ((List.ofFn v).take a.weights), false,
    if a.caSteps ≤ 512 then a.caSteps else 512, a.dir, tag⟩

theorem coevoShot_eq (a : GifArgs) (tag : Str) (v : Vec n) :
    coevoShot a tag v = Spec.pairShot a tag v := by
  unfold coevoShot Spec.pairShot
  congr 1

theorem eliteKeep_le {p L : Nat} (hp : 1 ≤ p) (h : p ≤ L) : eliteKeep p ≤ L := by
  unfold eliteKeep
  omega

/-- C94: the gifs before the first generation of a search for rules or for patterns show the first
(at most four) agents, and change nothing. -/
theorem early_gifs (uni : Bool) (a : GifArgs) (c : Cma n) (hp : 1 ≤ c.popSize)
    (hl : c.popSize ≤ c.population.length) :
    earlyGifs uni false a c = .ok (c, (c.population.take (min (eliteKeep c.popSize) 4)).map
      (if uni then Spec.ruleShot a "gen0".toList else Spec.patternShot a "gen0".toList)) := by
  have hk := eliteKeep_le hp hl
  unfold earlyGifs
  rw [List.range_eq_range']
  have := gifLoop_take (earlyBody uni false a) c
    (if uni then Spec.ruleShot a "gen0".toList else Spec.patternShot a "gen0".toList)
    (by intro i v _; cases uni <;> rfl) (min (eliteKeep c.popSize) 4) 0 (by omega)
  rw [this, List.drop_zero]

/-- C94: the gifs at the end of a search for rules show the first agents. -/
theorem late_gifs_rule (a : GifArgs) (g : Nat) (logged : List (Vec n)) (c : Cma n)
    (hp : 1 ≤ c.popSize) (hl : c.popSize ≤ c.population.length) :
    lateGifs true false a g logged c = .ok (c, (c.population.take (eliteKeep c.popSize)).map
      (Spec.ruleShot a ("gen".toList ++ decimal g))) := by
  have hk := eliteKeep_le hp hl
  unfold lateGifs
  rw [List.range_eq_range']
  have := gifLoop_take (lateBody true false a g logged) c
    (Spec.ruleShot a ("gen".toList ++ decimal g)) (fun _ _ _ => rfl)
    (eliteKeep c.popSize) 0 (by omega)
  rw [this, List.drop_zero]

/-- C94: the gifs at the end of a search for patterns show the logged elite, one after the
other. -/
theorem late_gifs_pattern (a : GifArgs) (g : Nat) (E : List (Vec n)) (c : Cma n)
    (hp : 1 ≤ c.popSize) (hl : c.popSize ≤ c.population.length)
    (hE : E.length = eliteKeep c.popSize) :
    lateGifs false false a g E c =
      .ok ({ c with population := E ++ c.population.drop (eliteKeep c.popSize) },
        E.mapIdx fun i e => Spec.patternShot a
          ("gen".toList ++ decimal g ++ ("_elite".toList ++ decimal i)) e) := by
  have hk := eliteKeep_le hp hl
  unfold lateGifs
  rw [List.range_eq_range']
  have := gifLoop_set (lateBody false false a g E) c E
    (fun i e => Spec.patternShot a ("gen".toList ++ decimal g ++ ("_elite".toList ++ decimal i)) e)
    (by
      intro p i v e he
      unfold lateBody
      rw [if_neg (by simp), he]
      rfl) (eliteKeep c.popSize) 0 c.population (by omega) (by omega)
  rw [show ({ c with population := c.population } : Cma n) = c from rfl] at this
  rw [this]
  simp only [List.take_zero, List.nil_append, List.drop_zero, Nat.zero_add]
  rw [← hE, List.take_length]

theorem mapIdx_const {V W : Type} (f : V → W) (l : List V) :
    (l.mapIdx fun _ e => f e) = l.map f := by
  apply List.ext_getElem?
  intro i
  rw [List.getElem?_mapIdx, List.getElem?_map]

/-- One `save_gif` of a coevolution, without an elite. -/
theorem coevo_gif_none (a : GifArgs) (tag : Str) (c : Cma n) (he : c.elite = none)
    (hp : 1 ≤ c.popSize) (hl : c.popSize ≤ c.population.length) :
    coevoSaveGif a tag c =
      .ok (c, (c.population.take (eliteKeep c.popSize)).map (Spec.pairShot a tag)) := by
  have hk := eliteKeep_le hp hl
  unfold coevoSaveGif
  rw [List.range_eq_range']
  have := gifLoop_take (coevoBody a tag) c
    (Spec.pairShot a tag)
    (by
      intro i v hv
      have hg : gifParams c i v = .ok v := by unfold gifParams; rw [he]
      unfold coevoBody
      rw [hg]
      dsimp only
      obtain ⟨hi, rfl⟩ := List.getElem?_eq_some_iff.1 hv
      rw [List.set_getElem_self, coevoShot_eq])
    (eliteKeep c.popSize) 0 (by omega)
  rw [this, List.drop_zero]

/-- One `save_gif` of a coevolution with an elite: it is copied into the population. -/
theorem coevo_gif_some (a : GifArgs) (tag : Str) (c : Cma n) (E : List (Vec n))
    (he : c.elite = some E) (hE : E.length = eliteKeep c.popSize) (hp : 1 ≤ c.popSize)
    (hl : c.popSize ≤ c.population.length) :
    coevoSaveGif a tag c =
      .ok ({ c with population := E ++ c.population.drop (eliteKeep c.popSize) },
        E.map (Spec.pairShot a tag)) := by
  have hk := eliteKeep_le hp hl
  unfold coevoSaveGif
  rw [List.range_eq_range']
  have := gifLoop_set (coevoBody a tag) c E
    (fun _ e => Spec.pairShot a tag e)
    (by
      intro p i v e hv
      have hg : gifParams { c with population := p } i v = .ok e := by
        unfold gifParams; dsimp only; rw [he]; dsimp only; rw [hv]
      unfold coevoBody
      rw [hg]
      dsimp only
      rw [coevoShot_eq])
    (eliteKeep c.popSize) 0 c.population (by omega) (by omega)
  rw [show ({ c with population := c.population } : Cma n) = c from rfl] at this
  rw [this]
  simp only [List.take_zero, List.nil_append, List.drop_zero, Nat.zero_add]
  rw [← hE, List.take_length, mapIdx_const]

/-- All gifs of one phase of a coevolution with an elite. -/
theorem coevo_phase_some (a : GifArgs) (tag : Str) (c : Cma n) (E : List (Vec n))
    (he : c.elite = some E) (hE : E.length = eliteKeep c.popSize) (hp : 1 ≤ c.popSize)
    (hl : c.popSize ≤ c.population.length) (k : Nat) (hk : 1 ≤ k) (hk' : k ≤ eliteKeep c.popSize) :
    gifLoop (fun _ c _ => coevoSaveGif a tag c) (List.range k) c =
      .ok ({ c with population := E ++ c.population.drop (eliteKeep c.popSize) },
        (List.replicate k (E.map (Spec.pairShot a tag))).flatten) := by
  have hle := eliteKeep_le hp hl
  have hlen : (E ++ c.population.drop (eliteKeep c.popSize)).length = c.population.length := by
    rw [List.length_append, List.length_drop]; omega
  refine gifLoop_same _ _ _ _ (fun _ _ => coevo_gif_some a tag c E he hE hp hl) (fun _ _ => ?_) k
    hk (by omega) (by dsimp only; omega)
  have := coevo_gif_some a tag
    { c with population := E ++ c.population.drop (eliteKeep c.popSize) } E he hE hp
    (by dsimp only; omega)
  rw [this]
  dsimp only
  rw [← hE, List.drop_left]

/-- C94: the gifs before the first generation of a coevolution that has no elite yet: every one of
at most four rounds shows the first `elite_keep` agents. -/
theorem early_gifs_coevo (a : GifArgs) (c : Cma n) (he : c.elite = none) (hp : 1 ≤ c.popSize)
    (hl : c.popSize ≤ c.population.length) :
    earlyGifs true true a c = .ok (c, (List.replicate (min (eliteKeep c.popSize) 4)
      ((c.population.take (eliteKeep c.popSize)).map (Spec.pairShot a "gen0".toList))).flatten) := by
  have hk := eliteKeep_le hp hl
  refine gifLoop_same _ _ _ _ (fun _ _ => coevo_gif_none a _ c he hp hl)
    (fun _ _ => coevo_gif_none a _ c he hp hl) _ ?_ (by omega) (by omega)
  unfold eliteKeep
  omega

/-- C94: with an elite (of an earlier seed or of the input file) the gifs before the first
generation show that elite, and overwrite the first agents of the population with it. -/
theorem early_gifs_coevo_elite (a : GifArgs) (c : Cma n) (E : List (Vec n)) (he : c.elite = some E)
    (hE : E.length = eliteKeep c.popSize) (hp : 1 ≤ c.popSize)
    (hl : c.popSize ≤ c.population.length) :
    earlyGifs true true a c =
      .ok ({ c with population := E ++ c.population.drop (eliteKeep c.popSize) },
        (List.replicate (min (eliteKeep c.popSize) 4)
          (E.map (Spec.pairShot a "gen0".toList))).flatten) :=
  coevo_phase_some a _ c E he hE hp hl _ (by unfold eliteKeep; omega) (by omega)

/-- C94: at the end of a coevolution the whole elite is filmed `elite_keep` times over. -/
theorem late_gifs_coevo (a : GifArgs) (g : Nat) (logged : List (Vec n)) (c : Cma n)
    (E : List (Vec n)) (he : c.elite = some E)
    (hE : E.length = eliteKeep c.popSize) (hp : 1 ≤ c.popSize)
    (hl : c.popSize ≤ c.population.length) :
    lateGifs true true a g logged c =
      .ok ({ c with population := E ++ c.population.drop (eliteKeep c.popSize) },
        (List.replicate (eliteKeep c.popSize)
          (E.map (Spec.pairShot a ("gen".toList ++ decimal g)))).flatten) :=
  coevo_phase_some a _ c E he hE hp hl _ (by unfold eliteKeep; omega) (by omega)

/-- C94, refuted: a `CMACES` whose tag contains "pattern" cannot film anything. -/
theorem gifs_pattern_coevo_refuted (a : GifArgs) (c : Cma n) (hp : 1 ≤ c.popSize)
    (hl : c.popSize ≤ c.population.length) : earlyGifs false true a c = .error .type := by
  unfold earlyGifs
  obtain ⟨k, hk⟩ : ∃ k, min (eliteKeep c.popSize) 4 = k + 1 :=
    ⟨min (eliteKeep c.popSize) 4 - 1, by unfold eliteKeep; omega⟩
  rw [hk, List.range_eq_range', List.range'_succ, gifLoop, List.getElem?_eq_getElem (by omega)]
  rfl

/-! ## Whole seeds -/

variable (draw : Nat → Draw n) (build : Build n) (z₁ z₂ : Nat → Vec n) (s : Run n)

/-- C94: filming does not disturb a search for rules.  The gifs before the first generation show
the first agents sampled, the others the agents at the first positions of the population at the
end. -/
theorem universe_gifs (a : GifArgs) (hp : 1 ≤ s.cma.popSize) :
    filmSeed true false a argsort G fit draw build z₁ z₂ s =
      (runSeed true argsort G fit draw build z₁ z₂ s).map fun s' =>
        (s', ((Cma.initialize build z₂ (Cma.reset build z₁ s.cma)).population.take
            (min (eliteKeep s.cma.popSize) 4)).map (Spec.ruleShot a "gen0".toList),
          (s'.cma.population.take (eliteKeep s.cma.popSize)).map (Spec.ruleShot a
            ("gen".toList ++ decimal (s'.logs.length - s.logs.length - 1)))) := by
  have hl := initialize_length build z₁ z₂ s.cma
  have hk := eliteKeep_le hp hl
  have h1 := early_gifs true a (Cma.initialize build z₂ (Cma.reset build z₁ s.cma)) hp hl
  rw [if_pos rfl] at h1
  unfold filmSeed runSeed
  rw [h1]
  dsimp only
  rw [if_neg (show ¬ (Cma.initialize build z₂ (Cma.reset build z₁ s.cma)).population.length <
    min (eliteKeep (Cma.initialize build z₂ (Cma.reset build z₁ s.cma)).popSize) 4 by
      show ¬ _ < min (eliteKeep s.cma.popSize) 4
      omega)]
  cases hrun : runGens true argsort G fit draw G 0
      { s with cma := Cma.initialize build z₂ (Cma.reset build z₁ s.cma) } with
  | error e => rfl
  | ok s' =>
    dsimp only
    split
    · rfl
    · rename_i hG
      obtain ⟨g', t, b, q1, q2, q3, q4, q5, q6⟩ := runGens_last draw G 0 (by omega) _ _ hrun
      obtain ⟨b1, b2, _⟩ := bookkeeping_step _ _ _ _ _ q3
      have e1 : s'.cma.popSize = s.cma.popSize := b1.trans q5
      have e2 := b2.trans q6
      dsimp only at e2
      rw [late_gifs_rule a _ _ s'.cma (by omega) (by omega), e1]
      rfl

/-- C94: a search for rules that ran all its generations ends with gifs of the agents at the first
positions of its last generation. -/
theorem universe_gifs_last (a : GifArgs) (hp : 1 ≤ s.cma.popSize)
    (hr : ∀ g, Spec.DrawOk s.cma.popSize (draw g)) (s' : Run n) (early late : List Shot)
    (h : filmSeed true false a argsort G fit draw build z₁ z₂ s = .ok (s', early, late))
    (hfull : s'.logs.length = s.logs.length + G) :
    ∃ l, s'.logs.getLast? = some l ∧
      late = (l.evaluated.take (eliteKeep s.cma.popSize)).map
        (Spec.ruleShot a ("gen".toList ++ decimal (G - 1))) := by
  rw [universe_gifs draw build z₁ z₂ s a hp] at h
  cases hs : runSeed true argsort G fit draw build z₁ z₂ s with
  | error e => rw [hs] at h; cases h
  | ok s₁ =>
    rw [hs] at h
    cases h
    obtain ⟨hG, hrun⟩ := runSeed_ok hs
    obtain ⟨_, _, _, l, hl, _, _, hev⟩ := runGens_end draw G 0 hG
      { s with cma := Cma.initialize build z₂ (Cma.reset build z₁ s.cma) } _ hr hrun
    refine ⟨l, hl, ?_⟩
    have hev : l.evaluated = s'.cma.population.take s.cma.popSize := hev (by simpa using hfull)
    rw [hev, List.take_take, Nat.min_eq_left (eliteKeep_le hp (Nat.le_refl _)), hfull,
      show s.logs.length + G - s.logs.length - 1 = G - 1 by omega]

/-- C94: a search for patterns starts with gifs of the first networks and ends with gifs of the
logged elite, in the order of the log. -/
theorem pattern_gifs (a : GifArgs) (hp : 1 ≤ s.cma.popSize)
    (hr : ∀ g, Spec.DrawOk s.cma.popSize (draw g)) (s' : Run n)
    (hs : runSeed false argsort G fit draw build z₁ z₂ s = .ok s') :
    ∃ l, s'.logs.getLast? = some l ∧ l.elite.length = eliteKeep s.cma.popSize ∧
      filmSeed false false a argsort G fit draw build z₁ z₂ s = .ok
        ({ s' with cma := { s'.cma with population :=
            l.elite ++ s'.cma.population.drop (eliteKeep s.cma.popSize) } },
          ((Cma.initialize build z₂ (Cma.reset build z₁ s.cma)).population.take
            (min (eliteKeep s.cma.popSize) 4)).map (Spec.patternShot a "gen0".toList),
          l.elite.mapIdx fun i e => Spec.patternShot a
            ("gen".toList ++ decimal (s'.logs.length - s.logs.length - 1) ++
              ("_elite".toList ++ decimal i)) e) := by
  have hl := initialize_length build z₁ z₂ s.cma
  obtain ⟨hG, hrun⟩ := runSeed_ok hs
  obtain ⟨e1, e2, _, l, hlast, hlen, _, _⟩ := runGens_end draw G 0 hG
      { s with cma := Cma.initialize build z₂ (Cma.reset build z₁ s.cma) } _ hr hrun
  refine ⟨l, hlast, hlen, ?_⟩
  have h1 := early_gifs false a (Cma.initialize build z₂ (Cma.reset build z₁ s.cma)) hp hl
  rw [if_neg (by simp)] at h1
  have e1 : s'.cma.popSize = s.cma.popSize := e1
  dsimp only at e2
  unfold filmSeed
  rw [h1]
  dsimp only
  rw [hrun]
  dsimp only
  rw [if_neg (by omega), hlast, Option.map_some, Option.getD_some,
    late_gifs_pattern a _ l.elite s'.cma (by omega) (by omega) (by rw [e1]; exact hlen), e1]
  rfl

/-- C94: the first seed of a coevolution: the first `elite_keep` agents at the beginning, the elite
at the end, each of them several times. -/
theorem coevo_gifs (a : GifArgs) (hp : 1 ≤ s.cma.popSize) (he : s.cma.elite = none)
    (hr : ∀ g, Spec.DrawOk s.cma.popSize (draw g)) (s' : Run n)
    (hs : runSeed true argsort G fit draw build z₁ z₂ s = .ok s') :
    ∃ E, s'.cma.elite = some E ∧ E.length = eliteKeep s.cma.popSize ∧
      filmSeed true true a argsort G fit draw build z₁ z₂ s = .ok
        ({ s' with cma := { s'.cma with population :=
            (E ++ s'.cma.population.drop (eliteKeep s.cma.popSize)) } },
          (List.replicate (min (eliteKeep s.cma.popSize) 4)
            (((Cma.initialize build z₂ (Cma.reset build z₁ s.cma)).population.take
              (eliteKeep s.cma.popSize)).map (Spec.pairShot a "gen0".toList))).flatten,
          (List.replicate (eliteKeep s.cma.popSize) (E.map (Spec.pairShot a
            ("gen".toList ++ decimal (s'.logs.length - s.logs.length - 1))))).flatten) := by
  have hl := initialize_length build z₁ z₂ s.cma
  obtain ⟨hG, hrun⟩ := runSeed_ok hs
  obtain ⟨e1, e2, ⟨E, hE, hElen⟩, _⟩ := runGens_end draw G 0 hG
      { s with cma := Cma.initialize build z₂ (Cma.reset build z₁ s.cma) } _ hr hrun
  refine ⟨E, hE, hElen, ?_⟩
  have h1 := early_gifs_coevo a (Cma.initialize build z₂ (Cma.reset build z₁ s.cma)) he hp hl
  have e1 : s'.cma.popSize = s.cma.popSize := e1
  dsimp only at e2
  unfold filmSeed
  rw [h1]
  dsimp only
  rw [hrun]
  dsimp only
  rw [if_neg (by omega), late_gifs_coevo a _ _ s'.cma E hE (by rw [e1]; exact hElen) (by omega)
    (by omega), e1]
  rfl

/-- C94, refuted: filming is not an observation in a coevolution that already has an elite: the
search itself runs on the population the gifs left behind. -/
theorem coevo_gifs_change_refuted (a : GifArgs) (hp : 1 ≤ s.cma.popSize) (E : List (Vec n))
    (he : s.cma.elite = some E) (hE : E.length = eliteKeep s.cma.popSize)
    (t : Run n) (early late : List Shot)
    (h : filmSeed true true a argsort G fit draw build z₁ z₂ s = .ok (t, early, late)) :
    ∃ c : Cma n, c = Cma.initialize build z₂ (Cma.reset build z₁ s.cma) ∧ ∃ s',
      runGens true argsort G fit draw G 0 { s with cma := { c with
        population := E ++ c.population.drop (eliteKeep s.cma.popSize) } } = .ok s' ∧
      t.logs = s'.logs ∧
      early = (List.replicate (min (eliteKeep s.cma.popSize) 4)
        (E.map (Spec.pairShot a "gen0".toList))).flatten := by
  have hl := initialize_length build z₁ z₂ s.cma
  have h1 := early_gifs_coevo_elite a (Cma.initialize build z₂ (Cma.reset build z₁ s.cma)) E he hE
    hp hl
  unfold filmSeed at h
  rw [h1] at h
  dsimp only at h
  split at h
  · cases h
  · rename_i s' hrun
    split at h
    · cases h
    · split at h
      · cases h
      · cases h
        exact ⟨_, rfl, s', hrun, rfl, rfl⟩

end Show

end Yuca
