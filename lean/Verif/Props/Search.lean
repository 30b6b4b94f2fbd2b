import Verif.Model.Search
import Verif.Props.Evaluate2
import Verif.Props.Evolution

/-!
# The random numbers of a search (C83)
-/

namespace Yuca

variable {n : Nat} {σ G : Type}

/-! ## What a generation depends on -/

/-- The fitness of parameters `v` in an environment of their own. -/
noncomputable def Spec.fitAlone (E : Env σ (List ℝ) G) (seedAll : Nat → G) (reps : Nat) (s₀ : σ)
    (seed : Nat) (v : Vec n) : Fit :=
  match E.getFitness seedAll 1 reps seed s₀ (List.ofFn v) with
  | .ok (r, _, _) => (r.1 : Fit)
  | .error _ => ⊤

/-- The state in which that evaluation leaves the generators. -/
noncomputable def Spec.genAlone (E : Env σ (List ℝ) G) (seedAll : Nat → G) (reps : Nat) (s₀ : σ)
    (seed : Nat) (v : Vec n) : G :=
  match E.getFitness seedAll 1 reps seed s₀ (List.ofFn v) with
  | .ok (_, _, g) => g
  | .error _ => seedAll seed

/-- The random choices of an update: read off the generators after the evaluation of the last
agent, which had an environment of its own and the seed `seed`. -/
noncomputable def Spec.readAlone (E : Env σ (List ℝ) G) (seedAll : Nat → G) (reps : Nat) (s₀ : σ)
    (read : Cma n → List Fit → G → Draw n × G) (c : Cma n) (seed : Nat) : Draw n :=
  (read c ((c.population.take c.popSize).map (Spec.fitAlone E seedAll reps s₀ seed))
    (match (c.population.take c.popSize).getLast? with
      | some v => Spec.genAlone E seedAll reps s₀ seed v
      | none => seedAll seed)).1

/-- A search in which generation `g` knows its population and the number `g * mySeed`, no
environment and no generators. -/
noncomputable def Spec.seedGens (uni : Bool) (argsort : List Fit → List Nat) (gens : Nat)
    (fit : Nat → Vec n → Fit) (draw : Cma n → Nat → Draw n) (mySeed : Nat) :
    Nat → Nat → Run n → Except PyErr (Run n)
  | 0, _, s => .ok s
  | k + 1, g, s =>
    match genStep uni argsort gens (fun g => fit (g * mySeed)) g (draw s.cma (g * mySeed)) s with
    | .error e => .error e
    | .ok (s', true) => .ok s'
    | .ok (s', false) => Spec.seedGens uni argsort gens fit draw mySeed k (g + 1) s'

open Spec

section

variable {E E₂ : Env σ (List ℝ) G} {P : List ℝ → Prop} {like : σ → σ → Prop}

theorem evalAll_spec (F : Forgets E P like) (seedAll : Nat → G) (reps seed : Nat) (s₀ : σ)
    (vs : List (Vec n)) (hP : ∀ v : Vec n, P (List.ofFn v)) : ∀ {s s' : σ} {g g' : G}
    {rs : List (ℝ × ℝ)}, like s₀ s →
    E.evalAll seedAll reps seed (vs.map List.ofFn) s g = .ok (rs, s', g') →
    like s₀ s' ∧ rs.map (fun r => (r.1 : Fit)) = vs.map (fitAlone E seedAll reps s₀ seed) ∧
      ∀ v ∈ vs.getLast?, g' = genAlone E seedAll reps s₀ seed v := by
  induction vs with
  | nil =>
    intro s s' g g' rs h hx
    cases hx
    exact ⟨h, rfl, fun v hv => by cases hv⟩
  | cons v vs ih =>
    intro s s' g g' rs h hx
    have hf := getFitness_eq F (hP v) seedAll 1 reps seed (F.symm h)
    rw [List.map_cons] at hx
    rcases hy : E.getFitness seedAll 1 reps seed s (List.ofFn v) with e | ⟨r, s₁, g₁⟩
    · simp [Env.evalAll, hy] at hx
    · obtain ⟨s₁', hy'⟩ := visible_ok hf hy
      have hl : like s₀ s₁ :=
        F.trans h (getFitness_like F (hP v) seedAll 1 reps seed (like_right F h) hy)
      simp only [Env.evalAll, hy] at hx
      rcases hz : E.evalAll seedAll reps seed (vs.map List.ofFn) s₁ g₁ with e | ⟨rs', s₂, g₂⟩
      · simp [hz] at hx
      · simp only [hz, Except.ok.injEq, Prod.mk.injEq] at hx
        obtain ⟨rfl, rfl, rfl⟩ := hx
        obtain ⟨h1, h2, h3⟩ := ih hl hz
        refine ⟨h1, ?_, ?_⟩
        · rw [List.map_cons, List.map_cons, h2]
          simp only [fitAlone, hy']
        · cases vs with
          | nil =>
            intro w hw
            obtain rfl : v = w := by simpa using hw
            cases hz
            unfold genAlone
            rw [hy']
          | cons w ws => exact h3

theorem visits_like (F₂ : Forgets E₂ P like) {mk : σ → σ} (hmk : ∀ {s}, like s s → like s (mk s))
    (hP : ∀ v : Vec n, P (List.ofFn v)) (vs : List (Vec n)) : ∀ {s s' : σ} {g g' : G}, like s s →
    E₂.visits mk vs s g = .ok (s', g') → like s s' := by
  induction vs with
  | nil => intro s s' g g' h hx; cases hx; exact h
  | cons v vs ih =>
    intro s s' g g' h hx
    rcases hy : E₂.step s (List.ofFn v) g with e | ⟨r, s₁, g₁⟩
    · simp [Env.visits, hy] at hx
    · simp only [Env.visits, hy] at hx
      have h1 := F₂.step_like h (hP v) hy
      have h2 := hmk (like_right F₂ h1)
      exact F₂.trans h1 (F₂.trans h2 (ih (like_right F₂ h2) hx))

/-- One generation of a search: neither the environment nor the generators left by earlier
generations matter. -/
theorem live_gen (F : Forgets E P like) (F₂ : Forgets E₂ P like) {mk : σ → σ}
    (hmk : ∀ {s}, like s s → like s (mk s)) (hP : ∀ v : Vec n, P (List.ofFn v)) (uni : Bool)
    (argsort : List Fit → List Nat) (gens : Nat) (seedAll : Nat → G) (reps mySeed : Nat)
    (read : Cma n → List Fit → G → Draw n × G) (s₀ : σ) (g : Nat) (x x' : Live n σ G) (b : Bool)
    (hx : like s₀ x.env) (hpos : 0 < x.run.cma.popSize)
    (h : liveGen uni argsort gens E E₂ mk seedAll reps mySeed read g x = .ok (x', b)) :
    genStep uni argsort gens (fun g => fitAlone E seedAll reps s₀ (g * mySeed)) g
      (readAlone E seedAll reps s₀ read x.run.cma (g * mySeed)) x.run = .ok (x'.run, b) ∧
    like s₀ x'.env := by
  unfold liveGen at h
  dsimp only at h
  split at h
  · cases h
  rename_i hlen
  rcases hev : E.evalAll seedAll reps (g * mySeed)
    ((x.run.cma.population.take x.run.cma.popSize).map List.ofFn) x.env x.gen with e | ⟨rs, env, gen⟩
  · rw [hev] at h; cases h
  rw [hev] at h
  dsimp only at h
  obtain ⟨h1, h2, h3⟩ := evalAll_spec F seedAll reps (g * mySeed) s₀ _ hP hx hev
  rw [h2] at h
  have hlast : ∃ v, (x.run.cma.population.take x.run.cma.popSize).getLast? = some v := by
    have : x.run.cma.population.take x.run.cma.popSize ≠ [] := by
      rw [← List.length_pos_iff, List.length_take]
      omega
    exact ⟨_, List.getLast?_eq_some_getLast this⟩
  obtain ⟨v, hv⟩ := hlast
  have hr : readAlone E seedAll reps s₀ read x.run.cma (g * mySeed) =
      (read x.run.cma ((x.run.cma.population.take x.run.cma.popSize).map
        (fitAlone E seedAll reps s₀ (g * mySeed))) gen).1 := by
    unfold readAlone
    rw [hv, h3 v hv]
  rw [hr]
  unfold genStep
  rw [if_neg hlen]
  dsimp only
  generalize (x.run.cma.population.take x.run.cma.popSize).map
        (fitAlone E seedAll reps s₀ (g * mySeed)) = fitness at h ⊢
  generalize read x.run.cma fitness gen = d at h ⊢
  let l : Run n → GenLog n := fun s₁ =>
    ⟨x.run.cma.population.take x.run.cma.popSize, fitness, s₁.cma.elite.getD []⟩
  have key : ∀ (s₁ : Run n) (gen₁ : G),
      (match E₂.visits mk (s₁.cma.elite.getD []) env gen₁ with
        | .error e => Except.error e
        | .ok (env₂, gen₂) =>
          if calm fitness = true ∧ 6 < g then
            match ({ s₁ with logs := s₁.logs ++ [l s₁] } : Run n).rank uni argsort fitness with
            | .error e => Except.error e
            | .ok s₃ => Except.ok ((⟨s₃, env₂, gen₂⟩ : Live n σ G), true)
          else Except.ok ((⟨{ s₁ with logs := s₁.logs ++ [l s₁] }, env₂, gen₂⟩ : Live n σ G), false)) = .ok (x', b) →
      (if calm fitness = true ∧ 6 < g then
          match ({ s₁ with logs := s₁.logs ++ [l s₁] } : Run n).rank uni argsort fitness with
          | .error e => Except.error e
          | .ok s₃ => Except.ok (s₃, true)
        else Except.ok (({ s₁ with logs := s₁.logs ++ [l s₁] } : Run n), false)) = .ok (x'.run, b) ∧
      like s₀ x'.env := by
    intro s₁ gen₁ hk
    rcases hz : E₂.visits mk (s₁.cma.elite.getD []) env gen₁ with e | ⟨env₂, gen₂⟩
    · rw [hz] at hk; cases hk
    rw [hz] at hk
    dsimp only at hk
    have hl : like s₀ env₂ := F.trans h1 (visits_like F₂ hmk hP _ (like_right F h1) hz)
    split at hk
    · rename_i hc
      rw [if_pos hc]
      split at hk
      · cases hk
      · rename_i s₃ h3'
        cases hk
        exact ⟨rfl, hl⟩
    · rename_i hc
      rw [if_neg hc]
      cases hk
      exact ⟨rfl, hl⟩
  by_cases hg : g = gens - 1
  · rw [if_pos hg] at h ⊢
    rcases hq : x.run.rank uni argsort fitness with e | s₁
    · rw [hq] at h; cases h
    · rw [hq] at h
      exact key s₁ gen h
  · rw [if_neg hg] at h ⊢
    rcases hq : x.run.cma.update argsort d.1 fitness with e | c'
    · rw [hq] at h; cases h
    · rw [hq] at h
      exact key { x.run with cma := c' } d.2 h

/-- C83: a whole search (any environment that forgets): the result is that of a search in which
generation `g` knows only its population and the number `g * my_seed`. -/
theorem live_gens (F : Forgets E P like) (F₂ : Forgets E₂ P like) {mk : σ → σ}
    (hmk : ∀ {s}, like s s → like s (mk s)) (hP : ∀ v : Vec n, P (List.ofFn v)) (uni : Bool)
    (argsort : List Fit → List Nat) (gens : Nat) (seedAll : Nat → G) (reps mySeed : Nat)
    (read : Cma n → List Fit → G → Draw n × G) (s₀ : σ) (k : Nat) : ∀ (g : Nat) (x x' : Live n σ G),
    like s₀ x.env → 0 < x.run.cma.popSize →
    liveGens uni argsort gens E E₂ mk seedAll reps mySeed read k g x = .ok x' →
    seedGens uni argsort gens (fitAlone E seedAll reps s₀) (readAlone E seedAll reps s₀ read) mySeed
      k g x.run = .ok x'.run := by
  induction k with
  | zero => intro g x x' _ _ h; cases h; rfl
  | succ k ih =>
    intro g x x' hx hpos h
    rw [liveGens] at h
    rcases hg : liveGen uni argsort gens E E₂ mk seedAll reps mySeed read g x with e | ⟨x₁, b⟩
    · rw [hg] at h; cases h
    rw [hg] at h
    obtain ⟨h1, h2⟩ := live_gen F F₂ hmk hP uni argsort gens seedAll reps mySeed read s₀ g x x₁ b hx
      hpos hg
    rw [seedGens, h1]
    cases b with
    | true => cases h; rfl
    | false =>
      refine ih _ _ _ h2 ?_ h
      rw [(bookkeeping_step _ _ _ _ _ h1).1]
      exact hpos

/-- C83: such a search is one of the searches `runGens` describes, so what is proved of those
(C40-C45, C68) holds of it. -/
theorem seedGens_runGens (uni : Bool) (argsort : List Fit → List Nat) (gens : Nat)
    (fit : Nat → Vec n → Fit) (draw : Cma n → Nat → Draw n) (mySeed : Nat) (k : Nat) :
    ∀ (g : Nat) (s : Run n), ∃ d : Nat → Draw n,
      seedGens uni argsort gens fit draw mySeed k g s =
        runGens uni argsort gens (fun g => fit (g * mySeed)) d k g s := by
  have hcongr : ∀ (k g : Nat) (s : Run n) (d d' : Nat → Draw n), (∀ i, g ≤ i → d i = d' i) →
      runGens uni argsort gens (fun g => fit (g * mySeed)) d k g s =
        runGens uni argsort gens (fun g => fit (g * mySeed)) d' k g s := by
    intro k
    induction k with
    | zero => intros; rfl
    | succ k ih =>
      intro g s d d' hd
      rw [runGens, runGens, hd g le_rfl]
      rcases genStep uni argsort gens (fun g => fit (g * mySeed)) g (d' g) s with e | ⟨s', b⟩
      · rfl
      · cases b with
        | true => rfl
        | false => exact ih _ _ _ _ fun i hi => hd i (by omega)
  induction k with
  | zero => intro g s; exact ⟨fun _ => draw s.cma 0, rfl⟩
  | succ k ih =>
    intro g s
    rw [seedGens]
    rcases hq : genStep uni argsort gens (fun g => fit (g * mySeed)) g (draw s.cma (g * mySeed)) s
      with e | ⟨s', b⟩
    · refine ⟨fun _ => draw s.cma (g * mySeed), ?_⟩
      rw [runGens, hq]
    · cases b with
      | true =>
        refine ⟨fun _ => draw s.cma (g * mySeed), ?_⟩
        rw [runGens, hq]
      | false =>
        obtain ⟨d, hd⟩ := ih (g + 1) s'
        refine ⟨fun i => if i = g then draw s.cma (g * mySeed) else d i, ?_⟩
        rw [runGens]
        simp only [if_true, hq, hd]
        exact hcongr _ _ _ _ _ fun i hi => by rw [if_neg (by omega)]

/-- What a generation that is not the last does to the population and the distribution. -/
theorem genStep_update {uni : Bool} {argsort : List Fit → List Nat} {gens : Nat}
    {fit : Nat → Vec n → Fit} {g : Nat} {r : Draw n} {s s' : Run n}
    (h : genStep uni argsort gens fit g r s = .ok (s', false)) (hg : g ≠ gens - 1) :
    s.cma.update argsort r ((s.cma.population.take s.cma.popSize).map (fit g)) = .ok s'.cma := by
  obtain ⟨_, s₁, h1, h2⟩ := genStep_ok h
  rcases h2 with ⟨_, _, rfl⟩ | ⟨hb, _⟩
  · rcases h1 with ⟨hh, _⟩ | ⟨_, c, hc, rfl⟩
    · exact absurd hh hg
    · exact hc
  · cases hb

/-- C83: two generations with the same value of `generation * my_seed` (of searches with different
seeds, numbers of generations, histories) do the same to the same population. -/
theorem same_product (F : Forgets E P like) (F₂ : Forgets E₂ P like) {mk : σ → σ}
    (hmk : ∀ {s}, like s s → like s (mk s)) (hP : ∀ v : Vec n, P (List.ofFn v)) (uni : Bool)
    (argsort : List Fit → List Nat) (gens gens' : Nat) (seedAll : Nat → G) (reps seed seed' : Nat)
    (read : Cma n → List Fit → G → Draw n × G) (g g' : Nat) (x x₁ y y₁ : Live n σ G)
    (henv : like x.env y.env) (hcma : x.run.cma = y.run.cma) (hpos : 0 < x.run.cma.popSize)
    (hprod : g * seed = g' * seed') (hg : g ≠ gens - 1) (hg' : g' ≠ gens' - 1)
    (hx : liveGen uni argsort gens E E₂ mk seedAll reps seed read g x = .ok (x₁, false))
    (hy : liveGen uni argsort gens' E E₂ mk seedAll reps seed' read g' y = .ok (y₁, false)) :
    x₁.run.cma = y₁.run.cma := by
  have h1 := genStep_update (live_gen F F₂ hmk hP _ _ _ _ _ _ _ x.env _ _ _ _ (like_left F henv)
    hpos hx).1 hg
  have h2 := genStep_update (live_gen F F₂ hmk hP _ _ _ _ _ _ _ x.env _ _ _ _ henv
    (hcma ▸ hpos) hy).1 hg'
  rw [hcma, hprod, h2] at h1
  exact (Except.ok.inj h1).symm

/-- C83: with more than one generation the first one adds the same noise whatever the seed: the
seed is only in the population it starts from. -/
theorem first_generation (F : Forgets E P like) (F₂ : Forgets E₂ P like) {mk : σ → σ}
    (hmk : ∀ {s}, like s s → like s (mk s)) (hP : ∀ v : Vec n, P (List.ofFn v)) (uni : Bool)
    (argsort : List Fit → List Nat) (gens : Nat) (hgens : 2 ≤ gens) (seedAll : Nat → G)
    (reps seed seed' : Nat) (read : Cma n → List Fit → G → Draw n × G) (x x₁ y y₁ : Live n σ G)
    (b b' : Bool) (henv : like x.env y.env) (hcma : x.run.cma = y.run.cma)
    (hpos : 0 < x.run.cma.popSize)
    (hx : liveGen uni argsort gens E E₂ mk seedAll reps seed read 0 x = .ok (x₁, b))
    (hy : liveGen uni argsort gens E E₂ mk seedAll reps seed' read 0 y = .ok (y₁, b')) :
    x₁.run.cma = y₁.run.cma := by
  have nb : ∀ {seed : Nat} {x x₁ : Live n σ G} {b : Bool}, like x.env x.env →
      0 < x.run.cma.popSize →
      liveGen uni argsort gens E E₂ mk seedAll reps seed read 0 x = .ok (x₁, b) → b = false := by
    intro seed x x₁ b hl hp h
    obtain ⟨_, s₁, _, h2⟩ := genStep_ok (live_gen F F₂ hmk hP _ _ _ _ _ _ _ x.env _ _ _ _ hl hp h).1
    rcases h2 with ⟨hb, _⟩ | ⟨_, ⟨_, h6⟩, _⟩
    · exact hb
    · omega
  obtain rfl := nb (like_left F henv) hpos hx
  obtain rfl := nb (like_right F henv) (hcma ▸ hpos) hy
  exact same_product F F₂ hmk hP uni argsort gens gens seedAll reps seed seed' read 0 0 x x₁ y y₁ henv
    hcma hpos (by simp) (by omega) (by omega) hx hy

end

/-! ## The best fitness -/

/-- Some agent of `m` is at least as fit as every agent of `l`. -/
def Spec.NoWorse (l m : GenLog n) : Prop := ∃ y ∈ m.fitness, ∀ x ∈ l.fitness, x ≤ y

/-- C83: if fitness does not change from generation to generation, the best fitness never falls
(truncation selection, at least 8 agents). -/
theorem best_never_falls {uni : Bool} {argsort : List Fit → List Nat} (ha : Spec.Argsort argsort)
    {gens : Nat} {fit : Nat → Vec n → Fit} (hfit : ∀ g v, fit g v = fit 0 v) (d : Nat → Draw n)
    (k : Nat) : ∀ (g : Nat) (s s' : Run n), g + k ≤ gens → s.cma.mode = 0 → 8 ≤ s.cma.popSize →
    runGens uni argsort gens fit d k g s = .ok s' →
    ∃ new, s'.logs = s.logs ++ new ∧ List.IsChain NoWorse new ∧
      (∀ l ∈ new.head?, l.fitness = (s.cma.population.take s.cma.popSize).map (fit 0)) ∧
      (k ≠ 0 → new ≠ []) := by
  induction k with
  | zero =>
    intro g s s' _ _ _ h
    cases h
    exact ⟨[], by simp, List.isChain_nil, by simp, by simp⟩
  | succ k ih =>
    intro g s s' hgk hmode h8 h
    rw [runGens] at h
    rcases hg : genStep uni argsort gens fit g (d g) s with e | ⟨s₁, b⟩
    · rw [hg] at h; cases h
    rw [hg] at h
    obtain ⟨l, hl, hev, hlen, hlf⟩ := log_step _ _ _ _ _ hg
    have hlf' : l.fitness = (s.cma.population.take s.cma.popSize).map (fit 0) := by
      rw [hlf, hev]
      exact List.map_congr_left fun v _ => hfit g v
    have hstop : ∃ new, s₁.logs = s.logs ++ new ∧ List.IsChain NoWorse new ∧
        (∀ l ∈ new.head?, l.fitness = (s.cma.population.take s.cma.popSize).map (fit 0)) ∧
        (k + 1 ≠ 0 → new ≠ []) :=
      ⟨[l], hl, List.isChain_singleton l, fun m hm => by cases hm; exact hlf', by simp⟩
    cases b with
    | true => cases h; exact hstop
    | false =>
      by_cases hlast : g = gens - 1
      · obtain rfl : k = 0 := by omega
        cases h
        exact hstop
      · have hu := genStep_update hg hlast
        obtain ⟨_, _, _, _, _, _, _, hps, hmd, _⟩ := update_ok hu
        obtain ⟨new, h1, h2, h3, h4⟩ := ih _ _ _ (by omega) (hmd.trans hmode) (by omega) h
        refine ⟨l :: new, by rw [h1, hl]; simp, ?_, fun m hm => by cases hm; exact hlf', by simp⟩
        rw [List.isChain_cons]
        refine ⟨fun m hm => ?_, h2⟩
        have hm' := h3 m hm
        obtain ⟨hpl, _⟩ := genStep_ok hg
        obtain ⟨i, hi1, hi2, hi3⟩ := best_survives argsort ha _ _ _ _ hmode
          (by rw [List.length_map, List.length_take]; omega) hpl h8 hu
        have hlt : i < s.cma.population.length := by omega
        have hf : ((s.cma.population.take s.cma.popSize).map (fit g))[i]? =
            some (fit 0 s.cma.population[i]) := by
          rw [List.getElem?_map, List.getElem?_take_of_lt hi2, List.getElem?_eq_getElem hlt,
            Option.map_some, hfit]
        refine ⟨fit 0 s.cma.population[i], ?_, fun z hz => hi1 _ hf z ?_⟩
        · rw [hm']
          refine List.mem_map_of_mem (List.mem_of_getElem? (i := 0) ?_)
          rw [List.getElem?_take_of_lt (by omega), hi3, List.getElem?_eq_getElem hlt]
        · rwa [hlf, hev] at hz

/-- C83: with the seed 0 (or any environment that forgets and a seed that changes nothing) the best
fitness of a search never falls. -/
theorem best_never_falls_zero {E E₂ : Env σ (List ℝ) G} {P : List ℝ → Prop} {like : σ → σ → Prop}
    (F : Forgets E P like) (F₂ : Forgets E₂ P like) {mk : σ → σ}
    (hmk : ∀ {s}, like s s → like s (mk s)) (hP : ∀ v : Vec n, P (List.ofFn v)) (uni : Bool)
    (argsort : List Fit → List Nat) (ha : Spec.Argsort argsort) (gens : Nat) (seedAll : Nat → G)
    (reps : Nat) (read : Cma n → List Fit → G → Draw n × G) (x x' : Live n σ G)
    (hx : like x.env x.env) (hmode : x.run.cma.mode = 0) (h8 : 8 ≤ x.run.cma.popSize)
    (h : liveGens uni argsort gens E E₂ mk seedAll reps 0 read gens 0 x = .ok x') :
    ∃ new, x'.run.logs = x.run.logs ++ new ∧ List.IsChain NoWorse new := by
  have h1 := live_gens F F₂ hmk hP uni argsort gens seedAll reps 0 read x.env gens 0 x x' hx (by omega) h
  obtain ⟨d, hd⟩ := seedGens_runGens uni argsort gens (fitAlone E seedAll reps x.env)
    (readAlone E seedAll reps x.env read) 0 gens 0 x.run
  rw [hd] at h1
  obtain ⟨new, h2, h3, _⟩ := best_never_falls ha (fun g v => by simp) d gens 0 _ _ (by omega) hmode h8 h1
  exact ⟨new, h2, h3⟩

/-- C83, refuted: with fewer than 8 agents the best fitness can fall although the fitness of each
parameter vector stays the same. -/
theorem best_falls_refuted (argsort : List Fit → List Nat) (ha : Spec.Argsort argsort) :
    ∃ (fit : Vec 1 → Fit) (d : Nat → Draw 1) (s s' : Run 1), s.cma.mode = 0 ∧ s.cma.popSize = 1 ∧
      runGens true argsort 2 (fun _ => fit) d 2 0 s = .ok s' ∧
      s'.logs.map (·.fitness) = [[1], [0]] := by
  classical
  have h1 : ∀ x : Fit, argsort [x] = [0] := fun x => List.perm_singleton.1 (ha [x]).1
  let v₁ : Vec 1 := fun _ => 1
  let c : Cma 1 := ⟨1, 0, 0, 0, [v₁], 0, 0, none⟩
  let fit : Vec 1 → Fit := fun v => if v 0 = 1 then 1 else 0
  let r : Draw 1 := ⟨[], [], fun _ _ => 1⟩
  let v₂ : Vec 1 := sampleDist (eliteMean [v₁]) (eliteCovar 1 [v₁] 0) fun _ => 1
  let c₁ : Cma 1 := ⟨1, 0, 0, 0, [v₂], eliteMean [v₁], eliteCovar 1 [v₁] 0, some [v₁]⟩
  have hf₁ : fit v₁ = 1 := if_pos rfl
  have hf₂ : fit v₂ = 0 := by
    refine if_neg ?_
    simp [v₂, sampleDist, eliteMean, eliteCovar, v₁]
  have hu : c.update argsort r [1] = .ok c₁ := by
    have hs : selectElite argsort c.mode (eliteKeep c.popSize) r [1] = .ok [0] := by
      simp [selectElite, truncation, h1, eliteKeep, c]
    have hg : gather c.population [0] = .ok [v₁] := rfl
    unfold Cma.update
    rw [hs]
    dsimp only
    rw [hg]
    simp [resample, copyElite, Cma.adapt, eliteKeep, c₁, v₂, r, c]
  have g₀ : genStep true argsort 2 (fun _ => fit) 0 r ⟨c, [], none⟩ =
      .ok (⟨c₁, [⟨[v₁], [1], [v₁]⟩], none⟩, false) := by
    have e : (c.population.take c.popSize).map fit = [1] := by simp [c, hf₁]
    unfold genStep
    rw [if_neg (by simp [c])]
    dsimp only
    rw [e, if_neg (by omega), hu]
    dsimp only
    rw [if_neg (by omega)]
    rfl
  have g₁ : ∃ s', genStep true argsort 2 (fun _ => fit) 1 r
      ⟨c₁, [⟨[v₁], [1], [v₁]⟩], none⟩ = .ok (s', false) ∧ s'.logs.map (·.fitness) = [[1], [0]] := by
    have e : (c₁.population.take c₁.popSize).map fit = [0] := by simp [c₁, hf₂]
    have hr : c₁.rank argsort [0] = .ok (c₁.adapt [v₂]) := by
      have hs : truncation (eliteKeep c₁.popSize) (argsort [0]) = .ok [0] := by
        simp [truncation, h1, eliteKeep, c₁]
      have hg : gather c₁.population [0] = .ok [v₂] := rfl
      unfold Cma.rank
      rw [hs]
      dsimp only
      rw [hg]
    unfold genStep
    rw [if_neg (by simp [c₁])]
    dsimp only
    rw [e, if_pos (by omega), Run.rank, hr]
    dsimp only
    rw [if_neg (by omega)]
    exact ⟨_, rfl, rfl⟩
  obtain ⟨s', g₁, hl⟩ := g₁
  refine ⟨fit, fun _ => r, ⟨c, [], none⟩, s', rfl, rfl, ?_, hl⟩
  rw [runGens, g₀]
  dsimp only
  rw [runGens, g₁]
  rfl

/-! ## `CCA` -/

/-- An environment that draws from torch's generator only. -/
structure Spec.Quiet {T R : Type} (E : Env σ (List ℝ) (T × R)) : Prop where
  reset : ∀ s g, (E.reset s g).2.2 = g.2
  step : ∀ s a g r s' g', E.step s a g = .ok (r, s', g') → g'.2 = g.2

section

variable {T R : Type} {E : Env σ (List ℝ) (T × R)} (Q : Quiet E)

include Q

theorem quiet_steps (a : List ℝ) (k : Nat) : ∀ {s s' : σ} {g g' : T × R} {r : ℝ × ℝ},
    E.steps a k s g = .ok (r, s', g') → g'.2 = g.2 := by
  induction k with
  | zero => intro s s' g g' r h; cases h; rfl
  | succ k ih =>
    intro s s' g g' r h
    rcases hx : E.step s a g with e | ⟨r₁, s₁, g₁⟩
    · simp [Env.steps, hx] at h
    · rcases hy : E.steps a k s₁ g₁ with e | ⟨r₂, s₂, g₂⟩
      · simp [Env.steps, hx, hy] at h
      · simp only [Env.steps, hx, hy, Except.ok.injEq, Prod.mk.injEq] at h
        rw [← h.2.2, ih hy, Q.step _ _ _ _ _ _ hx]

theorem quiet_replicates (a : List ℝ) (m k : Nat) : ∀ {s s' : σ} {g g' : T × R} {r : List ℝ × ℝ},
    E.replicates a m k s g = .ok (r, s', g') → g'.2 = g.2 := by
  induction k with
  | zero => intro s s' g g' r h; cases h; rfl
  | succ k ih =>
    intro s s' g g' r h
    rcases hx : E.steps a m (E.reset s g).1 (E.reset s g).2 with e | ⟨r₁, s₁, g₁⟩
    · simp [Env.replicates, hx] at h
    · simp only [Env.replicates, hx] at h
      split at h
      · cases h
      · rcases hy : E.replicates a m k s₁ g₁ with e | ⟨r₂, s₂, g₂⟩
        · simp [hy] at h
        · simp only [hy, Except.ok.injEq, Prod.mk.injEq] at h
          rw [← h.2.2, ih hy, quiet_steps Q a m hx, Q.reset]

theorem quiet_genAlone (seedAll : Nat → T × R) (reps : Nat) (s₀ : σ) (seed : Nat) (v : Vec n) :
    (genAlone E seedAll reps s₀ seed v).2 = (seedAll seed).2 := by
  unfold genAlone Env.getFitness
  rcases hx : E.replicates (List.ofFn v) 1 reps s₀ (seedAll seed) with e | ⟨r, s, g⟩
  · rfl
  · dsimp only
    by_cases h0 : reps = 0
    · rw [if_pos h0]
    · rw [if_neg h0]
      exact quiet_replicates Q _ _ _ hx

end

/-- A `CCA` in a `SimpleHaltingWrapper`; the start grids come from torch's generator `T`, numpy's
generator `R` is left alone. -/
noncomputable def Spec.ccaEnv {T R : Type} (C batch dim caSteps : Nat)
    (rand : T → Univ ℝ batch C dim dim × T) : Env CCAObj (List ℝ) (T × R) :=
  simpleHalting (ccaAutomaton (T × R) C) batch dim caSteps
    fun g => ((rand g.1).1, ((rand g.1).2, g.2))

theorem ccaEnv_quiet {T R : Type} (C batch dim caSteps : Nat)
    (rand : T → Univ ℝ batch C dim dim × T) : Quiet (ccaEnv (R := R) C batch dim caSteps rand) where
  reset _ _ := rfl
  step s a g r s' g' h := by
    have hroll : ∀ (k : Nat) (s s' : CCAObj) (g g' : T × R) (u u' : Univ ℝ batch C dim dim),
        haltingRollout ((ccaAutomaton (T × R) C).rollStep) k (s, g) u = .ok (u', s', g') →
        g' = g := by
      intro k
      induction k with
      | zero => intro s s' g g' u u' h; cases h; rfl
      | succ k ih =>
        intro s s' g g' u u' h
        rw [rollout_succ] at h
        rcases hx : (ccaAutomaton (T × R) C).call s g u with e | ⟨u₁, s₁, g₁⟩
        · simp [Automaton.rollStep, hx] at h
        · have hg : g₁ = g := by
            change (match s.dynamics.call s.t u with
              | .error e => Except.error e
              | .ok (u', t) => Except.ok (u', { s with t := t }, g)) = _ at hx
            rcases hz : s.dynamics.call s.t u with e | ⟨u', t'⟩
            · rw [hz] at hx; cases hx
            · rw [hz] at hx; cases hx; rfl
          subst hg
          simp only [Automaton.rollStep, hx] at h
          split at h
          · cases h; rfl
          · exact ih _ _ _ _ _ _ h
    unfold ccaEnv at h
    rw [simpleHalting_step] at h
    rcases hs : (ccaAutomaton (T × R) C).setParams s a with ⟨s₁, _ | e⟩
    · rw [hs] at h
      dsimp only at h
      rcases hr : haltingRollout (ccaAutomaton (T × R) C).rollStep caSteps (s₁, ((rand g.1).2, g.2))
        (startGrid dim (rand g.1).1) with e | ⟨u, s₂, g₂⟩
      · rw [hr] at h; cases h
      · rw [hr] at h
        cases h
        rw [hroll _ _ _ _ _ _ _ hr]
    · rw [hs] at h; cases h

/-- `make_config` changes nothing a step or `set_params` reads. -/
theorem makeConfig_twins {m : Nat} {o : CCAObj} (h : Twins m o o) : Twins m o o.makeConfig.2 :=
  ⟨rfl, rfl, rfl, rfl, rfl, rfl, rfl, rfl, h.gen, h.per, h.kernel⟩

/-- C83: a universe search with a `CCA` and no workers.  The fitness of a generation depends on the
agent and the number `generation * my_seed`, and its noise is the noise numpy produces right after
being seeded with that number. -/
theorem cca_search {T R : Type} {C batch dim caSteps : Nat} (rand : T → Univ ℝ batch C dim dim × T)
    (seedT : Nat → T) (seedR : Nat → R) (read : Cma n → List Fit → R → Draw n × R) (o : CCAObj)
    (l : List ℝ) (hk : o.kernelParams = .vec l)
    (hn : (readActs o.genesis).length + (readActs o.persistence).length + l.length = n) (uni : Bool)
    (argsort : List Fit → List Nat) (gens reps mySeed : Nat) (x x' : Live n CCAObj (T × R))
    (hx : x.env = o) (hpos : 0 < x.run.cma.popSize)
    (h : liveGens uni argsort gens (ccaEnv C batch dim caSteps rand) (ccaEnv C batch dim 2 rand)
      (fun o => o.makeConfig.2) (fun k => (seedT k, seedR k)) reps mySeed
      (fun c f g => ((read c f g.2).1, (g.1, (read c f g.2).2))) gens 0 x = .ok x') :
    let fit : Nat → Vec n → Fit :=
      fitAlone (ccaEnv C batch dim caSteps rand) (fun k => (seedT k, seedR k)) reps o
    seedGens uni argsort gens fit
      (fun c seed => (read c ((c.population.take c.popSize).map (fit seed)) (seedR seed)).1) mySeed
      gens 0 x.run = .ok x'.run := by
  intro fit
  have hself : Twins n o o := ⟨rfl, rfl, rfl, rfl, rfl, rfl, rfl, rfl,
    List.forall₂_same.2 fun x _ => .same x, List.forall₂_same.2 fun x _ => .same x, l, l, hk, hk, rfl, hn⟩
  have h1 := live_gens (simpleHalting_forgets (cca_forgets (T × R) C n) batch dim caSteps _)
    (simpleHalting_forgets (cca_forgets (T × R) C n) batch dim 2 _)
    (fun {s} hs => ⟨makeConfig_twins hs.1, rfl⟩) (fun v => List.length_ofFn) uni argsort gens
    (fun k => (seedT k, seedR k)) reps mySeed _ o gens 0 x x' (by rw [hx]; exact ⟨hself, rfl⟩) hpos h
  have hread : readAlone (ccaEnv C batch dim caSteps rand) (fun k => (seedT k, seedR k)) reps o
      (fun c f g => ((read c f g.2).1, (g.1, (read c f g.2).2))) =
      fun c seed => (read c ((c.population.take c.popSize).map (fit seed)) (seedR seed)).1 := by
    funext c seed
    unfold readAlone
    dsimp only
    congr 1
    rcases (c.population.take c.popSize).getLast? with _ | v
    · rfl
    · dsimp only
      rw [quiet_genAlone (ccaEnv_quiet C batch dim caSteps rand)]
  rw [← hread]
  exact h1

end Yuca
