import Verif.Props.Coevolve
import Verif.Props.Config

/-!
# Searches for moving patterns: what is scored (C93) and what is saved (C92)
-/

namespace Yuca

open Spec

variable {σ A G : Type} {C D : Nat}

/-! ## C93: every agent is scored as if it were alone -/

theorem twins_self (o : CCAObj) (l : List ℝ) (hk : o.kernelParams = .vec l) :
    Twins ((readActs o.genesis).length + (readActs o.persistence).length + l.length) o o :=
  ⟨rfl, rfl, rfl, rfl, rfl, rfl, rfl, rfl, List.forall₂_same.2 fun x _ => .same x,
    List.forall₂_same.2 fun x _ => .same x, l, l, hk, hk, rfl, rfl⟩

/-- C93: a pattern search with a `CCA`. -/
theorem pattern_history_free (o : CCAObj) (radius : ℝ) (caSteps : Nat)
    (pattern : List ℝ → Except PyErr (Univ ℝ 1 C D D)) (seedAll : Nat → G) (reps seed : Nat)
    (pop : List (List ℝ)) (g : G) :
    let E := patternEnv (ccaAutomaton G C) CCAObj.reset radius caSteps pattern
    (E.evalAll seedAll reps seed pop o g).map (·.1) =
      pop.mapM fun v => (E.getFitness seedAll 1 reps seed o v).map (·.1) :=
  evalAll_eq (pattern_forgets (cca_pinned G C) radius caSteps pattern) seedAll reps seed o pop
    (fun _ _ => trivial) g rfl

/-- C93: with a `RandomStepCA`. -/
theorem pattern_history_free_random (rand : G → ℝ × G) (s : RandomStepObj) (radius : ℝ)
    (caSteps : Nat) (pattern : List ℝ → Except PyErr (Univ ℝ 1 C D D)) (seedAll : Nat → G)
    (reps seed : Nat) (pop : List (List ℝ)) (g : G) :
    let E := patternEnv (randomStepAutomaton rand C) RandomStepObj.reset radius caSteps pattern
    (E.evalAll seedAll reps seed pop s g).map (·.1) =
      pop.mapM fun v => (E.getFitness seedAll 1 reps seed s v).map (·.1) :=
  evalAll_eq (pattern_forgets (randomStep_pinned rand C) radius caSteps pattern) seedAll reps seed s
    pop (fun _ _ => trivial) g ⟨rfl, rfl, rfl⟩

/-- C93: with a `MetaCA`, whatever momentum it starts with. -/
theorem pattern_history_free_meta (s : MetaObj C) (radius : ℝ) (caSteps : Nat)
    (pattern : List ℝ → Except PyErr (Univ ℝ 1 C D D)) (seedAll : Nat → G) (reps seed : Nat)
    (pop : List (List ℝ)) (g : G) :
    let E := patternEnv (metaAutomaton G C) MetaObj.reset radius caSteps pattern
    (E.evalAll seedAll reps seed pop s g).map (·.1) =
      pop.mapM fun v => (E.getFitness seedAll 1 reps seed s v).map (·.1) :=
  evalAll_eq (pattern_forgets (meta_pinned G C) radius caSteps pattern) seedAll reps seed s
    pop (fun _ _ => trivial) g ⟨rfl, rfl⟩

/-- C93: coevolution with a `CCA`. -/
theorem coevo_history_free (o : CCAObj) (l : List ℝ) (hk : o.kernelParams = .vec l) (radius : ℝ)
    (caSteps k : Nat) (pattern : List ℝ → Except PyErr (Univ ℝ 1 C D D)) (seedAll : Nat → G)
    (reps seed : Nat) (pop : List (List ℝ))
    (hpop : ∀ v ∈ pop, v.length =
      k + ((readActs o.genesis).length + (readActs o.persistence).length + l.length)) (g : G) :
    let E := coevoEnv (ccaAutomaton G C) CCAObj.reset radius caSteps k pattern
    (E.evalAll seedAll reps seed pop o g).map (·.1) =
      pop.mapM fun v => (E.getFitness seedAll 1 reps seed o v).map (·.1) :=
  evalAll_eq (coevo_forgets (cca_fresh G C _) radius caSteps k pattern) seedAll reps seed o pop
    hpop g ⟨twins_self o l hk, rfl⟩

/-- C93: coevolution with a `RandomStepCA`. -/
theorem coevo_history_free_random (rand : G → ℝ × G) (s : RandomStepObj) (l : List ℝ)
    (hk : s.o.kernelParams = .vec l) (radius : ℝ)
    (caSteps k : Nat) (pattern : List ℝ → Except PyErr (Univ ℝ 1 C D D)) (seedAll : Nat → G)
    (reps seed : Nat) (pop : List (List ℝ))
    (hpop : ∀ v ∈ pop, v.length =
      k + ((readActs s.o.genesis).length + (readActs s.o.persistence).length + l.length)) (g : G) :
    let E := coevoEnv (randomStepAutomaton rand C) RandomStepObj.reset radius caSteps k pattern
    (E.evalAll seedAll reps seed pop s g).map (·.1) =
      pop.mapM fun v => (E.getFitness seedAll 1 reps seed s v).map (·.1) :=
  evalAll_eq (coevo_forgets (randomStep_fresh rand C _) radius caSteps k pattern) seedAll reps seed s
    pop hpop g ⟨twins_self s.o l hk, rfl, rfl⟩

/-- C93: coevolution with a `MetaCA`. -/
theorem coevo_history_free_meta (s : MetaObj C) (l : List ℝ)
    (hk : s.o.kernelParams = .vec l) (radius : ℝ)
    (caSteps k : Nat) (pattern : List ℝ → Except PyErr (Univ ℝ 1 C D D)) (seedAll : Nat → G)
    (reps seed : Nat) (pop : List (List ℝ))
    (hpop : ∀ v ∈ pop, v.length =
      k + ((readActs s.o.genesis).length + (readActs s.o.persistence).length + l.length)) (g : G) :
    let E := coevoEnv (metaAutomaton G C) MetaObj.reset radius caSteps k pattern
    (E.evalAll seedAll reps seed pop s g).map (·.1) =
      pop.mapM fun v => (E.getFitness seedAll 1 reps seed s v).map (·.1) :=
  evalAll_eq (coevo_forgets (meta_fresh G C _) radius caSteps k pattern) seedAll reps seed s
    pop hpop g ⟨⟨twins_self s.o l hk, rfl⟩, rfl⟩

/-! ## One rollout tells it all -/

/-- An automaton that neither reads nor moves the random generators. -/
def Spec.NoDraws (M : Automaton σ G C) : Prop :=
  ∀ {N D : Nat} (s : σ) (g g' : G) (u : Univ ℝ N C D D),
    M.call s g' u = (M.call s g u).map fun p => (p.1, p.2.1, g')

theorem cca_quiet : NoDraws (ccaAutomaton G C) := by
  intro N D o g g' u
  show (match o.dynamics.call o.t u with
      | .error e => Except.error e
      | .ok (u', t) => Except.ok (u', { o with t := t }, g')) =
    Except.map _ (match o.dynamics.call o.t u with
      | .error e => Except.error e
      | .ok (u', t) => Except.ok (u', { o with t := t }, g))
  rcases o.dynamics.call o.t u with e | ⟨u', t⟩ <;> rfl

theorem meta_quiet : NoDraws (metaAutomaton G C) := by
  intro N D s g g' u
  rw [meta_call_eq, meta_call_eq]
  rcases metaShown s.o.dynamics s.o.t s.ddt s.dgrid u with e | r <;> rfl

theorem gliderLoop_quiet {M : Automaton σ G C} (Q : NoDraws M) (radius : ℝ) (g' : G) (k : Nat) :
    ∀ {N : Nat} (v : GliderVars (σ × G) N C D),
    gliderLoop M.rollStep radius k { v with s := (v.s.1, g') } =
      (gliderLoop M.rollStep radius k v).map fun w => { w with s := (w.s.1, g') } := by
  induction k with
  | zero => intro N v; rfl
  | succ k ih =>
    intro N v
    rw [gliderLoop_succ, gliderLoop_succ]
    have hq := Q v.s.1 v.s.2 g' v.action
    rcases hx : M.call v.s.1 v.s.2 v.action with e | ⟨u₁, s₁, g₁⟩
    · rw [hx] at hq
      simp only [Automaton.rollStep, hx, hq, Except.map]
    · rw [hx] at hq
      simp only [Automaton.rollStep, hx, hq, Except.map]
      split
      · rfl
      · exact ih (v.pass radius u₁ (s₁, g₁))

theorem episode_quiet {M : Automaton σ G C} (Q : NoDraws M) (reset : σ → σ) (radius : ℝ)
    (caSteps : Nat) (s : σ) (u : Univ ℝ 1 C D D) (g g' : G) :
    (gliderEpisode M reset radius caSteps s u g').map (·.1) =
      (gliderEpisode M reset radius caSteps s u g).map (·.1) := by
  have h := gliderLoop_quiet Q radius g' caSteps (gliderStart (reset s) u g)
  rw [gliderEpisode_eq, gliderEpisode_eq]
  change gliderLoop M.rollStep radius caSteps (gliderStart (reset s) u g') = _ at h
  rw [h]
  rcases gliderLoop M.rollStep radius caSteps (gliderStart (reset s) u g) with e | v
  · rfl
  · simp only [Except.map, gliderEnd]
    cases v.last <;> rfl

/-- The rollouts of an agent are all alike. -/
theorem constant_fitness {E : Env σ A G} {P : A → Prop} {like : σ → σ → Prop} (F : Forgets E P like)
    (hq : ∀ s a g g', (E.step s a g').map (·.1) = (E.step s a g).map (·.1)) {a : A} (ha : P a)
    (seedAll : Nat → G) {steps reps : Nat} (hs : 0 < steps) (hr : 0 < reps) (seed : Nat) {s : σ}
    (hl : like s s) (g : G) :
    (E.getFitness seedAll steps reps seed s a).map (·.1) = (E.step s a g).map (·.1) := by
  have one : ∀ {s'} (g'), like s s' → (E.step s' a g').map (·.1) = (E.step s a g).map (·.1) := by
    intro s' g' h
    have h1 := F.step_eq g' h ha
    rw [← hq s a g g']
    rcases hx : E.step s a g' with e | ⟨r, s₁, g₁⟩
    · rw [visible_error h1 hx]
    · obtain ⟨s₁', hy⟩ := visible_ok h1 hx
      rw [hy]; rfl
  have right : ∀ {s'}, like s s' → like s' s' := fun h => F.trans (F.symm h) h
  rcases hx : E.step s a g with e | ⟨r, s₁, g₁⟩
  · have err : ∀ {s'} (g'), like s s' → E.step s' a g' = .error e := by
      intro s' g' h
      have := one g' h
      rw [hx] at this
      rcases hy : E.step s' a g' with e' | x
      · rw [hy] at this
        cases this; rfl
      · rw [hy] at this; cases this
    obtain ⟨m, rfl⟩ := Nat.exists_eq_succ_of_ne_zero hs.ne'
    obtain ⟨k, rfl⟩ := Nat.exists_eq_succ_of_ne_zero hr.ne'
    simp only [Env.getFitness, Env.replicates, Env.steps,
      err _ (F.reset_like (seedAll seed) hl), Except.map]
  · have good : ∀ {s'} (g'), like s s' → ∃ s₂ g₂, E.step s' a g' = .ok (r, s₂, g₂) ∧ like s s₂ := by
      intro s' g' h
      have := one g' h
      rw [hx] at this
      rcases hy : E.step s' a g' with e' | ⟨r', s₂, g₂⟩
      · rw [hy] at this; cases this
      · rw [hy] at this
        cases this
        exact ⟨s₂, g₂, rfl, F.trans h (F.step_like (right h) ha hy)⟩
    have many : ∀ (m : Nat) {s'} (g'), like s s' → ∃ s₂ g₂,
        E.steps a m s' g' = .ok ((m * r.1, m * r.2), s₂, g₂) ∧ like s s₂ := by
      intro m
      induction m with
      | zero => intro s' g' h; exact ⟨s', g', by simp [Env.steps], h⟩
      | succ m ih =>
        intro s' g' h
        obtain ⟨s₂, g₂, h1, h2⟩ := good g' h
        obtain ⟨s₃, g₃, h3, h4⟩ := ih g₂ h2
        refine ⟨s₃, g₃, ?_, h4⟩
        simp only [Env.steps, h1, h3]
        push_cast
        ring_nf
    have reps' : ∀ (k : Nat) {s'} (g'), like s s' → ∃ s₂ g₂,
        E.replicates a steps k s' g' = .ok ((List.replicate k r.1, k * (steps * r.2)), s₂, g₂) := by
      intro k
      induction k with
      | zero => intro s' g' _; exact ⟨s', g', by simp [Env.replicates]⟩
      | succ k ih =>
        intro s' g' h
        obtain ⟨s₂, g₂, h1, h2⟩ := many steps (E.reset s' g').2
          (F.trans h (F.reset_like g' (right h)))
        obtain ⟨s₃, g₃, h3⟩ := ih g₂ h2
        refine ⟨s₃, g₃, ?_⟩
        have hne : (steps : ℝ) ≠ 0 := by exact_mod_cast hs.ne'
        simp only [Env.replicates, h1, h3, if_neg hs.ne', List.replicate_succ]
        rw [mul_div_cancel_left₀ _ hne]
        push_cast
        ring_nf
    obtain ⟨s₂, g₂, h⟩ := reps' reps (seedAll seed) hl
    have hne : (reps : ℝ) ≠ 0 := by exact_mod_cast hr.ne'
    have hne' : (steps : ℝ) ≠ 0 := by exact_mod_cast hs.ne'
    simp only [Env.getFitness, h, if_neg hr.ne', Except.map, List.sum_replicate, List.length_replicate,
      nsmul_eq_mul, Except.ok.injEq]
    refine Prod.ext ?_ ?_
    · exact mul_div_cancel_left₀ _ hne
    · show (reps : ℝ) * (steps * r.2) / (steps * reps) = r.2
      field_simp

/-- C93: in a pattern search with a `CCA` the fitness of an agent is the reward of a single
rollout, whatever the seed, the number of replicates and of steps. -/
theorem pattern_one_rollout (o : CCAObj) (radius : ℝ) (caSteps : Nat)
    (pattern : List ℝ → Except PyErr (Univ ℝ 1 C D D)) (seedAll : Nat → G) {steps reps : Nat}
    (hs : 0 < steps) (hr : 0 < reps) (seed : Nat) (v : List ℝ) (g : G) :
    let E := patternEnv (ccaAutomaton G C) CCAObj.reset radius caSteps pattern
    (E.getFitness seedAll steps reps seed o v).map (·.1) = (E.step o v g).map (·.1) :=
  constant_fitness (pattern_forgets (cca_pinned G C) radius caSteps pattern)
    (by intro s a g g'
        simp only [patternEnv]
        rcases pattern a with e | u
        · rfl
        · exact episode_quiet cca_quiet _ radius caSteps s u g g') trivial seedAll hs hr seed rfl g

/-- C93: likewise with a `MetaCA`. -/
theorem pattern_one_rollout_meta (s : MetaObj C) (radius : ℝ) (caSteps : Nat)
    (pattern : List ℝ → Except PyErr (Univ ℝ 1 C D D)) (seedAll : Nat → G) {steps reps : Nat}
    (hs : 0 < steps) (hr : 0 < reps) (seed : Nat) (v : List ℝ) (g : G) :
    let E := patternEnv (metaAutomaton G C) MetaObj.reset radius caSteps pattern
    (E.getFitness seedAll steps reps seed s v).map (·.1) = (E.step s v g).map (·.1) :=
  constant_fitness (pattern_forgets (meta_pinned G C) radius caSteps pattern)
    (by intro s a g g'
        simp only [patternEnv]
        rcases pattern a with e | u
        · rfl
        · exact episode_quiet meta_quiet _ radius caSteps s u g g') trivial seedAll hs hr seed
    ⟨rfl, rfl⟩ g

/-- C93: likewise in coevolution. -/
theorem coevo_one_rollout (o : CCAObj) (l : List ℝ) (hk : o.kernelParams = .vec l) (radius : ℝ)
    (caSteps k : Nat) (pattern : List ℝ → Except PyErr (Univ ℝ 1 C D D)) (seedAll : Nat → G)
    {steps reps : Nat} (hs : 0 < steps) (hr : 0 < reps) (seed : Nat) (v : List ℝ)
    (hv : v.length =
      k + ((readActs o.genesis).length + (readActs o.persistence).length + l.length)) (g : G) :
    let E := coevoEnv (ccaAutomaton G C) CCAObj.reset radius caSteps k pattern
    (E.getFitness seedAll steps reps seed o v).map (·.1) = (E.step o v g).map (·.1) :=
  constant_fitness (coevo_forgets (cca_fresh G C _) radius caSteps k pattern)
    (by intro s a g g'
        simp only [coevoEnv]
        rcases pattern (a.take k) with e | u
        · rfl
        · dsimp only
          rcases (ccaAutomaton G C).setParams s (a.drop k) with ⟨s', _ | e⟩
          · exact episode_quiet cca_quiet _ radius caSteps s' u g g'
          · rfl) hv seedAll hs hr seed ⟨twins_self o l hk, rfl⟩ g

/-- The reward of a rollout is the one C49 speaks about. -/
theorem episode_reward (M : Automaton σ G C) (reset : σ → σ) (radius : ℝ) (caSteps : Nat) (s : σ)
    (u : Univ ℝ 1 C D D) (g : G) :
    (gliderEpisode M reset radius caSteps s u g).map (·.1.1) =
      (gliderStep M.rollStep (fun p => (reset p.1, p.2)) radius caSteps (s, g) u).map (·.1) := by
  rw [gliderEpisode_eq, gliderStep]
  change Except.map _ (gliderEnd (gliderLoop M.rollStep radius caSteps (gliderStart (reset s) u g))) =
    Except.map _ (gliderLoop M.rollStep radius caSteps (gliderStart (reset s) u g) >>= _)
  rcases gliderLoop M.rollStep radius caSteps (gliderStart (reset s) u g) with e | v
  · rfl
  · rcases h : v.last with _ | p <;>
      simp [gliderEnd, h, bind, Except.bind, Except.map, pure, Except.pure]

/-! ## CODE does not forget -/

/-- A rollout of one step. -/
theorem episode_one {M : Automaton σ G C} {reset : σ → σ} (radius : ℝ) {s s₁ : σ}
    {u u₁ : Univ ℝ 1 C D D} {g g₁ : G} (h : M.call (reset s) g u = .ok (u₁, s₁, g₁)) :
    gliderEpisode M reset radius 1 s u g =
      .ok ((-growthPenalty (uMean u₁) (uMean u), uMean u₁), s₁, g₁) := by
  rw [gliderEpisode_eq, gliderLoop_succ]
  have hf : M.rollStep (gliderStart (reset s) u g).s (gliderStart (reset s) u g).action =
      .ok (u₁, (s₁, g₁)) := by
    have h' : M.call (gliderStart (reset s) u g).s.1 (gliderStart (reset s) u g).s.2
        (gliderStart (reset s) u g).action = .ok (u₁, s₁, g₁) := h
    simp only [Automaton.rollStep, h']
  rw [hf]
  dsimp only
  split <;> simp [gliderLoop, gliderEnd, GliderVars.pass, gliderStart]

theorem uMean_one (x : ℝ) : uMean (fun _ _ _ _ => x : Univ ℝ 1 1 1 1) = x := by
  rw [uMean_real]; simp

/-- An evaluation of one rollout. -/
theorem oneRollout_fitness {E : Env σ A G} {seedAll : Nat → G} {seed : Nat} {s s₁ : σ} {a : A}
    {r : ℝ × ℝ} {g₁ : G} (hr : E.reset s (seedAll seed) = (s, seedAll seed))
    (h : E.step s a (seedAll seed) = .ok (r, s₁, g₁)) :
    E.getFitness seedAll 1 1 seed s a = .ok (r, s₁, g₁) := by
  simp only [Env.getFitness, Env.replicates, Env.steps, hr, h]
  simp

/-- A `CODE` object with constant growth, default bounds of the step size. -/
noncomputable def Witness.codeObj (κ : AnyKernel) (a b dt t prev : ℝ) : CodeObj :=
  ⟨Witness.constObj κ a b dt t, prev, 1 / 2, 1 / 100, 1 / 1000⟩

/-- A rollout of one step on a universe of one cell, growth −1. -/
theorem shrink_episode {κ : AnyKernel} (hκ : κ.1 = 1) (dt t prev x radius : ℝ) (hx : x ≤ 1)
    (hp : 1 / 100 ≤ 2 * prev) (m y : ℝ) (hm : min (2 * prev) (1 / 2) = m) (hy : clip (x - m) = y) :
    ∃ F, ∀ fuel ≥ F, ∀ g : G, gliderEpisode (codeAutomaton fuel G 1) CodeObj.reset radius 1
      (Witness.codeObj κ (-1) (-1) dt t prev) (fun _ _ _ _ => x : Univ ℝ 1 1 1 1) g =
      .ok ((-growthPenalty y x, y), Witness.codeObj κ (-1) (-1) m (0 + m) m, g) := by
  obtain ⟨F, H⟩ := constCode_shrink hκ dt 0 prev (le_refl 1) (fun _ _ _ _ => x : Univ ℝ 1 1 1 1)
    (fun _ _ _ _ => hx) hp
  refine ⟨F, fun fuel hf g => ?_⟩
  have c := codeAutomaton_call (G := G) fuel (Witness.codeObj κ (-1) (-1) dt 0 prev) g
    (fun _ _ _ _ => x : Univ ℝ 1 1 1 1) rfl (H fuel hf)
  have e : gliderEpisode (codeAutomaton fuel G 1) CodeObj.reset radius 1
      (Witness.codeObj κ (-1) (-1) dt t prev) (fun _ _ _ _ => x : Univ ℝ 1 1 1 1) g = _ :=
    episode_one radius c
  rw [hm] at e
  refine e.trans ?_
  show Except.ok ((-growthPenalty (uMean (fun _ _ _ _ => clip (x - m) : Univ ℝ 1 1 1 1))
      (uMean (fun _ _ _ _ => x : Univ ℝ 1 1 1 1)),
      uMean (fun _ _ _ _ => clip (x - m) : Univ ℝ 1 1 1 1)), _, _) = _
  rw [uMean_one, uMean_one, hy]
  rfl

/-- The same with growth 8 per unit, from one tenth. -/
theorem grow_episode {κ : AnyKernel} (hκ : κ.1 = 1) (dt t prev radius : ℝ)
    (hp : 1 / 100 ≤ 2 * prev) :
    ∃ F, ∀ fuel ≥ F, ∀ g : G, gliderEpisode (codeAutomaton fuel G 1) CodeObj.reset radius 1
      (Witness.codeObj κ 0 8 dt t prev) (fun _ _ _ _ => 1 / 10 : Univ ℝ 1 1 1 1) g =
      .ok ((-growthPenalty (27 / 250) (1 / 10), 27 / 250),
        Witness.codeObj κ 0 8 (1 / 100) (0 + 1 / 100) (1 / 100), g) := by
  obtain ⟨F, H⟩ := constCode_grow hκ dt 0 prev (le_refl 1) (fun _ _ _ _ => 1 / 10 : Univ ℝ 1 1 1 1)
    (n := 0) (c := 0) (i := 0) (j := 0) rfl hp
  refine ⟨F, fun fuel hf g => ?_⟩
  have c := codeAutomaton_call (G := G) fuel (Witness.codeObj κ 0 8 dt 0 prev) g
    (fun _ _ _ _ => 1 / 10 : Univ ℝ 1 1 1 1) rfl (H fuel hf)
  have e : gliderEpisode (codeAutomaton fuel G 1) CodeObj.reset radius 1
      (Witness.codeObj κ 0 8 dt t prev) (fun _ _ _ _ => 1 / 10 : Univ ℝ 1 1 1 1) g = _ :=
    episode_one radius c
  have hy : clip (1 / 10 + 1 / 100 * (1 / 10 * 8) : ℝ) = 27 / 250 := by norm_num [clip]
  refine e.trans ?_
  show Except.ok ((-growthPenalty (uMean (fun _ _ _ _ => clip (1 / 10 + 1 / 100 * (1 / 10 * 8)) :
      Univ ℝ 1 1 1 1)) (uMean (fun _ _ _ _ => 1 / 10 : Univ ℝ 1 1 1 1)),
      uMean (fun _ _ _ _ => clip (1 / 10 + 1 / 100 * (1 / 10 * 8)) : Univ ℝ 1 1 1 1)), _, _) = _
  rw [uMean_one, uMean_one, hy]
  rfl

/-- C93: not so with a `CODE` automaton, whose `reset` keeps the last step size: with a first step
of 0.1 one and the same pattern gets one fitness first and another one next. -/
theorem pattern_code_refuted (seedAll : Nat → G) (seed : Nat) (radius : ℝ) (g : G) :
    ∃ (s : CodeObj) (F : Nat), ∀ fuel ≥ F, ∀ v w : List ℝ,
      let E := patternEnv (codeAutomaton fuel G 1) CodeObj.reset radius 1
        fun _ => .ok (fun _ _ _ _ => 1 : Univ ℝ 1 1 1 1)
      ∃ a b : ℝ, (E.evalAll seedAll 1 seed [v, w] s g).map (·.1) = .ok [(a, 4 / 5), (b, 3 / 5)] ∧
        b < a ∧ (E.getFitness seedAll 1 1 seed s w).map (·.1) = .ok (a, 4 / 5) := by
  obtain ⟨κ, hκ⟩ := (mixture_kernel_iff 1 [1 / 2, 3 / 20]).2 ⟨⟨by decide, by decide⟩, by decide⟩
  have hr := mixture_kernel_radius hκ
  obtain ⟨F₁, H₁⟩ := shrink_episode (G := G) hr (1 / 10) 0 (1 / 10) 1 radius (le_refl 1) (by norm_num)
    (1 / 5) (4 / 5) (by norm_num) (by norm_num [clip])
  obtain ⟨F₂, H₂⟩ := shrink_episode (G := G) hr (1 / 5) (0 + 1 / 5) (1 / 5) 1 radius (le_refl 1)
    (by norm_num) (2 / 5) (3 / 5) (by norm_num) (by norm_num [clip])
  refine ⟨Witness.codeObj κ (-1) (-1) (1 / 10) 0 (1 / 10), max F₁ F₂, fun fuel hf v w => ?_⟩
  let E := patternEnv (codeAutomaton fuel G 1) CodeObj.reset radius 1
    fun _ => .ok (fun _ _ _ _ => 1 : Univ ℝ 1 1 1 1)
  have f₁ := fun v => oneRollout_fitness (E := E) (seedAll := seedAll) (seed := seed) (a := v) rfl
    (H₁ fuel (by omega) (seedAll seed))
  have f₂ := fun v => oneRollout_fitness (E := E) (seedAll := seedAll) (seed := seed) (a := v) rfl
    (H₂ fuel (by omega) (seedAll seed))
  refine ⟨-growthPenalty (4 / 5) 1, -growthPenalty (3 / 5) 1, ?_, ?_, ?_⟩
  · show (E.evalAll seedAll 1 seed [v, w] _ g).map (·.1) = _
    simp only [Env.evalAll, f₁, f₂, Except.map]
  · unfold growthPenalty
    rw [abs_of_nonneg (by norm_num), abs_of_nonneg (by norm_num)]
    norm_num
  · show (E.getFitness seedAll 1 1 seed _ w).map (·.1) = _
    rw [f₁]; rfl

theorem coevo_step {M : Automaton σ G C} (reset : σ → σ) (radius : ℝ) (caSteps : Nat)
    {pattern : List ℝ → Except PyErr (Univ ℝ 1 C D D)} {w r : List ℝ} {u : Univ ℝ 1 C D D}
    (hp : pattern w = .ok u) {s s' : σ} (hs : M.setParams s r = (s', none)) (g : G) :
    (coevoEnv M reset radius caSteps w.length pattern).step s (w ++ r) g =
      gliderEpisode M reset radius caSteps s' u g := by
  simp only [coevoEnv, List.take_left, List.drop_left, hp, hs]

/-- C93: nor in coevolution with a `CODE` object as it is constructed by default: an agent that dies at
once when it is evaluated alone survives after another one. -/
theorem coevo_code_refuted (seedAll : Nat → G) (seed : Nat) (radius : ℝ) (g : G) (weights : List ℝ) :
    ∃ (s : CodeObj) (r r' : List ℝ) (F : Nat), s.prevDt = 3 / 10 ∧ s.maxDt = 1 / 2 ∧
      s.minDt = 1 / 100 ∧ s.errThr = 1 / 1000 ∧ ∀ fuel ≥ F,
      let E := coevoEnv (codeAutomaton fuel G 1) CodeObj.reset radius 1 weights.length
        fun _ => .ok (fun _ _ _ _ => 1 / 10 : Univ ℝ 1 1 1 1)
      ∃ a b : ℝ,
        (E.evalAll seedAll 1 seed [weights ++ r, weights ++ r'] s g).map (·.1) =
          .ok [(a, 27 / 250), (b, 2 / 25)] ∧ -1 < b ∧
        (E.getFitness seedAll 1 1 seed s (weights ++ r')).map (·.1) = .ok (-1, 0) := by
  obtain ⟨κ, hκ⟩ := (mixture_kernel_iff 1 [1 / 2, 3 / 20]).2 ⟨⟨by decide, by decide⟩, by decide⟩
  have hr := mixture_kernel_radius hκ
  obtain ⟨F₁, H₁⟩ := grow_episode (G := G) hr (1 / 10) 0 (3 / 10) radius (by norm_num)
  obtain ⟨F₂, H₂⟩ := shrink_episode (G := G) hr (1 / 100) (0 + 1 / 100) (1 / 100) (1 / 10) radius
    (by norm_num) (by norm_num) (1 / 50) (2 / 25) (by norm_num) (by norm_num [clip])
  obtain ⟨F₃, H₃⟩ := shrink_episode (G := G) hr (1 / 10) 0 (3 / 10) (1 / 10) radius
    (by norm_num) (by norm_num) (1 / 2) 0 (by norm_num) (by norm_num [clip])
  refine ⟨Witness.codeObj κ 0 0 (1 / 10) 0 (3 / 10), [0, 8, 1 / 2, 3 / 20], [-1, -1, 1 / 2, 3 / 20],
    max F₁ (max F₂ F₃), rfl, rfl, rfl, rfl, fun fuel hf => ?_⟩
  have hset : ∀ a b a' b' dt t prev : ℝ, (codeAutomaton fuel G 1).setParams
      (Witness.codeObj κ a b dt t prev) [a', b', 1 / 2, 3 / 20] =
      (Witness.codeObj κ a' b' dt t prev, none) := by
    intro a b a' b' dt t prev
    show (CodeObj.mk ((Witness.constObj κ a b dt t).setParams _).1 _ _ _ _,
      ((Witness.constObj κ a b dt t).setParams _).2) = _
    rw [constObj_setParams hκ]
    rfl
  let E := coevoEnv (codeAutomaton fuel G 1) CodeObj.reset radius 1 weights.length
    fun _ => .ok (fun _ _ _ _ => 1 / 10 : Univ ℝ 1 1 1 1)
  have f₁ := oneRollout_fitness (E := E) (seedAll := seedAll) (seed := seed) rfl
    ((coevo_step CodeObj.reset radius 1 rfl (hset 0 0 0 8 (1 / 10) 0 (3 / 10)) (seedAll seed)).trans
      (H₁ fuel (by omega) (seedAll seed)))
  have f₂ := oneRollout_fitness (E := E) (seedAll := seedAll) (seed := seed) rfl
    ((coevo_step CodeObj.reset radius 1 rfl (hset 0 8 (-1) (-1) (1 / 100) (0 + 1 / 100) (1 / 100))
      (seedAll seed)).trans (H₂ fuel (by omega) (seedAll seed)))
  have f₃ := oneRollout_fitness (E := E) (seedAll := seedAll) (seed := seed) rfl
    ((coevo_step CodeObj.reset radius 1 rfl (hset 0 0 (-1) (-1) (1 / 10) 0 (3 / 10))
      (seedAll seed)).trans (H₃ fuel (by omega) (seedAll seed)))
  refine ⟨-growthPenalty (27 / 250) (1 / 10), -growthPenalty (2 / 25) (1 / 10), ?_, ?_, ?_⟩
  · show (E.evalAll seedAll 1 seed _ _ g).map (·.1) = _
    simp only [Env.evalAll, f₁, f₂, Except.map]
  · unfold growthPenalty
    rw [abs_of_nonneg (by norm_num)]
    norm_num
  · show (E.getFitness seedAll 1 1 seed _ _).map (·.1) = _
    rw [f₃]
    simp [Except.map, growthPenalty]

/-! ## C92: what is saved -/

/-- C92: the config `rank_population` saves does not depend on the rule part of the agent, if the
network has at least as many weights as the rule has parameters. -/
theorem coevo_saved_ignores_rule (o : CCAObj) (l : List ℝ) (hk : o.kernelParams = .vec l)
    (w : List ℝ)
    (hw : (readActs o.genesis).length + (readActs o.persistence).length + l.length ≤ w.length)
    (r r' : List ℝ) : o.rankSave (w ++ r) = o.rankSave (w ++ r') := by
  have key : ∀ r, o.setParams (w ++ r) = o.setParams (w.take
      ((readActs o.genesis).length + (readActs o.persistence).length + l.length)) := by
    intro r
    conv_lhs => rw [← List.take_append_drop ((readActs o.genesis).length +
      (readActs o.persistence).length + l.length) w, List.append_assoc]
    exact cca_params_longer o l hk _ _ (by rw [List.length_take]; omega)
  unfold CCAObj.rankSave
  rw [key r, key r']

/-- C92: its growth parameters are the first weights of the network. -/
theorem coevo_saved (o : CCAObj) (gc pc : ActCfg) (hg : o.genCfg = some gc)
    (hp : o.perCfg = some pc) (w r : List ℝ)
    (hw : (readActs o.genesis).length + (readActs o.persistence).length ≤ w.length) (cfg : Config)
    (h : o.rankSave (w ++ r) = .ok cfg) :
    cfg.genesis.parameters = some (.vec (w.take (readActs o.genesis).length)) ∧
    cfg.persistence.parameters =
      some (.vec ((w.drop (readActs o.genesis).length).take (readActs o.persistence).length)) := by
  unfold CCAObj.rankSave at h
  split at h
  · cases h
  · rename_i o' hs
    cases h
    obtain ⟨h1, h2⟩ := growth_config_current o o' (w ++ r) gc pc hg hp hs
    rw [h1, h2, List.take_append_of_le_length (by omega), List.drop_append_of_le_length (by omega),
      List.take_append_of_le_length (by rw [List.length_drop]; omega)]
    exact ⟨rfl, rfl⟩

/-- C92: the saving succeeds. -/
theorem coevo_saves (o : CCAObj) (l : List ℝ) (hk : o.kernelParams = .vec l)
    (hl : MixtureLength l.length) (hr : o.kernelRadius ≠ 0) (w r : List ℝ)
    (hw : (readActs o.genesis).length + (readActs o.persistence).length + l.length ≤ w.length) :
    ∃ cfg, o.rankSave (w ++ r) = .ok cfg := by
  let n := (readActs o.genesis).length + (readActs o.persistence).length + l.length
  have ho : o.getParams = .ok (readActs o.genesis ++ readActs o.persistence ++ l) := by
    simp [CCAObj.getParams, hk, KParams.ravel, bind, Except.bind, pure, Except.pure]
  obtain ⟨o', h, _⟩ := cca_params_roundtrip o l hk hl hr _ (w.take n) ho
    (by rw [List.length_take]; simp [n] at hw ⊢; omega)
  refine ⟨o'.makeConfig.1, ?_⟩
  rw [coevo_saved_ignores_rule o l hk w hw r []]
  conv_lhs => rw [List.append_nil, ← List.take_append_drop n w]
  unfold CCAObj.rankSave
  rw [cca_params_longer o l hk (w.take n) (w.drop n) (by rw [List.length_take]; omega), h]

theorem setParams_growth_length {o o' : CCAObj} {v : List ℝ} (h : o.setParams v = (o', none)) :
    (readActs o'.genesis).length = (readActs o.genesis).length ∧
    (readActs o'.persistence).length = (readActs o.persistence).length ∧
    o'.genCfg = o.genCfg ∧ o'.perCfg = o.perCfg := by
  by_cases h1 : v.length < (readActs o.genesis).length + (readActs o.persistence).length
  · obtain ⟨_, _, h2, _⟩ := cca_params_short o v h1
    rw [h] at h2; cases h2
  · obtain ⟨gs, g1, g2, _⟩ := writeActs_enough o.genesis v (by omega)
    obtain ⟨ps, p1, p2, _⟩ := writeActs_enough o.persistence (v.drop (readActs o.genesis).length)
      (by rw [List.length_drop]; omega)
    rw [CCAObj.setParams, g1] at h
    simp only at h
    rw [p1] at h
    simp only at h
    split at h
    · cases h
    · split at h
      · cases h
      · cases h
        simp only [CCAObj.initNbLayer, CCAObj.addNeighborhoodKernel, g2, p2, List.length_take,
          List.length_drop, and_true]
        omega

/-- C92: the configs in the log, on the other hand, hold the rules of the elite. -/
theorem coevo_logged (k : Nat) (elite : List (List ℝ)) : ∀ (o : CCAObj) (gc pc : ActCfg),
    o.genCfg = some gc → o.perCfg = some pc → ∀ cfgs, coevoConfigs o k elite = .ok cfgs →
    List.Forall₂ (fun v cfg =>
      cfg.genesis.parameters = some (.vec ((v.drop k).take (readActs o.genesis).length)) ∧
      cfg.persistence.parameters = some (.vec (((v.drop k).drop (readActs o.genesis).length).take
        (readActs o.persistence).length))) elite cfgs := by
  unfold coevoConfigs
  induction elite with
  | nil =>
    intro o gc pc _ _ cfgs h
    cases h
    exact .nil
  | cons v vs ih =>
    intro o gc pc hg hp cfgs h
    rw [List.map_cons, CCAObj.eliteConfigs] at h
    split at h
    · cases h
    · rename_i o' hs
      obtain ⟨rest, h1, h2⟩ := bind_ok h
      cases h2
      obtain ⟨l1, l2, _, _⟩ := setParams_growth_length hs
      have := ih o'.makeConfig.2 _ _ rfl rfl rest h1
      rw [show o'.makeConfig.2.genesis = o'.genesis from rfl,
        show o'.makeConfig.2.persistence = o'.persistence from rfl, l1, l2] at this
      exact .cons (growth_config_current o o' (v.drop k) gc pc hg hp hs) this

/-- C92: so what is saved is the rule that was scored exactly if the first weights of the network
happen to equal its growth parameters. -/
theorem coevo_saved_iff (o : CCAObj) (gc pc : ActCfg) (hg : o.genCfg = some gc)
    (hp : o.perCfg = some pc) (w r : List ℝ)
    (hw : (readActs o.genesis).length + (readActs o.persistence).length ≤ w.length)
    (saved logged : Config) (hs : o.rankSave (w ++ r) = .ok saved)
    (hl : coevoConfigs o w.length [w ++ r] = .ok [logged]) :
    (saved.genesis.parameters = logged.genesis.parameters ∧
      saved.persistence.parameters = logged.persistence.parameters) ↔
    w.take ((readActs o.genesis).length + (readActs o.persistence).length) =
      r.take ((readActs o.genesis).length + (readActs o.persistence).length) := by
  obtain ⟨s1, s2⟩ := coevo_saved o gc pc hg hp w r hw saved hs
  have hf := coevo_logged w.length _ o gc pc hg hp _ hl
  rw [List.forall₂_cons] at hf
  obtain ⟨⟨l1, l2⟩, -⟩ := hf
  rw [s1, s2, l1, l2, List.drop_left]
  simp only [Option.some.injEq, ParamVal.vec.injEq]
  rw [List.take_add, List.take_add]
  constructor
  · rintro ⟨h1, h2⟩
    rw [h1, h2]
  · intro h
    have hlen : (w.take (readActs o.genesis).length).length = (r.take (readActs o.genesis).length).length := by
      have := congrArg List.length h
      simp only [List.length_append, List.length_take, List.length_drop] at this ⊢
      omega
    exact List.append_inj h hlen

/-- C92: for every automaton with a growth parameter and every network there is an agent whose
saved config differs from the one that is logged for it. -/
theorem coevo_saved_refuted (o : CCAObj) (gc pc : ActCfg) (hg : o.genCfg = some gc)
    (hp : o.perCfg = some pc) (l : List ℝ) (hk : o.kernelParams = .vec l)
    (hl : MixtureLength l.length) (hr : o.kernelRadius ≠ 0)
    (hpos : 0 < (readActs o.genesis).length) (w : List ℝ)
    (hw : (readActs o.genesis).length + (readActs o.persistence).length + l.length ≤ w.length) :
    ∃ (r : List ℝ) (saved logged : Config), r.length =
        (readActs o.genesis).length + (readActs o.persistence).length + l.length ∧
      o.rankSave (w ++ r) = .ok saved ∧ coevoConfigs o w.length [w ++ r] = .ok [logged] ∧
      saved.genesis.parameters ≠ logged.genesis.parameters := by
  let n := (readActs o.genesis).length + (readActs o.persistence).length + l.length
  let r : List ℝ := List.replicate n (w.headD 0 + 1)
  have hrl : r.length = n := List.length_replicate
  have ho : o.getParams = .ok (readActs o.genesis ++ readActs o.persistence ++ l) := by
    simp [CCAObj.getParams, hk, KParams.ravel, bind, Except.bind, pure, Except.pure]
  obtain ⟨o', h, _⟩ := cca_params_roundtrip o l hk hl hr _ r ho
    (by rw [hrl]; simp [n]; omega)
  obtain ⟨saved, hs⟩ := coevo_saves o l hk hl hr w r hw
  have hlog : coevoConfigs o w.length [w ++ r] = .ok [o'.makeConfig.1] := by
    unfold coevoConfigs
    simp only [List.map_cons, List.map_nil, List.drop_left, CCAObj.eliteConfigs, h]
    rfl
  refine ⟨r, saved, _, hrl, hs, hlog, fun heq => ?_⟩
  obtain ⟨s1, -⟩ := coevo_saved o gc pc hg hp w r (by omega) saved hs
  have hf := coevo_logged w.length _ o gc pc hg hp _ hlog
  rw [List.forall₂_cons] at hf
  obtain ⟨⟨l1, -⟩, -⟩ := hf
  rw [s1, l1, List.drop_left] at heq
  simp only [Option.some.injEq, ParamVal.vec.injEq] at heq
  obtain ⟨a, ha⟩ : ∃ a, (readActs o.genesis).length = a + 1 := ⟨_, (Nat.succ_pred_eq_of_pos hpos).symm⟩
  obtain ⟨m, hm⟩ : ∃ m, n = m + 1 := ⟨n - 1, by omega⟩
  rcases w with _ | ⟨x, w⟩
  · rw [List.length_nil] at hw; omega
  · rw [ha] at heq
    simp only [r, hm, List.replicate_succ, List.take_succ_cons, List.cons.injEq, List.headD_cons] at heq
    linarith [heq.1]

/-! ## The hypotheses can be met -/

example (o : CCAObj) (radius : ℝ) (u : Univ ℝ 1 1 64 64) (seedAll : Nat → G) (g : G) :
    let E := patternEnv (ccaAutomaton G 1) CCAObj.reset radius 100
      fun v => if v.length = 841 then .ok u else .error .value
    (E.evalAll seedAll 3 7 [List.replicate 841 0, List.replicate 841 1] o g).map (·.1) =
      [List.replicate 841 0, List.replicate 841 1].mapM fun v =>
        (E.getFitness seedAll 1 3 7 o v).map (·.1) :=
  pattern_history_free o radius 100 _ seedAll 3 7 _ g

example (κ : AnyKernel) (radius : ℝ) (u : Univ ℝ 1 1 64 64) (seedAll : Nat → G) (g : G) :
    let E := coevoEnv (metaAutomaton G 1) MetaObj.reset radius 100 2 fun _ => .ok u
    let s : MetaObj 1 := ⟨Witness.constObj κ 0 0 (1 / 10) 0, 1 / 4, none⟩
    (E.evalAll seedAll 3 7 [[5, 6, 1, 0, 1 / 2, 3 / 20], [7, 8, 2, -1, 1 / 3, 1 / 10]] s g).map (·.1) =
      [[5, 6, 1, 0, 1 / 2, 3 / 20], [7, 8, 2, -1, 1 / 3, 1 / 10]].mapM fun v =>
        (E.getFitness seedAll 1 3 7 s v).map (·.1) :=
  coevo_history_free_meta ⟨Witness.constObj κ 0 0 (1 / 10) 0, 1 / 4, none⟩ [1 / 2, 3 / 20] rfl radius
    100 2 _ seedAll 3 7 _ (by simp [Witness.constObj, readActs, readTensors, Act.tensors]) g

example (κ : AnyKernel) (radius : ℝ) (u : Univ ℝ 1 1 64 64) (seedAll : Nat → G) (g : G) :
    let E := coevoEnv (ccaAutomaton G 1) CCAObj.reset radius 100 2 fun _ => .ok u
    (E.getFitness seedAll 1 5 3 (Witness.constObj κ 0 0 (1 / 10) 0)
        [5, 6, 1, 0, 1 / 2, 3 / 20]).map (·.1) =
      (E.step (Witness.constObj κ 0 0 (1 / 10) 0) [5, 6, 1, 0, 1 / 2, 3 / 20] g).map (·.1) :=
  coevo_one_rollout (Witness.constObj κ 0 0 (1 / 10) 0) [1 / 2, 3 / 20] rfl radius 100 2 _ seedAll
    (by decide) (by decide) 3 _ (by simp [Witness.constObj, readActs, readTensors, Act.tensors]) g

/-- An object that has been saved once meets the hypotheses of the theorems on saving. -/
example (κ : AnyKernel) : ∃ (r : List ℝ) (saved logged : Config),
    let o := (Witness.constObj κ 0 0 (1 / 10) 0).makeConfig.2
    r.length = 4 ∧ o.rankSave ([1, 2, 3, 4, 5] ++ r) = .ok saved ∧
      coevoConfigs o 5 [[1, 2, 3, 4, 5] ++ r] = .ok [logged] ∧
      saved.genesis.parameters ≠ logged.genesis.parameters :=
  coevo_saved_refuted (Witness.constObj κ 0 0 (1 / 10) 0).makeConfig.2 _ _ rfl rfl [1 / 2, 3 / 20] rfl
    ⟨by decide, by decide⟩ (show (1 : Nat) ≠ 0 by decide) (by simp [CCAObj.makeConfig, Witness.constObj, readActs,
      readTensors, Act.tensors]) [1, 2, 3, 4, 5]
    (by simp [CCAObj.makeConfig, Witness.constObj, readActs, readTensors, Act.tensors])

end Yuca
