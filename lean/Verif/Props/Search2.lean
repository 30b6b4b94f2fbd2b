import Verif.Props.Search

/-!
# Searches complete (C83)
-/

namespace Yuca

variable {n : Nat} {σ G : Type}

open Spec

/-- With at least one agent, truncation selection finds its elite. -/
theorem rank_completes {argsort : List Fit → List Nat} (ha : Spec.Argsort argsort) (c : Cma n)
    (f : List Fit) (hlen : f.length = c.popSize) (hpop : c.popSize ≤ c.population.length)
    (hpos : 1 ≤ c.popSize) : ∃ c', c.rank argsort f = .ok c' := by
  obtain ⟨idx, h1, _, _, h4, _⟩ := truncation_correct f (argsort f) (ha f) (by omega)
  obtain ⟨E, hE⟩ := gather_ok c.population idx fun i hi => by have := h4 i hi; omega
  rw [hlen] at h1
  exact ⟨c.adapt E, by rw [Cma.rank, h1]; dsimp only; rw [hE]⟩

theorem update_completes {argsort : List Fit → List Nat} (ha : Spec.Argsort argsort) (c : Cma n)
    (r : Draw n) (f : List Fit) (hmode : c.mode = 0) (hlen : f.length = c.popSize)
    (hpop : c.popSize ≤ c.population.length) (hpos : 1 ≤ c.popSize) :
    ∃ c', c.update argsort r f = .ok c' := by
  obtain ⟨idx, h1, _, _, h4, _⟩ := truncation_correct f (argsort f) (ha f) (by omega)
  obtain ⟨E, hE⟩ := gather_ok c.population idx fun i hi => by have := h4 i hi; omega
  rw [hlen] at h1
  have hs : selectElite argsort c.mode (eliteKeep c.popSize) r f = .ok idx := by rw [hmode]; exact h1
  unfold Cma.update
  rw [hs]
  dsimp only
  rw [hE]
  exact ⟨_, rfl⟩

/-- An environment whose steps never raise. -/
def Spec.NeverRaises {A : Type} (E : Env σ A G) : Prop := ∀ s a g, ∃ y, E.step s a g = .ok y

section

variable {E E₂ : Env σ (List ℝ) G} (hE : NeverRaises E)

include hE

theorem steps_complete (a : List ℝ) (k : Nat) : ∀ (s : σ) (g : G), ∃ y, E.steps a k s g = .ok y := by
  induction k with
  | zero => exact fun s g => ⟨_, rfl⟩
  | succ k ih =>
    intro s g
    obtain ⟨⟨r, s₁, g₁⟩, h⟩ := hE s a g
    obtain ⟨⟨r₂, s₂, g₂⟩, h₂⟩ := ih s₁ g₁
    exact ⟨_, by rw [Env.steps, h]; dsimp only; rw [h₂]⟩

theorem replicates_complete (a : List ℝ) (m k : Nat) (hm : m ≠ 0) : ∀ (s : σ) (g : G),
    ∃ y, E.replicates a m k s g = .ok y := by
  induction k with
  | zero => exact fun s g => ⟨_, rfl⟩
  | succ k ih =>
    intro s g
    obtain ⟨⟨r, s₁, g₁⟩, h⟩ := steps_complete hE a m (E.reset s g).1 (E.reset s g).2
    obtain ⟨⟨r₂, s₂, g₂⟩, h₂⟩ := ih s₁ g₁
    exact ⟨_, by rw [Env.replicates, h]; dsimp only; rw [if_neg hm, h₂]⟩

theorem evalAll_completes (seedAll : Nat → G) (reps seed : Nat) (hr : reps ≠ 0) (as : List (List ℝ)) :
    ∀ (s : σ) (g : G), ∃ rs s' g', E.evalAll seedAll reps seed as s g = .ok (rs, s', g') ∧
      rs.length = as.length := by
  induction as with
  | nil => exact fun s g => ⟨[], s, g, rfl, rfl⟩
  | cons a as ih =>
    intro s g
    obtain ⟨⟨r, s₁, g₁⟩, h⟩ := replicates_complete hE a 1 reps one_ne_zero s (seedAll seed)
    obtain ⟨rs, s₂, g₂, h₂, hl⟩ := ih s₁ g₁
    refine ⟨(r.1.sum / r.1.length, r.2 / ((1 : Nat) * reps)) :: rs, s₂, g₂, ?_, by simp [hl]⟩
    rw [Env.evalAll, Env.getFitness, h]
    dsimp only
    rw [if_neg hr]
    dsimp only
    rw [h₂]

omit hE in
theorem visits_complete (hE₂ : NeverRaises E₂) (mk : σ → σ) (vs : List (Vec n)) : ∀ (s : σ) (g : G),
    ∃ y, E₂.visits mk vs s g = .ok y := by
  induction vs with
  | nil => exact fun s g => ⟨_, rfl⟩
  | cons v vs ih =>
    intro s g
    obtain ⟨⟨r, s₁, g₁⟩, h⟩ := hE₂ s (List.ofFn v) g
    obtain ⟨y, h₂⟩ := ih (mk s₁) g₁
    exact ⟨y, by rw [Env.visits, h]; exact h₂⟩

/-- C83: a search with truncation selection whose environment never raises completes. -/
theorem live_completes (hE₂ : NeverRaises E₂) (mk : σ → σ) (uni : Bool)
    {argsort : List Fit → List Nat} (ha : Spec.Argsort argsort) (gens : Nat) (seedAll : Nat → G)
    (reps mySeed : Nat) (hr : reps ≠ 0) (read : Cma n → List Fit → G → Draw n × G) (k : Nat) :
    ∀ (g : Nat) (x : Live n σ G), x.run.cma.mode = 0 → 1 ≤ x.run.cma.popSize →
    x.run.cma.popSize ≤ x.run.cma.population.length →
    ∃ x', liveGens uni argsort gens E E₂ mk seedAll reps mySeed read k g x = .ok x' := by
  induction k with
  | zero => exact fun g x _ _ _ => ⟨x, rfl⟩
  | succ k ih =>
    intro g x hmode hpos hpop
    suffices h : ∃ x' b, liveGen uni argsort gens E E₂ mk seedAll reps mySeed read g x = .ok (x', b) ∧
        x'.run.cma.mode = 0 ∧ x'.run.cma.popSize = x.run.cma.popSize ∧
        x'.run.cma.population.length = x.run.cma.population.length by
      obtain ⟨x₁, b, h1, h2, h3, h4⟩ := h
      rw [liveGens, h1]
      cases b with
      | true => exact ⟨x₁, rfl⟩
      | false => exact ih _ _ h2 (by omega) (by omega)
    obtain ⟨rs, env, gen, hev, hrs⟩ := evalAll_completes hE seedAll reps (g * mySeed) hr
      ((x.run.cma.population.take x.run.cma.popSize).map List.ofFn) x.env x.gen
    rw [List.length_map, List.length_take, Nat.min_eq_left hpop] at hrs
    have hfl : (rs.map fun r => (r.1 : Fit)).length = x.run.cma.popSize := by
      rw [List.length_map, hrs]
    unfold liveGen
    dsimp only
    rw [if_neg (by omega), hev]
    dsimp only
    generalize (rs.map fun r => (r.1 : Fit)) = fitness at hfl ⊢
    have key : ∀ (s₁ : Run n) (gen₁ : G), s₁.cma.mode = 0 → s₁.cma.popSize = x.run.cma.popSize →
        s₁.cma.population.length = x.run.cma.population.length →
        ∃ x' b, (match E₂.visits mk (s₁.cma.elite.getD []) env gen₁ with
        | .error e => Except.error e
        | .ok (env₂, gen₂) =>
          let s₂ : Run n := { s₁ with logs := s₁.logs ++
            [(⟨x.run.cma.population.take x.run.cma.popSize, fitness, s₁.cma.elite.getD []⟩ : GenLog n)] }
          if calm fitness = true ∧ 6 < g then
            match s₂.rank uni argsort fitness with
            | .error e => Except.error e
            | .ok s₃ => Except.ok ((⟨s₃, env₂, gen₂⟩ : Live n σ G), true)
          else Except.ok ((⟨s₂, env₂, gen₂⟩ : Live n σ G), false)) = .ok (x', b) ∧
        x'.run.cma.mode = 0 ∧ x'.run.cma.popSize = x.run.cma.popSize ∧
        x'.run.cma.population.length = x.run.cma.population.length := by
      intro s₁ gen₁ h1 h2 h3
      obtain ⟨⟨env₂, gen₂⟩, hv⟩ := visits_complete hE₂ mk (s₁.cma.elite.getD []) env gen₁
      rw [hv]
      dsimp only
      by_cases hc : calm fitness = true ∧ 6 < g
      · rw [if_pos hc]
        obtain ⟨c', hc'⟩ := rank_completes ha s₁.cma fitness (by omega) (by omega) (by omega)
        rw [Run.rank]
        dsimp only
        rw [hc']
        refine ⟨_, _, rfl, ?_⟩
        obtain ⟨_, _, _, _, rfl⟩ := rank_ok hc'
        exact ⟨h1, h2, h3⟩
      · rw [if_neg hc]
        exact ⟨_, _, rfl, h1, h2, h3⟩
    by_cases hg : g = gens - 1
    · rw [if_pos hg]
      obtain ⟨c', hc'⟩ := rank_completes ha x.run.cma fitness hfl hpop hpos
      rw [Run.rank, hc']
      obtain ⟨_, _, _, _, rfl⟩ := rank_ok hc'
      exact key _ gen hmode rfl rfl
    · rw [if_neg hg]
      obtain ⟨c', hc'⟩ := update_completes ha x.run.cma (read x.run.cma fitness gen).1 fitness hmode hfl
        hpop hpos
      rw [hc']
      obtain ⟨idx, E', _, _, _, _, _, hps, hmd, _, _, hpp⟩ := update_ok hc'
      refine key { x.run with cma := c' } (read x.run.cma fitness gen).2 (hmd.trans hmode) hps ?_
      show c'.population.length = _
      rw [hpp]
      unfold resample
      rw [List.length_mapIdx, copyElite_length]

end

/-! ## Examples -/

/-- An environment whose reward is the first parameter times a random number; the state counts
the steps. -/
noncomputable def Witness.noisyEnv : Env Nat (List ℝ) ℝ where
  reset s g := (s, g)
  step s a g := .ok ((a.headD 0 * g, 0), s + 1, g + 1)

theorem noisyEnv_forgets : Forgets Witness.noisyEnv (fun _ => True) (fun _ _ => True) where
  symm _ := trivial
  trans _ _ := trivial
  reset_gen _ _ := rfl
  reset_like _ _ := trivial
  step_eq _ _ _ := rfl
  step_like _ _ _ := trivial

theorem noisyEnv_completes : NeverRaises Witness.noisyEnv := fun _ _ _ => ⟨_, rfl⟩

/-- A search of three generations with eight agents, seed 0: it completes and its best fitness
never falls. -/
example : ∃ (argsort : List Fit → List Nat) (x x' : Live 1 Nat ℝ), Spec.Argsort argsort ∧
    x.run.cma.mode = 0 ∧ 8 ≤ x.run.cma.popSize ∧
    liveGens true argsort 3 Witness.noisyEnv Witness.noisyEnv id (fun k => (k : ℝ) + 1) 1 0
      (fun _ _ g => (⟨[], [], fun _ _ => g⟩, g + 1)) 3 0 x = .ok x' ∧
    ∃ new, x'.run.logs = x.run.logs ++ new ∧ List.IsChain NoWorse new := by
  obtain ⟨argsort, ha⟩ := argsort_exists
  let x : Live 1 Nat ℝ := ⟨⟨⟨8, 0, 0, 0, (List.range 8).map fun i _ => (i : ℝ), 0, 0, none⟩, [], none⟩, 0, 0⟩
  obtain ⟨x', h⟩ := live_completes noisyEnv_completes noisyEnv_completes id true ha 3
    (fun k => (k : ℝ) + 1) 1 0 one_ne_zero
    (fun (_ : Cma 1) _ g => (⟨[], [], fun _ _ => g⟩, g + 1)) 3 0 x rfl (by simp [x]) (by simp [x])
  exact ⟨argsort, x, x', ha, rfl, le_rfl, h, best_never_falls_zero noisyEnv_forgets noisyEnv_forgets
    (fun _ => trivial) (fun _ => trivial) true argsort ha 3 _ 1 _ x x' trivial rfl le_rfl h⟩

/-- The environment is not a trivial one: its fitness depends on the seed. -/
example : fitAlone (n := 1) Witness.noisyEnv (fun k => (k : ℝ) + 1) 1 0 0 (fun _ => 1) ≠
    fitAlone (n := 1) Witness.noisyEnv (fun k => (k : ℝ) + 1) 1 0 1 (fun _ => 1) := by
  simp only [fitAlone, Env.getFitness, Env.replicates, Env.steps, Witness.noisyEnv]
  intro h
  have h' := WithTop.coe_injective h
  norm_num at h'

end Yuca
