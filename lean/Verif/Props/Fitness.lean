import Verif.Props.Evaluate2

/-!
# C89: fitness is the mean reward
-/

namespace Yuca

variable {σ A G : Type}

namespace Spec

/-- One episode: the environment is stepped with the action again and again; the list holds the
reward and the active proportion of each step. -/
inductive Episode (E : Env σ A G) (a : A) : σ → G → List (ℝ × ℝ) → σ → G → Prop
  | nil (s : σ) (g : G) : Episode E a s g [] s g
  | cons {s s₁ s₂ : σ} {g g₁ g₂ : G} {r : ℝ × ℝ} {rs : List (ℝ × ℝ)} :
      E.step s a g = .ok (r, s₁, g₁) → Episode E a s₁ g₁ rs s₂ g₂ →
      Episode E a s g (r :: rs) s₂ g₂

/-- Episodes one after the other, each of `steps` steps after a reset. -/
inductive Episodes (E : Env σ A G) (a : A) (steps : Nat) : σ → G → List (List (ℝ × ℝ)) → σ → G → Prop
  | nil (s : σ) (g : G) : Episodes E a steps s g [] s g
  | cons {s s₁ s₂ : σ} {g g₁ g₂ : G} {ep : List (ℝ × ℝ)} {eps : List (List (ℝ × ℝ))} :
      Episode E a (E.reset s g).1 (E.reset s g).2 ep s₁ g₁ → ep.length = steps →
      Episodes E a steps s₁ g₁ eps s₂ g₂ → Episodes E a steps s g (ep :: eps) s₂ g₂

end Spec

open Spec

theorem steps_iff (E : Env σ A G) (a : A) (k : Nat) (s s' : σ) (g g' : G) (r : ℝ × ℝ) :
    E.steps a k s g = .ok (r, s', g') ↔
      ∃ ep, Episode E a s g ep s' g' ∧ ep.length = k ∧ r = ((ep.map Prod.fst).sum, (ep.map Prod.snd).sum) := by
  induction k generalizing s g r with
  | zero =>
    rw [Env.steps]
    constructor
    · intro h
      cases h
      exact ⟨[], .nil _ _, rfl, rfl⟩
    · rintro ⟨ep, h, hl, rfl⟩
      cases h with
      | nil => rfl
      | cons _ _ => cases hl
  | succ k ih =>
    rw [Env.steps]
    constructor
    · intro h
      cases h1 : E.step s a g with
      | error e => rw [h1] at h; cases h
      | ok x =>
        obtain ⟨r1, s1, g1⟩ := x
        rw [h1] at h
        dsimp only at h
        cases h2 : E.steps a k s1 g1 with
        | error e => rw [h2] at h; cases h
        | ok y =>
          obtain ⟨r2, s2, g2⟩ := y
          rw [h2] at h
          cases h
          obtain ⟨ep, h3, h4, h5⟩ := (ih _ _ _).1 h2
          refine ⟨r1 :: ep, .cons h1 h3, by simp [h4], ?_⟩
          rw [h5]
          simp
    · rintro ⟨ep, h, hl, rfl⟩
      cases h with
      | nil => cases hl
      | @cons _ s1 _ _ g1 _ r1 rs h1 h3 =>
        rw [h1]
        dsimp only
        rw [(ih _ _ _).2 ⟨rs, h3, by simpa using hl, rfl⟩]
        simp

theorem replicates_iff (E : Env σ A G) (a : A) {steps : Nat} (hs : 0 < steps) (k : Nat) (s s' : σ) (g g' : G)
    (r : List ℝ × ℝ) :
    E.replicates a steps k s g = .ok (r, s', g') ↔
      ∃ eps, Episodes E a steps s g eps s' g' ∧ eps.length = k ∧
        r = (eps.map fun ep => (ep.map Prod.fst).sum / (steps : ℝ), (eps.flatten.map Prod.snd).sum) := by
  induction k generalizing s g r with
  | zero =>
    rw [Env.replicates]
    constructor
    · intro h
      cases h
      exact ⟨[], .nil _ _, rfl, rfl⟩
    · rintro ⟨ep, h, hl, rfl⟩
      cases h with
      | nil => rfl
      | cons _ _ => cases hl
  | succ k ih =>
    rw [Env.replicates]
    constructor
    · intro h
      cases h1 : E.steps a steps (E.reset s g).1 (E.reset s g).2 with
      | error e => rw [h1] at h; cases h
      | ok x =>
        obtain ⟨r1, s1, g1⟩ := x
        rw [h1] at h
        dsimp only at h
        rw [if_neg hs.ne'] at h
        cases h2 : E.replicates a steps k s1 g1 with
        | error e => rw [h2] at h; cases h
        | ok y =>
          obtain ⟨r2, s2, g2⟩ := y
          rw [h2] at h
          cases h
          obtain ⟨ep, h3, h4, h5⟩ := (steps_iff _ _ _ _ _ _ _ _).1 h1
          obtain ⟨eps, h6, h7, h8⟩ := (ih _ _ _).1 h2
          refine ⟨ep :: eps, .cons h3 h4 h6, by simp [h7], ?_⟩
          rw [h5, h8]
          simp
    · rintro ⟨eps, h, hl, rfl⟩
      cases h with
      | nil => cases hl
      | @cons _ s1 _ _ g1 _ ep eps h1 h2 h3 =>
        rw [(steps_iff _ _ _ _ _ _ _ _).2 ⟨ep, h1, h2, rfl⟩]
        dsimp only
        rw [if_neg hs.ne', (ih _ _ _).2 ⟨eps, h3, by simpa using hl, rfl⟩]
        simp

/-- C89: the fitness of an agent is the mean of all rewards of its replicates, which run one after
the other from the generators seeded once, each after a reset; likewise the active proportion. -/
theorem fitness_mean (E : Env σ A G) (seedAll : Nat → G) {steps reps : Nat} (hs : 0 < steps)
    (hr : 0 < reps) (seed : Nat) (s s' : σ) (g' : G) (a : A) (f p : ℝ) :
    E.getFitness seedAll steps reps seed s a = .ok ((f, p), s', g') ↔
      ∃ eps, Episodes E a steps s (seedAll seed) eps s' g' ∧ eps.length = reps ∧
        f = (eps.flatten.map Prod.fst).sum / ((steps : ℝ) * reps) ∧
        p = (eps.flatten.map Prod.snd).sum / ((steps : ℝ) * reps) := by
  have key : ∀ eps : List (List (ℝ × ℝ)), eps.length = reps →
      (eps.map fun ep => (ep.map Prod.fst).sum / (steps : ℝ)).sum /
        ((eps.map fun ep => (ep.map Prod.fst).sum / (steps : ℝ)).length : ℝ) =
      (eps.flatten.map Prod.fst).sum / ((steps : ℝ) * reps) := by
    intro eps hl
    have h1 : ∀ l : List (List (ℝ × ℝ)), (l.map fun ep => (ep.map Prod.fst).sum / (steps : ℝ)).sum =
        (l.flatten.map Prod.fst).sum / (steps : ℝ) := by
      intro l
      induction l with
      | nil => simp
      | cons x l ih =>
        simp only [List.map_cons, List.sum_cons, List.flatten_cons, List.map_append, List.sum_append,
          ih]
        ring
    rw [h1, List.length_map, hl, div_div]
  unfold Env.getFitness
  constructor
  · intro h
    cases h1 : E.replicates a steps reps s (seedAll seed) with
    | error e => rw [h1] at h; cases h
    | ok x =>
      obtain ⟨r1, s1, g1⟩ := x
      rw [h1] at h
      dsimp only at h
      rw [if_neg hr.ne'] at h
      cases h
      obtain ⟨eps, h2, h3, rfl⟩ := (replicates_iff E a hs _ _ _ _ _ _).1 h1
      exact ⟨eps, h2, h3, key eps h3, rfl⟩
  · rintro ⟨eps, h2, h3, rfl, rfl⟩
    rw [(replicates_iff E a hs reps s s' (seedAll seed) g' _).2 ⟨eps, h2, h3, rfl⟩]
    dsimp only
    rw [if_neg hr.ne', key eps h3]

/-- C89: with no steps, or no replicates, the evaluation fails with a `ZeroDivisionError`. -/
theorem fitness_zero (E : Env σ A G) (seedAll : Nat → G) (steps reps seed : Nat) (s : σ) (a : A)
    (h : steps = 0 ∨ reps = 0) :
    E.getFitness seedAll steps reps seed s a = .error .zeroDiv := by
  unfold Env.getFitness
  cases reps with
  | zero => rfl
  | succ k =>
    obtain rfl : steps = 0 := by simpa using h
    rfl

/-- C89: all steps of an episode of a halting environment reward and report alike. -/
theorem episode_halting {C : Nat} {M : Automaton σ G C} {batch dim caSteps : Nat}
    {rand : G → Univ ℝ batch C dim dim × G} {v : List ℝ} {s s' : σ} {g g' : G} {ep : List (ℝ × ℝ)}
    (h : Episode (simpleHalting M batch dim caSteps rand) v s g ep s' g') :
    ∀ r ∈ ep, r.1 = -|0.5001 - r.2| ∧ 0 ≤ r.2 ∧ r.2 ≤ 1 := by
  induction h with
  | nil => simp
  | @cons s s₁ s₂ g g₁ g₂ r rs h1 _ ih =>
    intro x hx
    rcases List.mem_cons.1 hx with rfl | hx
    · rw [simpleHalting_step] at h1
      cases h2 : M.setParams s v with
      | mk s3 o =>
        rw [h2] at h1
        cases o with
        | some e => cases h1
        | none =>
          dsimp only at h1
          cases h3 : haltingRollout M.rollStep caSteps (s3, (rand g).2) (startGrid dim (rand g).1) with
          | error e => rw [h3] at h1; cases h1
          | ok y =>
            obtain ⟨u, s4, g4⟩ := y
            rw [h3] at h1
            cases h1
            exact ⟨(halting_reward_range u).1, (activeGrid_range u).1, (activeGrid_range u).2⟩
    · exact ih x hx

/-- C89: in a halting environment the fitness lies between -0.5001 and 0, the active proportion
between 0 and 1, and the fitness is at most minus the distance of that proportion from 0.5001. -/
theorem halting_fitness {C : Nat} (M : Automaton σ G C) (batch dim caSteps : Nat)
    (rand : G → Univ ℝ batch C dim dim × G) (seedAll : Nat → G) (steps reps seed : Nat) (s s' : σ)
    (g' : G) (v : List ℝ) (f p : ℝ)
    (h : (simpleHalting M batch dim caSteps rand).getFitness seedAll steps reps seed s v =
      .ok ((f, p), s', g')) :
    -0.5001 ≤ f ∧ f ≤ -|0.5001 - p| ∧ 0 ≤ p ∧ p ≤ 1 := by
  have hs : 0 < steps := by
    rcases Nat.eq_zero_or_pos steps with h0 | h0
    · rw [fitness_zero _ _ _ _ _ _ _ (Or.inl h0)] at h; cases h
    · exact h0
  have hr : 0 < reps := by
    rcases Nat.eq_zero_or_pos reps with h0 | h0
    · rw [fitness_zero _ _ _ _ _ _ _ (Or.inr h0)] at h; cases h
    · exact h0
  obtain ⟨eps, h1, h2, rfl, rfl⟩ := (fitness_mean _ seedAll hs hr seed s s' g' v f p).1 h
  have hall : eps.flatten.length = steps * reps ∧ ∀ r ∈ eps.flatten,
      r.1 = -|0.5001 - r.2| ∧ 0 ≤ r.2 ∧ r.2 ≤ 1 := by
    rw [← h2]
    clear h h2
    generalize seedAll seed = g₀ at h1
    induction h1 with
    | nil => simp
    | @cons s s₁ s₂ g g₁ g₂ ep eps h3 h4 _ ih =>
      constructor
      · rw [List.flatten_cons, List.length_append, ih.1, h4, List.length_cons]
        ring
      · intro r hr
        rw [List.flatten_cons, List.mem_append] at hr
        rcases hr with hr | hr
        · exact episode_halting h3 r hr
        · exact ih.2 r hr
  have hN : (0 : ℝ) < (steps : ℝ) * reps := by positivity
  have hNl : (eps.flatten.length : ℝ) = (steps : ℝ) * reps := by
    rw [hall.1]; push_cast; ring
  generalize eps.flatten = l at hall hNl
  have b : ∀ l : List (ℝ × ℝ), (∀ r ∈ l, r.1 = -|0.5001 - r.2| ∧ 0 ≤ r.2 ∧ r.2 ≤ 1) →
      0 ≤ (l.map Prod.snd).sum ∧ (l.map Prod.snd).sum ≤ l.length ∧
      -0.5001 * l.length ≤ (l.map Prod.fst).sum ∧
      (l.map Prod.fst).sum ≤ -|0.5001 * l.length - (l.map Prod.snd).sum| := by
    intro l
    induction l with
    | nil => simp
    | cons x l ih =>
      intro hl
      obtain ⟨i1, i2, i3, i4⟩ := ih fun r hr => hl r (List.mem_cons_of_mem _ hr)
      obtain ⟨x1, x2, x3⟩ := hl x List.mem_cons_self
      simp only [List.map_cons, List.sum_cons, List.length_cons, Nat.cast_add, Nat.cast_one]
      have hx : -0.5001 ≤ x.1 := by
        rw [x1, neg_le_neg_iff, abs_le]
        constructor <;> linarith
      refine ⟨by linarith, by linarith, by linarith, ?_⟩
      have ht := abs_add_le (0.5001 - x.2) (0.5001 * (l.length : ℝ) - (l.map Prod.snd).sum)
      have e : (0.5001 - x.2) + (0.5001 * (l.length : ℝ) - (l.map Prod.snd).sum) =
          0.5001 * ((l.length : ℝ) + 1) - (x.2 + (l.map Prod.snd).sum) := by ring
      rw [e] at ht
      linarith
  obtain ⟨b1, b2, b3, b4⟩ := b l hall.2
  rw [hNl] at b2 b3 b4
  refine ⟨?_, ?_, div_nonneg b1 hN.le, (div_le_one hN).2 b2⟩
  · rw [le_div_iff₀ hN]; exact b3
  · have e : 0.5001 - (l.map Prod.snd).sum / ((steps : ℝ) * reps) =
        (0.5001 * ((steps : ℝ) * reps) - (l.map Prod.snd).sum) / ((steps : ℝ) * reps) := by
      field_simp
    rw [e, abs_div, abs_of_pos hN, ← neg_div]
    exact div_le_div_of_nonneg_right b4 hN.le

/-! ## `RandomWrapper` -/

/-- C89: the reward of `RandomWrapper` is the number that the generator seeded with the
milliseconds of the clock gives, one of at most a thousand. -/
theorem random_reward {R : Type} (clock : Nat → ℚ) (seedAll : Nat → R) (rand : R → ℝ × R) (s : σ)
    (a : A) (g : Nat × R) :
    ∃ k : Nat, k < 1000 ∧ ⌊(clock g.1 - ⌊clock g.1⌋) * 1000⌋ = (k : ℤ) ∧
      (randomWrapper clock seedAll rand).step s a g =
        .ok (((rand (seedAll k)).1, -1), s, (g.1 + 1, (rand (seedAll k)).2)) := by
  have h0 := Int.fract_nonneg (clock g.1)
  have h1 := Int.fract_lt_one (clock g.1)
  refine ⟨⌊Int.fract (clock g.1) * 1000⌋₊, ?_, ?_, rfl⟩
  · rw [Nat.floor_lt (by positivity)]
    push_cast
    linarith
  · have hfr : clock g.1 - ⌊clock g.1⌋ = Int.fract (clock g.1) := rfl
    rw [hfr, Int.natCast_floor_eq_floor (by positivity)]

theorem random_steps {R : Type} (clock : Nat → ℚ) (seedAll : Nat → R) (rand : R → ℝ × R) (s : σ)
    (a a' : A) (k c : Nat) (r r' : R) :
    ((randomWrapper clock seedAll rand).steps a (k + 1) s (c, r)) =
      (randomWrapper clock seedAll rand).steps a' (k + 1) s (c, r') := by
  induction k generalizing c r r' with
  | zero => rfl
  | succ k ih =>
    rw [Env.steps, Env.steps]
    obtain ⟨m, _, _, h1⟩ := random_reward clock seedAll rand s a (c, r)
    obtain ⟨m', _, hm', h2⟩ := random_reward clock seedAll rand s a' (c, r')
    have h3 : (randomWrapper clock seedAll rand).step s a (c, r) =
        (randomWrapper clock seedAll rand).step s a' (c, r') := rfl
    rw [← h3, h1]
    dsimp only
    rw [ih (c + 1) _ (rand (seedAll m)).2]

/-- C89: in a `RandomWrapper` the fitness has nothing to do with the agent nor with the seed: two
evaluations that read the same clock give the same. -/
theorem random_fitness {R : Type} (clock : Nat → ℚ) (seedAll : Nat → R) (rand : R → ℝ × R) (s : σ)
    (a a' : A) (steps reps c : Nat) (hs : 0 < steps) (hr : 0 < reps) (r r' : R) :
    (randomWrapper clock seedAll rand).getFitness (fun _ => (c, r)) steps reps 0 s a =
      (randomWrapper clock seedAll rand).getFitness (fun _ => (c, r')) steps reps 0 s a' := by
  obtain ⟨n, rfl⟩ : ∃ n, steps = n + 1 := ⟨steps - 1, by omega⟩
  have key : ∀ (k c : Nat) (s : σ) (r r' : R),
      (randomWrapper clock seedAll rand).replicates a (n + 1) (k + 1) s (c, r) =
      (randomWrapper clock seedAll rand).replicates a' (n + 1) (k + 1) s (c, r') := by
    intro k
    induction k with
    | zero =>
      intro c s r r'
      have h := random_steps clock seedAll rand s a a' n c r r'
      rw [Env.replicates, Env.replicates]
      have e : ∀ g : Nat × R, (randomWrapper (A := A) clock seedAll rand).reset s g = (s, g) := fun _ => rfl
      simp only [e, h, Env.replicates]
    | succ k ih =>
      intro c s r r'
      have h := random_steps clock seedAll rand s a a' n c r r'
      rw [Env.replicates, Env.replicates]
      have e : ∀ g : Nat × R, (randomWrapper (A := A) clock seedAll rand).reset s g = (s, g) := fun _ => rfl
      simp only [e, h]
      cases (randomWrapper clock seedAll rand).steps a' (n + 1) s (c, r') with
      | error e => rfl
      | ok x =>
        obtain ⟨x, s1, c1, r1⟩ := x
        dsimp only
        rw [ih c1 s1 r1 r1]
  obtain ⟨m, rfl⟩ : ∃ m, reps = m + 1 := ⟨reps - 1, by omega⟩
  unfold Env.getFitness
  simp only [key m c s r r']

/-! ## The hypotheses can be met -/

/-- An environment that rewards the action: two replicates of two steps. -/
example : ∃ f p s' g', (⟨fun s g => (s, g), fun s a g => .ok ((a, 1), s, g)⟩ :
    Env Unit ℝ Nat).getFitness id 2 2 7 () 3 = .ok ((f, p), s', g') ∧ f = 3 ∧ p = 1 := by
  refine ⟨_, _, _, _, rfl, ?_, ?_⟩ <;> norm_num

end Yuca
