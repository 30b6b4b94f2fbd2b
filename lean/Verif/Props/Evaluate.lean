import Verif.Model.Evaluate
import Verif.Props.Params
import Verif.Props.Rules2

/-!
# Evaluating a population (C82)
-/

namespace Yuca

variable {σ A G : Type}

/-! ## Environments that forget -/

/-- The result of an evaluation without the environment it leaves behind. -/
def Spec.visible {X : Type} (r : Except PyErr (X × σ × G)) : Except PyErr (X × G) :=
  r.map fun p => (p.1, p.2.2)

/-- `like` relates environments (those with `like s s`) whose difference no step shows; steps and
resets lead to related ones. -/
structure Spec.Forgets (E : Env σ A G) (P : A → Prop) (like : σ → σ → Prop) : Prop where
  symm : ∀ {s s' : σ}, like s s' → like s' s
  trans : ∀ {s s' s'' : σ}, like s s' → like s' s'' → like s s''
  reset_gen : ∀ {s s' : σ} (g : G), like s s' → (E.reset s g).2 = (E.reset s' g).2
  reset_like : ∀ {s : σ} (g : G), like s s → like s (E.reset s g).1
  step_eq : ∀ {s s' : σ} {a : A} (g : G), like s s' → P a →
    Spec.visible (E.step s a g) = Spec.visible (E.step s' a g)
  step_like : ∀ {s s₁ : σ} {a : A} {g g₁ : G} {r : ℝ × ℝ}, like s s → P a →
    E.step s a g = .ok (r, s₁, g₁) → like s s₁

open Spec

theorem visible_ok {X : Type} {x y : Except PyErr (X × σ × G)} (h : visible x = visible y)
    {r : X} {s : σ} {g : G} (hx : x = .ok (r, s, g)) : ∃ s', y = .ok (r, s', g) := by
  subst hx
  rcases y with e | ⟨r', s', g'⟩
  · simp [visible, Except.map] at h
  · simp only [visible, Except.map, Except.ok.injEq, Prod.mk.injEq] at h
    exact ⟨s', by rw [h.1, h.2]⟩

theorem visible_error {X : Type} {x y : Except PyErr (X × σ × G)} (h : visible x = visible y)
    {e : PyErr} (hx : x = .error e) : y = .error e := by
  subst hx
  rcases y with e' | ⟨r', s', g'⟩
  · simp only [visible, Except.map, Except.error.injEq] at h
    rw [h]
  · simp [visible, Except.map] at h

section

variable {E : Env σ A G} {P : A → Prop} {like : σ → σ → Prop} (F : Forgets E P like)

include F

theorem like_left {s s' : σ} (h : like s s') : like s s := F.trans h (F.symm h)

theorem like_right {s s' : σ} (h : like s s') : like s' s' := F.trans (F.symm h) h

theorem steps_eq {a : A} (ha : P a) (k : Nat) : ∀ {s s' : σ} (g : G), like s s' →
    visible (E.steps a k s g) = visible (E.steps a k s' g) := by
  induction k with
  | zero => intro s s' g _; rfl
  | succ k ih =>
    intro s s' g h
    have hst := F.step_eq g h ha
    rcases hx : E.step s a g with e | ⟨r, s₁, g₁⟩
    · simp only [Env.steps, hx, visible_error hst hx]
    · obtain ⟨s₁', hy⟩ := visible_ok hst hx
      have hl : like s₁ s₁' := F.trans (F.symm (F.step_like (like_left F h) ha hx))
        (F.trans h (F.step_like (like_right F h) ha hy))
      have := ih g₁ hl
      simp only [Env.steps, hx, hy]
      rcases hz : E.steps a k s₁ g₁ with e | ⟨r', s₂, g₂⟩
      · rw [visible_error this hz]
      · obtain ⟨s₂', hz'⟩ := visible_ok this hz
        rw [hz']
        rfl

theorem steps_like {a : A} (ha : P a) (k : Nat) : ∀ {s s₁ : σ} {g g₁ : G} {r : ℝ × ℝ},
    like s s → E.steps a k s g = .ok (r, s₁, g₁) → like s s₁ := by
  induction k with
  | zero =>
    intro s s₁ g g₁ r hs h
    simp only [Env.steps, Except.ok.injEq, Prod.mk.injEq] at h
    rw [← h.2.1]
    exact hs
  | succ k ih =>
    intro s s₁ g g₁ r hs h
    rcases hx : E.step s a g with e | ⟨r', s', g'⟩
    · simp [Env.steps, hx] at h
    · rcases hz : E.steps a k s' g' with e | ⟨r'', s'', g''⟩
      · simp [Env.steps, hx, hz] at h
      · simp only [Env.steps, hx, hz, Except.ok.injEq, Prod.mk.injEq] at h
        rw [← h.2.1]
        have h1 := F.step_like hs ha hx
        exact F.trans h1 (ih (like_right F h1) hz)

theorem reset_like₂ {s s' : σ} (g : G) (h : like s s') : like (E.reset s g).1 (E.reset s' g).1 :=
  F.trans (F.symm (F.reset_like g (like_left F h))) (F.trans h (F.reset_like g (like_right F h)))

theorem replicates_eq {a : A} (ha : P a) (n k : Nat) : ∀ {s s' : σ} (g : G), like s s' →
    visible (E.replicates a n k s g) = visible (E.replicates a n k s' g) := by
  induction k with
  | zero => intro s s' g _; rfl
  | succ k ih =>
    intro s s' g h
    have hst := steps_eq F ha n (E.reset s g).2 (reset_like₂ F g h)
    rcases hx : E.steps a n (E.reset s g).1 (E.reset s g).2 with e | ⟨r, s₁, g₁⟩
    · have hy := visible_error hst hx
      rw [F.reset_gen g h] at hy
      simp only [Env.replicates, hx, hy]
    · obtain ⟨s₁', hy⟩ := visible_ok hst hx
      rw [F.reset_gen g h] at hy
      have h2 := reset_like₂ F g h
      have hl : like s₁ s₁' := F.trans (F.symm (steps_like F ha n (like_left F h2) hx))
        (F.trans h2 (steps_like F ha n (like_right F h2) hy))
      have := ih g₁ hl
      simp only [Env.replicates, hx, hy]
      split
      · rfl
      · rcases hz : E.replicates a n k s₁ g₁ with e | ⟨r', s₂, g₂⟩
        · rw [visible_error this hz]
        · obtain ⟨s₂', hz'⟩ := visible_ok this hz
          rw [hz']
          rfl

theorem replicates_like {a : A} (ha : P a) (n k : Nat) : ∀ {s s₁ : σ} {g g₁ : G} {r : List ℝ × ℝ},
    like s s → E.replicates a n k s g = .ok (r, s₁, g₁) → like s s₁ := by
  induction k with
  | zero =>
    intro s s₁ g g₁ r hs h
    simp only [Env.replicates, Except.ok.injEq, Prod.mk.injEq] at h
    rw [← h.2.1]
    exact hs
  | succ k ih =>
    intro s s₁ g g₁ r hs h
    rcases hx : E.steps a n (E.reset s g).1 (E.reset s g).2 with e | ⟨r', s', g'⟩
    · simp [Env.replicates, hx] at h
    · simp only [Env.replicates, hx] at h
      split at h
      · simp at h
      · rcases hz : E.replicates a n k s' g' with e | ⟨r'', s'', g''⟩
        · simp [hz] at h
        · simp only [hz, Except.ok.injEq, Prod.mk.injEq] at h
          rw [← h.2.1]
          have h1 := F.reset_like g hs
          have h2 := steps_like F ha n (like_right F h1) hx
          exact F.trans h1 (F.trans h2 (ih (like_right F h2) hz))

theorem getFitness_eq {a : A} (ha : P a) (seedAll : Nat → G) (n k seed : Nat) {s s' : σ}
    (h : like s s') :
    visible (E.getFitness seedAll n k seed s a) = visible (E.getFitness seedAll n k seed s' a) := by
  have hr := replicates_eq F ha n k (seedAll seed) h
  rcases hx : E.replicates a n k s (seedAll seed) with e | ⟨r, s₁, g₁⟩
  · simp only [Env.getFitness, hx, visible_error hr hx]
  · obtain ⟨s₁', hy⟩ := visible_ok hr hx
    simp only [Env.getFitness, hx, hy]
    split <;> rfl

theorem getFitness_like {a : A} (ha : P a) (seedAll : Nat → G) (n k seed : Nat) {s s₁ : σ} {g₁ : G}
    {r : ℝ × ℝ} (hs : like s s) (h : E.getFitness seedAll n k seed s a = .ok (r, s₁, g₁)) : like s s₁ := by
  rcases hx : E.replicates a n k s (seedAll seed) with e | ⟨r', s', g'⟩
  · simp [Env.getFitness, hx] at h
  · simp only [Env.getFitness, hx] at h
    split at h
    · simp at h
    · simp only [Except.ok.injEq, Prod.mk.injEq] at h
      rw [← h.2.1]
      exact replicates_like F ha n k hs hx

/-- In an environment that forgets, every agent of a population gets the fitness it would get
alone. -/
theorem evalAll_eq (seedAll : Nat → G) (reps seed : Nat) (s₀ : σ) (as : List A)
    (has : ∀ a ∈ as, P a) : ∀ {s : σ} (g : G), like s₀ s →
    (E.evalAll seedAll reps seed as s g).map (·.1) =
      as.mapM fun a => (E.getFitness seedAll 1 reps seed s₀ a).map (·.1) := by
  induction as with
  | nil => intro s g _; rfl
  | cons a as ih =>
    intro s g h
    have ha := has a (by simp)
    have hf := getFitness_eq F ha seedAll 1 reps seed h
    rw [List.mapM_cons]
    rcases hx : E.getFitness seedAll 1 reps seed s₀ a with e | ⟨r, s₁, g₁⟩
    · simp only [Env.evalAll, visible_error hf hx]
      rfl
    · obtain ⟨s₁', hy⟩ := visible_ok hf hx
      have hl : like s₀ s₁' := 
        F.trans h (getFitness_like F ha seedAll 1 reps seed (like_right F h) hy)
      rw [← ih (fun b hb => has b (by simp [hb])) g₁ hl]
      simp only [Env.evalAll, hy]
      rcases E.evalAll seedAll reps seed as s₁' g₁ with e | ⟨rs, s₂, g₂⟩ <;> rfl

end

/-! ## Automata that forget -/

/-- Automaton objects: `like` relates objects that differ in parameter values and in what calls
change; `same` relates objects that behave alike.  Setting the parameters turns the first into
the second. -/
structure Spec.AutomatonForgets {C : Nat} (M : Automaton σ G C) (n : Nat)
    (like same : σ → σ → Prop) : Prop where
  symm : ∀ {s s' : σ}, like s s' → like s' s
  trans : ∀ {s s' s'' : σ}, like s s' → like s' s'' → like s s''
  set_err : ∀ {s s' : σ} {v : List ℝ}, like s s' → v.length = n →
    (M.setParams s v).2 = (M.setParams s' v).2
  set_same : ∀ {s s' : σ} {v : List ℝ}, like s s' → v.length = n →
    (M.setParams s v).2 = none → same (M.setParams s v).1 (M.setParams s' v).1
  set_like : ∀ {s : σ} {v : List ℝ}, like s s → v.length = n → (M.setParams s v).2 = none →
    like s (M.setParams s v).1
  call_same : ∀ {N D : Nat} {s s' : σ} (g : G) (u : Univ ℝ N C D D), same s s' →
    visible (M.call s g u) = visible (M.call s' g u) ∧
    ∀ u₁ s₁ s₁' g₁ g₁' u₁', M.call s g u = .ok (u₁, s₁, g₁) → M.call s' g u = .ok (u₁', s₁', g₁') →
      same s₁ s₁'
  call_like : ∀ {N D : Nat} {s s₁ : σ} {g g₁ : G} {u u₁ : Univ ℝ N C D D},
    like s s → M.call s g u = .ok (u₁, s₁, g₁) → like s s₁

/-- The step of the rollout loop. -/
noncomputable def Automaton.rollStep {C : Nat} (M : Automaton σ G C) {N D : Nat} (p : σ × G)
    (u : Univ ℝ N C D D) : Except PyErr (Univ ℝ N C D D × (σ × G)) :=
  match M.call p.1 p.2 u with
  | .error e => .error e
  | .ok (u', s', g') => .ok (u', (s', g'))

theorem rollout_succ {N C H W : Nat} (f : σ → Univ ℝ N C H W → Except PyErr (Univ ℝ N C H W × σ))
    (k : Nat) (s : σ) (u : Univ ℝ N C H W) :
    haltingRollout f (k + 1) s u = match f s u with
      | .error e => .error e
      | .ok (u', s') =>
        if Arith.le (uMean u') Arith.zero = true then .ok (u', s') else haltingRollout f k s' u' := by
  rw [haltingRollout]
  rcases f s u with e | ⟨u', s'⟩ <;> rfl

section

variable {C : Nat} {M : Automaton σ G C} {n : Nat} {like same : σ → σ → Prop}
  (F : AutomatonForgets M n like same)

include F

theorem rollout_eq {N D : Nat} (k : Nat) : ∀ {s s' : σ} (g : G) (u : Univ ℝ N C D D), same s s' →
    visible (σ := σ) (haltingRollout M.rollStep k (s, g) u) =
      visible (haltingRollout M.rollStep k (s', g) u) := by
  induction k with
  | zero => intro s s' g u _; rfl
  | succ k ih =>
    intro s s' g u h
    obtain ⟨hv, hs⟩ := F.call_same g u h
    rw [rollout_succ, rollout_succ]
    rcases hx : M.call s g u with e | ⟨u₁, s₁, g₁⟩
    · simp only [Automaton.rollStep, hx, visible_error hv hx]
    · obtain ⟨s₁', hy⟩ := visible_ok hv hx
      simp only [Automaton.rollStep, hx, hy]
      split
      · rfl
      · exact ih g₁ u₁ (hs _ _ _ _ _ _ hx hy)

theorem rollout_like {N D : Nat} (k : Nat) : ∀ {s s₁ : σ} {g g₁ : G} {u u₁ : Univ ℝ N C D D},
    like s s → haltingRollout M.rollStep k (s, g) u = .ok (u₁, (s₁, g₁)) → like s s₁ := by
  induction k with
  | zero =>
    intro s s₁ g g₁ u u₁ hs h
    simp only [haltingRollout, Except.ok.injEq, Prod.mk.injEq] at h
    rw [← h.2.1]
    exact hs
  | succ k ih =>
    intro s s₁ g g₁ u u₁ hs h
    rw [rollout_succ] at h
    rcases hx : M.call s g u with e | ⟨u', s', g'⟩
    · simp [Automaton.rollStep, hx] at h
    · simp only [Automaton.rollStep, hx] at h
      split at h
      · simp only [Except.ok.injEq, Prod.mk.injEq] at h
        rw [← h.2.1]
        exact F.call_like hs hx
      · have h1 := F.call_like hs hx
        exact F.trans h1 (ih (F.trans (F.symm h1) h1) h)

omit F in
theorem simpleHalting_step (batch dim caSteps : Nat) (rand : G → Univ ℝ batch C dim dim × G) (s : σ)
    (v : List ℝ) (g : G) :
    (simpleHalting M batch dim caSteps rand).step s v g = match M.setParams s v with
      | (_, some e) => .error e
      | (s, none) =>
        match haltingRollout M.rollStep caSteps (s, (rand g).2) (startGrid dim (rand g).1) with
        | .error e => .error e
        | .ok (u, s, g) => .ok ((haltingReward (activeGrid u), activeGrid u), s, g) := rfl

theorem simpleHalting_forgets (batch dim caSteps : Nat) (rand : G → Univ ℝ batch C dim dim × G) :
    Forgets (simpleHalting M batch dim caSteps rand) (fun v => v.length = n) like where
  symm := F.symm
  trans := F.trans
  reset_gen _ _ := rfl
  reset_like _ h := h
  step_eq := by
    intro s s' v g h hv
    have he := F.set_err h hv
    show visible (match M.setParams s v with
      | (_, some e) => .error e
      | (s, none) =>
        match haltingRollout M.rollStep caSteps (s, (rand g).2) (startGrid dim (rand g).1) with
        | .error e => .error e
        | .ok (u, s, g) => .ok ((haltingReward (activeGrid u), activeGrid u), s, g)) =
      visible (match M.setParams s' v with
      | (_, some e) => .error e
      | (s, none) =>
        match haltingRollout M.rollStep caSteps (s, (rand g).2) (startGrid dim (rand g).1) with
        | .error e => .error e
        | .ok (u, s, g) => .ok ((haltingReward (activeGrid u), activeGrid u), s, g))
    rcases hx : M.setParams s v with ⟨s₁, _ | e⟩ <;> rcases hy : M.setParams s' v with ⟨s₁', _ | e'⟩
    · have hs := F.set_same h hv (by rw [hx])
      rw [hx, hy] at hs
      have hr := rollout_eq F caSteps (rand g).2 (startGrid dim (rand g).1) hs
      dsimp only at hs ⊢
      rcases hz : haltingRollout M.rollStep caSteps (s₁, (rand g).2) (startGrid dim (rand g).1)
        with e | ⟨u, s₂, g₂⟩
      · rw [visible_error hr hz]
      · obtain ⟨s₂', hz'⟩ := visible_ok hr hz
        rw [hz']
        rfl
    · rw [hx, hy] at he; cases he
    · rw [hx, hy] at he; cases he
    · rw [hx, hy] at he; cases he; rfl
  step_like := by
    intro s s₁ v g g₁ r hs hv h
    change (match M.setParams s v with
      | (_, some e) => Except.error e
      | (s, none) =>
        match haltingRollout M.rollStep caSteps (s, (rand g).2) (startGrid dim (rand g).1) with
        | .error e => Except.error e
        | .ok (u, s, g) => Except.ok ((haltingReward (activeGrid u), activeGrid u), s, g)) = _ at h
    rcases hx : M.setParams s v with ⟨s', _ | e⟩
    · rw [hx] at h
      dsimp only at h
      rcases hz : haltingRollout M.rollStep caSteps (s', (rand g).2) (startGrid dim (rand g).1)
        with e | ⟨u, s₂, g₂⟩
      · rw [hz] at h; cases h
      · rw [hz] at h
        simp only [Except.ok.injEq, Prod.mk.injEq] at h
        have h1 := F.set_like hs hv (by rw [hx])
        rw [hx] at h1
        rw [← h.2.1]
        exact F.trans h1 (rollout_like F caSteps (F.trans (F.symm h1) h1) hz)
    · rw [hx] at h; cases h

end

/-! ## CCA objects -/

section
variable {K : Type}

theorem family_symm {a b : Act K} (h : SameFamily a b) : SameFamily b a := by
  cases h with
  | gaussian => exact .gaussian ..
  | doGaussian => exact .doGaussian ..
  | doubleGaussian => exact .doubleGaussian ..
  | mixture _ _ _ h => exact .mixture _ _ _ h.symm
  | polynomial _ _ _ h => exact .polynomial _ _ _ h.symm
  | same => exact .same _

theorem family_trans {a b c : Act K} (h : SameFamily a b) (h' : SameFamily b c) :
    SameFamily a c := by
  cases h with
  | gaussian => cases h' <;> exact .gaussian ..
  | doGaussian => cases h' <;> exact .doGaussian ..
  | doubleGaussian => cases h' <;> exact .doubleGaussian ..
  | mixture _ _ _ h =>
    cases h' with
    | mixture _ _ _ h' => exact .mixture _ _ _ (h.trans h')
    | same => exact .mixture _ _ _ h
  | polynomial _ _ _ h =>
    cases h' with
    | polynomial _ _ _ h' => exact .polynomial _ _ _ (h.trans h')
    | same => exact .polynomial _ _ _ h
  | same => exact h'

theorem family_shape {a b : Act K} (h : SameFamily a b) :
    a.tensors.map List.length = b.tensors.map List.length := by
  cases h with
  | gaussian => rfl
  | doGaussian => rfl
  | doubleGaussian => rfl
  | mixture cs cs' _ h =>
    have hl : cs.length = cs'.length := by simpa using congrArg List.length h
    have : ∀ cs cs' : List (K × K × K), cs.length = cs'.length →
        (cs.flatMap fun c => [[c.2.1], [c.2.2]]).map List.length =
          (cs'.flatMap fun c => [[c.2.1], [c.2.2]]).map List.length := by
      intro cs
      induction cs with
      | nil => intro cs' h; cases cs' with
        | nil => rfl
        | cons => simp at h
      | cons c cs ih => intro cs' h; cases cs' with
        | nil => simp at h
        | cons c' cs' =>
          have := ih cs' (by simpa using h)
          simp only [List.flatMap_cons, List.map_append, this]
          rfl
    exact this cs cs' hl
  | polynomial _ _ _ h => simp [Act.tensors, h]
  | same => rfl

theorem setComponents_amplitudes (cs cs' : List (K × K × K)) (h : cs.map (·.1) = cs'.map (·.1))
    (ts : List (List K))
    (hts : ts.map List.length = (cs.flatMap fun c => [[c.2.1], [c.2.2]]).map List.length) :
    setComponents cs ts = setComponents cs' ts := by
  induction cs generalizing cs' ts with
  | nil => cases cs' with
    | nil => rfl
    | cons => simp at h
  | cons c cs ih => cases cs' with
    | nil => simp at h
    | cons c' cs' =>
      simp only [List.map_cons, List.cons.injEq] at h
      match ts, hts with
      | [m] :: [s] :: ts, hts =>
        simp only [setComponents, h.1, ih cs' h.2 ts (by simpa using hts)]
      | [], h => simp at h
      | [_], h => simp at h
      | [] :: _ :: _, h => simp at h
      | [_] :: [] :: _, h => simp at h
      | (_ :: _ :: _) :: _ :: _, h => simp at h
      | [_] :: (_ :: _ :: _) :: _, h => simp at h

theorem family_setTensors {a b : Act K} (h : SameFamily a b) {ts : List (List K)}
    (hts : ts.map List.length = a.tensors.map List.length) : a.setTensors ts = b.setTensors ts := by
  cases h with
  | gaussian mu s mu' s' m =>
    obtain ⟨l, k, rfl, h1, h2⟩ := shape_two (by simpa [Act.tensors] using hts)
    obtain ⟨x, rfl⟩ := list_length_one h1
    obtain ⟨y, rfl⟩ := list_length_one h2
    rfl
  | doGaussian mu s mu' s' dx m =>
    obtain ⟨l, k, rfl, h1, h2⟩ := shape_two (by simpa [Act.tensors] using hts)
    obtain ⟨x, rfl⟩ := list_length_one h1
    obtain ⟨y, rfl⟩ := list_length_one h2
    rfl
  | doubleGaussian a b c d a' b' c' d' m =>
    obtain ⟨l, k, rfl, h1, h2⟩ := shape_two (by simpa [Act.tensors] using hts)
    obtain ⟨x, x', rfl⟩ := list_length_two h1
    obtain ⟨y, y', rfl⟩ := list_length_two h2
    rfl
  | mixture cs cs' m h => exact congrArg (Act.mixture · m) (setComponents_amplitudes cs cs' h ts hts)
  | polynomial cs cs' m h =>
    obtain ⟨l, rfl, h1⟩ := shape_one (by simpa [Act.tensors] using hts)
    rfl
  | same => rfl

theorem writeTensors_shape (ts ts' : List (List K)) (h : ts.map List.length = ts'.map List.length)
    (v : List K) (hv : Spec.size ts ≤ v.length) : writeTensors ts v = writeTensors ts' v := by
  induction ts generalizing ts' v with
  | nil => cases ts' with
    | nil => rfl
    | cons => simp at h
  | cons t ts ih => cases ts' with
    | nil => simp at h
    | cons t' ts' =>
      simp only [List.map_cons, List.cons.injEq] at h
      have hs : Spec.size (t :: ts) = t.length + Spec.size ts := by simp [Spec.size]
      rw [hs] at hv
      have hl : (v.take t.length).length = t.length := by rw [List.length_take]; omega
      simp only [writeTensors, ← h.1, if_pos hl,
        ih ts' h.2 (v.drop t.length) (by rw [List.length_drop]; omega)]

theorem writeActs_family {as bs : List (Act K)} (h : List.Forall₂ SameFamily as bs) (v : List K)
    (hv : (readActs as).length ≤ v.length) : writeActs as v = writeActs bs v := by
  induction h generalizing v with
  | nil => rfl
  | @cons a b as bs hab _ ih =>
    rw [readActs_cons, List.length_append, readTensors_length] at hv
    obtain ⟨ts, h1, h2, h3⟩ := writeTensors_enough a.tensors v (by omega)
    have h1' := h1
    rw [writeTensors_shape _ _ (family_shape hab) v (by omega)] at h1'
    simp only [writeActs, h1, h1', family_setTensors hab h2,
      ih (v.drop (Spec.size a.tensors)) (by rw [List.length_drop]; omega)]

theorem family_readActs {as bs : List (Act K)} (h : List.Forall₂ SameFamily as bs) :
    (readActs as).length = (readActs bs).length := by
  induction h with
  | nil => rfl
  | cons hab _ ih =>
    rw [readActs_cons, readActs_cons, List.length_append, List.length_append, ih,
      readTensors_length, readTensors_length]
    unfold Spec.size
    rw [family_shape hab]

theorem forall₂_symm {as bs : List (Act K)} (h : List.Forall₂ SameFamily as bs) :
    List.Forall₂ SameFamily bs as := by
  induction h with
  | nil => exact .nil
  | cons h _ ih => exact .cons (family_symm h) ih

theorem forall₂_trans {as bs cs : List (Act K)} (h : List.Forall₂ SameFamily as bs)
    (h' : List.Forall₂ SameFamily bs cs) : List.Forall₂ SameFamily as cs := by
  induction h generalizing cs with
  | nil => exact h'
  | cons h _ ih => cases h' with
    | cons g gs => exact .cons (family_trans h g) (ih gs)

end

/-- Two objects that differ at most in parameter values, simulated time, and what parameters do
not touch but steps do not read either; the parameter vector has `n` entries. -/
structure Spec.Twins (n : Nat) (o o' : CCAObj) : Prop where
  ext : o.kw.extN = o'.kw.extN
  int : o.kw.intN = o'.kw.intN
  conv : o.kw.mode = o'.kw.mode
  cls : o.kw.ca = o'.kw.ca
  thr : o.kw.threshold = o'.kw.threshold
  radius : o.kernelRadius = o'.kernelRadius
  idLayer : o.idLayer = o'.idLayer
  seqWeights : o.seqWeights = o'.seqWeights
  gen : List.Forall₂ SameFamily o.genesis o'.genesis
  per : List.Forall₂ SameFamily o.persistence o'.persistence
  kernel : ∃ l l', o.kernelParams = .vec l ∧ o'.kernelParams = .vec l' ∧ l.length = l'.length ∧
    (readActs o.genesis).length + (readActs o.persistence).length + l.length = n

theorem twins_symm {n : Nat} {o o' : CCAObj} (h : Twins n o o') : Twins n o' o := by
  obtain ⟨l, l', h1, h2, h3, h4⟩ := h.kernel
  exact ⟨h.ext.symm, h.int.symm, h.conv.symm, h.cls.symm, h.thr.symm, h.radius.symm, h.idLayer.symm, h.seqWeights.symm, forall₂_symm h.gen,
    forall₂_symm h.per, l', l, h2, h1, h3.symm,
    by rw [← family_readActs h.gen, ← family_readActs h.per, ← h3, h4]⟩

theorem twins_trans {n : Nat} {o o' o'' : CCAObj} (h : Twins n o o') (h' : Twins n o' o'') :
    Twins n o o'' := by
  obtain ⟨l, l', h1, h2, h3, h4⟩ := h.kernel
  obtain ⟨m, m', g1, g2, g3, g4⟩ := h'.kernel
  rw [h2] at g1
  cases g1
  exact ⟨h.ext.trans h'.ext, h.int.trans h'.int, h.conv.trans h'.conv, h.cls.trans h'.cls,
    h.thr.trans h'.thr, h.radius.trans h'.radius, h.idLayer.trans h'.idLayer,
    h.seqWeights.trans h'.seqWeights, forall₂_trans h.gen h'.gen, forall₂_trans h.per h'.per,
    l, m', h1, g2, h3.trans g3, h4⟩

/-- What `set_params` does with a vector of the right length. -/
theorem setParams_full {n : Nat} {o : CCAObj} {l : List ℝ} (hk : o.kernelParams = .vec l)
    (hn : (readActs o.genesis).length + (readActs o.persistence).length + l.length = n)
    {v : List ℝ} (hv : v.length = n) :
    ∃ gs ps k, writeActs o.genesis v = (gs, .ok (v.drop (readActs o.genesis).length)) ∧
      writeActs o.persistence (v.drop (readActs o.genesis).length) = (ps, .ok k) ∧
      List.Forall₂ SameFamily o.genesis gs ∧ List.Forall₂ SameFamily o.persistence ps ∧
      k.length = l.length ∧
      o.setParams v = match gaussianMixtureKernel o.kernelRadius k with
        | .error e => ({ o with genesis := gs, persistence := ps, kernelParams := .vec k }, some e)
        | .ok κ => ({ o with genesis := gs, persistence := ps, kernelParams := .vec k,
                             nbKernel := κ, nbLayer := κ }, none) := by
  obtain ⟨gs, h1, h2, h3⟩ := writeActs_enough o.genesis v (by omega)
  obtain ⟨ps, g1, g2, g3⟩ := writeActs_enough o.persistence (v.drop (readActs o.genesis).length)
    (by rw [List.length_drop]; omega)
  refine ⟨gs, ps, _, h1, g1, h3, g3, by simp only [List.length_drop]; omega, ?_⟩
  have ht : (List.drop (readActs o.persistence).length (List.drop (readActs o.genesis).length v)).take
      l.length = List.drop (readActs o.persistence).length (List.drop (readActs o.genesis).length v) :=
    List.take_of_length_le (by simp only [List.length_drop]; omega)
  simp only [CCAObj.setParams, h1, g1, hk, KParams.len, ht]
  rcases gaussianMixtureKernel o.kernelRadius (List.drop (readActs o.persistence).length
    (List.drop (readActs o.genesis).length v)) with e | κ <;> rfl

theorem setParams_twins {n : Nat} {o o' : CCAObj} (h : Twins n o o') {v : List ℝ}
    (hv : v.length = n) : (o.setParams v).2 = (o'.setParams v).2 ∧
      ((o.setParams v).2 = none →
        (o.setParams v).1.dynamics = { (o'.setParams v).1.dynamics with dt := o.dt }) ∧
      (o.setParams v).1.dt = o.dt ∧
      Twins n o (o.setParams v).1 := by
  obtain ⟨l, l', hl, hl', hll, hn⟩ := h.kernel
  have hn' : (readActs o'.genesis).length + (readActs o'.persistence).length + l'.length = n := by
    rw [← family_readActs h.gen, ← family_readActs h.per, ← hll, hn]
  obtain ⟨gs, ps, k, a1, a2, a3, a4, a5, a6⟩ := setParams_full hl hn hv
  obtain ⟨gs', ps', k', b1, b2, b3, b4, b5, b6⟩ := setParams_full hl' hn' hv
  rw [← writeActs_family h.gen v (by omega), a1, ← family_readActs h.gen] at b1
  cases b1
  rw [← family_readActs h.gen, ← writeActs_family h.per _ (by rw [List.length_drop]; omega), a2] at b2
  cases b2
  rw [a6, b6, ← h.radius]
  rcases gaussianMixtureKernel o.kernelRadius k with e | κ
  · exact ⟨rfl, fun h => (by cases h), rfl, rfl, rfl, rfl, rfl, rfl, rfl, rfl, rfl, a3, a4, l, k, hl, rfl, a5.symm, hn⟩
  · refine ⟨rfl, fun _ => ?_, rfl, rfl, rfl, rfl, rfl, rfl, rfl, rfl, rfl, a3, a4, l, k, hl, rfl, a5.symm, hn⟩
    simp only [CCAObj.dynamics, h.ext, h.int, h.conv, h.cls, h.thr, h.idLayer, h.seqWeights]

/-- The universe a step gives does not depend on the simulated time. -/
theorem call_time {N C D : Nat} (d : CCADyn) (t t' : ℝ) (u : Univ ℝ N C D D) :
    (d.call t u).map (·.1) = (d.call t' u).map (·.1) := by
  unfold CCADyn.call
  split
  · rename_i h
    have key : ∀ t, CCA.forward (d.toCCA t) (u.recast h.symm) =
        (CCA.forward (d.toCCA t') (u.recast h.symm)).map fun p => (p.1, d.toCCA (t + d.dt)) := by
      intro t
      show (do
        let idn ← (d.toCCA t').idL.apply (maskIf d.thr (u.recast h.symm))
        let nb ← (d.toCCA t').nbL.apply (maskIf d.thr (u.recast h.symm))
        let upd ← (d.toCCA t').updateUniverse idn nb
        return (eulerClamp d.dt (maskIf d.thr (u.recast h.symm)) upd,
          { d.toCCA t with t := t + d.dt })) = Except.map _ (do
        let idn ← (d.toCCA t').idL.apply (maskIf d.thr (u.recast h.symm))
        let nb ← (d.toCCA t').nbL.apply (maskIf d.thr (u.recast h.symm))
        let upd ← (d.toCCA t').updateUniverse idn nb
        return (eulerClamp d.dt (maskIf d.thr (u.recast h.symm)) upd,
          { d.toCCA t' with t := t' + d.dt }))
      simp only [bind, Except.bind, Except.map]
      rcases (d.toCCA t').idL.apply (maskIf d.thr (u.recast h.symm)) with e | idn
      · rfl
      rcases (d.toCCA t').nbL.apply (maskIf d.thr (u.recast h.symm)) with e | nb
      · rfl
      dsimp only
      rcases (d.toCCA t').updateUniverse idn nb with e | upd
      · rfl
      rfl
    rw [key t]
    rcases CCA.forward (d.toCCA t') (u.recast h.symm) with e | ⟨u', ca⟩ <;> rfl
  · rfl

/-- C89: a call of a `CCA` object moves its clock on by its step size, touches nothing else of it, and
draws nothing. -/
theorem cca_call_clock {G : Type} {N C D : Nat} (o o' : CCAObj) (g g' : G) (u u' : Univ ℝ N C D D)
    (h : (ccaAutomaton G C).call o g u = .ok (u', o', g')) :
    o' = { o with t := o.t + o.dt } ∧ g' = g := by
  simp only [ccaAutomaton, CCADyn.call] at h
  split at h
  · cases h
  · rename_i hc
    cases h
    split at hc
    · split at hc
      · cases hc
      · rename_i hf
        obtain ⟨_, _, _, _, _, _, hf⟩ := CCA.forward_ok hf
        cases hf; cases hc
        exact ⟨rfl, rfl⟩
    · cases hc

theorem cca_forgets (G : Type) (C n : Nat) : AutomatonForgets (ccaAutomaton G C) n
    (fun o o' => Twins n o o' ∧ o.dt = o'.dt) (fun o o' => o.dynamics = o'.dynamics) where
  symm h := ⟨twins_symm h.1, h.2.symm⟩
  trans h h' := ⟨twins_trans h.1 h'.1, h.2.trans h'.2⟩
  set_err h hv := (setParams_twins h.1 hv).1
  set_same {s s' v} h hv he := by
    have h1 := (setParams_twins h.1 hv).2.1 he
    have h2 : (s'.setParams v).1.dt = s.dt := by
      rw [(setParams_twins (twins_symm h.1) hv).2.2.1, h.2]
    show (s.setParams v).1.dynamics = (s'.setParams v).1.dynamics
    rw [h1, ← h2]
    rfl
  set_like h hv _ := ⟨(setParams_twins h.1 hv).2.2.2, (setParams_twins h.1 hv).2.2.1.symm⟩
  call_same := by
    intro N D s s' g u h
    have ht := call_time s'.dynamics s.t s'.t u
    constructor
    · show visible (match s.dynamics.call s.t u with
        | .error e => .error e
        | .ok (u', t) => .ok (u', { s with t := t }, g)) =
        visible (match s'.dynamics.call s'.t u with
        | .error e => .error e
        | .ok (u', t) => .ok (u', { s' with t := t }, g))
      rw [h]
      rcases hx : s'.dynamics.call s.t u with e | ⟨u₁, t₁⟩ <;>
        rcases hy : s'.dynamics.call s'.t u with e' | ⟨u₁', t₁'⟩ <;> rw [hx, hy] at ht <;>
        simp only [Except.map, Except.ok.injEq, Except.error.injEq, reduceCtorEq] at ht <;>
        simp [visible, Except.map, ht]
    · intro u₁ s₁ s₁' g₁ g₁' u₁' hx hy
      have h1 : ∀ {s s₁ : CCAObj} {u₁ : Univ ℝ N C D D} {g₁ : G},
          (ccaAutomaton G C).call s g u = .ok (u₁, s₁, g₁) → s₁.dynamics = s.dynamics := by
        intro s s₁ u₁ g₁ hx
        change (match s.dynamics.call s.t u with
          | .error e => Except.error e
          | .ok (u', t) => Except.ok (u', { s with t := t }, g)) = _ at hx
        rcases hz : s.dynamics.call s.t u with e | ⟨u', t'⟩
        · rw [hz] at hx; cases hx
        · rw [hz] at hx; cases hx; rfl
      rw [h1 hx, h1 hy, h]
  call_like := by
    intro N D s s₁ g g₁ u u₁ h hx
    change (match s.dynamics.call s.t u with
      | .error e => Except.error e
      | .ok (u', t) => Except.ok (u', { s with t := t }, g)) = _ at hx
    rcases hz : s.dynamics.call s.t u with e | ⟨u', t'⟩
    · rw [hz] at hx; cases hx
    · rw [hz] at hx; cases hx
      exact ⟨⟨rfl, rfl, rfl, rfl, rfl, rfl, rfl, rfl, h.1.gen, h.1.per, h.1.kernel⟩, rfl⟩

/-- C82: with a `CCA` every agent of a population gets the fitness and active proportion it would
get if it were the only one: the agents evaluated before leave no trace. -/
theorem fitness_history_free {C : Nat} (o : CCAObj) (l : List ℝ) (hk : o.kernelParams = .vec l)
    (batch dim caSteps : Nat) (rand : G → Univ ℝ batch C dim dim × G) (seedAll : Nat → G)
    (reps seed : Nat) (pop : List (List ℝ))
    (hpop : ∀ v ∈ pop, v.length =
      (readActs o.genesis).length + (readActs o.persistence).length + l.length) (g : G) :
    let E := simpleHalting (ccaAutomaton G C) batch dim caSteps rand
    (E.evalAll seedAll reps seed pop o g).map (·.1) =
      pop.mapM fun v => (E.getFitness seedAll 1 reps seed o v).map (·.1) :=
  evalAll_eq (simpleHalting_forgets (cca_forgets G C _) batch dim caSteps rand) seedAll reps seed o
    pop hpop g
    ⟨⟨rfl, rfl, rfl, rfl, rfl, rfl, rfl, rfl, List.forall₂_same.2 fun x _ => .same x,
      List.forall₂_same.2 fun x _ => .same x, l, l, hk, hk, rfl, rfl⟩, rfl⟩

end Yuca
