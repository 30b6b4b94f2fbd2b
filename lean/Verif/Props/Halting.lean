import Verif.Model.Halting
import Verif.Props.Coevolve
import Verif.Props.Wrappers
import Verif.Props.Predictor

/-!
# The search for unpredictable rules: C95
-/

namespace Yuca

open Spec

variable {σ T G : Type} {C K N D : Nat}

/-! ## Evaluations do not influence each other -/

/-- Two outcomes that differ at most in the automaton left behind, which `R` relates. -/
inductive Spec.Alike {X : Type} (R : σ → σ → Prop) :
    Except PyErr (X × σ × G) → Except PyErr (X × σ × G) → Prop
  | error (e : PyErr) : Alike R (.error e) (.error e)
  | ok {s s' : σ} (x : X) (g : G) (h : R s s') : Alike R (.ok (x, s, g)) (.ok (x, s', g))

theorem alike_visible {X : Type} {R : σ → σ → Prop} {x y : Except PyErr (X × σ × G)}
    (h : Alike R x y) : visible x = visible y := by
  cases h <;> rfl

/-- Calls of the automaton keep `R` and show no difference. -/
def Spec.CallsAlike (M : Automaton σ G C) (R : σ → σ → Prop) : Prop :=
  ∀ {N D : Nat} {s s' : σ} (g : G) (u : Univ ℝ N C D D), R s s' →
    Alike R (M.draw (s, g) u) (M.draw (s', g) u)

section

variable {M : Automaton σ G C} {R : σ → σ → Prop} (H : CallsAlike M R)

include H

theorem bigBang_alike (k : Nat) : ∀ {s s' : σ} (g : G) (u : Univ ℝ N C D D), R s s' →
    Alike R (bigBang M.draw k (s, g) u) (bigBang M.draw k (s', g) u) := by
  induction k with
  | zero => intro s s' g u h; exact .ok u g h
  | succ k ih =>
    intro s s' g u h
    have hd := H g u h
    unfold bigBang
    revert hd
    generalize M.draw (s, g) u = x
    generalize M.draw (s', g) u = y
    rintro (e | ⟨u', g', h'⟩)
    · exact .error e
    · exact ih g' u' h'

theorem trainRun_alike (k : Nat) : ∀ {s s' : σ} (g : G) (u : Univ ℝ N C D D), R s s' →
    Alike R (trainRun M.draw k (s, g) u) (trainRun M.draw k (s', g) u) := by
  induction k with
  | zero => intro s s' g u h; exact .ok u g h
  | succ k ih =>
    intro s s' g u h
    have hd := H g u h
    unfold trainRun
    split
    · revert hd
      generalize M.draw (s, g) u = x
      generalize M.draw (s', g) u = y
      rintro (e | ⟨u', g', h'⟩)
      · exact .error e
      · exact ih g' u' h'
    · exact .ok u g h

theorem evalRun_alike (k : Nat) : ∀ {s s' : σ} (g : G) (u : Univ ℝ N C D D), R s s' →
    Alike R (evalRun M.draw k (s, g) u) (evalRun M.draw k (s', g) u) := by
  induction k with
  | zero => intro s s' g u h; exact .ok u g h
  | succ k ih =>
    intro s s' g u h
    have hd := H g u h
    unfold evalRun
    revert hd
    generalize M.draw (s, g) u = x
    generalize M.draw (s', g) u = y
    rintro (e | ⟨u', g', h'⟩)
    · exact .error e
    · dsimp only
      split
      · exact .ok u' g' h'
      · exact ih g' u' h'

theorem trainOnce_alike {reset : σ → σ} (a : HaltingArgs) (L : Learner T G C (labelOutputs a.mode))
    (rand : G → Univ ℝ N C D D × G) {s s' : σ} (t : T) (g : G) (h : R (reset s) (reset s')) :
    Alike R (trainOnce M reset a L rand s t g) (trainOnce M reset a L rand s' t g) := by
  have h1 := bigBang_alike H bigBangSteps (rand g).2 (rand g).1 h
  unfold trainOnce
  revert h1
  generalize bigBang M.draw bigBangSteps (reset s, (rand g).2) (rand g).1 = x
  generalize bigBang M.draw bigBangSteps (reset s', (rand g).2) (rand g).1 = y
  rintro (e | @⟨s₁, s₁', u, g₁, h1⟩)
  · exact .error e
  dsimp only
  rcases L.forward t true a.numBlocks 0 g₁ u with e | ⟨pred, g₂⟩
  · exact .error e
  dsimp only
  have h2 := trainRun_alike H a.caSteps g₂ u h1
  revert h2
  generalize trainRun M.draw a.caSteps (s₁, g₂) u = x
  generalize trainRun M.draw a.caSteps (s₁', g₂) u = y
  rintro (e | @⟨s₂, s₂', w, g₃, h2⟩)
  · exact .error e
  dsimp only
  have h3 := H g₃ w h2
  revert h3
  generalize M.draw (s₂, g₃) w = x
  generalize M.draw (s₂', g₃) w = y
  rintro (e | @⟨s₃, s₃', w', g₄, h3⟩)
  · exact .error e
  dsimp only
  split
  · exact .ok _ g₄ h3
  · exact .error _

theorem trainLoop_alike {reset : σ → σ} (hr : ∀ {s s'}, R s s' → R (reset s) (reset s'))
    (a : HaltingArgs) (L : Learner T G C (labelOutputs a.mode)) (rand : G → Univ ℝ N C D D × G)
    (k : Nat) : ∀ {s s' : σ} (t : T) (g : G), R (reset s) (reset s') →
    Alike R (trainLoop M reset a L rand (k + 1) s t g) (trainLoop M reset a L rand (k + 1) s' t g) := by
  induction k with
  | zero =>
    intro s s' t g h
    have h1 := trainOnce_alike H a L rand t g h
    unfold trainLoop
    revert h1
    generalize trainOnce M reset a L rand s t g = x
    generalize trainOnce M reset a L rand s' t g = y
    rintro (e | ⟨t', g', h'⟩)
    · exact .error e
    · exact .ok t' g' h'
  | succ k ih =>
    intro s s' t g h
    have h1 := trainOnce_alike H a L rand t g h
    rw [trainLoop.eq_2 M reset a L rand s t g (k + 1), trainLoop.eq_2 M reset a L rand s' t g (k + 1)]
    revert h1
    generalize trainOnce M reset a L rand s t g = x
    generalize trainOnce M reset a L rand s' t g = y
    rintro (e | ⟨t', g', h'⟩)
    · exact .error e
    · exact ih t' g' (hr h')

theorem judge_alike (a : HaltingArgs) (L : Learner T G C (labelOutputs a.mode))
    (rand : G → Univ ℝ N C D D × G) {s s' : σ} (t : T) (g : G) (h : R s s') :
    Alike (fun p p' => R p.1 p'.1) (judge M a L rand s t g) (judge M a L rand s' t g) := by
  have h1 := bigBang_alike H bigBangSteps (rand g).2 (rand g).1 h
  unfold judge
  revert h1
  generalize bigBang M.draw bigBangSteps (s, (rand g).2) (rand g).1 = x
  generalize bigBang M.draw bigBangSteps (s', (rand g).2) (rand g).1 = y
  rintro (e | @⟨s₁, s₁', u, g₁, h1⟩)
  · exact .error e
  dsimp only
  rcases L.forward t false a.numBlocks 0 g₁ u with e | ⟨pred, g₂⟩
  · exact .error e
  dsimp only
  have h2 := evalRun_alike H a.caSteps g₂ u h1
  revert h2
  generalize evalRun M.draw a.caSteps (s₁, g₂) u = x
  generalize evalRun M.draw a.caSteps (s₁', g₂) u = y
  rintro (e | @⟨s₂, s₂', w, g₃, h2⟩)
  · exact .error e
  dsimp only
  have h3 := H g₃ w h2
  revert h3
  generalize M.draw (s₂, g₃) w = x
  generalize M.draw (s₂', g₃) w = y
  rintro (e | @⟨s₃, s₃', w', g₄, h3⟩)
  · exact .error e
  dsimp only
  split
  · exact .ok _ g₄ h3
  · exact .error _

end

/-- The environment that is reset at the start of each step, as `get_fitness` uses one when there is
one step per replicate. -/
def Spec.primed {A : Type} (E : Env σ A G) : Env σ A G where
  reset s g := (s, g)
  step s a g := E.step (E.reset s g).1 a (E.reset s g).2

theorem primed_fitness {A : Type} (E : Env σ A G) (seedAll : Nat → G) (reps seed : Nat) (s : σ) (a : A) :
    E.getFitness seedAll 1 reps seed s a = (primed E).getFitness seedAll 1 reps seed s a := by
  have h : ∀ k (s : σ) (g : G), E.replicates a 1 k s g = (primed E).replicates a 1 k s g := by
    intro k
    induction k with
    | zero => intro s g; rfl
    | succ k ih =>
      intro s g
      simp only [Env.replicates, Env.steps, primed] at ih ⊢
      rcases E.step (E.reset s g).1 a (E.reset s g).2 with e | ⟨r, s', g'⟩
      · rfl
      · simp only [ih]
  simp only [Env.getFitness, h]

theorem primed_evalAll {A : Type} (E : Env σ A G) (seedAll : Nat → G) (reps seed : Nat) (as : List A) :
    ∀ (s : σ) (g : G), E.evalAll seedAll reps seed as s g = (primed E).evalAll seedAll reps seed as s g := by
  induction as with
  | nil => intro s g; rfl
  | cons a as ih =>
    intro s g
    rw [Env.evalAll, Env.evalAll, primed_fitness E]
    rcases (primed E).getFitness seedAll 1 reps seed s a with e | ⟨r, s', g'⟩
    · rfl
    · dsimp only
      rw [ih]

theorem primed_eq {A : Type} {E : Env σ A G} {P : A → Prop} {like : σ → σ → Prop}
    (F : Forgets (primed E) P like) (seedAll : Nat → G) (reps seed : Nat) (s : σ) (as : List A)
    (has : ∀ a ∈ as, P a) {s₁ : σ} (g : G) (h : like s s₁) :
    (E.evalAll seedAll reps seed as s₁ g).map (·.1) =
      as.mapM fun a => (E.getFitness seedAll 1 reps seed s a).map (·.1) := by
  rw [primed_evalAll, evalAll_eq F seedAll reps seed s as has g h]
  congr 1
  funext a
  rw [primed_fitness E]

/-- Setting the rule, resetting the automaton and making a new network wipes out what earlier
evaluations left. -/
theorem haltingEnv_forgets {M : Automaton σ G C} {reset : σ → σ} {n : Nat} {like same : σ → σ → Prop}
    (F : AutomatonForgets (freshly M reset) n like same)
    (hs : ∀ {s s'}, same s s' → same (reset s) (reset s')) (hl : ∀ {s s'}, like s s' → like s (reset s'))
    (a : HaltingArgs) (L : Learner T G C (labelOutputs a.mode)) (rand : G → Univ ℝ N C D D × G) :
    Forgets (primed (haltingEnv M reset a L rand)) (fun v => v.length = n)
      (fun p p' => like p.1 p'.1) := by
  have key : ∀ (s s' : σ) (v : List ℝ) (t : T) (g : G), like s s' → v.length = n →
      Alike (fun p p' => like s p.1 ∧ like s p'.1)
        ((haltingEnv M reset a L rand).step (s, t) v g)
        ((haltingEnv M reset a L rand).step (s', t) v g) := by
    intro s s' v t g h hv
    have hR : CallsAlike M (fun x x' => same x x' ∧ like s x ∧ like s x') := by
      rintro N D x x' g u ⟨h1, h2, h3⟩
      obtain ⟨hv, hn⟩ := F.call_same g u h1
      rcases hx : (freshly M reset).call x g u with e | ⟨u₁, x₁, g₁⟩
      · have hy := visible_error hv hx
        change M.call x g u = _ at hx
        change M.call x' g u = _ at hy
        simp only [Automaton.draw, hx, hy]
        exact .error e
      · obtain ⟨x₁', hy⟩ := visible_ok hv hx
        have hn := hn _ _ _ _ _ _ hx hy
        have l1 := F.trans h2 (F.call_like (F.trans (F.symm h2) h2) hx)
        have l2 := F.trans h3 (F.call_like (F.trans (F.symm h3) h3) hy)
        change M.call x g u = _ at hx
        change M.call x' g u = _ at hy
        simp only [Automaton.draw, hx, hy]
        exact .ok u₁ g₁ ⟨hn, l1, l2⟩
    have hss : like s s := F.trans h (F.symm h)
    have hss' : like s' s' := F.trans (F.symm h) h
    have he := F.set_err h hv
    have hsame := F.set_same h hv
    have hlike := F.set_like hss hv
    have hlike' := F.set_like hss' hv
    simp only [freshly] at he hsame hlike hlike'
    simp only [haltingEnv]
    rcases hx : M.setParams s v with ⟨s₁, _ | e⟩ <;> rcases hy : M.setParams s' v with ⟨s₁', _ | e'⟩ <;>
      rw [hx, hy] at he
    · rw [hx] at hlike
      rw [hy] at hlike'
      rw [hx, hy] at hsame
      have ht := trainLoop_alike (R := fun x x' => same x x' ∧ like s x ∧ like s x') hR
        (reset := reset) (fun h => ⟨hs h.1, hl h.2.1, hl h.2.2⟩) a L rand 7 t g
        ⟨hsame rfl, hlike rfl, F.trans h (hlike' rfl)⟩
      change Alike _ (trainLoop M reset a L rand trainSteps s₁ t g)
        (trainLoop M reset a L rand trainSteps s₁' t g) at ht
      revert ht
      dsimp only
      generalize trainLoop M reset a L rand trainSteps s₁ t g = x
      generalize trainLoop M reset a L rand trainSteps s₁' t g = y
      rintro (e | @⟨s₂, s₂', t', g', h'⟩)
      · exact .error e
      · have hj := judge_alike hR a L rand t' g' h'
        dsimp only
        revert hj
        generalize judge M a L rand s₂ t' g' = x
        generalize judge M a L rand s₂' t' g' = y
        rintro (e | ⟨r, g₃, h3⟩)
        · exact .error e
        · exact .ok r g₃ h3.2
    · cases he
    · cases he
    · cases he
      exact .error _
  exact
    { symm := F.symm
      trans := F.trans
      reset_gen := fun _ _ => rfl
      reset_like := fun _ h => h
      step_eq := fun {s s' v} g h hv =>
        alike_visible (key s.1 s'.1 v (L.init g).1 (L.init g).2 h hv)
      step_like := by
        intro s s₁ v g g₁ r h hv hx
        have hk := key s.1 s.1 v (L.init g).1 (L.init g).2 h hv
        change (haltingEnv M reset a L rand).step (s.1, (L.init g).1) v (L.init g).2 = _ at hx
        rw [hx] at hk
        cases hk with
        | ok _ _ h => exact h.1 }

/-- C95: agents of a search with `HaltingWrapper` and a `CCA` do not influence each other, and it
does not matter which network an earlier evaluation has left. -/
theorem unpredictable_history_free {C : Nat} (o : CCAObj) (l : List ℝ) (hk : o.kernelParams = .vec l)
    (a : HaltingArgs) (L : Learner T G C (labelOutputs a.mode)) (rand : G → Univ ℝ N C D D × G)
    (seedAll : Nat → G) (reps seed : Nat) (pop : List (List ℝ))
    (hpop : ∀ v ∈ pop, v.length =
      (readActs o.genesis).length + (readActs o.persistence).length + l.length) (t t' : T) (g : G) :
    let E := haltingEnv (ccaAutomaton G C) CCAObj.reset a L rand
    (E.evalAll seedAll reps seed pop (o, t) g).map (·.1) =
      pop.mapM fun v => (E.getFitness seedAll 1 reps seed (o, t') v).map (·.1) := by
  intro E
  exact primed_eq (haltingEnv_forgets (cca_fresh G C _) (fun h => h) (fun h =>
    ⟨⟨h.1.ext, h.1.int, h.1.conv, h.1.cls, h.1.thr, h.1.radius, h.1.idLayer, h.1.seqWeights, h.1.gen,
      h.1.per, h.1.kernel⟩, h.2⟩) a L rand) seedAll reps seed (o, t') pop hpop g
    ⟨⟨rfl, rfl, rfl, rfl, rfl, rfl, rfl, rfl, List.forall₂_same.2 fun x _ => .same x,
      List.forall₂_same.2 fun x _ => .same x, l, l, hk, hk, rfl, rfl⟩, rfl⟩

/-- C95: the same with a `RandomStepCA`. -/
theorem unpredictable_history_free_random {C : Nat} (s : RandomStepObj) (l : List ℝ)
    (hk : s.o.kernelParams = .vec l) (a : HaltingArgs) (L : Learner T G C (labelOutputs a.mode))
    (draw : G → ℝ × G) (rand : G → Univ ℝ N C D D × G)
    (seedAll : Nat → G) (reps seed : Nat) (pop : List (List ℝ))
    (hpop : ∀ v ∈ pop, v.length =
      (readActs s.o.genesis).length + (readActs s.o.persistence).length + l.length) (t t' : T) (g : G) :
    let E := haltingEnv (randomStepAutomaton draw C) RandomStepObj.reset a L rand
    (E.evalAll seedAll reps seed pop (s, t) g).map (·.1) =
      pop.mapM fun v => (E.getFitness seedAll 1 reps seed (s, t') v).map (·.1) := by
  intro E
  exact primed_eq (haltingEnv_forgets (randomStep_fresh draw C _) (fun h => h) (fun h =>
    ⟨⟨h.1.ext, h.1.int, h.1.conv, h.1.cls, h.1.thr, h.1.radius, h.1.idLayer, h.1.seqWeights, h.1.gen,
      h.1.per, h.1.kernel⟩, h.2⟩) a L rand) seedAll reps seed (s, t') pop hpop g
    ⟨⟨rfl, rfl, rfl, rfl, rfl, rfl, rfl, rfl, List.forall₂_same.2 fun x _ => .same x,
      List.forall₂_same.2 fun x _ => .same x, l, l, hk, hk, rfl, rfl⟩, rfl, rfl⟩

/-- C95: the same with a `MetaCA`, because each training step resets it. -/
theorem unpredictable_history_free_meta {C : Nat} (s : MetaObj C) (l : List ℝ)
    (hk : s.o.kernelParams = .vec l) (a : HaltingArgs) (L : Learner T G C (labelOutputs a.mode))
    (rand : G → Univ ℝ N C D D × G)
    (seedAll : Nat → G) (reps seed : Nat) (pop : List (List ℝ))
    (hpop : ∀ v ∈ pop, v.length =
      (readActs s.o.genesis).length + (readActs s.o.persistence).length + l.length) (t t' : T) (g : G) :
    let E := haltingEnv (metaAutomaton G C) MetaObj.reset a L rand
    (E.evalAll seedAll reps seed pop (s, t) g).map (·.1) =
      pop.mapM fun v => (E.getFitness seedAll 1 reps seed (s, t') v).map (·.1) := by
  intro E
  exact primed_eq (haltingEnv_forgets (meta_fresh G C _) (fun h => ⟨h.1, h.2.1, rfl⟩) (fun h => h)
      a L rand) seedAll reps seed (s, t') pop hpop g
    ⟨⟨⟨rfl, rfl, rfl, rfl, rfl, rfl, rfl, rfl, List.forall₂_same.2 fun x _ => .same x,
      List.forall₂_same.2 fun x _ => .same x, l, l, hk, hk, rfl, rfl⟩, rfl⟩, rfl⟩

end Yuca
