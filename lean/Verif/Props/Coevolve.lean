import Verif.Model.Coevolve
import Verif.Props.Evaluate2
import Verif.Props.Fitness

/-!
# Searches for moving patterns: C92 and C93
-/

namespace Yuca

open Spec

variable {σ G : Type} {C D : Nat}

/-! ## A rollout of `GliderWrapper` and what it reads of the automaton -/

/-- An automaton that is reset whenever its parameters are set. -/
def Spec.freshly (M : Automaton σ G C) (reset : σ → σ) : Automaton σ G C where
  setParams s v := (reset (M.setParams s v).1, (M.setParams s v).2)
  call := M.call

/-- An automaton whose parameters are never changed, but which is reset. -/
def Spec.pinned (M : Automaton σ G C) (reset : σ → σ) : Automaton σ G C where
  setParams s _ := (reset s, none)
  call := M.call

open Classical in
/-- The local variables after one pass of the loop that led to the grid `a`. -/
noncomputable def GliderVars.pass {N : Nat} (radius : ℝ) (v : GliderVars σ N C D)
    (a : Univ ℝ (N + 1) C D D) (s : σ) : GliderVars σ N C D :=
  let y1 := centreOfMass radius a
  let growth := growthPenalty (uMean a) v.mean0
  let disp : ℝ :=
    if v.y0 ≠ 0 then
      if kernelSpan radius D - 2 < v.y0 ∧ y1 < 2 then y1 - v.y0 + kernelSpan radius D else y1 - v.y0
    else 0
  { s := s, action := a, old := a, mean0 := uMean a, y0 := y1,
    reward := v.reward + (disp - growth), last := some (disp, growth) }

theorem gliderLoop_succ {N : Nat}
    (f : σ → Univ ℝ (N + 1) C D D → Except PyErr (Univ ℝ (N + 1) C D D × σ)) (radius : ℝ)
    (k : Nat) (v : GliderVars σ N C D) :
    gliderLoop f radius (k + 1) v = match f v.s v.action with
      | .error e => .error e
      | .ok (a, s) =>
        open Classical in
        if uMean a = 0 ∨ ∀ n c i j, a n c i j - v.old n c i j ≤ 1e-5 then .ok (v.pass radius a s)
        else gliderLoop f radius k (v.pass radius a s) := by
  rw [gliderLoop, gliderBody]
  rcases f v.s v.action with e | ⟨a, s⟩
  · rfl
  · simp only [bind, Except.bind, pure, Except.pure, decide_eq_true_eq]
    rfl

/-- What the wrapper reads at the end of the loop. -/
def GliderVars.result {N : Nat} (v : GliderVars (σ × G) N C D) :
    Univ ℝ (N + 1) C D D × ℝ × Option (ℝ × ℝ) × G := (v.action, v.reward, v.last, v.s.2)

/-- The local variables before the loop. -/
noncomputable def gliderStart (s : σ) (u : Univ ℝ 1 C D D) (g : G) : GliderVars (σ × G) 0 C D :=
  { s := (s, g), action := u, old := u, mean0 := uMean u, y0 := 0, reward := 0, last := none }

/-- What is returned after the loop. -/
noncomputable def gliderEnd : Except PyErr (GliderVars (σ × G) 0 C D) →
    Except PyErr ((ℝ × ℝ) × σ × G)
  | .error e => .error e
  | .ok v => match v.last with
    | none => .error .unbound
    | some _ => .ok ((v.reward, uMean v.action), v.s.1, v.s.2)

theorem gliderEpisode_eq (M : Automaton σ G C) (reset : σ → σ) (radius : ℝ) (caSteps : Nat) (s : σ)
    (u : Univ ℝ 1 C D D) (g : G) : gliderEpisode M reset radius caSteps s u g =
      gliderEnd (gliderLoop M.rollStep radius caSteps (gliderStart (reset s) u g)) := by
  have hf : ∀ f : σ × G → Univ ℝ (0 + 1) C D D → Except PyErr (Univ ℝ (0 + 1) C D D × (σ × G)),
      f = M.rollStep → gliderLoop f radius caSteps (gliderStart (reset s) u g) =
        gliderLoop M.rollStep radius caSteps (gliderStart (reset s) u g) := fun f h => by rw [h]
  rw [← hf (fun p u => match M.call p.1 p.2 u with
      | .error e => .error e
      | .ok (u', s', g') => .ok (u', (s', g')))]
  · unfold gliderEpisode gliderEnd gliderStart
    rfl
  · funext p u
    unfold Automaton.rollStep
    rcases M.call p.1 p.2 u with e | ⟨u', s', g'⟩ <;> rfl

section

variable {M : Automaton σ G C} {n : Nat} {like same : σ → σ → Prop}
  (F : AutomatonForgets M n like same)

include F

theorem gliderLoop_same (radius : ℝ) (k : Nat) : ∀ {N : Nat} (v : GliderVars (σ × G) N C D) (s' : σ),
    same v.s.1 s' →
    (gliderLoop M.rollStep radius k v).map GliderVars.result =
      (gliderLoop M.rollStep radius k { v with s := (s', v.s.2) }).map GliderVars.result := by
  induction k with
  | zero => intro N v s' _; rfl
  | succ k ih =>
    intro N v s' h
    obtain ⟨hv, hs⟩ := F.call_same v.s.2 v.action h
    rw [gliderLoop_succ, gliderLoop_succ]
    rcases hx : M.call v.s.1 v.s.2 v.action with e | ⟨u₁, s₁, g₁⟩
    · simp only [Automaton.rollStep, hx, visible_error hv hx]
    · obtain ⟨s₁', hy⟩ := visible_ok hv hx
      simp only [Automaton.rollStep, hx, hy]
      split
      · rfl
      · exact ih (v.pass radius u₁ (s₁, g₁)) s₁' (hs _ _ _ _ _ _ hx hy)

theorem gliderLoop_like (radius : ℝ) (k : Nat) : ∀ {N : Nat} {v v₁ : GliderVars (σ × G) N C D},
    like v.s.1 v.s.1 → gliderLoop M.rollStep radius k v = .ok v₁ → like v.s.1 v₁.s.1 := by
  induction k with
  | zero =>
    intro N v v₁ hs h
    cases h
    exact hs
  | succ k ih =>
    intro N v v₁ hs h
    rw [gliderLoop_succ] at h
    rcases hx : M.call v.s.1 v.s.2 v.action with e | ⟨u₁, s₁, g₁⟩
    · simp [Automaton.rollStep, hx] at h
    · simp only [Automaton.rollStep, hx] at h
      have h1 := F.call_like hs hx
      split at h
      · cases h
        exact h1
      · exact F.trans h1 (ih (v := v.pass radius u₁ (s₁, g₁)) (F.trans (F.symm h1) h1) h)

theorem episode_same (reset : σ → σ) (radius : ℝ) (caSteps : Nat) {s s' : σ}
    (u : Univ ℝ 1 C D D) (g : G) (h : same (reset s) (reset s')) :
    visible (gliderEpisode M reset radius caSteps s u g) =
      visible (gliderEpisode M reset radius caSteps s' u g) := by
  have key : (gliderLoop M.rollStep radius caSteps (gliderStart (reset s) u g)).map
      GliderVars.result = (gliderLoop M.rollStep radius caSteps (gliderStart (reset s') u g)).map
      GliderVars.result := gliderLoop_same F radius caSteps (gliderStart (reset s) u g) (reset s') h
  rw [gliderEpisode_eq, gliderEpisode_eq]
  revert key
  generalize gliderLoop M.rollStep radius caSteps
    (gliderStart (reset s) u g) = x
  generalize gliderLoop M.rollStep radius caSteps
    (gliderStart (reset s') u g) = y
  intro key
  rcases x with e | v <;> rcases y with e' | v' <;>
    simp only [Except.map, Except.ok.injEq, Except.error.injEq, reduceCtorEq, GliderVars.result,
      Prod.mk.injEq] at key
  · rw [key]
  · obtain ⟨h1, h2, h3, h4⟩ := key
    dsimp only [gliderEnd]
    rw [← h1, ← h2, ← h3, ← h4]
    cases v.last <;> rfl

theorem episode_like (reset : σ → σ) (radius : ℝ) (caSteps : Nat) {s s₁ : σ}
    {u : Univ ℝ 1 C D D} {g g₁ : G} {r : ℝ × ℝ} (hs : like (reset s) (reset s))
    (h : gliderEpisode M reset radius caSteps s u g = .ok (r, s₁, g₁)) : like (reset s) s₁ := by
  rw [gliderEpisode_eq] at h
  rcases hv : gliderLoop M.rollStep radius caSteps (gliderStart (reset s) u g) with e | v
  · rw [hv] at h; cases h
  · rw [hv] at h
    have h1 : like (reset s) v.s.1 :=
      gliderLoop_like F radius caSteps (v := gliderStart (reset s) u g) hs hv
    dsimp only [gliderEnd] at h
    rcases hl : v.last with _ | p
    · rw [hl] at h; cases h
    · rw [hl] at h; cases h
      exact h1

end

/-- Coevolution: setting the rule and resetting wipes out what earlier rollouts left. -/
theorem coevo_forgets {M : Automaton σ G C} {reset : σ → σ} {n : Nat} {like same : σ → σ → Prop}
    (F : AutomatonForgets (freshly M reset) n like same) (radius : ℝ) (caSteps k : Nat)
    (pattern : List ℝ → Except PyErr (Univ ℝ 1 C D D)) :
    Forgets (coevoEnv M reset radius caSteps k pattern) (fun v => v.length = k + n) like where
  symm := F.symm
  trans := F.trans
  reset_gen _ _ := rfl
  reset_like _ h := h
  step_eq := by
    intro s s' v g h hv
    have hl : (v.drop k).length = n := by rw [List.length_drop]; omega
    have he := F.set_err h hl
    simp only [freshly] at he
    simp only [coevoEnv]
    rcases pattern (v.take k) with e | u
    · rfl
    · dsimp only
      rcases hx : M.setParams s (v.drop k) with ⟨s₁, _ | e⟩ <;>
        rcases hy : M.setParams s' (v.drop k) with ⟨s₁', _ | e'⟩ <;> rw [hx, hy] at he
      · have hs := F.set_same h hl (by simp only [freshly, hx])
        simp only [freshly, hx, hy] at hs
        exact episode_same (M := freshly M reset) F reset radius caSteps u g hs
      · cases he
      · cases he
      · cases he; rfl
  step_like := by
    intro s s₁ v g g₁ r hs hv h
    have hl : (v.drop k).length = n := by rw [List.length_drop]; omega
    simp only [coevoEnv] at h
    rcases hp : pattern (v.take k) with e | u
    · rw [hp] at h; cases h
    · rw [hp] at h
      dsimp only at h
      rcases hx : M.setParams s (v.drop k) with ⟨s', _ | e⟩
      · rw [hx] at h
        dsimp only at h
        have h1 := F.set_like hs hl (by simp only [freshly, hx])
        simp only [freshly, hx] at h1
        exact F.trans h1 (episode_like (M := freshly M reset) F reset radius caSteps
          (F.trans (F.symm h1) h1) h)
      · rw [hx] at h; cases h

/-- Pattern search: resetting wipes out what earlier rollouts left. -/
theorem pattern_forgets {M : Automaton σ G C} {reset : σ → σ} {like same : σ → σ → Prop}
    (F : AutomatonForgets (pinned M reset) 0 like same) (radius : ℝ) (caSteps : Nat)
    (pattern : List ℝ → Except PyErr (Univ ℝ 1 C D D)) :
    Forgets (patternEnv M reset radius caSteps pattern) (fun _ => True) like where
  symm := F.symm
  trans := F.trans
  reset_gen _ _ := rfl
  reset_like _ h := h
  step_eq := by
    intro s s' v g h _
    simp only [patternEnv]
    rcases pattern v with e | u
    · rfl
    · exact episode_same (M := pinned M reset) F reset radius caSteps u g
        (F.set_same (v := []) h rfl rfl)
  step_like := by
    intro s s₁ v g g₁ r hs _ h
    simp only [patternEnv] at h
    rcases hp : pattern v with e | u
    · rw [hp] at h; cases h
    · rw [hp] at h
      have h1 : like s (reset s) := F.set_like (v := []) hs rfl rfl
      exact F.trans h1 (episode_like (M := pinned M reset) F reset radius caSteps
        (F.trans (F.symm h1) h1) h)

/-! ## The automata -/

theorem freshly_forgets {M : Automaton σ G C} {reset : σ → σ} {n : Nat} {like same : σ → σ → Prop}
    (F : AutomatonForgets M n like same) (hs : ∀ {s s'}, same s s' → same (reset s) (reset s'))
    (hl : ∀ {s s'}, like s s' → like s (reset s')) :
    AutomatonForgets (freshly M reset) n like same where
  symm := F.symm
  trans := F.trans
  set_err h hv := F.set_err h hv
  set_same h hv he := hs (F.set_same h hv he)
  set_like h hv he := hl (F.set_like h hv he)
  call_same := F.call_same
  call_like := F.call_like

theorem cca_fresh (G : Type) (C n : Nat) : AutomatonForgets (freshly (ccaAutomaton G C) CCAObj.reset) n
    (fun o o' => Twins n o o' ∧ o.dt = o'.dt) (fun o o' => o.dynamics = o'.dynamics) :=
  freshly_forgets (cca_forgets G C n) (fun h => h) fun h =>
    ⟨⟨h.1.ext, h.1.int, h.1.conv, h.1.cls, h.1.thr, h.1.radius, h.1.idLayer, h.1.seqWeights, h.1.gen,
      h.1.per, h.1.kernel⟩, h.2⟩

theorem randomStep_fresh (rand : G → ℝ × G) (C n : Nat) :
    AutomatonForgets (freshly (randomStepAutomaton rand C) RandomStepObj.reset) n
      (fun s s' => Twins n s.o s'.o ∧ s.maxDt = s'.maxDt ∧ s.minDt = s'.minDt)
      (fun s s' => { s.o.dynamics with dt := 0 } = { s'.o.dynamics with dt := 0 } ∧
        s.maxDt = s'.maxDt ∧ s.minDt = s'.minDt) :=
  freshly_forgets (randomStep_forgets rand C n) (fun h => h) fun h =>
    ⟨⟨h.1.ext, h.1.int, h.1.conv, h.1.cls, h.1.thr, h.1.radius, h.1.idLayer, h.1.seqWeights, h.1.gen,
      h.1.per, h.1.kernel⟩, h.2⟩

/-- What a call of a `MetaCA` gives, from what it reads. -/
noncomputable def Spec.metaShown {N C D : Nat} (d : CCADyn) (t ddt : ℝ) (m : Momentum ℝ C)
    (u : Univ ℝ N C D D) : Except PyErr (Univ ℝ N C D D × Momentum ℝ C) :=
  if h : d.ext = C then
    (MetaCA.forward ⟨d.toCCA t, ddt, m.recast h.symm⟩ (u.recast h.symm)).map fun r =>
      (r.1.recast h, r.2.dgrid.recast h)
  else .error .runtime

theorem meta_call_eq {N : Nat} (s : MetaObj C) (g : G) (u : Univ ℝ N C D D) :
    (metaAutomaton G C).call s g u =
      (metaShown s.o.dynamics s.o.t s.ddt s.dgrid u).map fun r => (r.1, { s with dgrid := r.2 }, g) := by
  unfold metaAutomaton metaShown
  dsimp only
  split
  · rename_i h
    rcases MetaCA.forward ⟨s.o.dynamics.toCCA s.o.t, s.ddt, s.dgrid.recast h.symm⟩ (u.recast h.symm)
      with e | ⟨u', r⟩ <;> rfl
  · rfl

theorem metaShown_time {N : Nat} (d : CCADyn) (t t' ddt : ℝ) (m : Momentum ℝ C)
    (u : Univ ℝ N C D D) : metaShown d t ddt m u = metaShown d t' ddt m u := by
  unfold metaShown
  split
  · rename_i h
    show Except.map _ (do
        let idn ← (d.toCCA t').idL.apply (maskIf d.thr (u.recast h.symm))
        let nb ← (d.toCCA t').nbL.apply (maskIf d.thr (u.recast h.symm))
        let upd ← (d.toCCA t').updateUniverse idn nb
        let d' : Univ ℝ N d.ext D D := fun n c i j => Arith.add
          (Momentum.forShape (m.recast h.symm) N D D n c i j) (Arith.mul ddt (upd n c i j))
        return (eulerClamp d.dt (maskIf d.thr (u.recast h.symm)) d',
          (⟨d.toCCA t, ddt, some ⟨(N, D, D), d'⟩⟩ : MetaCA ℝ d.ext d.int))) =
      Except.map _ (do
        let idn ← (d.toCCA t').idL.apply (maskIf d.thr (u.recast h.symm))
        let nb ← (d.toCCA t').nbL.apply (maskIf d.thr (u.recast h.symm))
        let upd ← (d.toCCA t').updateUniverse idn nb
        let d' : Univ ℝ N d.ext D D := fun n c i j => Arith.add
          (Momentum.forShape (m.recast h.symm) N D D n c i j) (Arith.mul ddt (upd n c i j))
        return (eulerClamp d.dt (maskIf d.thr (u.recast h.symm)) d',
          (⟨d.toCCA t', ddt, some ⟨(N, D, D), d'⟩⟩ : MetaCA ℝ d.ext d.int)))
    simp only [bind, Except.bind, Except.map]
    rcases (d.toCCA t').idL.apply (maskIf d.thr (u.recast h.symm)) with e | idn
    · rfl
    rcases (d.toCCA t').nbL.apply (maskIf d.thr (u.recast h.symm)) with e | nb
    · rfl
    dsimp only
    rcases (d.toCCA t').updateUniverse idn nb with e | upd
    · rfl
    rfl
  · rfl

theorem meta_call_same {N : Nat} {s s' : MetaObj C} (g : G) (u : Univ ℝ N C D D)
    (h : s.o.dynamics = s'.o.dynamics ∧ s.ddt = s'.ddt ∧ s.dgrid = s'.dgrid) :
    visible ((metaAutomaton G C).call s g u) = visible ((metaAutomaton G C).call s' g u) ∧
    ∀ u₁ s₁ s₁' g₁ g₁' u₁', (metaAutomaton G C).call s g u = .ok (u₁, s₁, g₁) →
      (metaAutomaton G C).call s' g u = .ok (u₁', s₁', g₁') →
      s₁.o.dynamics = s₁'.o.dynamics ∧ s₁.ddt = s₁'.ddt ∧ s₁.dgrid = s₁'.dgrid := by
  rw [meta_call_eq, meta_call_eq, h.1, h.2.1, h.2.2, metaShown_time _ s.o.t s'.o.t]
  rcases metaShown s'.o.dynamics s'.o.t s'.ddt s'.dgrid u with e | ⟨u₁, m⟩
  · exact ⟨rfl, fun _ _ _ _ _ _ hx => by cases hx⟩
  · refine ⟨rfl, fun _ _ _ _ _ _ hx hy => ?_⟩
    cases hx; cases hy
    exact ⟨h.1, rfl, rfl⟩

theorem meta_call_keeps {N : Nat} {s s₁ : MetaObj C} {g g₁ : G} {u u₁ : Univ ℝ N C D D}
    (h : (metaAutomaton G C).call s g u = .ok (u₁, s₁, g₁)) : s₁.o = s.o ∧ s₁.ddt = s.ddt := by
  rw [meta_call_eq] at h
  rcases hx : metaShown s.o.dynamics s.o.t s.ddt s.dgrid u with e | ⟨u', m⟩
  · rw [hx] at h; cases h
  · rw [hx] at h; cases h
    exact ⟨rfl, rfl⟩

theorem meta_fresh (G : Type) (C n : Nat) :
    AutomatonForgets (freshly (metaAutomaton G C) MetaObj.reset) n
      (fun s s' => (Twins n s.o s'.o ∧ s.o.dt = s'.o.dt) ∧ s.ddt = s'.ddt)
      (fun s s' => s.o.dynamics = s'.o.dynamics ∧ s.ddt = s'.ddt ∧ s.dgrid = s'.dgrid) where
  symm h := ⟨(cca_forgets G C n).symm h.1, h.2.symm⟩
  trans h h' := ⟨(cca_forgets G C n).trans h.1 h'.1, h.2.trans h'.2⟩
  set_err h hv := (cca_forgets G C n).set_err h.1 hv
  set_same h hv he := ⟨(cca_forgets G C n).set_same h.1 hv he, h.2, rfl⟩
  set_like h hv he := ⟨(cca_forgets G C n).set_like h.1 hv he, h.2⟩
  call_same g u h := meta_call_same g u h
  call_like h hx := by
    obtain ⟨h1, h2⟩ := meta_call_keeps hx
    rw [h1, h2]
    exact h

theorem cca_pinned (G : Type) (C : Nat) : AutomatonForgets (pinned (ccaAutomaton G C) CCAObj.reset) 0
    (fun o o' => o.dynamics = o'.dynamics) (fun o o' => o.dynamics = o'.dynamics) where
  symm h := h.symm
  trans h h' := h.trans h'
  set_err _ _ := rfl
  set_same h _ _ := h
  set_like h _ _ := h
  call_same g u h := (cca_forgets G C 0).call_same g u h
  call_like := by
    intro N D s s₁ g g₁ u u₁ h hx
    change (match s.dynamics.call s.t u with
      | .error e => Except.error e
      | .ok (u', t) => Except.ok (u', { s with t := t }, g)) = _ at hx
    rcases hz : s.dynamics.call s.t u with e | ⟨u', t'⟩
    · rw [hz] at hx; cases hx
    · rw [hz] at hx; cases hx; rfl

theorem randomStep_pinned (rand : G → ℝ × G) (C : Nat) :
    AutomatonForgets (pinned (randomStepAutomaton rand C) RandomStepObj.reset) 0
      (fun s s' => { s.o.dynamics with dt := 0 } = { s'.o.dynamics with dt := 0 } ∧
        s.maxDt = s'.maxDt ∧ s.minDt = s'.minDt)
      (fun s s' => { s.o.dynamics with dt := 0 } = { s'.o.dynamics with dt := 0 } ∧
        s.maxDt = s'.maxDt ∧ s.minDt = s'.minDt) where
  symm h := ⟨h.1.symm, h.2.1.symm, h.2.2.symm⟩
  trans h h' := ⟨h.1.trans h'.1, h.2.1.trans h'.2.1, h.2.2.trans h'.2.2⟩
  set_err _ _ := rfl
  set_same h _ _ := h
  set_like h _ _ := h
  call_same g u h := (randomStep_forgets rand C 0).call_same g u h
  call_like := by
    intro N D s s₁ g g₁ u u₁ h hx
    obtain ⟨a, b, c, rfl⟩ := randomStep_call hx
    exact ⟨rfl, rfl, rfl⟩

theorem meta_pinned (G : Type) (C : Nat) :
    AutomatonForgets (pinned (metaAutomaton G C) MetaObj.reset) 0
      (fun s s' => s.o.dynamics = s'.o.dynamics ∧ s.ddt = s'.ddt)
      (fun s s' => s.o.dynamics = s'.o.dynamics ∧ s.ddt = s'.ddt ∧ s.dgrid = s'.dgrid) where
  symm h := ⟨h.1.symm, h.2.symm⟩
  trans h h' := ⟨h.1.trans h'.1, h.2.trans h'.2⟩
  set_err _ _ := rfl
  set_same h _ _ := ⟨h.1, h.2, rfl⟩
  set_like h _ _ := h
  call_same g u h := meta_call_same g u h
  call_like h hx := by
    obtain ⟨h1, h2⟩ := meta_call_keeps hx
    rw [h1, h2]
    exact h

end Yuca
