import Verif.Props.Evaluate
import Verif.Props.Wrappers
import Verif.Props.StepControl

/-!
# Evaluating a population: RandomStepCA forgets, MetaCA and CODE do not (C82)
-/

namespace Yuca

open Spec

variable {G : Type}

/-! ## RandomStepCA -/

theorem randomStep_dt_free {N H W : Nat} (d : CCADyn) (x t t' p p' mx mn r : ℝ)
    (u : Univ ℝ N d.ext H W) :
    (RandomStepCA.forward ⟨{ d with dt := x }.toCCA t, p, mx, mn⟩ r u).map (·.1) =
      (RandomStepCA.forward ⟨d.toCCA t', p', mx, mn⟩ r u).map (·.1) := by
  show Except.map _ (do
      let idn ← (d.toCCA t').idL.apply (maskIf d.thr u)
      let nb ← (d.toCCA t').nbL.apply (maskIf d.thr u)
      let upd ← (d.toCCA t').updateUniverse idn nb
      let dt := Arith.add (Arith.mul r (Arith.sub mx mn)) mn
      return (eulerClamp dt (maskIf d.thr u) upd,
        (⟨{ d.toCCA t with dt := dt, t := t + dt }, Arith.mul Arith.one dt, mx, mn⟩ :
          RandomStepCA ℝ d.ext d.int))) =
    Except.map _ (do
      let idn ← (d.toCCA t').idL.apply (maskIf d.thr u)
      let nb ← (d.toCCA t').nbL.apply (maskIf d.thr u)
      let upd ← (d.toCCA t').updateUniverse idn nb
      let dt := Arith.add (Arith.mul r (Arith.sub mx mn)) mn
      return (eulerClamp dt (maskIf d.thr u) upd,
        (⟨{ d.toCCA t' with dt := dt, t := t' + dt }, Arith.mul Arith.one dt, mx, mn⟩ :
          RandomStepCA ℝ d.ext d.int)))
  simp only [bind, Except.bind, Except.map]
  rcases (d.toCCA t').idL.apply (maskIf d.thr u) with e | idn
  · rfl
  rcases (d.toCCA t').nbL.apply (maskIf d.thr u) with e | nb
  · rfl
  dsimp only
  rcases (d.toCCA t').updateUniverse idn nb with e | upd
  · rfl
  rfl

/-- The universe a call of a `RandomStepCA` with these settings leads to. -/
noncomputable def RandomStepCA.shown {N C D : Nat} (d : CCADyn) (t p mx mn r : ℝ)
    (u : Univ ℝ N C D D) : Except PyErr (Univ ℝ N C D D) :=
  if h : d.ext = C then
    ((RandomStepCA.forward ⟨d.toCCA t, p, mx, mn⟩ r (u.recast h.symm)).map (·.1)).map (·.recast h)
  else .error .runtime

theorem randomStep_visible (rand : G → ℝ × G) {N C D : Nat} (s : RandomStepObj) (g : G)
    (u : Univ ℝ N C D D) :
    visible ((randomStepAutomaton rand C).call s g u) =
      (RandomStepCA.shown s.o.dynamics s.o.t s.prevDt s.maxDt s.minDt (rand g).1 u).map
        (·, (rand g).2) := by
  unfold randomStepAutomaton RandomStepCA.shown
  dsimp only
  split
  · rename_i h
    rcases hx : RandomStepCA.forward ⟨s.o.dynamics.toCCA s.o.t, s.prevDt, s.maxDt, s.minDt⟩
      (rand g).1 (u.recast h.symm) with e | ⟨u₁, r₁⟩ <;> rfl
  · rfl

theorem shown_dt_free {N C D : Nat} {d d' : CCADyn} (h : { d with dt := 0 } = { d' with dt := 0 })
    (t t' p p' mx mn r : ℝ) (u : Univ ℝ N C D D) :
    RandomStepCA.shown d t p mx mn r u = RandomStepCA.shown d' t' p' mx mn r u := by
  have hd : d = { d' with dt := d.dt } := by
    have := congrArg (fun e : CCADyn => { e with dt := d.dt }) h
    exact this
  generalize d.dt = x at hd
  subst hd
  unfold RandomStepCA.shown
  by_cases hc : d'.ext = C
  · rw [dif_pos hc, dif_pos (show ({ d' with dt := x } : CCADyn).ext = C from hc)]
    exact congrArg _ (randomStep_dt_free d' x t t' p p' mx mn r (u.recast hc.symm))
  · rw [dif_neg hc, dif_neg (show ¬ ({ d' with dt := x } : CCADyn).ext = C from hc)]

/-- Calls of a `RandomStepCA`: the part of the object that later calls read, apart from step size
and time, stays. -/
theorem randomStep_call {rand : G → ℝ × G} {N C D : Nat} {s s₁ : RandomStepObj} {g g₁ : G}
    {u u₁ : Univ ℝ N C D D} (hx : (randomStepAutomaton rand C).call s g u = .ok (u₁, s₁, g₁)) :
    ∃ dt t prev, s₁ = { s with o := { s.o with dt := dt, t := t }, prevDt := prev } := by
  unfold randomStepAutomaton at hx
  dsimp only at hx
  split at hx
  · split at hx
    · cases hx
    · cases hx; exact ⟨_, _, _, rfl⟩
  · cases hx

/-- C82: after a call of a `RandomStepCA` the object holds the step size that was drawn, and its
time has moved on by it: the last agent's step size stays, although no later call reads it. -/
theorem randomStep_keeps_dt {rand : G → ℝ × G} {N C D : Nat} {s s₁ : RandomStepObj} {g g₁ : G}
    {u u₁ : Univ ℝ N C D D} (hx : (randomStepAutomaton rand C).call s g u = .ok (u₁, s₁, g₁)) :
    s₁.o.dt = (rand g).1 * (s.maxDt - s.minDt) + s.minDt ∧ s₁.o.t = s.o.t + s₁.o.dt ∧
      s₁.prevDt = s₁.o.dt ∧ g₁ = (rand g).2 := by
  unfold randomStepAutomaton at hx
  dsimp only at hx
  split at hx
  · split at hx
    · cases hx
    · rename_i hf
      cases hx
      obtain ⟨_, _, _, _, _, _, hr⟩ := RandomStepCA.forward_ok hf
      have hr := congrArg Prod.snd hr
      simp only at hr
      subst hr
      exact ⟨rfl, rfl, one_mul _, rfl⟩
  · cases hx

theorem randomStep_forgets (rand : G → ℝ × G) (C n : Nat) :
    AutomatonForgets (randomStepAutomaton rand C) n
      (fun s s' => Twins n s.o s'.o ∧ s.maxDt = s'.maxDt ∧ s.minDt = s'.minDt)
      (fun s s' => { s.o.dynamics with dt := 0 } = { s'.o.dynamics with dt := 0 } ∧
        s.maxDt = s'.maxDt ∧ s.minDt = s'.minDt) where
  symm h := ⟨twins_symm h.1, h.2.1.symm, h.2.2.symm⟩
  trans h h' := ⟨twins_trans h.1 h'.1, h.2.1.trans h'.2.1, h.2.2.trans h'.2.2⟩
  set_err h hv := (setParams_twins h.1 hv).1
  set_same {s s' v} h hv he := by
    refine ⟨?_, h.2.1, h.2.2⟩
    show { (s.o.setParams v).1.dynamics with dt := 0 } = { (s'.o.setParams v).1.dynamics with dt := 0 }
    rw [(setParams_twins h.1 hv).2.1 he]
  set_like h hv _ := ⟨(setParams_twins h.1 hv).2.2.2, rfl, rfl⟩
  call_same := by
    intro N D s s' g u h
    obtain ⟨hd, hmx, hmn⟩ := h
    have hd' : s.o.dynamics = { s'.o.dynamics with dt := s.o.dynamics.dt } := by
      have := congrArg (fun d : CCADyn => { d with dt := s.o.dynamics.dt }) hd
      exact this
    constructor
    · rw [randomStep_visible, randomStep_visible, hmx, hmn, shown_dt_free hd s.o.t s'.o.t s.prevDt s'.prevDt]
    · intro u₁ s₁ s₁' g₁ g₁' u₁' hx hy
      obtain ⟨a, b, c, rfl⟩ := randomStep_call hx
      obtain ⟨a', b', c', rfl⟩ := randomStep_call hy
      exact ⟨hd, hmx, hmn⟩
  call_like := by
    intro N D s s₁ g g₁ u u₁ h hx
    obtain ⟨a, b, c, rfl⟩ := randomStep_call hx
    exact ⟨⟨rfl, rfl, rfl, rfl, rfl, rfl, rfl, rfl, h.1.gen, h.1.per, h.1.kernel⟩, rfl, rfl⟩

/-- C82: the same for `RandomStepCA`, whose random steps are drawn from the generators set at the
start of the evaluation. -/
theorem fitness_history_free_random {C : Nat} (s : RandomStepObj) (l : List ℝ)
    (hk : s.o.kernelParams = .vec l) (draw : G → ℝ × G)
    (batch dim caSteps : Nat) (rand : G → Univ ℝ batch C dim dim × G) (seedAll : Nat → G)
    (reps seed : Nat) (pop : List (List ℝ))
    (hpop : ∀ v ∈ pop, v.length =
      (readActs s.o.genesis).length + (readActs s.o.persistence).length + l.length) (g : G) :
    let E := simpleHalting (randomStepAutomaton draw C) batch dim caSteps rand
    (E.evalAll seedAll reps seed pop s g).map (·.1) =
      pop.mapM fun v => (E.getFitness seedAll 1 reps seed s v).map (·.1) :=
  evalAll_eq (simpleHalting_forgets (randomStep_forgets draw C _) batch dim caSteps rand) seedAll reps
    seed s pop hpop g
    ⟨⟨rfl, rfl, rfl, rfl, rfl, rfl, rfl, rfl, List.forall₂_same.2 fun x _ => .same x,
      List.forall₂_same.2 fun x _ => .same x, l, l, hk, hk, rfl, rfl⟩, rfl, rfl⟩

/-! ## Dividing a population among processes -/

theorem mapM_append_except {X Y : Type} (f : X → Except PyErr Y) (xs ys : List X) :
    (xs ++ ys).mapM f = (do
      let a ← xs.mapM f
      let b ← ys.mapM f
      return a ++ b) := by
  rw [List.mapM_append]

/-- C82: two processes with their own copies of the environment, each evaluating a part of the
population, together find what one process would. -/
theorem evalAll_divided {σ A : Type} {E : Env σ A G} {P : A → Prop} {like : σ → σ → Prop}
    (F : Forgets E P like) (seedAll : Nat → G) (reps seed : Nat) {s s₁ s₂ : σ} {g g₁ g₂ : G}
    (h₁ : like s s₁) (h₂ : like s s₂) (xs ys : List A) (hx : ∀ a ∈ xs, P a) (hy : ∀ a ∈ ys, P a) :
    (E.evalAll seedAll reps seed (xs ++ ys) s g).map (·.1) = (do
      let a ← (E.evalAll seedAll reps seed xs s₁ g₁).map (·.1)
      let b ← (E.evalAll seedAll reps seed ys s₂ g₂).map (·.1)
      return a ++ b) := by
  have hs := like_left F h₁
  rw [evalAll_eq F seedAll reps seed s (xs ++ ys) (by
      intro a ha; rcases List.mem_append.1 ha with h | h
      exacts [hx a h, hy a h]) g hs,
    evalAll_eq F seedAll reps seed s xs hx g₁ h₁, evalAll_eq F seedAll reps seed s ys hy g₂ h₂,
    mapM_append_except]

/-- A rollout of one step, and the evaluation that consists of it. -/
theorem oneStep_fitness {σ : Type} {C : Nat} {M : Automaton σ G C} {batch dim : Nat}
    (rand : G → Univ ℝ batch C dim dim × G) (seedAll : Nat → G) (seed : Nat) {s s₁ s₂ : σ}
    {v : List ℝ} {u : Univ ℝ batch C dim dim} {g₂ : G} (hset : M.setParams s v = (s₁, none))
    (hcall : M.call s₁ (rand (seedAll seed)).2 (startGrid dim (rand (seedAll seed)).1) =
      .ok (u, s₂, g₂)) :
    (simpleHalting M batch dim 1 rand).getFitness seedAll 1 1 seed s v =
      .ok ((-|0.5001 - activeGrid u|, activeGrid u), s₂, g₂) := by
  have hroll : haltingRollout M.rollStep 1 (s₁, (rand (seedAll seed)).2)
      (startGrid dim (rand (seedAll seed)).1) = .ok (u, s₂, g₂) := by
    have hf : M.rollStep (s₁, (rand (seedAll seed)).2) (startGrid dim (rand (seedAll seed)).1) =
        .ok (u, (s₂, g₂)) := by
      unfold Automaton.rollStep
      rw [hcall]
    rcases le_or_gt (Spec.mean u) 0 with h | h
    · exact (rollout_step hf 0).1 h
    · rw [(rollout_step hf 0).2 h]; rfl
  have hstep : (simpleHalting M batch dim 1 rand).step s v (seedAll seed) =
      .ok ((haltingReward (activeGrid u), activeGrid u), s₂, g₂) := by
    rw [simpleHalting_step]
    rw [hset]
    dsimp only
    rw [hroll]
  have hres : (simpleHalting M batch dim 1 rand).reset s (seedAll seed) = (s, seedAll seed) := rfl
  simp only [Env.getFitness, Env.replicates, Env.steps, hres, hstep, (halting_reward_range u).1]
  simp

/-! ## MetaCA -/

/-- A one-channel object with constant growth functions. -/
noncomputable def Witness.constObj (κ : AnyKernel) (a b dt t : ℝ) : CCAObj where
  kw := {}
  kernelRadius := 1
  kernelParams := .vec [1 / 2, 3 / 20]
  idKernel := ⟨1, identityKernel⟩
  nbKernel := κ
  idLayer := ⟨1, identityKernel⟩
  nbLayer := κ
  genesis := [.polynomial [a] false]
  persistence := [.polynomial [b] false]
  seqWeights := (fun _ _ => 0, fun _ _ => 0)
  nbCfg := none
  genCfg := none
  perCfg := none
  dt := dt
  t := t

theorem constObj_setParams {κ : AnyKernel} (hκ : gaussianMixtureKernel 1 [1 / 2, 3 / 20] = .ok κ)
    (a b a' b' dt t : ℝ) :
    (Witness.constObj κ a b dt t).setParams [a', b', 1 / 2, 3 / 20] =
      (Witness.constObj κ a' b' dt t, none) := by
  simp only [one_div] at hκ
  simp [CCAObj.setParams, Witness.constObj, writeActs, writeTensors, Act.tensors, Act.setTensors,
    KParams.len, hκ, CCAObj.addNeighborhoodKernel, CCAObj.initNbLayer]

theorem constObj_plain (κ : AnyKernel) (a b dt t : ℝ) :
    Plain (Witness.constObj κ a b dt t).dynamics :=
  ⟨rfl, rfl, rfl, Nat.one_pos, dvd_refl 1, rfl, rfl⟩

theorem constObj_growth (κ : AnyKernel) (a b dt t : ℝ) {N H W : Nat} (thr : ℝ) (u : Univ ℝ N 1 H W)
    (n : Fin N) (i : Fin H) (j : Fin W) :
    growth (constObj_plain κ a b dt t) (alive thr u n) i j =
      (1 - u n 0 i j) * a + u n 0 i j * b := by
  have ha : alive thr u = u := by
    funext n e i j; unfold alive; rw [dif_neg (show ¬ 4 ≤ 1 by decide)]
  show 1 / (((1 : Nat) : ℝ) * ((1 : Nat) : ℝ)) * ∑ o : Fin 1,
    ((1 - alive thr u n (source Nat.one_pos (dvd_refl 1) o) i j) * polynomialFn [a] false
        (gathered κ.2 (alive thr u n (source Nat.one_pos (dvd_refl 1) o)) i j) +
      alive thr u n (source Nat.one_pos (dvd_refl 1) o) i j * polynomialFn [b] false
        (gathered κ.2 (alive thr u n (source Nat.one_pos (dvd_refl 1) o)) i j)) = _
  rw [ha]
  simp [polynomialFn, Subsingleton.elim (source _ _ _) (0 : Fin 1)]

theorem metaAutomaton_call {N C D : Nat} (s : MetaObj C) (g : G) (u : Univ ℝ N C D D)
    (h : s.o.dynamics.ext = C) {u₁ : Univ ℝ N s.o.dynamics.ext D D}
    {r₁ : MetaCA ℝ s.o.dynamics.ext s.o.dynamics.int}
    (hf : MetaCA.forward ⟨s.o.dynamics.toCCA s.o.t, s.ddt, s.dgrid.recast h.symm⟩ (u.recast h.symm) =
      .ok (u₁, r₁)) :
    (metaAutomaton G C).call s g u = .ok (u₁.recast h, { s with dgrid := r₁.dgrid.recast h }, g) := by
  unfold metaAutomaton
  dsimp only
  rw [dif_pos h, hf]

/-- One call of the witness as a `MetaCA`. -/
theorem constMeta_call {κ : AnyKernel} (hκ : κ.1 = 1) (a b dt t ddt : ℝ) (m : Momentum ℝ 1)
    {N D : Nat} (hD : 1 ≤ D) (v u : Univ ℝ N 1 D D)
    (hv : m = some ⟨(N, D, D), v⟩ ∨ (v = fun _ _ _ _ => 0) ∧ ∀ w, m ≠ some ⟨(N, D, D), w⟩) (g : G) :
    ∃ u' v' : Univ ℝ N 1 D D, (metaAutomaton G 1).call ⟨Witness.constObj κ a b dt t, ddt, m⟩ g u =
        .ok (u', ⟨Witness.constObj κ a b dt t, ddt, some ⟨(N, D, D), v'⟩⟩, g) ∧
      (∀ n c i j, v' n c i j = v n c i j + ddt * ((1 - u n 0 i j) * a + u n 0 i j * b)) ∧
      ∀ n c i j, u' n c i j = clip (u n c i j + dt * v' n c i j) := by
  have hH : 1 ≤ D ∧ (Witness.constObj κ a b dt t).dynamics.nbLayer.1 ≤ D :=
    ⟨hD, by show κ.1 ≤ D; omega⟩
  obtain ⟨u', v', h1, h2, h3⟩ := meta_rule (constObj_plain κ a b dt t) t ddt m u hH hH v hv
  refine ⟨u', v', ?_, fun n c i j => ?_, fun n c i j => ?_⟩
  · exact metaAutomaton_call ⟨Witness.constObj κ a b dt t, ddt, m⟩ g u rfl h1
  · rw [h2 n c i j, constObj_growth]
  · rw [h3 n c i j]
    have ha : alive (Witness.constObj κ a b dt t).dynamics.thr u = u := by
      funext n e i j; unfold alive; rw [dif_neg (show ¬ 4 ≤ 1 by decide)]
    have := congrFun (congrFun (congrFun (congrFun ha n) c) i) j
    exact congrArg (fun x => clip (x + dt * v' n c i j)) this

/-- On a universe of one cell the start grid is empty. -/
theorem startGrid_one {N C : Nat} (r : Univ ℝ N C 1 1) : startGrid 1 r = fun _ _ _ _ => 0 := by
  funext n c i j
  simp [startGrid, inTailSlice, Arith.mul, Arith.zero]

/-- The witness as a `MetaCA` on one cell, one step per rollout: the fitness of an agent, for a
momentum `x` left behind. -/
theorem constMeta_fitness {κ : AnyKernel} (hκ : gaussianMixtureKernel 1 [1 / 2, 3 / 20] = .ok κ)
    (rand : G → Univ ℝ 1 1 1 1 × G) (seedAll : Nat → G) (seed : Nat) (a b a' b' x : ℝ)
    (m : Momentum ℝ 1)
    (hm : m = some ⟨(1, 1, 1), fun _ _ _ _ => x⟩ ∨ x = 0 ∧ m = none) :
    ∃ g, (simpleHalting (metaAutomaton G 1) 1 1 1 rand).getFitness seedAll 1 1 seed
        ⟨Witness.constObj κ a b (1 / 10) 0, 1 / 4, m⟩ [a', b', 1 / 2, 3 / 20] =
      .ok (if 0 < x + 1 / 4 * a' then (-0.4999, 1) else (-0.5001, 0),
        ⟨Witness.constObj κ a' b' (1 / 10) 0, 1 / 4, some ⟨(1, 1, 1), fun _ _ _ _ => x + 1 / 4 * a'⟩⟩,
        g) := by
  have hr := mixture_kernel_radius hκ
  obtain ⟨u', v', h1, h2, h3⟩ := constMeta_call hr a' b' (1 / 10) 0 (1 / 4) m (le_refl 1)
    (fun _ _ _ _ => x) (fun _ _ _ _ => 0)
    (by rcases hm with h | ⟨h, h'⟩
        · exact .inl h
        · exact .inr ⟨by rw [h], by rw [h']; intro w; simp⟩) (rand (seedAll seed)).2
  have hv : v' = fun _ _ _ _ => x + 1 / 4 * a' := by
    funext n c i j; rw [h2]; ring
  subst hv
  have hu : u' = fun _ _ _ _ => clip (1 / 10 * (x + 1 / 4 * a')) := by
    funext n c i j; rw [h3]; simp
  have hact : activeGrid u' = if 0 < x + 1 / 4 * a' then 1 else 0 := by
    rw [activeGrid_count, hu]
    have : 0 < clip (1 / 10 * (x + 1 / 4 * a')) ↔ 0 < x + 1 / 4 * a' := by
      simp [clip]
    generalize clip (1 / 10 * (x + 1 / 4 * a')) = y at this
    by_cases h : 0 < x + 1 / 4 * a'
    · rw [if_pos h]; simp [this.2 h]
    · rw [if_neg h]; simp [mt this.1 h]
  have hset : (metaAutomaton G 1).setParams ⟨Witness.constObj κ a b (1 / 10) 0, 1 / 4, m⟩
      [a', b', 1 / 2, 3 / 20] = (⟨Witness.constObj κ a' b' (1 / 10) 0, 1 / 4, m⟩, none) := by
    show (MetaObj.mk _ _ _, _) = _
    rw [constObj_setParams hκ]
  refine ⟨(rand (seedAll seed)).2, ?_⟩
  rw [oneStep_fitness rand seedAll seed hset (by rw [startGrid_one]; exact h1), hact]
  split <;> norm_num [abs_of_nonneg, abs_of_neg]

/-- C82: with a `MetaCA` agents do influence each other.  The momentum the first agent leaves
behind keeps the second one alive, which dies when it is evaluated alone. -/
theorem meta_history_refuted (rand : G → Univ ℝ 1 1 1 1 × G) (seedAll : Nat → G) (seed : Nat) (g : G) :
    let E := simpleHalting (metaAutomaton G 1) 1 1 1 rand
    ∃ (s : MetaObj 1) (w v : List ℝ), s.dgrid = none ∧
      (E.evalAll seedAll 1 seed [w, v] s g).map (·.1) = .ok [(-0.4999, 1), (-0.4999, 1)] ∧
      (E.getFitness seedAll 1 1 seed s v).map (·.1) = .ok (-0.5001, 0) := by
  obtain ⟨κ, hκ⟩ := (mixture_kernel_iff 1 [1 / 2, 3 / 20]).2 ⟨⟨by decide, by decide⟩, by decide⟩
  refine ⟨⟨Witness.constObj κ 0 0 (1 / 10) 0, 1 / 4, none⟩, [1, 0, 1 / 2, 3 / 20],
    [-1 / 2, 0, 1 / 2, 3 / 20], rfl, ?_, ?_⟩
  · obtain ⟨g₁, h₁⟩ := constMeta_fitness hκ rand seedAll seed 0 0 1 0 0 none (.inr ⟨rfl, rfl⟩)
    obtain ⟨g₂, h₂⟩ := constMeta_fitness hκ rand seedAll seed 1 0 (-1 / 2) 0 (0 + 1 / 4 * 1) _ (.inl rfl)
    simp only [Env.evalAll, h₁, h₂]
    norm_num [Except.map]
  · obtain ⟨g₁, h₁⟩ := constMeta_fitness hκ rand seedAll seed 0 0 (-1 / 2) 0 0 none (.inr ⟨rfl, rfl⟩)
    rw [h₁]
    norm_num [Except.map]

/-- C82: so with a `MetaCA` a population divided among two processes is judged differently from
the same population evaluated by one. -/
theorem meta_divided_refuted (rand : G → Univ ℝ 1 1 1 1 × G) (seedAll : Nat → G) (seed : Nat)
    (g g₁ g₂ : G) : let E := simpleHalting (metaAutomaton G 1) 1 1 1 rand
    ∃ (s : MetaObj 1) (xs ys : List (List ℝ)), s.dgrid = none ∧
      (E.evalAll seedAll 1 seed (xs ++ ys) s g).map (·.1) ≠ (do
        let a ← (E.evalAll seedAll 1 seed xs s g₁).map (·.1)
        let b ← (E.evalAll seedAll 1 seed ys s g₂).map (·.1)
        return a ++ b) := by
  obtain ⟨s, w, v, h0, h1, h2⟩ := meta_history_refuted rand seedAll seed g
  refine ⟨s, [w], [v], h0, ?_⟩
  rw [List.singleton_append, h1]
  intro h
  rcases hx : (simpleHalting (metaAutomaton G 1) 1 1 1 rand).getFitness seedAll 1 1 seed s w
    with e | ⟨r, s₁, g'⟩ <;>
  rcases hy : (simpleHalting (metaAutomaton G 1) 1 1 1 rand).getFitness seedAll 1 1 seed s v
    with e | ⟨r', s₁', g''⟩ <;>
  simp only [Env.evalAll, hx, hy, Except.map, bind, Except.bind, pure, Except.pure, reduceCtorEq,
    Except.ok.injEq, List.singleton_append, List.cons.injEq, and_true] at h h2
  rw [h2] at h
  norm_num at h

/-! ## CODE -/

theorem codeAutomaton_call {N C D : Nat} (fuel : Nat) (s : CodeObj) (g : G) (u : Univ ℝ N C D D)
    (h : s.o.dynamics.ext = C) {u₁ : Univ ℝ N s.o.dynamics.ext D D}
    {r₁ : CODE ℝ s.o.dynamics.ext s.o.dynamics.int}
    (hf : CODE.forward ⟨s.o.dynamics.toCCA s.o.t, s.prevDt, s.maxDt, s.minDt, s.errThr⟩ fuel
      (u.recast h.symm) = some (.ok (u₁, r₁))) :
    (codeAutomaton fuel G C).call s g u = .ok (u₁.recast h,
      { s with o := { s.o with dt := r₁.ca.dt, t := r₁.ca.t }, prevDt := r₁.prevDt }, g) := by
  unfold codeAutomaton
  dsimp only
  rw [dif_pos h, hf]

/-- The witness as a `CODE` object, default bounds of the step size. -/
noncomputable def Witness.constCode (κ : AnyKernel) (a b dt t prev : ℝ) : CODE ℝ 1 1 :=
  ⟨(Witness.constObj κ a b dt t).dynamics.toCCA t, prev, 1 / 2, 1 / 100, 1 / 1000⟩

theorem constCode_grid {κ : AnyKernel} (hκ : κ.1 = 1) (a b dt t prev d : ℝ) {N D : Nat} (hD : 1 ≤ D)
    (u : Univ ℝ N 1 D D) : (Witness.constCode κ a b dt t prev).getNewGrid d u =
      .ok fun n c i j => clip (u n c i j + d * ((1 - u n c i j) * a + u n c i j * b)) := by
  have hH : 1 ≤ D ∧ (Witness.constObj κ a b dt t).dynamics.nbLayer.1 ≤ D :=
    ⟨hD, by show κ.1 ≤ D; omega⟩
  obtain ⟨u', h1, h2⟩ := code_grid_rule (constObj_plain κ a b dt t) t prev (1 / 2) (1 / 100) (1 / 1000)
    d u hH hH
  have ha : alive (Witness.constObj κ a b dt t).dynamics.thr u = u := by
    funext n e i j; unfold alive; rw [dif_neg (show ¬ 4 ≤ 1 by decide)]
  refine h1.trans (congrArg _ ?_)
  funext n c i j
  rw [h2 n c i j, constObj_growth]
  have h3 := congrFun (congrFun (congrFun (congrFun ha n) c) i) j
  have hc : c = (0 : Fin 1) := Subsingleton.elim (α := Fin 1) _ _
  rw [hc] at h3 ⊢
  exact congrArg (fun x => clip (x + d * ((1 - u n 0 i j) * a + u n 0 i j * b))) h3

theorem constCode_runnable {κ : AnyKernel} (hκ : κ.1 = 1) (a b dt t prev : ℝ) {D : Nat} (hD : 1 ≤ D) :
    Runnable (Witness.constCode κ a b dt t prev) D D := by
  have p := constObj_plain κ a b dt t
  refine ⟨(apply_ok_iff _ (fun _ _ _ _ => 0 : Univ ℝ 1 1 D D)).1 ⟨_, plain_identity p t _ hD hD⟩,
    (apply_ok_iff _ (fun _ _ _ _ => 0 : Univ ℝ 1 1 D D)).1 ⟨_, plain_neighborhood p t _ ?_ ?_⟩, rfl, rfl⟩
  all_goals show κ.1 ≤ D; omega

theorem clip_shrink {x d : ℝ} (h : x ≤ 1) (hd : 0 ≤ d) :
    clip (clip (x - d / 2) - d / 2) = clip (x - d) := by
  unfold clip
  rw [min_eq_right (show x - d / 2 ≤ 1 by linarith), min_eq_right (show x - d ≤ 1 by linarith)]
  rcases le_total 0 (x - d / 2) with h1 | h1
  · rw [max_eq_right h1, min_eq_right (by linarith)]
    ring_nf
  · rw [max_eq_left h1, min_eq_right (by linarith), max_eq_left (by linarith),
      max_eq_left (by linarith)]

/-- With growth −1 everywhere every candidate meets the threshold, so the first one is taken. -/
theorem constCode_shrink {κ : AnyKernel} (hκ : κ.1 = 1) (dt t prev : ℝ) {N D : Nat} (hD : 1 ≤ D)
    (u : Univ ℝ N 1 D D) (hu : ∀ n c i j, u n c i j ≤ 1) (hp : 1 / 100 ≤ 2 * prev) :
    ∃ F, ∀ fuel ≥ F, (Witness.constCode κ (-1) (-1) dt t prev).forward fuel u =
      some (.ok (fun n c i j => clip (u n c i j - min (2 * prev) (1 / 2)),
        Witness.constCode κ (-1) (-1) (min (2 * prev) (1 / 2)) (t + min (2 * prev) (1 / 2))
          (min (2 * prev) (1 / 2)))) := by
  have hg : ∀ (d : ℝ) (w : Univ ℝ N 1 D D), (Witness.constCode κ (-1) (-1) dt t prev).getNewGrid d w =
      .ok fun n c i j => clip (w n c i j - d) := by
    intro d w
    rw [constCode_grid hκ _ _ _ _ _ _ hD]
    congr 1; funext n c i j; ring_nf
  have hmeet : ∀ d : ℝ, 0 ≤ d → MeetsThreshold (Witness.constCode κ (-1) (-1) dt t prev) u d := by
    intro d hd
    refine ⟨_, _, _, hg _ _, hg _ _, hg _ _, fun n c i j => ?_⟩
    rw [clip_shrink (hu n c i j) hd]
    simp [Witness.constCode]
  obtain ⟨d, v, F, h1, h2, h3, h4⟩ := code_step (Witness.constCode κ (-1) (-1) dt t prev)
    ⟨by norm_num [Witness.constCode], by norm_num [Witness.constCode], hp⟩
    (constCode_runnable hκ _ _ _ _ _ hD) u
  have hc : 0 ≤ min (2 * prev) (1 / 2) := le_min (by linarith) (by norm_num)
  have hd : d = min (2 * prev) (1 / 2) := by
    rcases h1.2.2.2 with ⟨j, e1, -, e2⟩ | ⟨-, e2⟩
    · rcases j with _ | j
      · rw [e1]; simp [Witness.constCode]
      · refine absurd (hmeet _ ?_) (e2 0 (by omega))
        simpa [Witness.constCode] using hc
    · refine absurd (hmeet _ ?_) (e2 0 ?_)
      · simpa [Witness.constCode] using hc
      · simp only [Witness.constCode, pow_zero, mul_one]
        exact le_min hp (by norm_num)
  subst hd
  rw [hg] at h2
  cases h2
  exact ⟨F, h4⟩

/-- Growth 8 per unit of what is there: no candidate meets the threshold at a cell of 1/10, so the
smallest step is taken. -/
theorem constCode_grow {κ : AnyKernel} (hκ : κ.1 = 1) (dt t prev : ℝ) {N D : Nat} (hD : 1 ≤ D)
    (u : Univ ℝ N 1 D D) {n : Fin N} {c : Fin 1} {i j : Fin D} (hu : u n c i j = 1 / 10)
    (hp : 1 / 100 ≤ 2 * prev) :
    ∃ F, ∀ fuel ≥ F, (Witness.constCode κ 0 8 dt t prev).forward fuel u =
      some (.ok (fun n c i j => clip (u n c i j + 1 / 100 * (u n c i j * 8)),
        Witness.constCode κ 0 8 (1 / 100) (t + 1 / 100) (1 / 100))) := by
  have hg : ∀ (d : ℝ) (w : Univ ℝ N 1 D D), (Witness.constCode κ 0 8 dt t prev).getNewGrid d w =
      .ok fun n c i j => clip (w n c i j + d * (w n c i j * 8)) := by
    intro d w
    rw [constCode_grid hκ _ _ _ _ _ _ hD]
    congr 1; funext n c i j; ring_nf
  have hmeet : ∀ d : ℝ, 1 / 100 ≤ d → d ≤ 1 / 2 →
      ¬ MeetsThreshold (Witness.constCode κ 0 8 dt t prev) u d := by
    rintro d hd hd' ⟨full, half, two, e1, e2, e3, h⟩
    rw [hg] at e1 e2 e3
    cases e1; cases e2; cases e3
    have := h n c i j
    beta_reduce at this
    have f1 : clip (u n c i j + d * (u n c i j * 8)) = 1 / 10 + 4 / 5 * d := by
      unfold clip; rw [hu, min_eq_right (by linarith), max_eq_right (by linarith)]; ring
    have f2 : clip (u n c i j + d / 2 * (u n c i j * 8)) = 1 / 10 + 2 / 5 * d := by
      unfold clip; rw [hu, min_eq_right (by linarith), max_eq_right (by linarith)]; ring
    have f3 : clip (1 / 10 + 2 / 5 * d + d / 2 * ((1 / 10 + 2 / 5 * d) * 8)) =
        1 / 10 + 4 / 5 * d + 8 / 5 * d ^ 2 := by
      unfold clip; rw [min_eq_right (by nlinarith), max_eq_right (by nlinarith)]; ring
    have hpos : 0 < 1 / 10 + 4 / 5 * d + 8 / 5 * d ^ 2 := by nlinarith
    rw [f1, f2, f3, if_pos hpos, show (1 / 10 + 4 / 5 * d - (1 / 10 + 4 / 5 * d + 8 / 5 * d ^ 2)) =
      -(8 / 5 * d ^ 2) by ring, abs_neg, abs_of_nonneg (by positivity), div_lt_iff₀ hpos] at this
    simp only [Witness.constCode] at this
    nlinarith
  obtain ⟨d, v, F, h1, h2, h3, h4⟩ := code_step (Witness.constCode κ 0 8 dt t prev)
    ⟨by norm_num [Witness.constCode], by norm_num [Witness.constCode], hp⟩
    (constCode_runnable hκ _ _ _ _ _ hD) u
  have hd : d = 1 / 100 := by
    rcases h1.2.2.2 with ⟨j, -, e1, -⟩ | ⟨e1, -⟩
    · exact absurd e1 (hmeet d h1.1 h1.2.1)
    · exact e1
  subst hd
  rw [hg] at h2
  cases h2
  exact ⟨F, h4⟩

theorem activeGrid_alive {D : Nat} (u : Univ ℝ 1 1 (D + 1) (D + 1)) (h : ∀ n c i j, 0 ≤ u n c i j)
    {i j : Fin (D + 1)} (hp : 0 < u 0 0 i j) : activeGrid u = 1 := by
  have : 0 < ∑ i, ∑ j, u 0 0 i j :=
    Finset.sum_pos' (fun i _ => Finset.sum_nonneg fun j _ => h 0 0 i j)
      ⟨i, Finset.mem_univ i, Finset.sum_pos' (fun j _ => h 0 0 i j) ⟨j, Finset.mem_univ j, hp⟩⟩
  rw [activeGrid_count]
  have h1 : (Finset.univ.filter fun n : Fin 1 => 0 < ∑ c, ∑ i, ∑ j, u n c i j) = Finset.univ :=
    Finset.filter_true_of_mem fun n _ => by
      rw [Subsingleton.elim n 0]; simpa using this
  rw [h1]
  simp

theorem activeGrid_dead {D : Nat} (u : Univ ℝ 1 1 (D + 1) (D + 1)) (h : ∀ n c i j, u n c i j = 0) :
    activeGrid u = 0 := by
  rw [activeGrid_count]
  simp [h]

/-- The start grid of side 4 with a constant draw of 1/10. -/
theorem startGrid_four (n : Fin 1) (c : Fin 1) (i j : Fin 4) :
    startGrid 4 (fun _ _ _ _ => (1 / 10 : ℝ) : Univ ℝ 1 1 4 4) n c i j =
      if (i = 1 ∨ i = 2) ∧ (j = 1 ∨ j = 2) then 1 / 10 else 0 := by
  fin_cases i <;> fin_cases j <;> simp [startGrid, inTailSlice, Arith.mul, Arith.zero]

/-- C82: with a `CODE` automaton agents influence each other too.  The step size left behind by
the first agent is the base of the first step of the second; that keeps it alive, while it
dies when it is evaluated alone. -/
theorem code_history_refuted (seedAll : Nat → G) (seed : Nat) (g : G) :
    ∃ (s : CodeObj) (w v : List ℝ) (F : Nat), ∀ fuel ≥ F,
      let E := simpleHalting (codeAutomaton fuel G 1) 1 4 1 fun g => (fun _ _ _ _ => 1 / 10, g)
      (E.evalAll seedAll 1 seed [w, v] s g).map (·.1) = .ok [(-0.4999, 1), (-0.4999, 1)] ∧
      (E.getFitness seedAll 1 1 seed s v).map (·.1) = .ok (-0.5001, 0) := by
  obtain ⟨κ, hκ⟩ := (mixture_kernel_iff 1 [1 / 2, 3 / 20]).2 ⟨⟨by decide, by decide⟩, by decide⟩
  have hr := mixture_kernel_radius hκ
  let u₀ : Univ ℝ 1 1 4 4 := startGrid 4 fun _ _ _ _ => 1 / 10
  have hu₀ : ∀ n c i j, u₀ n c i j ≤ 1 := by
    intro n c i j
    show startGrid 4 _ n c i j ≤ 1
    rw [startGrid_four]; split <;> norm_num
  have h11 : u₀ 0 0 1 1 = 1 / 10 := by
    show startGrid 4 _ 0 0 1 1 = _
    rw [startGrid_four]; simp
  obtain ⟨F₁, H₁⟩ := constCode_grow hr (1 / 10) 0 (3 / 10) (show 1 ≤ 4 by decide) u₀ h11 (by norm_num)
  obtain ⟨F₂, H₂⟩ := constCode_shrink hr (1 / 100) (0 + 1 / 100) (1 / 100) (show 1 ≤ 4 by decide) u₀ hu₀
    (by norm_num)
  obtain ⟨F₃, H₃⟩ := constCode_shrink hr (1 / 10) 0 (3 / 10) (show 1 ≤ 4 by decide) u₀ hu₀ (by norm_num)
  let s : CodeObj := ⟨Witness.constObj κ 0 0 (1 / 10) 0, 3 / 10, 1 / 2, 1 / 100, 1 / 1000⟩
  let s₁ : CodeObj := ⟨Witness.constObj κ 0 8 (1 / 100) (0 + 1 / 100), 1 / 100, 1 / 2, 1 / 100, 1 / 1000⟩
  refine ⟨s, [0, 8, 1 / 2, 3 / 20], [-1, -1, 1 / 2, 3 / 20], max F₁ (max F₂ F₃), fun fuel hf => ?_⟩
  have e₁ := H₁ fuel (by omega)
  have e₂ := H₂ fuel (by omega)
  have e₃ := H₃ fuel (by omega)
  have c₁ := codeAutomaton_call fuel ⟨Witness.constObj κ 0 8 (1 / 10) 0, 3 / 10, 1 / 2, 1 / 100, 1 / 1000⟩
    (seedAll seed) u₀ rfl e₁
  have c₂ := codeAutomaton_call fuel ⟨Witness.constObj κ (-1) (-1) (1 / 100) (0 + 1 / 100), 1 / 100, 1 / 2,
    1 / 100, 1 / 1000⟩ (seedAll seed) u₀ rfl e₂
  have c₃ := codeAutomaton_call fuel ⟨Witness.constObj κ (-1) (-1) (1 / 10) 0, 3 / 10, 1 / 2, 1 / 100,
    1 / 1000⟩ (seedAll seed) u₀ rfl e₃
  have hset : ∀ (s : CodeObj) (o : CCAObj) (v : List ℝ), s.o.setParams v = (o, none) →
      (codeAutomaton fuel G 1).setParams s v = ({ s with o := o }, none) := by
    intro s o v h
    show (CodeObj.mk _ _ _ _ _, _) = _
    rw [h]
  let E := simpleHalting (codeAutomaton fuel G 1) 1 4 1
    fun g => ((fun _ _ _ _ => 1 / 10 : Univ ℝ 1 1 4 4), g)
  let v₁ : Univ ℝ 1 1 4 4 := fun n c i j => clip (u₀ n c i j + 1 / 100 * (u₀ n c i j * 8))
  let v₂ : Univ ℝ 1 1 4 4 := fun n c i j => clip (u₀ n c i j - min (2 * (1 / 100)) (1 / 2))
  let v₃ : Univ ℝ 1 1 4 4 := fun n c i j => clip (u₀ n c i j - min (2 * (3 / 10)) (1 / 2))
  have f₁ : E.getFitness seedAll 1 1 seed s [0, 8, 1 / 2, 3 / 20] =
      .ok ((-|0.5001 - activeGrid v₁|, activeGrid v₁), s₁, seedAll seed) :=
    oneStep_fitness _ seedAll seed (hset s _ _ (constObj_setParams hκ 0 0 0 8 (1 / 10) 0)) c₁
  obtain ⟨s₂, f₂⟩ : ∃ s₂, E.getFitness seedAll 1 1 seed s₁ [-1, -1, 1 / 2, 3 / 20] =
      .ok ((-|0.5001 - activeGrid v₂|, activeGrid v₂), s₂, seedAll seed) :=
    ⟨_, oneStep_fitness _ seedAll seed
      (hset s₁ _ _ (constObj_setParams hκ 0 8 (-1) (-1) (1 / 100) (0 + 1 / 100))) c₂⟩
  obtain ⟨s₃, f₃⟩ : ∃ s₃, E.getFitness seedAll 1 1 seed s [-1, -1, 1 / 2, 3 / 20] =
      .ok ((-|0.5001 - activeGrid v₃|, activeGrid v₃), s₃, seedAll seed) :=
    ⟨_, oneStep_fitness _ seedAll seed
      (hset s _ _ (constObj_setParams hκ 0 0 (-1) (-1) (1 / 10) 0)) c₃⟩
  have nn : ∀ x : ℝ, 0 ≤ clip x := fun x => le_max_left _ _
  have a₁ : activeGrid v₁ = 1 := by
    refine activeGrid_alive (i := 1) (j := 1) _ (fun _ _ _ _ => nn _) ?_
    show 0 < clip (u₀ 0 0 1 1 + _ * (u₀ 0 0 1 1 * 8))
    rw [h11]; norm_num [clip]
  have a₂ : activeGrid v₂ = 1 := by
    refine activeGrid_alive (i := 1) (j := 1) _ (fun _ _ _ _ => nn _) ?_
    show 0 < clip (u₀ 0 0 1 1 - _)
    rw [h11]; norm_num [clip]
  have a₃ : activeGrid v₃ = 0 := by
    refine activeGrid_dead _ fun n c i j => ?_
    have h : u₀ n c i j ≤ 1 / 10 := by
      show startGrid 4 _ n c i j ≤ 1 / 10
      rw [startGrid_four]; split <;> norm_num
    show max 0 (min 1 (u₀ n c i j - min (2 * (3 / 10)) (1 / 2))) = 0
    rw [show min (2 * (3 / 10) : ℝ) (1 / 2) = 1 / 2 by norm_num]
    exact max_eq_left (min_le_iff.2 (.inr (by linarith)))
  show (E.evalAll seedAll 1 seed _ s g).map (·.1) = _ ∧ (E.getFitness seedAll 1 1 seed s _).map (·.1) = _
  rw [f₃, a₃]
  simp only [Env.evalAll, f₁, f₂, a₁, a₂]
  norm_num [Except.map, abs_of_nonneg, abs_of_neg]

/-! ## The hypotheses can be met -/

example (κ : AnyKernel) (rand : G → Univ ℝ 8 1 64 64 × G) (seedAll : Nat → G) (g : G) :
    let E := simpleHalting (ccaAutomaton G 1) 8 64 100 rand
    (E.evalAll seedAll 3 7 [[1, 0, 1 / 2, 3 / 20], [2, -1, 1 / 3, 1 / 10]]
        (Witness.constObj κ 0 0 (1 / 10) 0) g).map (·.1) =
      [[1, 0, 1 / 2, 3 / 20], [2, -1, 1 / 3, 1 / 10]].mapM fun v =>
        (E.getFitness seedAll 1 3 7 (Witness.constObj κ 0 0 (1 / 10) 0) v).map (·.1) :=
  fitness_history_free (Witness.constObj κ 0 0 (1 / 10) 0) [1 / 2, 3 / 20] rfl 8 64 100 rand seedAll 3 7 _
    (by simp [Witness.constObj, readActs, readTensors, Act.tensors]) g

example (κ : AnyKernel) (draw : G → ℝ × G) (rand : G → Univ ℝ 8 1 64 64 × G) (seedAll : Nat → G)
    (g : G) : let E := simpleHalting (randomStepAutomaton draw 1) 8 64 100 rand
    let s : RandomStepObj := ⟨Witness.constObj κ 0 0 (1 / 10) 0, 3 / 10, 1 / 4, 1 / 20⟩
    (E.evalAll seedAll 3 7 [[1, 0, 1 / 2, 3 / 20]] s g).map (·.1) =
      [[1, 0, 1 / 2, 3 / 20]].mapM fun v => (E.getFitness seedAll 1 3 7 s v).map (·.1) :=
  fitness_history_free_random ⟨Witness.constObj κ 0 0 (1 / 10) 0, 3 / 10, 1 / 4, 1 / 20⟩ [1 / 2, 3 / 20]
    rfl draw 8 64 100 rand seedAll 3 7 _ (by simp [Witness.constObj, readActs, readTensors, Act.tensors]) g

end Yuca
