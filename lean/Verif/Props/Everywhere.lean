import Verif.Props.Locality

/-!
# C02, C03 and C07 for the base class, `RandomStepCA` and `MetaCA`
-/

namespace Yuca

open Arith Spec

variable {α : Type} [Arith α] {ext int N H W : Nat}

namespace Spec

/-- Run a `RandomStepCA` with the draws of `np.random.rand()` (yuca/random_step_ca.py:81) given in
advance; the number of draws used so far is part of the state. -/
def drawnStep (draws : Nat → α) (s : Nat × RandomStepCA α ext int) (u : Univ α N ext H W) :
    Except PyErr (Univ α N ext H W × (Nat × RandomStepCA α ext int)) :=
  (fun r => (r.1, (s.1 + 1, r.2))) <$> s.2.forward (draws s.1) u

/-- A `MetaCA` that is about to see only member `m` of a batch keeps the momentum of that
member. -/
def memberMeta (N H W : Nat) (m : Fin N) (s : MetaCA α ext int) : MetaCA α ext int :=
  { s with dgrid := some ⟨(1, H, W), member m (s.dgrid.forShape N H W)⟩ }

end Spec

theorem drawnStep_ok {draws : Nat → α} {s : Nat × RandomStepCA α ext int} {u : Univ α N ext H W}
    {r : Univ α N ext H W × (Nat × RandomStepCA α ext int)}
    (h : drawnStep draws s u = .ok r) :
    r.2.1 = s.1 + 1 ∧ s.2.forward (draws s.1) u = .ok (r.1, r.2.2) := by
  unfold drawnStep at h
  cases hf : s.2.forward (draws s.1) u with
  | error e => rw [hf] at h; cases h
  | ok q => rw [hf] at h; cases h; exact ⟨rfl, rfl⟩

/-! ## C02 -/

/-- C02 for `RandomStepCA`, any number of steps and any draws. -/
theorem randomSteps_roll (s : RandomStepCA α ext int) (h1 : s.ca.idL.mode = .circular)
    (h2 : s.ca.nbL.mode = .circular) (draws : Nat → α) (dy dx : Int) (n : Nat)
    (u : Univ α N ext H W) :
    iterate (drawnStep draws) n (0, s) (roll dy dx u) =
      Prod.map (roll dy dx) id <$> iterate (drawnStep draws) n (0, s) u := by
  refine iterate_map (roll dy dx) _ _
    (fun s => s.2.ca.idL.mode = .circular ∧ s.2.ca.nbL.mode = .circular)
    (fun s b b' s' hs h => ?_) (fun s b hs => ?_) n (0, s) u ⟨h1, h2⟩
  · obtain ⟨k', s'⟩ := s'
    obtain ⟨_, _, _, _, _, _, h⟩ := RandomStepCA.forward_ok (drawnStep_ok h).2
    cases h; exact hs
  · unfold drawnStep
    rw [randomStep_roll s.2 hs.1 hs.2]
    cases s.2.forward (draws s.1) b <;> rfl

/-! ## C03 -/

/-- C03 for the base class `CA`. -/
theorem base_local (ca : BaseCA α ext) (h1 : ca.idL.mode = .circular)
    (h2 : ca.nbL.mode = .circular) (R : Nat) (hR1 : ca.idL.pad ≤ R) (hR2 : ca.nbL.pad ≤ R)
    (n : Nat) (u v : Univ α N ext H W) (ru rv : Univ α N ext H W × BaseCA α ext)
    (hu : iterate BaseCA.forward n ca u = .ok ru) (hv : iterate BaseCA.forward n ca v = .ok rv)
    (m : Fin N) (i : Fin H) (j : Fin W) (h : AgreeNear (n * R) u v m i j) (c : Fin ext) :
    ru.1 m c i j = rv.1 m c i j := by
  refine iterate_local BaseCA.forward R (fun s => s.idL = ca.idL ∧ s.nbL = ca.nbL)
    ?_ ?_ n ca u v ru rv ⟨rfl, rfl⟩ hu hv m i j h c
  · intro s b b' s' hs h
    obtain ⟨_, _, _, _, h⟩ := BaseCA.forward_ok h
    cases h; exact hs
  · rintro s ⟨hi, hn⟩ u v ru rv hu hv
    obtain ⟨ix, nx, a1, a2, rfl⟩ := BaseCA.forward_ok hu
    obtain ⟨iy, ny, b1, b2, rfl⟩ := BaseCA.forward_ok hv
    refine ⟨rfl, fun m i j h c => ?_⟩
    have hmk := h.mask s.thr
    rw [hi] at a1 b1; rw [hn] at a2 b2
    obtain ⟨k1, a1⟩ := apply_ok a1
    obtain ⟨_, b1⟩ := apply_ok b1
    obtain ⟨k2, a2⟩ := apply_ok a2
    obtain ⟨_, b2⟩ := apply_ok b2
    subst a1 b1 a2 b2
    refine eulerClamp_congr (fun c => hmk.self c) (fun o => ?_) c
    simp only [BaseCA.updateUniverse, taps_congr h1 k1 hR1 hmk o, taps_congr h2 k2 hR2 hmk o]

/-- C03 for `RandomStepCA`, whatever the draws. -/
theorem randomSteps_local (s : RandomStepCA α ext int) (h1 : s.ca.idL.mode = .circular)
    (h2 : s.ca.nbL.mode = .circular) (R : Nat) (hR1 : s.ca.idL.pad ≤ R) (hR2 : s.ca.nbL.pad ≤ R)
    (draws : Nat → α) (n : Nat) (u v : Univ α N ext H W)
    (ru rv : Univ α N ext H W × (Nat × RandomStepCA α ext int))
    (hu : iterate (drawnStep draws) n (0, s) u = .ok ru)
    (hv : iterate (drawnStep draws) n (0, s) v = .ok rv)
    (m : Fin N) (i : Fin H) (j : Fin W) (h : AgreeNear (n * R) u v m i j) (c : Fin ext) :
    ru.1 m c i j = rv.1 m c i j := by
  refine iterate_local (drawnStep draws) R
    (fun q => q.2.ca.idL = s.ca.idL ∧ q.2.ca.nbL = s.ca.nbL)
    ?_ ?_ n (0, s) u v ru rv ⟨rfl, rfl⟩ hu hv m i j h c
  · intro s b b' s' hs h
    obtain ⟨k', s'⟩ := s'
    obtain ⟨_, _, _, _, _, _, h⟩ := RandomStepCA.forward_ok (drawnStep_ok h).2
    cases h; exact hs
  · rintro ⟨t, s⟩ ⟨hi, hn⟩ u v ⟨ru, ku, su⟩ ⟨rv, kv, sv⟩ hu hv
    obtain ⟨e1, hu⟩ := drawnStep_ok hu
    obtain ⟨e2, hv⟩ := drawnStep_ok hv
    dsimp only at e1 e2 hu hv hi hn
    obtain ⟨ix, nx, px, a1, a2, a3, hru⟩ := RandomStepCA.forward_ok hu
    obtain ⟨iy, ny, py, b1, b2, b3, hrv⟩ := RandomStepCA.forward_ok hv
    cases hru; cases hrv; subst e1 e2
    refine ⟨rfl, fun m i j h c => ?_⟩
    have hmk := h.mask s.ca.thr
    rw [hi] at a1 b1; rw [hn] at a2 b2
    obtain ⟨k1, a1⟩ := apply_ok a1
    obtain ⟨_, b1⟩ := apply_ok b1
    obtain ⟨k2, a2⟩ := apply_ok a2
    obtain ⟨_, b2⟩ := apply_ok b2
    subst a1 b1 a2 b2
    refine eulerClamp_congr (fun c => hmk.self c) (updateUniverse_congr a3 b3 ?_ ?_) c
    · intro o; simp only [taps_congr h1 k1 hR1 hmk o]
    · intro o; simp only [taps_congr h2 k2 hR2 hmk o]

theorem forShape_self (d : Univ α N ext H W) :
    Momentum.forShape (some ⟨(N, H, W), d⟩) N H W = d := by
  simp [Momentum.forShape]

theorem meta_local_aux {s₀ : MetaCA α ext int} (h1 : s₀.ca.idL.mode = .circular)
    (h2 : s₀.ca.nbL.mode = .circular) {R : Nat} (hR1 : s₀.ca.idL.pad ≤ R)
    (hR2 : s₀.ca.nbL.pad ≤ R) (n : Nat) :
    ∀ (s s' : MetaCA α ext int) (u v : Univ α N ext H W)
      (ru rv : Univ α N ext H W × MetaCA α ext int),
      (s.ca = s₀.ca ∧ s.ddt = s₀.ddt) → (s'.ca = s₀.ca ∧ s'.ddt = s₀.ddt) →
      iterate MetaCA.forward n s u = .ok ru → iterate MetaCA.forward n s' v = .ok rv →
      ∀ m i j, AgreeNear (n * R) u v m i j →
        AgreeNear (n * R) (s.dgrid.forShape N H W) (s'.dgrid.forShape N H W) m i j →
        ∀ c, ru.1 m c i j = rv.1 m c i j := by
  induction n with
  | zero =>
    intro s s' u v ru rv _ _ hu hv m i j h _ c
    cases hu; cases hv
    exact h.self c
  | succ n ih =>
    intro s s' u v ru rv hs hs' hu hv m i j h hd c
    obtain ⟨⟨u', s1⟩, hu1, hu2⟩ := bind_ok hu
    obtain ⟨⟨v', s2⟩, hv1, hv2⟩ := bind_ok hv
    obtain ⟨ix, nx, px, a1, a2, a3, du, hdu, hru⟩ := MetaCA.forward_ok hu1
    obtain ⟨iy, ny, py, b1, b2, b3, dv, hdv, hrv⟩ := MetaCA.forward_ok hv1
    cases hru; cases hrv
    rw [hs.1] at a1 a2 a3
    rw [hs'.1] at b1 b2 b3
    obtain ⟨k1, a1⟩ := apply_ok a1
    obtain ⟨_, b1⟩ := apply_ok b1
    obtain ⟨k2, a2⟩ := apply_ok a2
    obtain ⟨_, b2⟩ := apply_ok b2
    subst a1 b1 a2 b2
    rw [Nat.succ_mul] at h hd
    have step : ∀ a b : Int, |a| ≤ (n * R : Nat) → |b| ≤ (n * R : Nat) → ∀ c',
        du m c' (cyc i a) (cyc j b) = dv m c' (cyc i a) (cyc j b) := by
      intro a b ha hb c'
      have hmk := (cyc_ball h a b ha hb).mask s₀.ca.thr
      have hdk := (cyc_ball hd a b ha hb).self c'
      rw [hdu, hdv]
      simp only [hdk, hs.2, hs'.2]
      rw [updateUniverse_congr a3 b3 (m := m) (i := cyc i a) (j := cyc j b)]
      · intro o; simp only [taps_congr h1 k1 hR1 hmk o]
      · intro o; simp only [taps_congr h2 k2 hR2 hmk o]
    dsimp only at hu2 hv2
    refine ih ⟨s.ca, s.ddt, some ⟨(N, H, W), du⟩⟩ ⟨s'.ca, s'.ddt, some ⟨(N, H, W), dv⟩⟩ _ _ ru rv ⟨hs.1, hs.2⟩ ⟨hs'.1, hs'.2⟩ hu2 hv2 m i j ?_ ?_ c
    · intro a b ha hb c'
      simp only [rollIdx_eq_cyc]
      have ha' : |-a| ≤ ((n * R : Nat) : Int) := by rwa [abs_neg]
      have hb' : |-b| ≤ ((n * R : Nat) : Int) := by rwa [abs_neg]
      have hmk := (cyc_ball h (-a) (-b) ha' hb').mask s₀.ca.thr
      rw [hs.1, hs'.1]
      exact eulerClamp_congr (fun c => hmk.self c) (fun c => step (-a) (-b) ha' hb' c) c'
    · intro a b ha hb c'
      simp only [rollIdx_eq_cyc, forShape_self]
      exact step (-a) (-b) (by rwa [abs_neg]) (by rwa [abs_neg]) c'

/-- C03 for `MetaCA`: the momentum spreads no faster than the universe.  In particular after
`reset` (no momentum yet), or started with the same momentum. -/
theorem meta_local (s : MetaCA α ext int) (h1 : s.ca.idL.mode = .circular)
    (h2 : s.ca.nbL.mode = .circular) (R : Nat) (hR1 : s.ca.idL.pad ≤ R) (hR2 : s.ca.nbL.pad ≤ R)
    (n : Nat) (u v : Univ α N ext H W) (ru rv : Univ α N ext H W × MetaCA α ext int)
    (hu : iterate MetaCA.forward n s u = .ok ru) (hv : iterate MetaCA.forward n s v = .ok rv)
    (m : Fin N) (i : Fin H) (j : Fin W) (h : AgreeNear (n * R) u v m i j) (c : Fin ext) :
    ru.1 m c i j = rv.1 m c i j :=
  meta_local_aux h1 h2 hR1 hR2 n s s u v ru rv ⟨rfl, rfl⟩ ⟨rfl, rfl⟩ hu hv m i j h
    (fun _ _ _ _ _ => rfl) c

/-! ## C07 -/

/-- C07 for the base class `CA`. -/
theorem base_member (ca : BaseCA α ext) (m : Fin N) (n : Nat) (u : Univ α N ext H W) :
    iterate BaseCA.forward n ca (member m u) =
      Prod.map (member m) id <$> iterate BaseCA.forward n ca u :=
  iterate_map (reindex fun p => (m, p.2)) _ _ (fun _ => True) (fun _ _ _ _ _ _ => trivial)
    (fun s b _ => base_forward_reindex _ s (commutes_member _ m) (commutes_member _ m) b) n ca u
    trivial

/-- C07 for `RandomStepCA`: the members share the draw of a step but nothing else. -/
theorem randomSteps_member (s : RandomStepCA α ext int) (draws : Nat → α) (m : Fin N) (n : Nat)
    (u : Univ α N ext H W) :
    iterate (drawnStep draws) n (0, s) (member m u) =
      Prod.map (member m) id <$> iterate (drawnStep draws) n (0, s) u := by
  refine iterate_map (member m) _ _ (fun _ => True) (fun _ _ _ _ _ _ => trivial)
    (fun s b _ => ?_) n (0, s) u trivial
  unfold drawnStep
  have := rnd_forward_reindex (fun p : Fin 1 × Fin H × Fin W => (m, p.2)) s.2
    (commutes_member _ m) (commutes_member _ m) (draws s.1) b
  have hm : (member m : Univ α N ext H W → _) = reindex fun p => (m, p.2) := rfl
  rw [hm, this]
  cases s.2.forward (draws s.1) b <;> rfl

theorem meta_member_step (s : MetaCA α ext int) (m : Fin N) (b : Univ α N ext H W) :
    MetaCA.forward (memberMeta N H W m s) (member m b) =
      Prod.map (member m) (memberMeta N H W m) <$> MetaCA.forward s b := by
  have hm : (member m : Univ α N ext H W → _) = reindex fun p => (m, p.2) := rfl
  have hc : ∀ L : ConvLayer α ext int, Commutes (N := N) (H := H) (W := W) L
      (fun p : Fin 1 × Fin H × Fin W => (m, p.2)) := fun L => commutes_member L m
  unfold MetaCA.forward
  simp only [memberMeta, forShape_self]
  rw [hm, maskIf_reindex, hc, hc]
  cases s.ca.idL.apply (maskIf s.ca.thr b) with
  | error _ => rfl
  | ok idn =>
    cases s.ca.nbL.apply (maskIf s.ca.thr b) with
    | error _ => rfl
    | ok nb =>
      simp only [bind, Except.bind, Functor.map, Except.map, pure, Except.pure]
      rw [updateUniverse_reindex]
      cases s.ca.updateUniverse idn nb with
      | error _ => rfl
      | ok upd =>
        simp only [Functor.map, Except.map, Prod.map, memberMeta, forShape_self]
        rfl

/-- C07 for `MetaCA`: a member alone, started with its share of the momentum, evolves as it does
in the batch, and so does its momentum. -/
theorem meta_member (s : MetaCA α ext int) (m : Fin N) (n : Nat) (u : Univ α N ext H W) :
    iterate MetaCA.forward n (memberMeta N H W m s) (member m u) =
      Prod.map (member m) (memberMeta N H W m) <$> iterate MetaCA.forward n s u :=
  iterate_map₂ (member m) (memberMeta N H W m) _ _ (fun _ => True) (fun _ _ _ _ _ _ => trivial)
    (fun s b _ => meta_member_step s m b) n s u trivial

/-- C07 for `MetaCA` after `reset`: the share of no momentum is as good as none. -/
theorem meta_member_reset (s : MetaCA α ext int) (m : Fin N) (n : Nat) (u : Univ α N ext H W) :
    iterate MetaCA.forward (n + 1) s.reset (member m u) =
      Prod.map (member m) (memberMeta N H W m) <$> iterate MetaCA.forward (n + 1) s.reset u := by
  rw [← meta_member]
  have h : MetaCA.forward (memberMeta N H W m s.reset) (member m u) =
      MetaCA.forward s.reset (member m u) := by
    unfold MetaCA.forward
    simp only [memberMeta, forShape_self]
    rfl
  simp only [iterate, h]

/-- C07 fails for `CODE` also in the cells: member 0 alone grows by another amount than
together with member 1. -/
theorem code_member_cell_refuted : ∃ (s : CODE ℚ 1 1) (u : Univ ℚ 2 1 1 1) (fuel : Nat) (a b : _),
    s.forward fuel (member 0 u) = some (.ok a) ∧ s.forward fuel u = some (.ok b) ∧
    a.1 0 0 0 0 ≠ b.1 0 0 0 0 := by
  have key : ∀ {N : Nat} (u : Univ ℚ (N + 1) 1 1 1) (d : ℚ),
      (codeL.forward 40 u).map (fun r => r.toOption.map (fun r => r.1 0 0 0 0)) =
        some (some d) →
      ∃ a, codeL.forward 40 u = some (.ok a) ∧ a.1 0 0 0 0 = d := by
    intro N u d h
    rcases hf : codeL.forward 40 u with _ | r
    · rw [hf] at h; simp at h
    · rw [hf] at h
      cases r with
      | error e => simp [Except.toOption] at h
      | ok r => exact ⟨r, rfl, by simpa [Except.toOption] using h⟩
  let u : Univ ℚ 2 1 1 1 := fun n _ _ _ => if n = 0 then 1/8 else 1/2
  obtain ⟨a, ha, hda⟩ := key (member 0 u) (1/8 + 1/2 * (1/200)) (by decide +kernel)
  obtain ⟨b, hb, hdb⟩ := key u (1/8 + (1/2 * (3/4) * (3/4) * (3/4)) * (1/200)) (by decide +kernel)
  exact ⟨codeL, u, 40, a, b, ha, hb, by rw [hda, hdb]; norm_num⟩

/-- The hypotheses are met: a `RandomStepCA` and a `MetaCA` around the witness automaton run two
steps on a 3x3 torus, and the base class does too. -/
example : (∃ r, iterate (drawnStep fun k => (k : ℚ) / 4) 2
      (0, (⟨Witness.ca1, 1/10, 1/2, 1/10⟩ : RandomStepCA ℚ 1 1)) Witness.u3 = .ok r) ∧
    (∃ r, iterate MetaCA.forward 2 (⟨Witness.ca1, 1/10, none⟩ : MetaCA ℚ 1 1) Witness.u3
      = .ok r) ∧
    (∃ r, iterate BaseCA.forward 2 (⟨Witness.ca1.idL, Witness.ca1.nbL, 1/10, 1/10, 0⟩ :
      BaseCA ℚ 1) Witness.u3 = .ok r) :=
  ⟨⟨_, rfl⟩, ⟨_, rfl⟩, ⟨_, rfl⟩⟩

end Yuca
