import Verif.Props.StepLoops
import Verif.Props.Dynamics

namespace Yuca

open Spec

variable {N ext int H W : Nat}

/-! ## C132: the loops with CCA and Lenia -/

/-- What a CCA with step size `d` makes of a grid. -/
noncomputable def Spec.ccaRule (ca : CCA ℝ ext int) (d : ℝ) (u : Univ ℝ N ext H W) :
    Except PyErr (Univ ℝ N ext H W) := (CCA.forward { ca with dt := d } u).map Prod.fst

/-- The same for Lenia. -/
noncomputable def Spec.leniaRule (ca : CCA ℝ ext int) (d : ℝ) (u : Univ ℝ N ext H W) :
    Except PyErr (Univ ℝ N ext H W) := (CCA.leniaForward { ca with dt := d } u).map Prod.fst

/-- The automaton with some step size and some time. -/
def Spec.SameRule (ca s : CCA ℝ ext int) : Prop := ∃ d t, s = { ca with dt := d, t := t }

theorem cca_clock_only (ca : CCA ℝ ext int) (t : ℝ) (u : Univ ℝ N ext H W) :
    CCA.forward { ca with t := t } u =
      (ca.forward u).map fun r => (r.1, { ca with t := t + ca.dt }) := by
  unfold CCA.forward
  simp only [Bind.bind, Except.bind, pure, Except.pure, Except.map]
  cases ca.idL.apply (maskIf ca.thr u) with
  | error e => rfl
  | ok a =>
    dsimp only
    cases ca.nbL.apply (maskIf ca.thr u) with
    | error e => rfl
    | ok b =>
      dsimp only
      have : CCA.updateUniverse { ca with t := t } a b = ca.updateUniverse a b := rfl
      rw [this]
      cases ca.updateUniverse a b <;> rfl

theorem lenia_clock_only (ca : CCA ℝ ext int) (t : ℝ) (u : Univ ℝ N ext H W) :
    CCA.leniaForward { ca with t := t } u =
      (ca.leniaForward u).map fun r => (r.1, { ca with t := t + ca.dt }) := by
  unfold CCA.leniaForward
  simp only [Bind.bind, Except.bind, pure, Except.pure, Except.map]
  cases ca.idL.apply (maskIf ca.thr u) with
  | error e => rfl
  | ok a =>
    dsimp only
    cases ca.nbL.apply (maskIf ca.thr u) with
    | error e => rfl
    | ok b =>
      dsimp only
      have : CCA.leniaUpdateUniverse { ca with t := t } b = ca.leniaUpdateUniverse b := rfl
      rw [this]
      cases ca.leniaUpdateUniverse b <;> rfl

/-- C132: a CCA is such an automaton. -/
theorem cca_ticks (ca : CCA ℝ ext int) :
    Spec.Ticks (ccaAuto N ext int H W) (Spec.SameRule ca) (Spec.ccaRule ca) where
  call_ok := by
    rintro s ⟨d, t, rfl⟩ b b' h
    have e := cca_clock_only { ca with dt := d } t b
    simp only [ccaAuto] at h ⊢
    unfold Spec.ccaRule at h
    cases hf : CCA.forward { ca with dt := d } b with
    | error x => rw [hf] at h; simp [Except.map] at h
    | ok r =>
      rw [hf] at h e
      simp only [Except.map, Except.ok.injEq] at h e
      subst h
      exact ⟨_, e, ⟨d, t + d, rfl⟩, rfl, rfl⟩
  call_err := by
    rintro s ⟨d, t, rfl⟩ b x h
    have e := cca_clock_only { ca with dt := d } t b
    simp only [ccaAuto] at h ⊢
    unfold Spec.ccaRule at h
    cases hf : CCA.forward { ca with dt := d } b with
    | error y => rw [hf] at h e; simp only [Except.map, Except.error.injEq] at h e; rw [e, h]
    | ok r => rw [hf] at h; simp [Except.map] at h
  set := by
    rintro s ⟨d, t, rfl⟩ d'
    exact ⟨⟨d', t, rfl⟩, rfl, rfl⟩

/-- C132: and so is Lenia. -/
theorem lenia_ticks (ca : CCA ℝ ext int) :
    Spec.Ticks (leniaAuto N ext int H W) (Spec.SameRule ca) (Spec.leniaRule ca) where
  call_ok := by
    rintro s ⟨d, t, rfl⟩ b b' h
    have e := lenia_clock_only { ca with dt := d } t b
    simp only [leniaAuto] at h ⊢
    unfold Spec.leniaRule at h
    cases hf : CCA.leniaForward { ca with dt := d } b with
    | error x => rw [hf] at h; simp [Except.map] at h
    | ok r =>
      rw [hf] at h e
      simp only [Except.map, Except.ok.injEq] at h e
      subst h
      exact ⟨_, e, ⟨d, t + d, rfl⟩, rfl, rfl⟩
  call_err := by
    rintro s ⟨d, t, rfl⟩ b x h
    have e := lenia_clock_only { ca with dt := d } t b
    simp only [leniaAuto] at h ⊢
    unfold Spec.leniaRule at h
    cases hf : CCA.leniaForward { ca with dt := d } b with
    | error y => rw [hf] at h e; simp only [Except.map, Except.error.injEq] at h e; rw [e, h]
    | ok r => rw [hf] at h; simp [Except.map] at h
  set := by
    rintro s ⟨d, t, rfl⟩ d'
    exact ⟨⟨d', t, rfl⟩, rfl, rfl⟩

/-- C132: for a CCA the run of a grid is what calling a CCA of its own with that step size gives. -/
theorem cca_runs_iterate (ca : CCA ℝ ext int) (d : ℝ) (n : Nat) : ∀ (t : ℝ) (u v : Univ ℝ N ext H W),
    Spec.Runs (Spec.ccaRule ca d) n u v ↔
      ∃ s', iterate CCA.forward n { ca with dt := d, t := t } u = .ok (v, s') := by
  induction n with
  | zero =>
    intro t u v
    simp only [Spec.Runs, iterate, Except.ok.injEq, Prod.mk.injEq]
    exact ⟨fun h => ⟨_, h.symm, rfl⟩, fun ⟨_, h, _⟩ => h.symm⟩
  | succ n ih =>
    intro t u v
    have e := cca_clock_only { ca with dt := d } t u
    simp only [Spec.Runs, iterate, Bind.bind, Except.bind]
    cases hf : CCA.forward { ca with dt := d } u with
    | error x =>
      rw [hf] at e
      simp only [Except.map] at e
      simp [e, Spec.ccaRule, hf, Except.map]
    | ok r =>
      rw [hf] at e
      simp only [Except.map] at e
      rw [e]
      simp only [Spec.ccaRule, hf, Except.map, Except.ok.injEq, exists_eq_left']
      exact ih _ _ _

/-- Two frames with two rounds each, with the CCA of `Witness.codeR`: the three grids. -/
example : ∃ (u0 u1 u2 : Univ ℝ 1 1 8 8) (ca' : CCA ℝ 1 1),
    figFrames (ccaAuto 1 1 1 8 8) 2 2
      ⟨(Witness.codeR 1 1).ca, fun _ _ _ _ => 1, fun _ _ _ _ => 1, fun _ _ _ _ => 1⟩ =
        .ok ⟨ca', u0, u1, u2⟩ ∧ ca'.t = 2 * 2 * (0.1 + 0.1 / 3 + min (3 * 0.1) 1) := by
  have hF : ∀ d (u : Univ ℝ 1 1 8 8), ∃ v, Spec.ccaRule (Witness.codeR 1 1).ca d u = .ok v := by
    intro d u
    have hrun : Runnable (Witness.codeR 1 1) 8 8 := ⟨⟨rfl, rfl, rfl⟩, ⟨rfl, rfl, rfl⟩, rfl, rfl⟩
    obtain ⟨r, hr⟩ := (cca_runs_iff ({ (Witness.codeR 1 1).ca with dt := d } : CCA ℝ 1 1) u).2 hrun
    exact ⟨r.1, by unfold Spec.ccaRule; rw [hr]; rfl⟩
  have hC : Spec.SameRule (Witness.codeR 1 1).ca (Witness.codeR 1 1).ca := ⟨0.1, 0, rfl⟩
  obtain ⟨u0, h0⟩ := runs_total (hF (Witness.codeR 1 1).ca.dt) (2 * 2) fun _ _ _ _ => 1
  obtain ⟨u1, h1⟩ := runs_total (hF ((Witness.codeR 1 1).ca.dt / 3)) (2 * 2) fun _ _ _ _ => 1
  obtain ⟨u2, h2⟩ := runs_total (hF (min ((Witness.codeR 1 1).ca.dt * 3) 1)) (2 * 2) fun _ _ _ _ => 1
  obtain ⟨ca', e, _, _, ht⟩ := fig_frames (cca_ticks (N := 1) (H := 8) (W := 8) (Witness.codeR 1 1).ca) 2 2
    ⟨(Witness.codeR 1 1).ca, fun _ _ _ _ => 1, fun _ _ _ _ => 1, fun _ _ _ _ => 1⟩ hC h0 h1 h2
  refine ⟨u0, u1, u2, ca', e, ?_⟩
  simp only [ccaAuto] at ht
  rw [ht]
  norm_num [Witness.codeR]

/-! ## C132: the adaptive animation -/

theorem code_reaches (target : ℝ) (n : Nat) : ∀ (s : CODE ℝ ext int) (u : Univ ℝ N ext H W),
    StepReady s → Runnable s H W → target ≤ s.ca.t + n * s.minDt →
    ∃ (m : Nat) (s' : CODE ℝ ext int) (u' : Univ ℝ N ext H W) (F0 : Nat), m ≤ n ∧
      CodeSteps m s u s' u' ∧ StepReady s' ∧ Runnable s' H W ∧
      s'.minDt = s.minDt ∧ s'.maxDt = s.maxDt ∧ target ≤ s'.ca.t ∧
      (s.ca.t < target → s'.ca.t < target + s.maxDt) ∧
      ∀ inner fuel, F0 ≤ inner → F0 ≤ fuel → codeUntil target inner fuel s u = some (.ok (u', s')) := by
  induction n with
  | zero =>
    intro s u hr hrun ht
    simp only [Nat.cast_zero, zero_mul, add_zero] at ht
    refine ⟨0, s, u, 1, le_rfl, .zero s u, hr, hrun, rfl, rfl, ht, fun h => absurd ht (not_le.2 h), ?_⟩
    intro inner fuel _ hf
    obtain ⟨f, rfl⟩ : ∃ f, fuel = f + 1 := ⟨fuel - 1, by omega⟩
    simp only [codeUntil, if_neg (not_lt.2 ht)]
  | succ n ih =>
    intro s u hr hrun ht
    by_cases hlt : s.ca.t < target
    · obtain ⟨d, v, F1, hg, _, hr1, e1⟩ := code_step s hr hrun u
      obtain ⟨s1, hs1⟩ : ∃ s1 : CODE ℝ ext int,
        s1 = { s with ca := { s.ca with dt := d, t := s.ca.t + d }, prevDt := d } := ⟨_, rfl⟩
      simp only [← hs1] at hr1 e1
      have hrun1 : Runnable s1 H W := by rw [hs1]; exact hrun
      have hm1 : s1.minDt = s.minDt := by rw [hs1]
      have hM1 : s1.maxDt = s.maxDt := by rw [hs1]
      have ht1 : s1.ca.t = s.ca.t + d := by rw [hs1]
      have hge : s.minDt ≤ d := hg.1
      have hle : d ≤ s.maxDt := hg.2.1
      obtain ⟨m, s', u', F0, a0, a1, a2, a3, a4, a5, a6, a7, a8⟩ := ih s1 v hr1 hrun1 (by
        rw [ht1, hm1]; push_cast at ht; linarith)
      refine ⟨m + 1, s', u', max F0 F1 + 1, by omega, .succ F1 (e1 F1 le_rfl) a1, a2, a3, a4.trans hm1,
        a5.trans hM1, a6, fun _ => ?_, ?_⟩
      · by_cases h1 : s1.ca.t < target
        · rw [← hM1]; exact a7 h1
        · have hz : s' = s1 ∧ u' = v := by
            have e := a8 (F0 + 1) (F0 + 1) (by omega) (by omega)
            simp only [codeUntil, if_neg h1, Option.some.injEq, Except.ok.injEq, Prod.mk.injEq] at e
            exact ⟨e.2.symm, e.1.symm⟩
          rw [hz.1, ht1]; linarith
      · intro inner fuel hi hf
        obtain ⟨f, rfl⟩ : ∃ f, fuel = f + 1 := ⟨fuel - 1, by omega⟩
        simp only [codeUntil, if_pos hlt, e1 inner (by omega)]
        exact a8 inner f (by omega) (by omega)
    · have ht' := not_lt.1 hlt
      refine ⟨0, s, u, 1, by omega, .zero s u, hr, hrun, rfl, rfl, ht', fun h => absurd h hlt, ?_⟩
      intro inner fuel _ hf
      obtain ⟨f, rfl⟩ : ∃ f, fuel = f + 1 := ⟨fuel - 1, by omega⟩
      simp only [codeUntil, if_neg hlt]

/-- C132, the adaptive animation: a frame ends, consists of completed steps, and moves the clock on
by at least a tenth and less than a tenth and the largest step. -/
theorem update_single (s : CODE ℝ ext int) (u : Univ ℝ N ext H W) (hr : StepReady s)
    (hrun : Runnable s H W) :
    ∃ (m : Nat) (s' : CODE ℝ ext int) (u' : Univ ℝ N ext H W) (F0 : Nat),
      m ≤ ⌈1 / 10 / s.minDt⌉₊ ∧
      CodeSteps m s u s' u' ∧ StepReady s' ∧ Runnable s' H W ∧
      s'.minDt = s.minDt ∧ s'.maxDt = s.maxDt ∧ s.ca.t + 1 / 10 ≤ s'.ca.t ∧
      s'.ca.t < s.ca.t + 1 / 10 + s.maxDt ∧
      ∀ inner fuel, F0 ≤ inner → F0 ≤ fuel → updateSingle inner fuel s u = some (.ok (u', s')) := by
  have h0 := hr.1
  have hc := (div_le_iff₀ h0).1 (Nat.le_ceil (1 / 10 / s.minDt))
  obtain ⟨m, s', u', F0, a0, a1, a2, a3, a4, a5, a6, a7, a8⟩ :=
    code_reaches (s.ca.t + 1 / 10) ⌈1 / 10 / s.minDt⌉₊ s u hr hrun (by linarith)
  exact ⟨m, s', u', F0, a0, a1, a2, a3, a4, a5, a6, a7 (by linarith), a8⟩

/-- C132: so an animation of `n` frames always ends and covers a time of at least `n / 10`. -/
theorem single_frames (n : Nat) : ∀ (s : CODE ℝ ext int) (u : Univ ℝ N ext H W), StepReady s →
    Runnable s H W → ∃ (s' : CODE ℝ ext int) (u' : Univ ℝ N ext H W) (F0 : Nat),
      StepReady s' ∧ s.ca.t + n * (1 / 10) ≤ s'.ca.t ∧
      s'.ca.t ≤ s.ca.t + n * (1 / 10 + s.maxDt) ∧
      ∀ inner fuel, F0 ≤ inner → F0 ≤ fuel → singleFrames inner fuel n s u = some (.ok (u', s')) := by
  induction n with
  | zero => intro s u hr _; exact ⟨s, u, 0, hr, by simp, by simp, fun _ _ _ _ => rfl⟩
  | succ n ih =>
    intro s u hr hrun
    obtain ⟨m, s1, u1, F1, _, _, a2, a3, _, a5, a6, a7, a8⟩ := update_single s u hr hrun
    obtain ⟨s', u', F2, b1, b2, b3, b4⟩ := ih s1 u1 a2 a3
    rw [a5] at b3
    refine ⟨s', u', max F1 F2, b1, by push_cast; linarith, by push_cast; linarith, ?_⟩
    intro inner fuel h1 h2
    simp only [singleFrames, a8 inner fuel (by omega) (by omega)]
    exact b4 inner fuel (by omega) (by omega)

/-- C132: the answers to the prompts fulfil what CODE needs exactly when the smallest step size is at
most the largest and at most twice the first; otherwise the first frame raises. -/
theorem prompt_ready (s : CODE ℝ ext int) (a b c e : Option ℝ) :
    let p := promptCode s a b c e
    (StepReady p ↔ p.minDt ≤ p.maxDt ∧ p.minDt ≤ 2 * p.prevDt) ∧
    (¬ StepReady p → ∀ (u : Univ ℝ N ext H W) (inner fuel : Nat), 0 < inner → 0 < fuel →
      updateSingle inner fuel p u = some (.error .unbound)) := by
  obtain ⟨p, hp⟩ : ∃ p, p = promptCode s a b c e := ⟨_, rfl⟩
  have hmin : 1 / 1000 ≤ p.minDt := by
    rw [hp]
    exact (prompt_clip (lo := (1 / 1000 : ℝ)) (hi := 1) (dflt := 1 / 1000) (by norm_num)
      ⟨le_rfl, by norm_num⟩ c).1
  have hpos : 0 < p.minDt := by linarith
  simp only [← hp]
  have hiff : StepReady p ↔ p.minDt ≤ p.maxDt ∧ p.minDt ≤ 2 * p.prevDt :=
    ⟨fun h => h.2, fun h => ⟨hpos, h⟩⟩
  refine ⟨hiff, fun hn u inner fuel hi hf => ?_⟩
  have hlt : min (2 * p.prevDt) p.maxDt < p.minDt := by
    by_contra h
    have h := le_min_iff.1 (not_lt.1 h)
    exact hn (hiff.2 ⟨h.2, h.1⟩)
  obtain ⟨f, rfl⟩ : ∃ f, fuel = f + 1 := ⟨fuel - 1, by omega⟩
  unfold updateSingle
  have h0 : p.ca.t < p.ca.t + 1 / 10 := by linarith
  simp only [codeUntil, if_pos h0, code_not_ready p hlt u inner hi]

/-- C132: the answers in the range of their prompts become the settings of CODE as they are: the step
size is also the previous step size. -/
theorem prompt_settings (s : CODE ℝ ext int) {x m n e : ℝ} (hx : 1 / 1000 ≤ x ∧ x ≤ 1)
    (hm : 1 / 1000 ≤ m ∧ m ≤ 1) (hn : 1 / 1000 ≤ n ∧ n ≤ 1) (he : 1 / 10 ^ 17 ≤ e ∧ e ≤ 100) :
    promptCode s (some x) (some m) (some n) (some e) =
      { s with ca := { s.ca with dt := x }, prevDt := x, maxDt := m, minDt := n, errThr := e } := by
  simp only [promptCode, promptClip, max_eq_right hx.1, max_eq_right hm.1, max_eq_right hn.1,
    max_eq_right he.1, min_eq_left hx.2, min_eq_left hm.2, min_eq_left hn.2, min_eq_left he.2]

/-- C132: answers beyond the range of their prompt are taken for the nearest end of it; a negative or
zero error threshold for `1e-17`. -/
theorem prompt_ends (s : CODE ℝ ext int) (a b c e : Option ℝ) :
    let p := promptCode s a b c e
    p.prevDt = p.ca.dt ∧ (∀ x, a = some x → (x ≤ 1 / 1000 → p.ca.dt = 1 / 1000) ∧ (1 ≤ x → p.ca.dt = 1)) ∧
    (∀ x, b = some x → (x ≤ 1 / 1000 → p.maxDt = 1 / 1000) ∧ (1 ≤ x → p.maxDt = 1)) ∧
    (∀ x, c = some x → (x ≤ 1 / 1000 → p.minDt = 1 / 1000) ∧ (1 ≤ x → p.minDt = 1)) ∧
    (∀ x, e = some x → (x ≤ 1 / 10 ^ 17 → p.errThr = 1 / 10 ^ 17) ∧ (100 ≤ x → p.errThr = 100)) := by
  have key : ∀ {lo hi dflt x : ℝ}, lo ≤ hi → (x ≤ lo → promptClip lo hi dflt (some x) = lo) ∧
      (hi ≤ x → promptClip lo hi dflt (some x) = hi) := by
    intro lo hi dflt x h
    refine ⟨fun hx => ?_, fun hx => ?_⟩
    · simp only [promptClip, max_eq_left hx, min_eq_left h]
    · simp only [promptClip, max_eq_right (h.trans hx), min_eq_right hx]
  refine ⟨rfl, ?_, ?_, ?_, ?_⟩ <;> rintro x rfl <;> exact key (dflt := 0) (by norm_num)

/-- C132: with the answers left empty CODE is ready, with step sizes from 0.001 to 0.2. -/
theorem prompt_default (s : CODE ℝ ext int) :
    StepReady (promptCode s none none none none) ∧
      (promptCode s none none none none).minDt = 0.001 ∧
      (promptCode s none none none none).maxDt = 0.2 ∧
      (promptCode s none none none none).prevDt = 0.1 ∧
      (promptCode s none none none none).errThr = 0.001 ∧
      (promptCode s none none none none).ca = { s.ca with dt := 0.1 } := by
  unfold StepReady
  norm_num [promptCode, promptClip]

/-- C132, exception: a smallest step size of 0.5, which the prompt takes, with the other answers left
empty raises on the first frame. -/
theorem prompt_min_refuted (s : CODE ℝ ext int) (u : Univ ℝ N ext H W) (inner fuel : Nat)
    (hi : 0 < inner) (hf : 0 < fuel) :
    updateSingle inner fuel (promptCode s none none (some (1 / 2)) none) u =
      some (.error .unbound) := by
  refine (prompt_ready s none none (some (1 / 2)) none).2 ?_ u inner fuel hi hf
  rw [(prompt_ready (N := N) (H := H) (W := W) s none none (some (1 / 2)) none).1]
  norm_num [promptCode, promptClip]

/-- The notebook's default answers with a runnable CODE object. -/
example : ∃ (s' : CODE ℝ 1 1) (u' : Univ ℝ 1 1 8 8) (F0 : Nat), ∀ inner fuel, F0 ≤ inner → F0 ≤ fuel →
    singleFrames inner fuel 3 (promptCode (Witness.codeR 1 1) none none none none)
      (fun _ _ _ _ => 1) = some (.ok (u', s')) := by
  obtain ⟨s', u', F0, _, _, _, h⟩ := single_frames (N := 1) (H := 8) (W := 8) 3
    (promptCode (Witness.codeR 1 1) none none none none) (fun _ _ _ _ => 1)
    (prompt_default _).1 ⟨⟨rfl, rfl, rfl⟩, ⟨rfl, rfl, rfl⟩, rfl, rfl⟩
  exact ⟨s', u', F0, h⟩

end Yuca
