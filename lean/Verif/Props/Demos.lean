import Verif.Model.Demos
import Verif.Props.SmallSteps

/-!
# The demonstrations (C116)
-/

namespace Yuca

open Arith Spec

variable {N ext int H W : Nat}

namespace Spec

/-- `n` completed calls, one after the other. -/
inductive Called {σ β : Type} (f : Nat → σ → β → Option (Except PyErr (β × σ))) :
    Nat → σ → β → σ → β → Prop where
  | none (s u) : Called f 0 s u s u
  | more {n s u s' u' s'' u''} (inner : Nat) : f inner s u = some (.ok (u', s')) →
      Called f n s' u' s'' u'' → Called f (n + 1) s u s'' u''

/-- The kernels fit the grid, and there is one growth function of either kind per channel. -/
def FitsGrid (ca : CCA ℝ ext int) (H W : Nat) : Prop :=
  Fits ca.idL H W ∧ Fits ca.nbL H W ∧ ca.genesis.length = int ∧ ca.persistence.length = int

end Spec

/-- A loop whose calls all take between `mn` and `mx` of simulated time ends: after `n` calls, the
first time that the clock is past `T`. -/
theorem clockLoop_ends {σ β : Type} (clock : σ → ℝ)
    (f : Nat → σ → β → Option (Except PyErr (β × σ))) (T : ℝ) {mn mx : ℝ} (hmn : 0 < mn)
    (P : σ → β → Prop)
    (step : ∀ s u, P s u → ∃ u' s' F, P s' u' ∧ clock s + mn ≤ clock s' ∧ clock s' ≤ clock s + mx ∧
      ∀ inner ≥ F, f inner s u = some (.ok (u', s'))) (s : σ) (u : β) (hP : P s u)
    (hT : clock s ≤ T) :
    ∃ n u' s' I, Called f n s u s' u' ∧ P s' u' ∧ T < clock s' ∧ clock s' ≤ T + mx ∧
      T - clock s < n * mx ∧ (n - 1 : ℝ) * mn ≤ T - clock s ∧
      ∀ inner ≥ I, ∀ fuel, clockLoop clock (f inner) T fuel s u =
        if n < fuel then some (.ok (u', s')) else none := by
  obtain ⟨k, hk⟩ := exists_nat_gt ((T - clock s) / mn)
  rw [div_lt_iff₀ hmn] at hk
  induction k generalizing s u with
  | zero => simp at hk; linarith
  | succ k ih =>
    obtain ⟨u', s', F, hP', h1, h2, hf⟩ := step s u hP
    have hle : (le (clock s) T : Bool) = true := by simpa [Arith.le] using hT
    rcases le_or_gt (clock s') T with hs | hs
    · obtain ⟨n, u'', s'', I, a1, a2, a3, a4, a5, a6, a7⟩ := ih s' u' hP' hs (by
        push_cast at hk; nlinarith)
      refine ⟨n + 1, u'', s'', max F I, .more F (hf F le_rfl) a1, a2, a3, a4, ?_, ?_, ?_⟩
      · push_cast; nlinarith
      · push_cast; nlinarith
      · intro inner hi fuel
        cases fuel with
        | zero => rfl
        | succ fuel =>
          rw [clockLoop, if_pos hle, hf inner (le_trans (le_max_left _ _) hi)]
          show clockLoop clock (f inner) T fuel s' u' = _
          rw [a7 inner (le_trans (le_max_right _ _) hi) fuel]
          simp
    · refine ⟨1, u', s', F, .more F (hf F le_rfl) (.none _ _), hP', hs, by linarith, by
        push_cast; linarith, by push_cast; linarith, ?_⟩
      intro inner hi fuel
      have hle' : (le (clock s') T : Bool) = false := by simpa [Arith.le] using hs
      match fuel with
      | 0 => rfl
      | 1 => rw [clockLoop, if_pos hle, hf inner hi]; rfl
      | fuel + 2 =>
        rw [clockLoop, if_pos hle, hf inner hi]
        show clockLoop clock (f inner) T (fuel + 1) s' u' = _
        rw [clockLoop, hle']
        simp

theorem random_call_ok {s : RandomStepCA ℝ ext int} (h : FitsGrid s.ca H W) (r : ℝ)
    (u : Univ ℝ N ext H W) : ∃ o, s.forward r u = .ok o := by
  obtain ⟨h1, h2, h3, h4⟩ := h
  obtain ⟨x, hx⟩ := (apply_ok_iff s.ca.idL (maskIf s.ca.thr u)).2 h1
  obtain ⟨y, hy⟩ := (apply_ok_iff s.ca.nbL (maskIf s.ca.thr u)).2 h2
  obtain ⟨g, hg⟩ := (perChannel_ok_iff s.ca.genesis y).2 h3
  obtain ⟨p, hp⟩ := (perChannel_ok_iff s.ca.persistence y).2 h4
  unfold RandomStepCA.forward
  simp only [hx, hy, CCA.updateUniverse, hg, hp, Bind.bind, Except.bind, pure, Except.pure]
  exact ⟨_, rfl⟩

theorem random_keeps {s : RandomStepCA ℝ ext int} {r : ℝ} {u : Univ ℝ N ext H W}
    {o : Univ ℝ N ext H W × RandomStepCA ℝ ext int} (h : s.forward r u = .ok o) :
    FitsGrid o.2.ca H W ↔ FitsGrid s.ca H W := by
  obtain ⟨_, _, h⟩ := bind_ok h
  obtain ⟨_, _, h⟩ := bind_ok h
  obtain ⟨_, _, h⟩ := bind_ok h
  cases h
  rfl

/-- The calls of the loop are the run on the numbers drawn. -/
theorem called_randomRun {n : Nat} {s s' : RandomStepCA ℝ ext int × (Nat → ℝ)}
    {u u' : Univ ℝ N ext H W} (h : Called (fun _ => randomCall) n s u s' u') :
    randomRun s.1 u ((List.range n).map s.2) = .ok (u', s'.1) ∧ s'.2 = fun k => s.2 (k + n) := by
  induction h with
  | none s u => exact ⟨rfl, rfl⟩
  | @more n s u s' u' s'' u'' inner h1 _ ih =>
    simp only [randomCall, Option.some.injEq] at h1
    obtain ⟨o, h2, h3⟩ := bind_ok h1
    cases h3
    obtain ⟨ih1, ih2⟩ := ih
    refine ⟨?_, ?_⟩
    · rw [List.range_succ_eq_map, List.map_cons, List.map_map]
      show (do
        let (u', s') ← s.1.forward (s.2 0) u
        randomRun s' u' _) = _
      rw [h2]
      exact ih1
    · rw [ih2]
      funext k
      show s.2 (k + n + 1) = _
      rw [Nat.add_assoc]

/-- C116: the loop of the demonstration of `RandomStepCA` ends, whatever is drawn: after `n` calls,
the first time that the simulated time is past `T`, by less than the largest step. -/
theorem random_until (s : RandomStepCA ℝ ext int) (hf : FitsGrid s.ca H W) (h0 : 0 < s.minDt)
    (hm : s.minDt < s.maxDt) (draws : Nat → ℝ) (hd : ∀ k, 0 ≤ draws k ∧ draws k < 1) {T : ℝ}
    (hT : s.ca.t ≤ T) (u : Univ ℝ N ext H W) :
    ∃ n u' s', randomRun s u ((List.range n).map draws) = .ok (u', s') ∧
      T < s'.ca.t ∧ s'.ca.t ≤ T + s.maxDt ∧
      T - s.ca.t < n * s.maxDt ∧ (n - 1 : ℝ) * s.minDt ≤ T - s.ca.t ∧
      ∀ fuel, randomDemo T fuel (s, draws) u =
        if n < fuel then some (.ok (u', (s', fun k => draws (k + n)))) else none := by
  obtain ⟨n, u', s', I, a1, a2, a3, a4, a5, a6, a7⟩ := clockLoop_ends
    (fun s : RandomStepCA ℝ ext int × (Nat → ℝ) => s.1.ca.t)
    (fun _ => randomCall (N := N) (H := H) (W := W)) T h0
    (fun q _ => FitsGrid q.1.ca H W ∧ q.1.minDt = s.minDt ∧ q.1.maxDt = s.maxDt ∧
      ∀ k, 0 ≤ q.2 k ∧ q.2 k < 1) (mx := s.maxDt) (by
      rintro q v ⟨b1, b2, b3, b4⟩
      obtain ⟨o, ho⟩ := random_call_ok b1 (q.2 0) v
      obtain ⟨c1, c2, _, c3, c4, c5⟩ := randomStep_dt q.1 (by rw [b2, b3]; exact hm) (b4 0) v ho
      refine ⟨o.1, (o.2, fun k => q.2 (k + 1)), 0, ⟨(random_keeps ho).2 b1, by rw [c4, b2],
        by rw [c5, b3], fun k => b4 (k + 1)⟩, by linarith, by linarith, fun _ _ => ?_⟩
      simp only [randomCall, ho, Bind.bind, Except.bind, pure, Except.pure]) (s, draws) u
    ⟨hf, rfl, rfl, hd⟩ hT
  obtain ⟨e1, e2⟩ := called_randomRun a1
  refine ⟨n, u', s'.1, e1, a3, a4, a5, a6, fun fuel => ?_⟩
  have := a7 I le_rfl fuel
  rw [show s' = (s'.1, fun k => draws (k + n)) from Prod.ext rfl e2] at this
  exact this

theorem called_codeSteps {n : Nat} {s s' : CODE ℝ ext int} {u u' : Univ ℝ N ext H W}
    (h : Called (fun inner s u => s.forward inner u) n s u s' u') : CodeSteps n s u s' u' := by
  induction h with
  | none s u => exact .zero s u
  | more inner h1 _ ih => exact .succ inner h1 ih

/-- C116: the loop of the demonstration of `CODE` ends, whichever steps are chosen, once the loops
inside its calls are given enough rounds. -/
theorem code_until (s : CODE ℝ ext int) (hf : Runnable s H W) (hr : StepReady s) {T : ℝ}
    (hT : s.ca.t ≤ T) (u : Univ ℝ N ext H W) :
    ∃ n u' s' I, CodeSteps n s u s' u' ∧ T < s'.ca.t ∧ s'.ca.t ≤ T + s.maxDt ∧
      T - s.ca.t < n * s.maxDt ∧ (n - 1 : ℝ) * s.minDt ≤ T - s.ca.t ∧
      ∀ inner ≥ I, ∀ fuel, codeDemo T inner fuel s u =
        if n < fuel then some (.ok (u', s')) else none := by
  obtain ⟨n, u', s', I, a1, a2, a3, a4, a5, a6, a7⟩ := clockLoop_ends
    (fun s : CODE ℝ ext int => s.ca.t)
    (fun inner s u => CODE.forward (N := N) (H := H) (W := W) s inner u) T hr.1
    (fun q _ => Runnable q H W ∧ StepReady q ∧ q.minDt = s.minDt ∧ q.maxDt = s.maxDt)
    (mx := s.maxDt) (by
      rintro q v ⟨b1, b2, b3, b4⟩
      obtain ⟨d, w, F, c1, c2, c3, c4⟩ := code_step q b2 b1 v
      exact ⟨w, { q with ca := { q.ca with dt := d, t := q.ca.t + d }, prevDt := d }, F,
        ⟨b1, c3, b3, b4⟩, by rw [← b3]; exact add_le_add_right c1.1 _,
        by rw [← b4]; exact add_le_add_right c1.2.1 _, c4⟩) s u ⟨hf, hr, rfl, rfl⟩ hT
  exact ⟨n, u', s', I, called_codeSteps a1, a3, a4, a5, a6, a7⟩

/-- C116: the demonstration of `RandomStepCA` makes between 41 and 201 calls and ends at a simulated
time between 10 and 10.25. -/
theorem random_demo (ca : CCA ℝ ext int) (hf : FitsGrid ca H W) (draws : Nat → ℝ)
    (hd : ∀ k, 0 ≤ draws k ∧ draws k < 1) (u : Univ ℝ N ext H W) :
    ∃ n u' s', 41 ≤ n ∧ n ≤ 201 ∧ 10 < s'.ca.t ∧ s'.ca.t ≤ 10.25 ∧
      randomRun (RandomStepCA.fresh ca) u ((List.range n).map draws) = .ok (u', s') ∧
      randomDemo 10 202 (RandomStepCA.fresh ca, draws) u =
        some (.ok (u', (s', fun k => draws (k + n)))) := by
  obtain ⟨n, u', s', a1, a2, a3, a4, a5, a6⟩ := random_until (RandomStepCA.fresh ca) hf
    (by norm_num [RandomStepCA.fresh, Arith.lit]) (by norm_num [RandomStepCA.fresh, Arith.lit])
    draws hd (T := 10) (by norm_num [RandomStepCA.fresh, Arith.zero]) u
  norm_num [RandomStepCA.fresh, Arith.lit, Arith.zero] at a3 a4 a5
  have h1 : 41 ≤ n := by
    have : (40 : ℝ) < n := by linarith
    exact_mod_cast this
  have h2 : n ≤ 201 := by
    have : (n : ℝ) ≤ 201 := by linarith
    exact_mod_cast this
  refine ⟨n, u', s', h1, h2, a2, by norm_num; linarith, a1, ?_⟩
  rw [a6 202, if_pos (by omega)]

/-- C116: the demonstration of `CODE` makes between 21 and 1001 calls and ends at a simulated time
between 10 and 10.5. -/
theorem code_demo (ca : CCA ℝ ext int) (hf : FitsGrid ca H W) (u : Univ ℝ N ext H W) :
    ∃ n u' s' I, 21 ≤ n ∧ n ≤ 1001 ∧ 10 < s'.ca.t ∧ s'.ca.t ≤ 10.5 ∧
      CodeSteps n (CODE.fresh ca) u s' u' ∧
      ∀ inner ≥ I, codeDemo 10 inner 1002 (CODE.fresh ca) u = some (.ok (u', s')) := by
  obtain ⟨n, u', s', I, a1, a2, a3, a4, a5, a6⟩ := code_until (CODE.fresh ca) hf
    (by norm_num [StepReady, CODE.fresh, Arith.lit]) (T := 10)
    (by norm_num [CODE.fresh, Arith.zero]) u
  norm_num [CODE.fresh, Arith.lit, Arith.zero] at a3 a4 a5
  have h1 : 21 ≤ n := by
    have : (20 : ℝ) < n := by linarith
    exact_mod_cast this
  have h2 : n ≤ 1001 := by
    have : (n : ℝ) ≤ 1001 := by linarith
    exact_mod_cast this
  refine ⟨n, u', s', I, h1, h2, a2, by norm_num; linarith, a1, fun inner hi => ?_⟩
  rw [a6 inner hi 1002, if_pos (by omega)]

/-- C116: every call of the demonstration of `CODE` takes a step between 0.01 and 0.5; the full step
and two half steps then agree to one part in a thousand wherever the half steps leave something alive,
unless the step is the smallest. -/
theorem code_demo_steps (ca : CCA ℝ ext int) (hf : FitsGrid ca H W) (u : Univ ℝ N ext H W) {n : Nat}
    {s : CODE ℝ ext int} {v : Univ ℝ N ext H W} (h : CodeSteps n (CODE.fresh ca) u s v) {inner : Nat}
    {w : Univ ℝ N ext H W} {s' : CODE ℝ ext int} (hw : s.forward inner v = some (.ok (w, s'))) :
    0.01 ≤ s'.ca.dt ∧ s'.ca.dt ≤ 0.5 ∧ s'.ca.t = s.ca.t + s'.ca.dt ∧
    s.getNewGrid s'.ca.dt v = .ok w ∧
    (s'.ca.dt = 0.01 ∨ ∃ half two : Univ ℝ N ext H W, s.getNewGrid (s'.ca.dt / 2) v = .ok half ∧
      s.getNewGrid (s'.ca.dt / 2) half = .ok two ∧
      ∀ n c i j, 0 < two n c i j → |w n c i j - two n c i j| < two n c i j / 1000) := by
  have key : ∀ {n : Nat} {s₀ s : CODE ℝ ext int} {u v : Univ ℝ N ext H W}, CodeSteps n s₀ u s v →
      StepReady s₀ → Runnable s₀ H W → StepReady s ∧ Runnable s H W ∧ s.minDt = s₀.minDt ∧
        s.maxDt = s₀.maxDt ∧ s.errThr = s₀.errThr := by
    intro n s₀ s u v h
    induction h with
    | zero s u => exact fun h1 h2 => ⟨h1, h2, rfl, rfl, rfl⟩
    | @succ n s u s1 u1 s'' u'' fuel hf _ ih =>
      intro hr hrun
      obtain ⟨_, _, hr', heq⟩ := code_step_unique s hr hrun u hf
      simp only at hr' heq
      obtain ⟨a, b, c, d, e⟩ := ih hr' (by rw [heq]; exact hrun)
      exact ⟨a, b, by rw [c, heq], by rw [d, heq], by rw [e, heq]⟩
  obtain ⟨hr, hrun, h1, h2, h3⟩ := key h (by norm_num [StepReady, CODE.fresh, Arith.lit]) hf
  obtain ⟨⟨g1, g2, _, g4⟩, k2, _, k4⟩ := code_step_unique s hr hrun v hw
  simp only at g1 g2 g4 k2 k4
  have e1 : s.minDt = 0.01 := by rw [h1]; norm_num [CODE.fresh, Arith.lit]
  have e2 : s.maxDt = 0.5 := by rw [h2]; norm_num [CODE.fresh, Arith.lit]
  have e3 : s.errThr = 1 / 1000 := by rw [h3]; norm_num [CODE.fresh, Arith.lit]
  refine ⟨by rw [← e1]; exact g1, by rw [← e2]; exact g2, by rw [k4], k2, ?_⟩
  rcases g4 with ⟨j, _, ⟨full, half, two, m1, m2, m3, m4⟩, _⟩ | ⟨g, _⟩
  · right
    rw [k2] at m1
    cases m1
    refine ⟨half, two, m2, m3, fun n c i j hp => ?_⟩
    have := m4 n c i j
    rw [if_pos hp, e3, div_lt_iff₀ hp] at this
    linarith
  · exact .inl (g.trans e1)

/-- C116: the bounds on the number of calls are reached: with all draws 0 every step is the smallest,
with draws close to 1 every step is close to the largest. -/
theorem random_demo_extremes (ca : CCA ℝ ext int) (hf : FitsGrid ca H W) (u : Univ ℝ N ext H W) :
    (∃ u' s', randomDemo 10 201 (RandomStepCA.fresh ca, fun _ => 0) u = none ∧
      randomDemo 10 202 (RandomStepCA.fresh ca, fun _ => 0) u = some (.ok (u', s'))) ∧
    ∃ u' s', randomDemo 10 41 (RandomStepCA.fresh ca, fun _ => 0.99) u = none ∧
      randomDemo 10 42 (RandomStepCA.fresh ca, fun _ => 0.99) u = some (.ok (u', s')) := by
  have key : ∀ r : ℝ, 0 ≤ r → r < 1 → ∀ n u' s',
      randomRun (RandomStepCA.fresh ca) u ((List.range n).map fun _ => r) = .ok (u', s') →
      s'.ca.t = n * (r * (1 / 5) + 1 / 20) := by
    intro r h0 h1 n
    have gen : ∀ (n : Nat) (s : RandomStepCA ℝ ext int) (v u' : Univ ℝ N ext H W) (s' : RandomStepCA ℝ ext int),
        s.maxDt = 1 / 4 → s.minDt = 1 / 20 → randomRun s v (List.replicate n r) = .ok (u', s') →
        s'.ca.t = s.ca.t + n * (r * (1 / 5) + 1 / 20) := by
      intro n
      induction n with
      | zero => intro s v u' s' _ _ h; cases h; simp
      | succ n ih =>
        intro s v u' s' e1 e2 h
        obtain ⟨o, h2, h3⟩ := bind_ok h
        obtain ⟨_, _, h2⟩ := bind_ok h2
        obtain ⟨_, _, h2⟩ := bind_ok h2
        obtain ⟨_, _, h2⟩ := bind_ok h2
        cases h2
        rw [ih _ _ _ _ (by exact e1) (by exact e2) h3]
        simp only [Arith.add, Arith.mul, Arith.sub, e1, e2]
        push_cast
        ring
    intro u' s' h
    have hl : ((List.range n).map fun _ => r) = List.replicate n r := by simp
    rw [hl] at h
    rw [gen n _ _ _ _ (by norm_num [RandomStepCA.fresh, Arith.lit])
      (by norm_num [RandomStepCA.fresh, Arith.lit]) h]
    simp [RandomStepCA.fresh, Arith.zero]
  constructor
  · obtain ⟨n, u', s', a1, a2, a3, a4, a5, a6⟩ := random_until (RandomStepCA.fresh ca) hf
      (by norm_num [RandomStepCA.fresh, Arith.lit]) (by norm_num [RandomStepCA.fresh, Arith.lit])
      (fun _ => 0) (by norm_num) (T := 10) (by norm_num [RandomStepCA.fresh, Arith.zero]) u
    have ht := key 0 le_rfl (by norm_num) n u' s' a1
    norm_num [RandomStepCA.fresh, Arith.lit, Arith.zero] at a5
    rw [ht] at a2
    have hn : n = 201 := by
      have h1 : (200 : ℝ) < n := by linarith
      have h2 : (n : ℝ) ≤ 201 := by linarith
      have h1' : 200 < n := by exact_mod_cast h1
      have h2' : n ≤ 201 := by exact_mod_cast h2
      omega
    subst hn
    exact ⟨u', _, by rw [a6 201, if_neg (by omega)], by rw [a6 202, if_pos (by omega)]⟩
  · obtain ⟨n, u', s', a1, a2, a3, a4, a5, a6⟩ := random_until (RandomStepCA.fresh ca) hf
      (by norm_num [RandomStepCA.fresh, Arith.lit]) (by norm_num [RandomStepCA.fresh, Arith.lit])
      (fun _ => 0.99) (by norm_num) (T := 10) (by norm_num [RandomStepCA.fresh, Arith.zero]) u
    have ht := key 0.99 (by norm_num) (by norm_num) n u' s' a1
    norm_num [RandomStepCA.fresh, Arith.lit, Arith.zero] at a3
    rw [ht] at a2 a3
    norm_num at a2 a3
    have hn : n = 41 := by
      have h1 : (40 : ℝ) < n := by linarith
      have h2 : (n : ℝ) < 42 := by linarith
      have h1' : 40 < n := by exact_mod_cast h1
      have h2' : n < 42 := by exact_mod_cast h2
      omega
    subst hn
    exact ⟨u', _, by rw [a6 41, if_neg (by omega)], by rw [a6 42, if_pos (by omega)]⟩

/-- The hypotheses can be met: an automaton whose kernels fit, and draws. -/
example : FitsGrid (Witness.codeR 0.001 0.01).ca 8 8 ∧
    StepReady (CODE.fresh (Witness.codeR 0.001 0.01).ca) ∧
    ∀ k : Nat, (0 : ℝ) ≤ 1 / (k + 2) ∧ 1 / (k + 2 : ℝ) < 1 := by
  refine ⟨?_, by norm_num [StepReady, CODE.fresh, Arith.lit], fun k => ⟨by positivity, ?_⟩⟩
  · exact ⟨⟨rfl, rfl, rfl⟩, ⟨rfl, rfl, rfl⟩, rfl, rfl⟩
  · rw [div_lt_one (by positivity)]
    have : (0 : ℝ) ≤ k := by positivity
    linarith

/-- C116: which keywords a call with one positional argument may have. -/
theorem keywords_iff (params : List Str) (positional : Nat) (keywords : List Str) :
    (bindKeywords params positional keywords = .ok () ↔
      ∀ k ∈ keywords, k ∈ params.drop positional) ∧
    (bindKeywords params positional keywords ≠ .ok () →
      bindKeywords params positional keywords = .error .type) := by
  unfold bindKeywords
  split <;> rename_i h
  · simpa using h
  · simpa using h

section Meta

variable {α : Type} [Arith α]

/-- C116, exception: the demonstration of `MetaCA` stops in its first round, because `forward` has no
parameter `dgrid`: no step is made and no frame is written. -/
theorem meta_demo_refuted (s : MetaCA α ext int) (u : Univ α N ext H W) (frames : List Nat) :
    metaRound ["dgrid".toList] s u 0 frames = ((s, frames), .error .type) := by
  unfold metaRound
  rw [show bindKeywords ["grid".toList, "mode".toList] 1 ["dgrid".toList] = .error .type from by
    decide +kernel]

/-- C116, exception: nor would it run without the keyword: the one grid that comes back cannot be
unpacked into two (only a batch of two could). -/
theorem meta_demo_unpack_refuted (s : MetaCA α ext int) (u : Univ α N ext H W) (hN : N ≠ 2)
    (frames : List Nat) : ∃ e s', metaRound [] s u 0 frames = ((s', frames), .error e) := by
  unfold metaRound
  rw [show bindKeywords ["grid".toList, "mode".toList] 1 [] = .ok () from by decide +kernel]
  simp only [unpackTwo, if_neg hN]
  cases s.forward u with
  | error e => exact ⟨_, _, rfl⟩
  | ok r => exact ⟨_, _, rfl⟩

/-- C116: a round of the demonstration of `MetaCA` with other keywords.  It raises TypeError, without
a step, unless they are at most `mode`; then the step is made, but a frame is written only for a batch
of two, and for any other a ValueError follows the step. -/
theorem meta_round (keywords : List Str) (s : MetaCA α ext int) (u : Univ α N ext H W) (ii : Nat)
    (frames : List Nat) :
    ((∃ k ∈ keywords, k ≠ "mode".toList) →
      metaRound keywords s u ii frames = ((s, frames), .error .type)) ∧
    ((∀ k ∈ keywords, k = "mode".toList) →
      (∀ e, s.forward u = .error e → metaRound keywords s u ii frames = ((s, frames), .error e)) ∧
      ∀ v s', s.forward u = .ok (v, s') →
        (N ≠ 2 → metaRound keywords s u ii frames = ((s', frames), .error .value)) ∧
        (N = 2 → metaRound keywords s u ii frames = ((s', frames ++ [ii]), .ok ()))) := by
  have hb := keywords_iff ["grid".toList, "mode".toList] 1 keywords
  simp only [List.drop_succ_cons, List.drop_zero, List.mem_singleton] at hb
  constructor
  · rintro ⟨k, hk, hn⟩
    have := hb.2 fun h => hn (hb.1.1 h k hk)
    unfold metaRound
    rw [this]
  · intro hk
    have := hb.1.2 hk
    unfold metaRound
    rw [this]
    refine ⟨fun e he => by simp only [he], fun v s' hv => ⟨fun h => ?_, fun h => ?_⟩⟩
    · simp only [hv, unpackTwo, if_neg h]
    · simp only [hv, unpackTwo, if_pos h]

end Meta

/-! ## The tables -/

/-- A table of `h` rows of `w` numbers between 0 and 1 (in hundredths), not all 0. -/
def Spec.IsPicture (h w : Nat) (t : List (List Nat)) : Prop :=
  t.length = h ∧ (∀ r ∈ t, r.length = w ∧ ∀ x ∈ r, x ≤ 100) ∧ ∃ r ∈ t, ∃ x ∈ r, x ≠ 0

instance (h w : Nat) (t : List (List Nat)) : Decidable (IsPicture h w t) := by
  unfold IsPicture; infer_instance

/-- C116: `np.reshape` of the Orbium can be done, and its numbers lie between 0 and 1. -/
theorem orbium_table : orbiumList.length = 20 * 20 ∧ ∀ x ∈ orbiumList, x ≤ 100 := by
  decide +kernel

/-- C116: the other tables are rectangular, as `np.array` needs them, with numbers between 0
and 1, and no channel is empty. -/
theorem pattern_tables :
    IsPicture 51 55 geminiumTable ∧
    (pacmanTable.length = 3 ∧ ∀ t ∈ pacmanTable, IsPicture 39 45 t) ∧
    (smoothPufferTable.length = 3 ∧ ∀ t ∈ smoothPufferTable, IsPicture 29 28 t) := by
  decide +kernel

/-- C116: the rows of the Orbium are the twenties of the list. -/
theorem orbium_rows (i : Fin 20) : (List.ofFn fun j => (orbium i j : ℝ)) =
    ((orbiumList.drop (20 * i)).take 20).map fun x : Nat => (x : ℝ) / 100 := by
  apply List.ext_getElem
  · simp [orbium_table.1]; omega
  · intro k h1 h2
    have hk : k < 20 := by simpa using h1
    have : 20 * i.val + k < orbiumList.length := by rw [orbium_table.1]; omega
    rw [List.getElem_ofFn, List.getElem_map, List.getElem_take, List.getElem_drop]
    simp only [orbium, Arith.lit, List.getD_eq_getElem?_getD, mul_comm (i : Nat) 20]
    rw [List.getElem?_eq_getElem this, Option.getD_some]
    push_cast
    rfl

theorem orbium_range (i j : Fin 20) : 0 ≤ (orbium i j : ℝ) ∧ (orbium i j : ℝ) ≤ 1 := by
  have h : orbiumList.getD (i.val * 20 + j.val) 0 ≤ 100 := by
    rw [List.getD_eq_getElem?_getD]
    cases hx : orbiumList[i.val * 20 + j.val]? with
    | none => simp
    | some x => exact orbium_table.2 x (List.mem_of_getElem? hx)
  have h' : ((orbiumList.getD (i.val * 20 + j.val) 0 : Nat) : ℝ) ≤ 100 := by exact_mod_cast h
  simp only [orbium, Arith.lit]
  push_cast
  constructor
  · positivity
  · rw [div_le_one (by norm_num)]; exact h'

/-- C116: the grid the demonstration of `Lenia` starts from has its cells in [0, 1]; in every sample
the Orbium is in the upper left corner, the random numbers are in the upper right one, and
everything else is empty. -/
theorem lenia_demo_start (rand : Fin 4 → Fin 20 → Fin 20 → ℝ)
    (hr : ∀ n i j, 0 ≤ rand n i j ∧ rand n i j < 1) :
    Within01 (leniaDemoStart rand) ∧
    (∀ n (i j : Fin 20), leniaDemoStart rand n 0 ⟨i, by omega⟩ ⟨j, by omega⟩ = orbium i j ∧
      leniaDemoStart rand n 0 ⟨i, by omega⟩ ⟨44 + j, by omega⟩ = rand n i j) ∧
    ∀ n (i j : Fin 64), (20 ≤ i.val ∨ 20 ≤ j.val ∧ j.val < 44) → leniaDemoStart rand n 0 i j = 0 := by
  refine ⟨?_, ?_, ?_⟩
  · intro n c i j
    unfold leniaDemoStart
    split
    · split
      · exact ⟨(hr _ _ _).1, (hr _ _ _).2.le⟩
      · split
        · exact orbium_range _ _
        · simp [Arith.zero]
    · simp [Arith.zero]
  · intro n i j
    have hi := i.2
    have hj := j.2
    constructor
    · unfold leniaDemoStart
      rw [dif_pos hi, dif_neg (by simp; omega), dif_pos hj]
    · unfold leniaDemoStart
      rw [dif_pos hi, dif_pos (by simp)]
      congr 1
      apply Fin.ext
      simp
  · intro n i j h
    unfold leniaDemoStart
    rcases h with h | h
    · rw [dif_neg (by omega)]; rfl
    · split
      · rw [dif_neg (by omega), dif_neg (by omega)]; rfl
      · rfl

end Yuca
