import Verif.Lemmas.Cell
import Verif.Props.Equivariance
import Verif.Props.Activations
import Verif.Props.Kernels

/-!
# C09 Lenia as a special CCA, C10 dead universes, C12 step bound, C13 homogeneous states,
C20 (monotone part)

Exact real arithmetic, except where a carrier `α` is mentioned.
-/

namespace Yuca

open Arith Spec

variable {ext int N H W : Nat}

/-! ## C09 -/

/-- C09: the CCA that uses Lenia's growth functions both as genesis and as persistence
functions has Lenia's trajectory (same universes, or the same exception), for any weight
layer, any padding, any number of steps. -/
theorem lenia_is_cca (L : CCA ℝ ext int) (n : Nat) (u : Univ ℝ N ext H W) :
    Except.map Prod.fst (iterate CCA.forward n { L with persistence := L.genesis } u) =
      Except.map Prod.fst (iterate CCA.leniaForward n L u) := by
  have step : ∀ (L : CCA ℝ ext int) (u : Univ ℝ N ext H W),
      CCA.forward { L with persistence := L.genesis } u =
        Prod.map id (fun s => { s with persistence := s.genesis }) <$> L.leniaForward u := by
    intro L u
    unfold CCA.forward CCA.leniaForward
    simp only
    cases L.idL.apply (maskIf L.thr u) with
    | error _ => rfl
    | ok idn =>
      cases L.nbL.apply (maskIf L.thr u) with
      | error _ => rfl
      | ok nb =>
        simp only [bind, Except.bind, Functor.map, CCA.updateUniverse, CCA.leniaUpdateUniverse]
        cases perChannel L.genesis nb with
        | error _ => rfl
        | ok g =>
          simp only [pure, Except.pure, Except.map, Prod.map, id]
          congr 3
          congr 1
          funext n o i j
          simp only [Arith.mul, Arith.sub, Arith.add, Arith.one]; ring
  have := iterate_map₂ (σ := CCA ℝ ext int) (β := Univ ℝ N ext H W) id
    (fun s : CCA ℝ ext int => { s with persistence := s.genesis })
    CCA.leniaForward CCA.forward (fun _ => True) (fun _ _ _ _ _ _ => trivial)
    (fun s b _ => step s b) n L u trivial
  simp only [id] at this
  rw [this]
  cases iterate CCA.leniaForward n L u <;> rfl

/-- A Lenia-like automaton on the reals used to exhibit hypotheses: one channel, radius 2
Moore-like kernel, Gaussian growth. -/
noncomputable def realCA : CCA ℝ 1 1 where
  idL := identityLayer 1 1 .circular
  nbL := .ofKernel 1 1 .circular 5 (mooreLike 2)
  genesis := [(Act.gaussian 0.15 0.015 true).eval]
  persistence := [(Act.gaussian 0.3 0.05 true).eval]
  weights := .functional fun _ _ => 1
  thr := 0.1
  dt := 0.1
  t := 0

theorem realCA_runs (u : Univ ℝ N 1 H W) (hH : 2 ≤ H) (hW : 2 ≤ W) :
    ∃ r, realCA.forward u = .ok r := by
  refine (cca_runs_iff realCA u).2 ⟨?_, ?_, rfl, rfl⟩
  · simp [Fits, realCA, identityLayer, ConvLayer.ofKernel, ConvLayer.pad, padOK]
    constructor <;> omega
  · simp [Fits, realCA, ConvLayer.ofKernel, ConvLayer.pad, padOK, hH, hW]

/-- The two automata differ before the persistence functions are replaced. -/
example : realCA.persistence ≠ realCA.genesis := by
  intro h
  have h : (Act.gaussian 0.3 0.05 true).eval = (Act.gaussian 0.15 0.015 true).eval := by
    simpa [realCA] using h
  have h2 := congrFun h 0.3
  have h3 := (gaussian_range 0.3 0.05 (by unfold eps9; norm_num) 0).2.2
  rw [h3] at h2
  simp only [Act.eval, gaussianFn, if_true, bump] at h2
  have : Real.exp (-((0.3 - 0.15) / (eps9 + 0.015)) ^ 2 / 2) = 1 := by linarith
  rw [Real.exp_eq_one_iff] at this
  unfold eps9 at this
  norm_num at this

/-! ## C10 -/

/-- The all-zero universe. -/
def dead (N ext H W : Nat) : Univ ℝ N ext H W := fun _ _ _ _ => 0

/-- What one step makes of a cell of the dead universe. -/
theorem cca_dead_cell {ca : CCA ℝ ext int} {w : Fin ext → Fin int → ℝ}
    (hw : ca.weights = .functional w) {r : Univ ℝ N ext H W × CCA ℝ ext int}
    (h : ca.forward (dead N ext H W) = .ok r) (n : Fin N) (e : Fin ext) (i : Fin H) (j : Fin W) :
    r.1 n e i j = clamp01 (ca.dt * ∑ o, w e o * chanFn ca.genesis o 0) := by
  obtain ⟨_, _, _, h4⟩ := cca_cell hw h
  rw [h4]
  have hm : maskIf ca.thr (dead N ext H W) = fun _ _ _ _ => 0 := maskIf_zero ca.thr
  simp only [hm, taps_zero]
  simp

/-- C10: the dead universe is a fixed point of a CCA step exactly when in no external channel
the weighted genesis at zero neighborhood is positive. -/
theorem dead_fixed_iff {ca : CCA ℝ ext int} {w : Fin ext → Fin int → ℝ}
    (hw : ca.weights = .functional w) (hN : 0 < N) (hH : 0 < H) (hW : 0 < W)
    {r : Univ ℝ N ext H W × CCA ℝ ext int} (h : ca.forward (dead N ext H W) = .ok r) :
    r.1 = dead N ext H W ↔
      ∀ e, ca.dt * ∑ o, w e o * chanFn ca.genesis o 0 ≤ 0 := by
  constructor
  · intro hr e
    have := cca_dead_cell hw h ⟨0, hN⟩ e ⟨0, hH⟩ ⟨0, hW⟩
    rw [hr, clamp01_real] at this
    by_contra hc
    have h1 := le_max_right 0 (min 1 (ca.dt * ∑ o, w e o * chanFn ca.genesis o 0))
    have h2 : 0 < min 1 (ca.dt * ∑ o, w e o * chanFn ca.genesis o 0) :=
      lt_min (by norm_num) (not_le.1 hc)
    simp only [dead] at this
    linarith
  · intro hle
    funext n e i j
    rw [cca_dead_cell hw h, clamp01_real, min_eq_right (by have := hle e; linarith),
      max_eq_left (hle e)]
    rfl

/-- C10: with non-negative weights and `dt` and no genesis function positive at 0, the dead
universe stays dead for ever. -/
theorem cca_dead_stays (ca : CCA ℝ ext int) (w : Fin ext → Fin int → ℝ)
    (hw : ca.weights = .functional w) (hw0 : ∀ e o, 0 ≤ w e o) (hdt : 0 ≤ ca.dt)
    (hg : ∀ g ∈ ca.genesis, g 0 ≤ 0) (n : Nat) (r : Univ ℝ N ext H W × CCA ℝ ext int)
    (h : iterate CCA.forward n ca (dead N ext H W) = .ok r) : r.1 = dead N ext H W := by
  refine (iterate_inv (fun (s : CCA ℝ ext int) (b : Univ ℝ N ext H W) =>
    s.weights = .functional w ∧ 0 ≤ s.dt ∧ (∀ g ∈ s.genesis, g 0 ≤ 0) ∧ b = dead N ext H W)
    ?_ n ca _ r ⟨hw, hdt, hg, rfl⟩ h).2.2.2
  rintro s b b' s' ⟨h1, h2, h3, rfl⟩ h
  obtain ⟨hl, _, hs, _⟩ := cca_cell h1 h
  simp only at hs
  subst hs
  refine ⟨h1, h2, h3, ?_⟩
  funext n e i j
  have := cca_dead_cell h1 h n e i j
  simp only at this
  rw [this]
  have hs : ∑ o, w e o * chanFn s.genesis o 0 ≤ 0 := Finset.sum_nonpos fun o _ =>
    mul_nonpos_of_nonneg_of_nonpos (hw0 e o) (h3 _ (chanFn_mem hl o))
  have : s.dt * ∑ o, w e o * chanFn s.genesis o 0 ≤ 0 :=
    mul_nonpos_of_nonneg_of_nonpos h2 hs
  rw [clamp01_real, min_eq_right (by linarith), max_eq_left this]
  rfl

/-- C10 for Lenia. -/
theorem lenia_dead_stays (ca : CCA ℝ ext int) (w : Fin ext → Fin int → ℝ)
    (hw : ca.weights = .functional w) (hw0 : ∀ e o, 0 ≤ w e o) (hdt : 0 ≤ ca.dt)
    (hg : ∀ g ∈ ca.genesis, g 0 ≤ 0) (n : Nat) (r : Univ ℝ N ext H W × CCA ℝ ext int)
    (h : iterate CCA.leniaForward n ca (dead N ext H W) = .ok r) : r.1 = dead N ext H W := by
  have h1 := lenia_is_cca ca n (dead N ext H W)
  rw [h] at h1
  cases h2 : iterate CCA.forward n { ca with persistence := ca.genesis } (dead N ext H W) with
  | error e => rw [h2] at h1; cases h1
  | ok r' =>
    rw [h2] at h1
    simp only [Except.map, Except.ok.injEq] at h1
    rw [← h1]
    exact cca_dead_stays { ca with persistence := ca.genesis } w hw hw0 hdt hg n r' h2

/-- C10, converse: if the weighted genesis at 0 is positive in channel `e`, that channel of the
dead universe is everywhere alive after one step. -/
theorem cca_dead_revives (ca : CCA ℝ ext int) (w : Fin ext → Fin int → ℝ)
    (hw : ca.weights = .functional w) (hdt : 0 < ca.dt) (e : Fin ext)
    (hpos : 0 < ∑ o, w e o * chanFn ca.genesis o 0)
    (r : Univ ℝ N ext H W × CCA ℝ ext int) (h : ca.forward (dead N ext H W) = .ok r) :
    ∀ n i j, 0 < r.1 n e i j := by
  intro n i j
  rw [cca_dead_cell hw h, clamp01_real]
  exact lt_of_lt_of_le (lt_min (by norm_num) (mul_pos hdt hpos)) (le_max_right _ _)

/-- The Gaussian growth function of `realCA` is negative at 0; its CCA runs on the dead
universe. -/
example : realCA.weights = .functional (fun _ _ => 1) ∧ 0 ≤ realCA.dt ∧
    (∀ g ∈ realCA.genesis, g 0 ≤ 0) ∧ ∃ r, realCA.forward (dead 1 1 8 8) = .ok r := by
  refine ⟨rfl, by norm_num [realCA], ?_, realCA_runs _ (by norm_num) (by norm_num)⟩
  simp only [realCA, List.mem_singleton, forall_eq, Act.eval, gaussianFn, if_true, bump, eps9]
  have h1 : Real.exp (-((0 - 0.15) / (1e-9 + 0.015)) ^ 2 / 2) ≤ Real.exp (-1) :=
    Real.exp_le_exp.2 (by norm_num)
  have h2 : Real.exp (-1) ≤ 1 / 2 := by
    rw [Real.exp_neg, ← one_div]
    exact one_div_le_one_div_of_le (by norm_num) (by have := Real.add_one_le_exp 1; linarith)
  linarith

/-! ## C12 -/

/-- Every cell is in `[0,1]`. -/
def InUnit (u : Univ ℝ N ext H W) : Prop := ∀ n e i j, 0 ≤ u n e i j ∧ u n e i j ≤ 1

theorem maskIf_unit {thr : ℝ} {u : Univ ℝ N ext H W} (h : InUnit u) : InUnit (maskIf thr u) := by
  intro n e i j
  rcases maskIf_cases thr u n e i j with h1 | h1 <;> rw [h1]
  · exact h n e i j
  · norm_num

theorem convex_abs {x g p : ℝ} (h0 : 0 ≤ x) (h1 : x ≤ 1) (hg : |g| ≤ 1) (hp : |p| ≤ 1) :
    |(1 - x) * g + x * p| ≤ 1 := by
  have := abs_add_le ((1 - x) * g) (x * p)
  rw [abs_mul, abs_mul, abs_of_nonneg h0, abs_of_nonneg (by linarith : 0 ≤ 1 - x)] at this
  nlinarith

theorem weighted_abs {w x : Fin int → ℝ} (hw : ∑ o, |w o| ≤ 1) (hx : ∀ o, |x o| ≤ 1) :
    |∑ o, w o * x o| ≤ 1 := by
  refine (Finset.abs_sum_le_sum_abs _ _).trans (le_trans (Finset.sum_le_sum fun o _ => ?_) hw)
  rw [abs_mul]
  exact mul_le_of_le_one_right (abs_nonneg _) (hx o)

/-- C12: with growth functions into `[-1,1]`, weight rows of absolute sum at most 1 (the
default `1/(ext*int)` qualifies) and the default identity layer with `ext ∣ int`, a CCA step
moves every (masked) cell by at most `|dt|`. -/
theorem cca_step_bound (ca : CCA ℝ ext int) (w : Fin ext → Fin int → ℝ)
    (hw : ca.weights = .functional w) (hext : 0 < ext) (hd : ext ∣ int) (mode : PadMode)
    (hid : ca.idL = identityLayer ext int mode) (hrow : ∀ e, ∑ o, |w e o| ≤ 1)
    (hg : ∀ g ∈ ca.genesis, ∀ x, |g x| ≤ 1) (hp : ∀ p ∈ ca.persistence, ∀ x, |p x| ≤ 1)
    (u : Univ ℝ N ext H W) (hu : InUnit u) (r : Univ ℝ N ext H W × CCA ℝ ext int)
    (h : ca.forward u = .ok r) (n e i j) :
    |r.1 n e i j - maskIf ca.thr u n e i j| ≤ |ca.dt| := by
  obtain ⟨h1, h2, _, h4⟩ := cca_cell hw h
  rw [h4]
  have hm := maskIf_unit (thr := ca.thr) hu
  refine (clamp01_move (hm n e i j).1 (hm n e i j).2 _).trans ?_
  rw [abs_mul]
  refine mul_le_of_le_one_right (abs_nonneg _) (weighted_abs (hrow e) fun o => ?_)
  rw [hid, identity_taps_dvd hext hd]
  have := hm n (srcChan hext hd o) i j
  exact convex_abs this.1 this.2 (hg _ (chanFn_mem h1 o) _) (hp _ (chanFn_mem h2 o) _)

theorem cca_unit {ca : CCA ℝ ext int} {u : Univ ℝ N ext H W}
    {r : Univ ℝ N ext H W × CCA ℝ ext int} (h : ca.forward u = .ok r) : InUnit r.1 := by
  obtain ⟨idn, nb, upd, _, _, _, rfl⟩ := CCA.forward_ok h
  intro n e i j
  exact clamp01_mem _

/-- C12 over time: below four channels, `n` steps move every cell by at most `n |dt|`. -/
theorem cca_drift_bound (ca : CCA ℝ ext int) (w : Fin ext → Fin int → ℝ)
    (hw : ca.weights = .functional w) (hext : 0 < ext) (hlt : ext < 4) (hd : ext ∣ int)
    (mode : PadMode) (hid : ca.idL = identityLayer ext int mode)
    (hrow : ∀ e, ∑ o, |w e o| ≤ 1)
    (hg : ∀ g ∈ ca.genesis, ∀ x, |g x| ≤ 1) (hp : ∀ p ∈ ca.persistence, ∀ x, |p x| ≤ 1) (n : Nat) :
    ∀ (t : ℝ) (u : Univ ℝ N ext H W), InUnit u → ∀ r,
      iterate CCA.forward n { ca with t := t } u = .ok r →
      ∀ m e i j, |r.1 m e i j - u m e i j| ≤ n * |ca.dt| := by
  induction n with
  | zero => intro t u _ r h m e i j; cases h; simp
  | succ n ih =>
    intro t u hu r h m e i j
    obtain ⟨⟨u', s'⟩, h1, h2⟩ := bind_ok h
    have hb := cca_step_bound { ca with t := t } w hw hext hd mode hid hrow hg hp u hu _ h1 m e i j
    obtain ⟨_, _, hs, _⟩ := cca_cell (ca := { ca with t := t }) hw h1
    simp only at hs
    subst hs
    have := ih _ u' (cca_unit h1) r h2 m e i j
    rw [maskIf_small hlt] at hb
    push_cast
    calc |r.1 m e i j - u m e i j| = |(r.1 m e i j - u' m e i j) + (u' m e i j - u m e i j)| := by
          ring_nf
      _ ≤ _ := abs_add_le _ _
      _ ≤ n * |ca.dt| + |ca.dt| := add_le_add this hb
      _ = _ := by ring

/-- C12 for `NCA`: unconditional in the weights, because the last layer is `tanh`. -/
theorem nca_step_bound {hid : Nat} (ca : NCA ℝ ext int hid) (drop : Option (Univ ℝ N hid H W))
    (u : Univ ℝ N ext H W) (hu : InUnit u) (r : Univ ℝ N ext H W × NCA ℝ ext int hid)
    (h : ca.forward drop u = .ok r) (n e i j) :
    |r.1 n e i j - maskIf ca.thr u n e i j| ≤ |ca.dt| := by
  obtain ⟨idn, nb, upd, _, _, h3, rfl⟩ := NCA.forward_ok h
  have hm := maskIf_unit (thr := ca.thr) hu
  refine (clamp01_move (hm n e i j).1 (hm n e i j).2 _).trans ?_
  rw [show Arith.mul ca.dt (upd n e i j) = ca.dt * upd n e i j from rfl, abs_mul]
  refine mul_le_of_le_one_right (abs_nonneg _) ?_
  unfold NCA.updateUniverse at h3
  split at h3
  · cases h3
    simp only [Transc.tanh]
    exact (Real.abs_tanh_lt_one _).le
  · cases h3

/-- The hypotheses of `cca_step_bound` hold for `realCA`. -/
example : (∀ _e : Fin 1, ∑ _o : Fin 1, |(1 : ℝ)| ≤ 1) ∧
    realCA.idL = identityLayer 1 1 .circular ∧ (∀ g ∈ realCA.genesis, ∀ x, |g x| ≤ 1) ∧
    (∀ g ∈ realCA.persistence, ∀ x, |g x| ≤ 1) ∧
    InUnit (fun _ _ _ _ => 1/2 : Univ ℝ 1 1 8 8) := by
  refine ⟨by simp, rfl, ?_, ?_, fun _ _ _ _ => by norm_num⟩ <;>
    simp only [realCA, List.mem_singleton, forall_eq] <;> intro x
  · obtain ⟨_, ⟨h1, h2⟩, _⟩ := gaussian_range 0.15 0.015 (by unfold eps9; norm_num) x
    exact abs_le.2 ⟨h1.le, h2⟩
  · obtain ⟨_, ⟨h1, h2⟩, _⟩ := gaussian_range 0.3 0.05 (by unfold eps9; norm_num) x
    exact abs_le.2 ⟨h1.le, h2⟩

/-! ## C20, monotone part -/

/-- C20: a CCA all of whose genesis and persistence functions are `DoGaussian` in growth mode
(sigma not `-eps`) never raises any cell, whatever the kernel. -/
theorem doGaussian_never_increases (ca : CCA ℝ ext int) (w : Fin ext → Fin int → ℝ)
    (hw : ca.weights = .functional w) (hw0 : ∀ e o, 0 ≤ w e o) (hdt : 0 ≤ ca.dt)
    (hext : 0 < ext) (hlt : ext < 4) (hd : ext ∣ int) (mode : PadMode)
    (hid : ca.idL = identityLayer ext int mode)
    (hfn : ∀ f ∈ ca.genesis ++ ca.persistence, ∃ mu sigma dx : ℝ, eps9 + sigma ≠ 0 ∧
      f = (Act.doGaussian mu sigma dx true).eval) (n : Nat) :
    ∀ (t : ℝ) (u : Univ ℝ N ext H W), InUnit u → ∀ r,
      iterate CCA.forward n { ca with t := t } u = .ok r →
      ∀ m e i j, r.1 m e i j ≤ u m e i j := by
  induction n with
  | zero => intro t u _ r h m e i j; cases h; exact le_refl _
  | succ n ih =>
    intro t u hu r h m e i j
    obtain ⟨⟨u', s'⟩, h1, h2⟩ := bind_ok h
    obtain ⟨hl1, hl2, hs, hc⟩ := cca_cell (ca := { ca with t := t }) hw h1
    simp only at hs hl1 hl2 hc
    subst hs
    refine (ih _ u' (cca_unit h1) r h2 m e i j).trans ?_
    rw [hc, maskIf_small hlt]
    have hneg : ∀ f ∈ ca.genesis ++ ca.persistence, ∀ x, f x ≤ 0 := by
      intro f hf x
      obtain ⟨mu, sigma, dx, h0, rfl⟩ := hfn f hf
      exact (doGaussian_negative mu sigma dx h0 x).le
    have hu' := hu m e i j
    set S := ∑ o, w e o * _ with hS
    have hS0 : S ≤ 0 := by
      rw [hS]
      refine Finset.sum_nonpos fun o _ => mul_nonpos_of_nonneg_of_nonpos (hw0 e o) ?_
      rw [hid, identity_taps_dvd hext hd]
      have hx := hu m (srcChan hext hd o) i j
      have hg := hneg _ (List.mem_append_left _ (chanFn_mem hl1 o))
      have hp := hneg _ (List.mem_append_right _ (chanFn_mem hl2 o))
      have h1 := mul_nonpos_of_nonneg_of_nonpos (sub_nonneg.2 hx.2)
        (hg (dot (ca.nbL.taps (u m) o i j)))
      have h2 := mul_nonpos_of_nonneg_of_nonpos hx.1 (hp (dot (ca.nbL.taps (u m) o i j)))
      linarith
    have : ca.dt * S ≤ 0 := mul_nonpos_of_nonneg_of_nonpos hdt hS0
    rw [clamp01_real]
    exact max_le hu'.1 ((min_le_right _ _).trans (by linarith))

example : ∃ f : ℝ → ℝ, ∃ mu sigma dx : ℝ, eps9 + sigma ≠ 0 ∧
    f = (Act.doGaussian mu sigma dx true).eval :=
  ⟨_, 0, 0.1, 0.01, by unfold eps9; norm_num, rfl⟩

end Yuca
