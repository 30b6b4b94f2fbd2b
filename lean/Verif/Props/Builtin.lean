import Verif.Props.Shapes
import Verif.Props.Config
import Verif.Props.Rules

/-!
# The built-in rules (C85)
-/

namespace Yuca

open Arith

variable {N H W : Nat}

/-- The kernel of radius `r` with radial profile `f`: lowered so that the lowest weight is 0, then
divided by `1e-9` more than its sum. -/
def Spec.Profile (r : Nat) (f : ℝ → ℝ) (κ : Fin (2 * r + 1) → Fin (2 * r + 1) → ℝ) : Prop :=
  ∃ low, (∀ a b, low ≤ f (Spec.distance r a b)) ∧ (∃ a b, f (Spec.distance r a b) = low) ∧
    ∀ a b, κ a b = (f (Spec.distance r a b) - low) /
      (1e-9 + ∑ a', ∑ b', (f (Spec.distance r a' b') - low))

/-- The growth of Lenia: 1 at `m`, near -1 far from it. -/
noncomputable def Spec.leniaGrowth (m w x : ℝ) : ℝ := 2 * Spec.bell m w x - 1

open Spec

theorem normalise_profile {r : Nat} (f : ℝ → ℝ) :
    Profile r f (normaliseKernel fun a b => f (radialGrid r a b)) := by
  refine ⟨kernelMin fun a b => f (radialGrid r a b), fun a b => ?_, ?_, fun a b => ?_⟩
  · rw [← radialGrid_distance]
    exact kernelMin_le (fun a b => f (radialGrid r a b)) a b
  · obtain ⟨a, b, h⟩ := kernelMin_attained fun a b => f (radialGrid r a b)
    refine ⟨a, b, ?_⟩
    rw [← radialGrid_distance]
    exact h
  · simp only [← radialGrid_distance]
    rfl

/-- A kernel is determined by its profile. -/
theorem profile_unique {r : Nat} {f : ℝ → ℝ} {κ κ' : Fin (2 * r + 1) → Fin (2 * r + 1) → ℝ}
    (h : Profile r f κ) (h' : Profile r f κ') : κ = κ' := by
  obtain ⟨m, h1, ⟨a, b, h2⟩, h3⟩ := h
  obtain ⟨m', h1', ⟨a', b', h2'⟩, h3'⟩ := h'
  have : m = m' := le_antisymm (by rw [← h2']; exact h1 a' b') (by rw [← h2]; exact h1' a b)
  subst this
  funext a b
  rw [h3, h3']

/-- The settings of a default `CCA()`. -/
structure Spec.Plain1 (o : CCAObj) : Prop where
  ext : o.kw.extN = 1
  int : o.kw.intN = 1
  mode : o.kw.mode = .circular
  ca : o.kw.ca = .functional

theorem mixture_pair_growth (mu s x : ℝ) :
    (Act.mixture [(1, mu, s)] true).eval x = leniaGrowth mu (s + 1e-9) x := by
  rw [(growth_modes x).2.1, (growth_values x).2.2.2.2.1, leniaGrowth]
  have h0 : 0 ≤ bell mu (s + 1e-9) x := (Real.exp_pos _).le
  have h1 : bell mu (s + 1e-9) x ≤ 1 := by
    rw [bell, Real.exp_le_one_iff, neg_div]
    have : 0 ≤ (x - mu) ^ 2 / (2 * (s + 1e-9) ^ 2) := by positivity
    linarith
  simp only [List.map_cons, List.map_nil, List.sum_cons, List.sum_nil, one_mul, add_zero]
  rw [min_eq_right h1, max_eq_right h0]

/-- An object that steps as Lenia does: the step size, kernel and growth are given. -/
def Spec.StepsAsLenia (o : CCAObj) (dt : ℝ) {r : Nat} (κ : Fin (2 * r + 1) → Fin (2 * r + 1) → ℝ)
    (growth : ℝ → ℝ) : Prop :=
  o.dynamics.ext = 1 ∧ ∀ {N H W : Nat} (u : Univ ℝ N o.dynamics.ext H W) (t : ℝ),
    1 ≤ H ∧ r ≤ H → 1 ≤ W ∧ r ≤ W →
    ∃ u', (o.dynamics.toCCA t).forward u = .ok (u', o.dynamics.toCCA (t + dt)) ∧
      (o.dynamics.toCCA t).leniaForward u = .ok (u', o.dynamics.toCCA (t + dt)) ∧
      ∀ n e i j, u' n e i j = clip (u n e i j + dt * growth (gathered κ (u n e) i j))

/-- Loading a config with equal genesis and persistence gives an object that steps as Lenia does,
whether it is used as a `CCA` or as a `Lenia`. -/
theorem load_lenia (fs : Files) (fuel : Nat) (d : Nat → Draws) (o : CCAObj) (hp : Plain1 o)
    (cfg : Config) (hi : cfg.instant = none) (hid : cfg.identityKernelConfig = none) (r : Nat)
    (hr : cfg.neighborhood.radius = some r) (κ : Fin (2 * r + 1) → Fin (2 * r + 1) → ℝ)
    (hκ : cfg.neighborhood.kernel = .ok ⟨r, κ⟩) (g : Act ℝ) (hg : Act.ofCfg cfg.genesis = .ok g)
    (hgp : cfg.persistence = cfg.genesis) :
    ∃ o', o.loadConfig fs fuel d cfg = some (.ok o') ∧
      o' = loaded o cfg (d 0).seq ⟨1, identityKernel⟩ ⟨r, κ⟩ r g g ∧
      StepsAsLenia o' (cfg.dt.getD 0.1) κ g.eval := by
  have happ := (applyConfig_ok_iff o cfg (d 0).seq _).2
    ⟨⟨1, identityKernel⟩, r, ⟨r, κ⟩, g, g, by rw [Config.identityKernel, hid], hr, hκ, hg,
      by rw [hgp]; exact hg, rfl⟩
  have hl : o.loadConfig fs fuel d cfg = some (o.applyConfig cfg (d 0).seq) := by
    unfold CCAObj.loadConfig
    rw [hi]
  refine ⟨_, by rw [hl, happ], rfl, ?_⟩
  set o' := loaded o cfg (d 0).seq ⟨1, identityKernel⟩ ⟨r, κ⟩ r g g with ho'
  have hw : o'.dynamics.seqWeights = none := by
    simp [CCAObj.dynamics, ho', loaded, hp.ca]
  refine ⟨hp.ext, fun u t hH hW => ?_⟩
  obtain ⟨u', h1, h2⟩ := cca_rule_one o'.dynamics t hp.mode rfl hw hp.ext hp.int g g rfl rfl u hH hW
  obtain ⟨v', h3, h4⟩ := lenia_rule_one o'.dynamics t hp.mode rfl hw hp.ext hp.int g rfl u hH hW
  have huv : u' = v' := by
    funext n e i j
    rw [h2, h4]
    congr 2
    ring
  subst huv
  exact ⟨u', h1, h3, h4⟩

/-- C85: Orbium.  The kernel is a ring at half the radius, growth is largest at 0.15. -/
theorem orbium_rule (fs : Files) (fuel : Nat) (d : Nat → Draws) (o : CCAObj) (hp : Plain1 o)
    (r : Nat) (hr : 1 ≤ r) :
    ∃ o' κ, o.loadConfig fs fuel d (orbiumConfig r) = some (.ok o') ∧
      Profile r (bell 0.5 (0.15 + 1e-9)) κ ∧
      StepsAsLenia o' 0.1 κ (leniaGrowth 0.15 (0.015 + 1e-9)) ∧
      ∃ v, o'.getParams = .ok v ∧ (o'.setParams v).2 = none ∧
        (o'.setParams v).1.dynamics = o'.dynamics := by
  have hr' : r ≠ 0 := by omega
  have hk : (orbiumConfig r).neighborhood.kernel =
      .ok ⟨r, normaliseKernel fun a b => bump 0.5 0.15 (radialGrid r a b)⟩ := by
    rw [← gaussian_kernel_eq r hr']
    simp [orbiumConfig, KernelCfg.kernel, kernelKwargs, kwLookup, optM, KwVal.asNum, bind,
      Except.bind, pure, Except.pure]
  have ha : Act.ofCfg (orbiumConfig r).genesis = .ok (.mixture [(1, 0.15, 0.015)] true) := by
    simp [orbiumConfig, Act.ofCfg, mixtureComponents, mixtureComponents.pairs, bind, Except.bind,
      pure, Except.pure]
  obtain ⟨o', h1, h2, h3⟩ := load_lenia fs fuel d o hp (orbiumConfig r) rfl rfl r rfl _ hk _ ha rfl
  refine ⟨o', normaliseKernel fun a b => bump 0.5 0.15 (radialGrid r a b), h1, ?_, ?_, ?_⟩
  · rw [show bell 0.5 (0.15 + 1e-9) = bump 0.5 0.15 from funext fun x => (bump_bell _ _ x).symm]
    exact normalise_profile _
  · have hd : (orbiumConfig r).dt.getD 0.1 = 0.1 := rfl
    rw [hd, show (Act.mixture [((1 : ℝ), 0.15, 0.015)] true).eval = leniaGrowth 0.15 (0.015 + 1e-9)
      from funext fun x => mixture_pair_growth _ _ x] at h3
    exact h3
  · have hkp : o'.kernelParams = .vec [0.5, 0.15] := by
      rw [h2]
      simp [loaded, orbiumConfig, updateKernelParams, KwVal.ravel]
    obtain ⟨v, e1, e2⟩ := cca_set_own o' [0.5, 0.15] hkp
      ⟨r, normaliseKernel fun a b => bump 0.5 0.15 (radialGrid r a b)⟩
      (by rw [h2]; exact mixture_kernel_pair r hr' 0.5 0.15)
    refine ⟨v, e1, by rw [e2], ?_⟩
    rw [e2, h2]
    rfl

/-- C85: Geminium.  The kernel has three rings with heights 1/2, 1 and 2/3. -/
theorem geminium_rule (fs : Files) (fuel : Nat) (d : Nat → Draws) (o : CCAObj) (hp : Plain1 o)
    (r : Nat) (hr : 1 ≤ r) :
    ∃ o' κ, o.loadConfig fs fuel d (geminiumConfig r) = some (.ok o') ∧
      Profile r (fun x => min 1 (1 / 2 * bell 0.093809 (0.033 + 1e-9) x +
        bell 0.28143 (0.033 + 1e-9) x + 2 / 3 * bell 0.46904 (0.033 + 1e-9) x)) κ ∧
      StepsAsLenia o' 0.1 κ (leniaGrowth 0.26 (0.036 + 1e-9)) ∧
      ∃ v, o'.getParams = .ok v ∧ (o'.setParams v).2 = none ∧
        (o'.setParams v).1.dynamics = o'.dynamics := by
  have hr' : r ≠ 0 := by omega
  let cs : List (ℝ × ℝ × ℝ) := [(0.5, 0.093809, 0.033), (1.0, 0.28143, 0.033), (2/3, 0.46904, 0.033)]
  have hm : gaussianMixtureKernel r [0.5, 0.093809, 0.033, 1.0, 0.28143, 0.033, 2/3, 0.46904, 0.033] =
      .ok ⟨r, normaliseKernel fun a b => mixtureFn cs false (radialGrid r a b)⟩ := by
    simp [gaussianMixtureKernel, getKernel, kernelFn, hr', mixtureComponents,
      mixtureComponents.triples, bind, Except.bind, pure, Except.pure, cs]
  have hk : (geminiumConfig r).neighborhood.kernel =
      .ok ⟨r, normaliseKernel fun a b => mixtureFn cs false (radialGrid r a b)⟩ := by
    rw [← hm]
    simp [geminiumConfig, KernelCfg.kernel, kernelKwargs, kwLookup, optM, KwVal.asVec, bind,
      Except.bind, pure, Except.pure, gaussianMixtureKernel]
  have ha : Act.ofCfg (geminiumConfig r).genesis = .ok (.mixture [(1, 0.26, 0.036)] true) := by
    simp [geminiumConfig, Act.ofCfg, mixtureComponents, mixtureComponents.pairs, bind, Except.bind,
      pure, Except.pure]
  obtain ⟨o', h1, h2, h3⟩ := load_lenia fs fuel d o hp (geminiumConfig r) rfl rfl r rfl _ hk _ ha rfl
  refine ⟨o', normaliseKernel fun a b => mixtureFn cs false (radialGrid r a b), h1, ?_, ?_, ?_⟩
  · have hf : (fun x => min 1 (1 / 2 * bell 0.093809 (0.033 + 1e-9) x +
        bell 0.28143 (0.033 + 1e-9) x + 2 / 3 * bell 0.46904 (0.033 + 1e-9) x)) =
        mixtureFn cs false := by
      funext x
      have := (growth_values x).2.2.2.2.1 cs
      rw [show (Act.mixture cs false).eval x = mixtureFn cs false x from rfl] at this
      rw [this]
      have hb : ∀ m w : ℝ, 0 ≤ bell m w x := fun m w => (Real.exp_pos _).le
      simp only [cs, List.map_cons, List.map_nil, List.sum_cons, List.sum_nil]
      rw [max_eq_right]
      · congr 1
        norm_num
        ring
      · refine le_min zero_le_one ?_
        have h1 := hb 0.093809 (0.033 + 1e-9)
        have h2 := hb 0.28143 (0.033 + 1e-9)
        have h3 := hb 0.46904 (0.033 + 1e-9)
        positivity
    rw [hf]
    exact normalise_profile _
  · have hd : (geminiumConfig r).dt.getD 0.1 = 0.1 := rfl
    rw [hd, show (Act.mixture [((1 : ℝ), 0.26, 0.036)] true).eval = leniaGrowth 0.26 (0.036 + 1e-9)
      from funext fun x => mixture_pair_growth _ _ x] at h3
    exact h3
  · have hkp : o'.kernelParams =
        .vec [0.5, 0.093809, 0.033, 1.0, 0.28143, 0.033, 2/3, 0.46904, 0.033] := by
      rw [h2]
      simp [loaded, geminiumConfig, updateKernelParams, KwVal.ravel]
    obtain ⟨v, e1, e2⟩ := cca_set_own o' _ hkp _ (by rw [h2]; exact hm)
    refine ⟨v, e1, by rw [e2], ?_⟩
    rw [e2, h2]
    rfl

/-! ## SmoothLife -/

/-- One step of a `CCA` in functional mode with any identity kernel: that kernel, not the cell, says
how much of the cell counts as full. -/
theorem cca_rule_disc (d : CCADyn) (t : ℝ) (hm : d.mode = .circular) (hw : d.seqWeights = none)
    (hext : 0 < d.ext) (hd : d.ext ∣ d.int)
    (hg : d.genesis.length = d.int) (hp : d.persistence.length = d.int)
    (u : Univ ℝ N d.ext H W) (hH : d.idLayer.1 ≤ H ∧ d.nbLayer.1 ≤ H)
    (hW : d.idLayer.1 ≤ W ∧ d.nbLayer.1 ≤ W) :
    ∃ u', (d.toCCA t).forward u = .ok (u', d.toCCA (t + d.dt)) ∧
      ∀ n e i j,
        let x := alive d.thr u n
        u' n e i j = clip (x e i j + d.dt * (1 / (d.ext * d.int) * ∑ o : Fin d.int,
          ((1 - gathered d.idLayer.2 (x (source hext hd o)) i j) *
              (d.genesis.get (Fin.cast hg.symm o)).eval
                (gathered d.nbLayer.2 (x (source hext hd o)) i j) +
            gathered d.idLayer.2 (x (source hext hd o)) i j *
              (d.persistence.get (Fin.cast hp.symm o)).eval
                (gathered d.nbLayer.2 (x (source hext hd o)) i j)))) := by
  have hg' : (d.genesis.map Act.eval).length = d.int := by simpa using hg
  have hp' : (d.persistence.map Act.eval).length = d.int := by simpa using hp
  have hga : ∀ o : Fin d.int, chanFn (d.genesis.map Act.eval) o =
      (d.genesis.get (Fin.cast hg.symm o)).eval := by
    intro o; rw [← chanFn_get hg']; simp
  have hpa : ∀ o : Fin d.int, chanFn (d.persistence.map Act.eval) o =
      (d.persistence.get (Fin.cast hp.symm o)).eval := by
    intro o; rw [← chanFn_get hp']; simp
  have happ : ∀ κ : AnyKernel, κ.1 ≤ H → κ.1 ≤ W →
      (ConvLayer.ofKernel d.ext d.int d.mode (2 * κ.1 + 1) κ.2).apply (maskIf d.thr u) =
        .ok fun n o i j => gathered κ.2 (maskIf d.thr u n (source hext hd o)) i j := by
    intro κ h1 h2
    rw [hm, apply_torus _ _ h1 h2]
    congr 1
    funext n o i j
    rw [gathered_taps hext hd]
  have hidn : (d.toCCA t).idL.apply (maskIf d.thr u) = _ := happ d.idLayer hH.1 hW.1
  have hnb : (d.toCCA t).nbL.apply (maskIf d.thr u) = _ := happ d.nbLayer hH.2 hW.2
  refine ⟨?w, ?step, ?cell⟩
  case step =>
    unfold CCA.forward
    show (do
      let idn ← (d.toCCA t).idL.apply (maskIf d.thr u)
      let nb ← (d.toCCA t).nbL.apply (maskIf d.thr u)
      let upd ← (d.toCCA t).updateUniverse idn nb
      return (eulerClamp d.dt (maskIf d.thr u) upd, d.toCCA (t + d.dt))) = _
    rw [hidn, hnb]
    simp only [bind, Except.bind, CCA.updateUniverse, CCADyn.toCCA, perChannel_eq hg',
      perChannel_eq hp', pure, Except.pure]
    rfl
  case cell =>
    intro n e i j
    simp only [eulerClamp, clamp01_real, hw, Weights.apply, conv1x1, dot_finRange, maskIf_alive,
      hga, hpa]
    unfold clip
    rw [Finset.mul_sum]
    rfl

/-- The one-channel case. -/
theorem cca_rule_disc_one (d : CCADyn) (t : ℝ) (hm : d.mode = .circular) (hw : d.seqWeights = none)
    (he : d.ext = 1) (hi : d.int = 1) (g p : Act ℝ) (hg : d.genesis = [g]) (hp : d.persistence = [p])
    (u : Univ ℝ N d.ext H W) (hH : d.idLayer.1 ≤ H ∧ d.nbLayer.1 ≤ H)
    (hW : d.idLayer.1 ≤ W ∧ d.nbLayer.1 ≤ W) :
    ∃ u', (d.toCCA t).forward u = .ok (u', d.toCCA (t + d.dt)) ∧
      ∀ n e i j, u' n e i j = clip (u n e i j + d.dt *
        ((1 - gathered d.idLayer.2 (u n e) i j) * g.eval (gathered d.nbLayer.2 (u n e) i j) +
          gathered d.idLayer.2 (u n e) i j * p.eval (gathered d.nbLayer.2 (u n e) i j))) := by
  obtain ⟨ext, int, mode, idl, nbl, gen, per, sw, thr, dt⟩ := d
  simp only at hm hw he hi hg hp
  subst hm hw he hi hg hp
  obtain ⟨u', h1, h2⟩ := cca_rule_disc (N := N) (H := H) (W := W)
    ⟨1, 1, .circular, idl, nbl, [g], [p], none, thr, dt⟩ t rfl rfl
    Nat.one_pos (dvd_refl 1) rfl rfl u hH hW
  refine ⟨u', h1, fun n e i j => ?_⟩
  rw [h2 n e i j]
  have ha : alive thr u = u := by
    funext n e i j; unfold alive; rw [dif_neg (show ¬ 4 ≤ 1 by decide)]
  simp [ha, Subsingleton.elim (source _ _ _) e]

/-- A smooth step from 0 to 1 at `m`. -/
noncomputable def Spec.rise (m a x : ℝ) : ℝ := 1 / (1 + Real.exp (-(4 * (x - m) / a)))

/-- Near 1 from `lo` to `hi`, near 0 outside, stretched to the interval from -1 to 1. -/
noncomputable def Spec.band (lo hi a x : ℝ) : ℝ := 2 * (rise lo a x * (1 - rise hi a x)) - 1

theorem interval_band (lo hi a x : ℝ) :
    (Act.smoothIntervals [(lo, hi)] a true).eval x = band lo hi a x := by
  simp only [Act.eval, smoothIntervalsFn, sigmoid1, if_true, band, rise, List.map_cons, List.map_nil,
    List.sum_cons, List.sum_nil, add_zero]
  have h : ∀ m, -4 * (x - m) / a = -(4 * (x - m) / a) := fun m => by ring
  rw [h, h]
  ring

theorem distance_centre (r : Nat) : distance r ⟨r, by omega⟩ ⟨r, by omega⟩ = 0 := by
  simp [distance]

theorem distance_corner (r : Nat) (hr : 1 ≤ r) :
    distance r ⟨0, by omega⟩ ⟨0, by omega⟩ = Real.sqrt 2 := by
  have h0 : (0 : ℝ) < r := by exact_mod_cast hr
  simp only [distance, Nat.cast_zero, zero_sub, neg_sq]
  rw [← two_mul, Real.sqrt_mul (by norm_num), Real.sqrt_sq h0.le]
  field_simp

theorem distance_edge (r : Nat) (hr : 1 ≤ r) : distance r ⟨r, by omega⟩ ⟨0, by omega⟩ = 1 := by
  have h0 : (0 : ℝ) < r := by exact_mod_cast hr
  simp only [distance, Nat.cast_zero, zero_sub, sub_self, neg_sq]
  rw [zero_pow two_ne_zero, zero_add, Real.sqrt_sq h0.le, div_self h0.ne']

/-- C85: SmoothLife.  `m` is the mean over the disc of a third of the radius, `n` the mean over the
ring around it; both means are taken over the same cells with equal weights. -/
theorem smoothLife_rule (fs : Files) (fuel : Nat) (d : Nat → Draws) (o : CCAObj) (hp : Plain1 o)
    (r : Nat) (hr : 1 ≤ r) :
    ∃ (o' : CCAObj) (disc ring : Fin (2 * r + 1) → Fin (2 * r + 1) → ℝ) (wd wr : ℝ),
      o.loadConfig fs fuel d (smoothLifeConfig r) = some (.ok o') ∧ 0 < wd ∧ 0 < wr ∧
      (∀ a b, disc a b = if distance r a b ≤ 1 / 3 then wd else 0) ∧
      (∀ a b, ring a b = if 1 / 3 ≤ distance r a b ∧ distance r a b ≤ 1.05 then wr else 0) ∧
      (1 - 1e-9 ≤ ∑ a, ∑ b, disc a b ∧ ∑ a, ∑ b, disc a b ≤ 1) ∧
      (1 - 1e-9 ≤ ∑ a, ∑ b, ring a b ∧ ∑ a, ∑ b, ring a b ≤ 1) ∧
      (∀ {N H W : Nat} (u : Univ ℝ N o'.dynamics.ext H W) (t : ℝ), r ≤ H → r ≤ W →
        ∃ u', (o'.dynamics.toCCA t).forward u = .ok (u', o'.dynamics.toCCA (t + 1)) ∧
          ∀ n e i j,
            let m := gathered disc (u n e) i j
            let s := gathered ring (u n e) i j
            u' n e i j = clip (u n e i j + ((1 - m) * band 0.278 0.365 0.028 s +
              m * band 0.267 0.445 0.147 s))) ∧
      ∃ v, o'.getParams = .ok v ∧ (o'.setParams v).2 = none ∧
        (o'.setParams v).1.dynamics ≠ o'.dynamics := by
  have hr' : r ≠ 0 := by omega
  have h2 : (1.05 : ℝ) < Real.sqrt 2 := by
    rw [Real.lt_sqrt (by norm_num)]; norm_num
  have hd0 : ∀ a b, 0 ≤ distance r a b := fun a b => div_nonneg (Real.sqrt_nonneg _) (by positivity)
  obtain ⟨disc, wd, d1, d2, _⟩ := smoothLife_kernel r hr { ra := some (1 / 3), ri := some 0 } 0 (1 / 3)
    rfl rfl
  obtain ⟨ring, wr, r1, r2, _⟩ := smoothLife_kernel r hr { ra := some 1.05, ri := some (1 / 3) } (1 / 3)
    1.05 rfl rfl
  obtain ⟨d3, d4, d5⟩ := d2 ⟨_, _, fun h => by
    rw [distance_corner r hr] at h; linarith [h.2]⟩
  obtain ⟨r3, r4, r5⟩ := r2 ⟨⟨r, by omega⟩, ⟨r, by omega⟩, fun h => by
    rw [distance_centre r] at h; linarith [h.1]⟩
  have d5 := d5 ⟨⟨r, by omega⟩, ⟨r, by omega⟩, by rw [distance_centre]; norm_num⟩
  have r5 := r5 ⟨⟨r, by omega⟩, ⟨0, by omega⟩, by rw [distance_edge r hr]; norm_num⟩
  have hk : ∀ x y : ℝ, (KernelCfg.mk "SmoothLifeKernel" (some r)
      (some [("r_a", .num x), ("r_i", .num y)])).kernel =
      getKernel ⟨"SmoothLifeKernel", some r, some { ra := some x, ri := some y }⟩ := by
    intro x y
    simp [KernelCfg.kernel, kernelKwargs, kwLookup, optM, KwVal.asNum, bind, Except.bind, pure,
      Except.pure]
  have k1 : (smoothLifeConfig r).identityKernel = .ok ⟨r, disc⟩ := by rw [← d1, ← hk]; rfl
  have k2 : (smoothLifeConfig r).neighborhood.kernel = .ok ⟨r, ring⟩ := by rw [← r1, ← hk]; rfl
  have hg : Act.ofCfg (smoothLifeConfig r).genesis =
      .ok (.smoothIntervals [(0.278, 0.365)] 0.028 true) := by
    simp [smoothLifeConfig, Act.ofCfg]
  have hp' : Act.ofCfg (smoothLifeConfig r).persistence =
      .ok (.smoothIntervals [(0.267, 0.445)] 0.147 true) := by
    simp [smoothLifeConfig, Act.ofCfg]
  have happ := (applyConfig_ok_iff o (smoothLifeConfig r) (d 0).seq _).2
    ⟨_, r, _, _, _, k1, rfl, k2, hg, hp', rfl⟩
  have hl : o.loadConfig fs fuel d (smoothLifeConfig r) =
      some (o.applyConfig (smoothLifeConfig r) (d 0).seq) := rfl
  rw [happ] at hl
  refine ⟨_, disc, ring, wd, wr, hl, d3, r3, fun a b => ?_, r4, d5, r5, ?_, ?_⟩
  · rw [d4]
    simp only [hd0 a b, true_and]
  · intro N H W u t hH hW
    have hw : (loaded o (smoothLifeConfig r) (d 0).seq ⟨r, disc⟩ ⟨r, ring⟩ r
        (.smoothIntervals [(0.278, 0.365)] 0.028 true)
        (.smoothIntervals [(0.267, 0.445)] 0.147 true)).dynamics.seqWeights = none := by
      simp [CCAObj.dynamics, loaded, hp.ca]
    obtain ⟨u', e1, e2⟩ := cca_rule_disc_one _ t hp.mode hw hp.ext hp.int _ _ rfl rfl u ⟨hH, hH⟩ ⟨hW, hW⟩
    refine ⟨u', e1, fun n e i j => ?_⟩
    rw [e2]
    simp only [interval_band, one_mul, CCAObj.dynamics, loaded, smoothLifeConfig, Option.getD_some]
  · set o' := loaded o (smoothLifeConfig r) (d 0).seq ⟨r, disc⟩ ⟨r, ring⟩ r
        (.smoothIntervals [(0.278, 0.365)] 0.028 true)
        (.smoothIntervals [(0.267, 0.445)] 0.147 true) with ho'
    have hkp : o'.kernelParams = .vec [1.05, 1 / 3] := by
      simp [ho', loaded, smoothLifeConfig, updateKernelParams, KwVal.ravel]
    have hm := mixture_kernel_pair r hr' 1.05 (1 / 3)
    obtain ⟨v, e1, e2⟩ := cca_set_own o' _ hkp _ hm
    refine ⟨v, e1, by rw [e2], ?_⟩
    rw [Ne, cca_set_own_noop_iff o' _ hkp _ hm v e1]
    intro h
    have hk' : ring = normaliseKernel fun a b => bump 1.05 (1 / 3) (radialGrid r a b) :=
      eq_of_heq (Sigma.mk.inj_iff.1 h).2
    have hc : ring ⟨r, by omega⟩ ⟨r, by omega⟩ = ring ⟨0, by omega⟩ ⟨0, by omega⟩ := by
      rw [r4, r4, distance_centre, distance_corner r hr, if_neg, if_neg]
      · rintro ⟨_, h⟩; linarith
      · rintro ⟨h, _⟩; linarith
    have hc' := hc.ge
    rw [hk', normalise_le] at hc'
    rw [bump_bell, bump_bell, bell_le_iff _ _ _ _ (by norm_num), radialGrid_distance,
      radialGrid_distance, distance_centre, distance_corner r hr, abs_of_neg (by norm_num),
      abs_of_pos (by linarith)] at hc'
    have h3 : Real.sqrt 2 < 1.5 := by
      rw [Real.sqrt_lt' (by norm_num)]; norm_num
    linarith

/-- A default `CCA()` has the settings assumed. -/
example (dr : Draws) (hd : MixtureLength dr.kernel.length) :
    ∃ o, CCAObj.defaultInit {} dr = .ok o ∧ Plain1 o := by
  obtain ⟨o, h1, h2, _⟩ := defaultInit_ok {} dr (by decide) (by decide) (by decide) hd
  exact ⟨o, h1, by rw [h2]; rfl, by rw [h2]; rfl, by rw [h2]; rfl, by rw [h2]; rfl⟩

end Yuca
