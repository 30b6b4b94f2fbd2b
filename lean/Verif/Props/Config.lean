import Verif.Props.Params
import Verif.Props.Structure
import Verif.Props.Life
import Verif.Lemmas.Cell
import Verif.Lemmas.ConvReal

/-!
# Configs: saving, loading, restoring (C31, C32, C33) and `load_life_like`
-/

namespace Yuca

/-! ## What `load_config` leaves behind -/

/-- The object `load_config` leaves behind. -/
noncomputable def Spec.loaded (o : CCAObj) (cfg : Config)
    (w : (Nat → Nat → ℝ) × (Nat → Nat → ℝ)) (idK κ : AnyKernel) (r : Nat) (g p : Act ℝ) :
    CCAObj where
  kw := o.kw
  kernelRadius := r
  kernelParams := match cfg.neighborhood.kwargs with
    | some kws => updateKernelParams kws
    | none => o.kernelParams
  idKernel := idK
  nbKernel := κ
  idLayer := idK
  nbLayer := κ
  genesis := [g]
  persistence := [p]
  seqWeights := w
  nbCfg := some cfg.neighborhood
  genCfg := some cfg.genesis
  perCfg := some cfg.persistence
  dt := cfg.dt.getD 0.1
  t := o.t

theorem applyConfig_ok_iff (o : CCAObj) (cfg : Config) (w : (Nat → Nat → ℝ) × (Nat → Nat → ℝ))
    (o' : CCAObj) :
    o.applyConfig cfg w = .ok o' ↔
      ∃ idK r κ g p, cfg.identityKernel = .ok idK ∧ cfg.neighborhood.radius = some r ∧
        cfg.neighborhood.kernel = .ok κ ∧ Act.ofCfg cfg.genesis = .ok g ∧
        Act.ofCfg cfg.persistence = .ok p ∧ o' = Spec.loaded o cfg w idK κ r g p := by
  unfold CCAObj.applyConfig CCAObj.setKernelConfig
  cases h1 : cfg.identityKernel with
  | error e => simp [bind, Except.bind]
  | ok idK =>
    cases h2 : cfg.neighborhood.kernel with
    | error e => simp [bind, Except.bind]
    | ok κ =>
      cases h3 : cfg.neighborhood.radius with
      | none => simp [bind, Except.bind, KernelCfg.radiusKey, h3]
      | some r =>
        have hc : ({ cfg.neighborhood with radius := some r } : KernelCfg) = cfg.neighborhood := by
          rw [← h3]
        cases h4 : Act.ofCfg cfg.genesis with
        | error e =>
          simp [bind, Except.bind, pure, Except.pure, KernelCfg.radiusKey, h3,
            CCAObj.setKernelRadius, CCAObj.updateParams, hc, h2]
        | ok g =>
          cases h6 : Act.ofCfg cfg.persistence with
          | error e =>
            simp [bind, Except.bind, pure, Except.pure, KernelCfg.radiusKey, h3,
              CCAObj.setKernelRadius, CCAObj.updateParams, hc, h2]
          | ok p =>
            simp [bind, Except.bind, pure, Except.pure, KernelCfg.radiusKey, h3,
              CCAObj.setKernelRadius, CCAObj.updateParams, hc, h2, Spec.loaded,
              CCAObj.addNeighborhoodKernel, CCAObj.initNbLayer]
            exact eq_comm

/-- A successful `load_config` ends with `Spec.loaded` of some object. -/
theorem loadConfig_ok {fs : Files} {fuel : Nat} {d : Nat → Draws} {o o' : CCAObj} {cfg : Config}
    (h : o.loadConfig fs fuel d cfg = some (.ok o')) :
    ∃ o₁ idK r κ g p, cfg.identityKernel = .ok idK ∧ cfg.neighborhood.radius = some r ∧
      cfg.neighborhood.kernel = .ok κ ∧ Act.ofCfg cfg.genesis = .ok g ∧
      Act.ofCfg cfg.persistence = .ok p ∧ o' = Spec.loaded o₁ cfg (d 0).seq idK κ r g p := by
  unfold CCAObj.loadConfig at h
  split at h
  · cases h
  · cases h
  · rename_i o₁ _
    obtain ⟨idK, r, κ, g, p, h1⟩ := (applyConfig_ok_iff o₁ cfg _ o').1 (Option.some.inj h)
    exact ⟨o₁, idK, r, κ, g, p, h1⟩

/-- `default_init` succeeds on sensible arguments, and depends on nothing but them. -/
theorem defaultInit_ok (kw : InstantKwargs) (d : Draws) (he : kw.extN ≠ 0) (hi : kw.intN ≠ 0)
    (hr : kw.radius ≠ 0) (hd : Spec.MixtureLength d.kernel.length) :
    ∃ o, CCAObj.defaultInit kw d = .ok o ∧ o.kw = kw ∧ o.t = 0 := by
  obtain ⟨κ, hκ⟩ := (mixture_kernel_iff kw.radius d.kernel).2 ⟨hd, hr⟩
  unfold CCAObj.defaultInit
  rw [if_neg he, if_neg hi, hκ]
  exact ⟨_, rfl, rfl, rfl⟩

theorem init_plain (fs : Files) (fuel : Nat) (d : Nat → Draws) (kw : InstantKwargs)
    (he : kw.extN ≠ 0) (hi : kw.intN ≠ 0) (hr : kw.radius ≠ 0)
    (hd : Spec.MixtureLength (d 0).kernel.length)
    (hf : kw.caConfig.bind (readConfig fs) = none) :
    ∃ o, CCAObj.init fs (fuel + 1) d kw = some (.ok o) ∧ o.kw = kw ∧ o.t = 0 := by
  obtain ⟨o, h1, h2, h3⟩ := defaultInit_ok kw (d 0) he hi hr hd
  refine ⟨{ o with t := 0 }, ?_, h2, rfl⟩
  rw [CCAObj.init, h1]
  simp only [hf]

/-! ## Life-like configs -/

/-- What the life-like config of radius 1 describes. -/
noncomputable def Spec.lifeDyn (birth survival : List Nat) : CCADyn where
  ext := 1
  int := 1
  mode := .circular
  idLayer := ⟨1, identityKernel⟩
  nbLayer := ⟨1, mooreLike 1⟩
  genesis := [.smoothIntervals (smoothInterval birth) 0.0125 true]
  persistence := [.smoothIntervals (smoothInterval survival) 0.0125 true]
  seqWeights := none
  thr := 0.1
  dt := 1

theorem lifeDyn_toCCA (birth survival : List Nat) (t : ℝ) :
    (Spec.lifeDyn birth survival).toCCA t = { lifeCA birth survival with t := t } := by
  have hw : (fun (_ : Fin 1) (_ : Fin 1) => (1 : ℝ) / (((1 : Nat) : ℝ) * ((1 : Nat) : ℝ))) =
      fun _ _ => 1 := by
    funext _ _; norm_num
  show ({ idL := _, nbL := _, genesis := _, persistence := _,
          weights := Weights.functional (fun (_ : Fin 1) (_ : Fin 1) =>
            (1 : ℝ) / (((1 : Nat) : ℝ) * ((1 : Nat) : ℝ))),
          thr := _, dt := _, t := t } : CCA ℝ 1 1) = _
  rw [hw]
  rfl

theorem ofCfg_intervals (rules : List Nat) :
    Act.ofCfg { name := "SmoothIntervals", parameters := some (intervalTensor rules), mode := true } =
      .ok (.smoothIntervals (smoothInterval rules) 0.0125 true) := by
  cases rules <;> simp [Act.ofCfg, intervalTensor, smoothInterval]

/-- Loading `get_life_like_config(radius=1, birth, survival)` into a `CCA` with default
arguments gives the automaton `lifeCA` the Game-of-Life theorems (C19) are about, whatever the
object was before. -/
theorem load_life_like (fs : Files) (fuel : Nat) (d : Nat → Draws) (o : CCAObj)
    (birth survival : List Nat) (h1 : o.kw.extN = 1) (h2 : o.kw.intN = 1)
    (h3 : o.kw.mode = .circular) (h4 : o.kw.ca = .functional) (h5 : o.kw.threshold = 0.1) :
    ∃ o', o.loadConfig fs fuel d (lifeLikeConfig 1 birth survival) = some (.ok o') ∧
      o'.dynamics = Spec.lifeDyn birth survival ∧ o'.t = o.t ∧
      (Spec.lifeDyn birth survival).toCCA o'.t = { lifeCA birth survival with t := o.t } := by
  have hk : (lifeLikeConfig 1 birth survival).neighborhood.kernel = .ok ⟨1, mooreLike 1⟩ := by
    simp [lifeLikeConfig, KernelCfg.kernel, getKernel]
  have := (applyConfig_ok_iff o (lifeLikeConfig 1 birth survival) (d 0).seq _).2
    ⟨_, 1, _, _, _, rfl, rfl, hk, ofCfg_intervals birth, ofCfg_intervals survival, rfl⟩
  have hl : o.loadConfig fs fuel d (lifeLikeConfig 1 birth survival) =
      some (o.applyConfig (lifeLikeConfig 1 birth survival) (d 0).seq) := rfl
  rw [this] at hl
  refine ⟨_, hl, ?_, rfl, lifeDyn_toCCA ..⟩
  simp only [CCAObj.dynamics, Spec.loaded, Spec.lifeDyn, h1, h2, h3, h4, h5, if_true]
  simp [lifeLikeConfig]

/-- The object is met: a default `CCA()`. -/
example (d : Draws) (hd : Spec.MixtureLength d.kernel.length) :
    ∃ o, CCAObj.defaultInit {} d = .ok o ∧ o.kw.extN = 1 ∧ o.kw.intN = 1 ∧
      o.kw.mode = .circular ∧ o.kw.ca = .functional ∧ o.kw.threshold = 0.1 := by
  obtain ⟨o, h1, h2, _⟩ := defaultInit_ok {} d (by decide) (by decide) (by decide) hd
  exact ⟨o, h1, by rw [h2]; rfl, by rw [h2]; rfl, by rw [h2]; rfl, by rw [h2]; rfl,
    by rw [h2]; rfl⟩

/-! ## C31: `load_config(make_config())` -/

/-- A growth function rebuilt from the config `make_config` writes for it. -/
noncomputable def Spec.regrown (c : ActCfg) (g : Act ℝ) : Except PyErr (Act ℝ) :=
  Act.ofCfg { c with parameters := some (.vec (readActs [g])) }

/-- The growth functions that survive saving. -/
def Spec.Keeps : Act ℝ → Prop
  | .smoothIntervals is _ _ => is = []
  | .mixture cs _ => (∀ c ∈ cs, c.1 = 1) ∧ ¬ 3 ∣ cs.length
  | _ => True

theorem readActs_mixture (cs : List (ℝ × ℝ × ℝ)) (b : Bool) :
    readActs [.mixture cs b] = cs.flatMap fun c => [c.2.1, c.2.2] := by
  simp only [readActs, List.flatMap_cons, List.flatMap_nil, List.append_nil, readTensors,
    Act.tensors]
  induction cs with
  | nil => rfl
  | cons c cs ih => simpa using ih

theorem pairs_flat (cs : List (ℝ × ℝ × ℝ)) :
    mixtureComponents.pairs 1 (cs.flatMap fun c => [c.2.1, c.2.2]) =
      .ok (cs.map fun c => (1, c.2.1, c.2.2)) := by
  induction cs with
  | nil => rfl
  | cons c cs ih =>
    simp only [List.flatMap_cons, List.cons_append, List.nil_append, mixtureComponents.pairs, ih,
      List.map_cons]
    rfl

theorem flat_length (cs : List (ℝ × ℝ × ℝ)) :
    (cs.flatMap fun c => [c.2.1, c.2.2]).length = 2 * cs.length := by
  induction cs with
  | nil => rfl
  | cons c cs ih => simp [ih]; omega

theorem mixture_regrown (c : ActCfg) (hn : c.name = "GaussianMixture") (cs : List (ℝ × ℝ × ℝ))
    (hcs : cs ≠ []) :
    Spec.regrown c (.mixture cs c.mode) = .ok (.mixture cs c.mode) ↔
      (∀ x ∈ cs, x.1 = 1) ∧ ¬ 3 ∣ cs.length := by
  have hl := flat_length cs
  have h0 : cs.length ≠ 0 := by simpa using hcs
  simp only [Spec.regrown, Act.ofCfg, hn, readActs_mixture]
  rw [if_neg (by decide), if_neg (by decide), if_neg (by decide), if_pos trivial]
  by_cases h3 : 3 ∣ cs.length
  · simp only [h3, not_true_eq_false, and_false, iff_false]
    have h3' : (cs.flatMap fun c => [c.2.1, c.2.2]).length % 3 = 0 := by rw [hl]; omega
    obtain ⟨ts, t1, t2⟩ := triples_ok _ h3'
    rw [mixtureComponents, if_pos h3', t1]
    rw [hl] at t2
    cases ts with
    | nil => simp at t2; exact absurd t2 hcs
    | cons t ts =>
      simp only
      intro h
      have := congrArg List.length (Act.mixture.inj (Except.ok.inj h)).1
      omega
  · have h3' : ¬ (cs.flatMap fun c => [c.2.1, c.2.2]).length % 3 = 0 := by rw [hl]; omega
    rw [mixtureComponents, if_neg h3', pairs_flat]
    cases cs with
    | nil => exact absurd rfl hcs
    | cons a cs =>
      simp only [List.map_cons, Except.ok.injEq, Act.mixture.injEq, and_true, h3, not_false_eq_true]
      rw [← List.map_cons (f := fun c : ℝ × ℝ × ℝ => ((1 : ℝ), c.2.1, c.2.2))]
      constructor
      · intro h x hx
        have := List.map_eq_map_iff.1 (h.trans (List.map_id _).symm) x hx
        exact (congrArg Prod.fst this).symm
      · intro h
        conv_rhs => rw [← List.map_id (a :: cs)]
        exact List.map_congr_left fun x hx => Prod.ext (h x hx).symm rfl

/-- C31, growth functions: one that was just built from its config survives saving and loading
exactly in these cases.  Gaussian, DoGaussian, DoubleGaussian, Polynomial, ReLU, Tanh and
Identity always do; SmoothIntervals lose their intervals; mixtures need unit amplitudes and a
number of components that is not a multiple of three. -/
theorem growth_survives_iff (c : ActCfg) (g : Act ℝ) (h : Act.ofCfg c = .ok g) :
    Spec.regrown c g = .ok g ↔ Spec.Keeps g := by
  by_cases hM : c.name = "GaussianMixture"
  · have : ∃ cs, cs ≠ [] ∧ g = .mixture cs c.mode := by
      simp only [Act.ofCfg, hM] at h
      rw [if_neg (by decide), if_neg (by decide), if_neg (by decide), if_pos trivial] at h
      split at h
      · cases h; exact ⟨_, by simp, rfl⟩
      · cases h
      · split at h
        · cases h
        · cases h
        · rename_i cs hne _
          cases h; exact ⟨cs, fun hc => hne (by rw [hc]), rfl⟩
    obtain ⟨cs, hcs, rfl⟩ := this
    exact mixture_regrown c hM cs hcs
  · by_cases hS : c.name = "SmoothIntervals"
    · have : ∃ is al, g = .smoothIntervals is al c.mode ∧ al = c.alpha.getD 0.0125 := by
        simp only [Act.ofCfg, hS] at h
        simp only [String.reduceEq, if_false, if_true] at h
        split at h <;> cases h <;> exact ⟨_, _, rfl, rfl⟩
      obtain ⟨is, al, rfl, rfl⟩ := this
      have hr : Spec.regrown c (.smoothIntervals is (c.alpha.getD 0.0125) c.mode) =
          .ok (.smoothIntervals [] (c.alpha.getD 0.0125) c.mode) := by
        simp [Spec.regrown, Act.ofCfg, hS, readActs, Act.tensors, readTensors]
      rw [hr]
      simp [Spec.Keeps, eq_comm]
    · have hr : Spec.regrown c g = Act.ofCfg c := by
        simp only [Spec.regrown, Act.ofCfg, hM, hS, if_false]
      rw [hr, h]
      have hk : Spec.Keeps g := by
        unfold Act.ofCfg at h
        split_ifs at h
        · obtain ⟨_, _, h⟩ := bind_ok h
          obtain ⟨_, _, h⟩ := bind_ok h
          cases h; trivial
        · obtain ⟨_, _, h⟩ := bind_ok h
          obtain ⟨_, _, h⟩ := bind_ok h
          cases h; trivial
        · obtain ⟨_, _, h⟩ := bind_ok h
          obtain ⟨_, _, h⟩ := bind_ok h
          cases h; trivial
        all_goals (cases h; trivial)
      simp [hk]

/-- Objects whose saved config says everything about them, apart from the neighborhood kernel:
single-channel functional automata with the default identity kernel, no reference to another
config file, and growth functions that survive saving. -/
structure Spec.Describable (fs : Files) (o : CCAObj) : Prop where
  functional : o.kw.ca = .functional
  ext : o.kw.extN ≠ 0
  int : o.kw.intN = 1
  noRef : o.kw.caConfig.bind (readConfig fs) = none
  idLayer : o.idLayer = ⟨1, identityKernel⟩
  radius : o.kernelRadius ≠ 0
  genesis : ∃ c g, o.genCfg = some c ∧ o.genesis = [g] ∧ Spec.regrown c g = .ok g
  persistence : ∃ c g, o.perCfg = some c ∧ o.persistence = [g] ∧ Spec.regrown c g = .ok g

/-- ... and whose stored kernel config, or stored kernel parameters if there is none, describe
the kernel in use. -/
structure Spec.Saveable (fs : Files) (o : CCAObj) : Prop extends Spec.Describable fs o where
  kernel : match o.nbCfg with
    | some c => c.radius = some o.kernelRadius ∧ c.kernel = .ok o.nbLayer
    | none => ∃ l, o.kernelParams = .vec l ∧ gaussianMixtureKernel o.kernelRadius l = .ok o.nbLayer

theorem mixture_cfg_kernel (r : Nat) (l : List ℝ) :
    (KernelCfg.mk "GaussianMixture" (some r) (some [("parameters", .vec l)])).kernel =
      gaussianMixtureKernel r l := by
  simp [KernelCfg.kernel, kernelKwargs, kwLookup, optM, KwVal.asVec, gaussianMixtureKernel,
    bind, Except.bind, pure, Except.pure]

/-- Reloading a saved config: the constructor runs with the saved arguments, then the rest of
`load_config`. -/
theorem reload_unfold (fs : Files) (o : CCAObj) (he : o.kw.extN ≠ 0) (hi : o.kw.intN ≠ 0)
    (hr : o.kernelRadius ≠ 0) (hf : o.kw.caConfig.bind (readConfig fs) = none) (fuel : Nat)
    (d : Nat → Draws) (hd : Spec.MixtureLength (d 1).kernel.length) (o₀ : CCAObj) :
    ∃ o₁ : CCAObj, o₀.loadConfig fs (fuel + 1) d o.makeConfig.1 =
        some (o₁.applyConfig o.makeConfig.1 (d 0).seq) ∧ o₁.t = 0 ∧
      o₁.kw.extN = o.kw.extN ∧ o₁.kw.intN = o.kw.intN ∧ o₁.kw.mode = o.kw.mode ∧
      o₁.kw.ca = o.kw.ca ∧ o₁.kw.threshold = o.kw.threshold := by
  let kw : InstantKwargs := { o.kw with
    kernelRadius := some o.kernelRadius, kernelPeaks := some o.kw.peaks,
    convMode := some o.kw.mode, ext := some o.kw.extN, int := some o.kw.intN }
  obtain ⟨o₁, h1, h2, h3⟩ := init_plain fs fuel (fun n => d (n + 1)) kw he hi hr hd hf
  refine ⟨o₁, ?_, h3, by rw [h2]; rfl, by rw [h2]; rfl, by rw [h2]; rfl, by rw [h2]; rfl,
    by rw [h2]; rfl⟩
  show (match (match some kw with
    | none => some (Except.ok o₀)
    | some kw => CCAObj.init fs (fuel + 1) (fun n => d (n + 1)) kw) with
    | none => none
    | some (Except.error e) => some (Except.error e)
    | some (Except.ok o') => some (o'.applyConfig o.makeConfig.1 (d 0).seq)) = _
  simp only [h1]

/-- Reloading a describable automaton reproduces it up to the kernel, which is the one the
saved config describes. -/
theorem reload_dynamics (fs : Files) (o : CCAObj) (h : Spec.Describable fs o) (fuel : Nat)
    (d : Nat → Draws) (hd : Spec.MixtureLength (d 1).kernel.length) (o₀ : CCAObj) (r : Nat)
    (κ : AnyKernel) (hr : o.makeConfig.1.neighborhood.radius = some r)
    (hκ : o.makeConfig.1.neighborhood.kernel = .ok κ) :
    ∃ o', o₀.loadConfig fs (fuel + 1) d o.makeConfig.1 = some (.ok o') ∧
      o'.dynamics = { o.dynamics with nbLayer := κ } ∧ o'.t = 0 := by
  obtain ⟨gc, g, hg1, hg2, hg3⟩ := h.genesis
  obtain ⟨pc, p, hp1, hp2, hp3⟩ := h.persistence
  obtain ⟨o₁, h1, ht, k1, k2, k3, k4, k5⟩ := reload_unfold fs o h.ext
    (by rw [h.int]; decide) h.radius h.noRef fuel d hd o₀
  have hgen : o.makeConfig.1.genesis = { gc with parameters := some (.vec (readActs [g])) } := by
    unfold CCAObj.makeConfig; simp only [hg1, hg2]
  have hper : o.makeConfig.1.persistence = { pc with parameters := some (.vec (readActs [p])) } := by
    unfold CCAObj.makeConfig; simp only [hp1, hp2]
  have hid : o.makeConfig.1.identityKernel = .ok ⟨1, identityKernel⟩ := rfl
  have happ := (applyConfig_ok_iff o₁ o.makeConfig.1 (d 0).seq _).2
    ⟨_, r, κ, g, p, hid, hr, hκ, by rw [hgen]; exact hg3, by rw [hper]; exact hp3, rfl⟩
  rw [happ] at h1
  refine ⟨_, h1, ?_, ht⟩
  simp only [CCAObj.dynamics, Spec.loaded, k1, k2, k3, k4, k5, h.functional, h.idLayer, hg2, hp2,
    if_true]
  rfl

/-- C31: the config of a single-channel functional automaton with the default identity kernel
and growth functions that survive saving reproduces it, whatever object it is loaded into and
whatever random numbers are drawn meanwhile. -/
theorem config_roundtrip (fs : Files) (o : CCAObj) (h : Spec.Saveable fs o) (fuel : Nat)
    (d : Nat → Draws) (hd : Spec.MixtureLength (d 1).kernel.length) (o₀ : CCAObj) :
    ∃ o', o₀.loadConfig fs (fuel + 1) d o.makeConfig.1 = some (.ok o') ∧
      o'.dynamics = o.dynamics ∧ o'.t = 0 := by
  have hnb : (o.makeConfig.1.neighborhood).radius = some o.kernelRadius ∧
      (o.makeConfig.1.neighborhood).kernel = .ok o.nbLayer := by
    have := h.kernel
    unfold CCAObj.makeConfig
    simp only
    cases hc : o.nbCfg with
    | some c => rw [hc] at this; exact this
    | none =>
      rw [hc] at this
      obtain ⟨l, hl1, hl2⟩ := this
      simp only [hl1, mixture_cfg_kernel, hl2, and_self]
  exact reload_dynamics fs o h.toDescribable fuel d hd o₀ _ _ hnb.1 hnb.2

/-- C31: every automaton loaded from a config without custom identity kernel whose growth
functions survive saving is one the round trip applies to. -/
theorem loaded_saveable (fs : Files) (fuel : Nat) (d : Nat → Draws) (o o' : CCAObj) (cfg : Config)
    (hi : cfg.instant = none) (hl : o.loadConfig fs fuel d cfg = some (.ok o'))
    (hid : cfg.identityKernelConfig = none)
    (h1 : o.kw.ca = .functional) (h2 : o.kw.extN ≠ 0) (h3 : o.kw.intN = 1)
    (h4 : o.kw.caConfig.bind (readConfig fs) = none) (hr : cfg.neighborhood.radius ≠ some 0)
    (hg : ∀ g ∈ o'.genesis, Spec.Keeps g) (hp : ∀ g ∈ o'.persistence, Spec.Keeps g) :
    Spec.Saveable fs o' := by
  have happ : o.applyConfig cfg (d 0).seq = .ok o' := by
    unfold CCAObj.loadConfig at hl
    rw [hi] at hl
    exact Option.some.inj hl
  obtain ⟨idK, r, κ, g, p, e1, e2, e3, e4, e5, rfl⟩ := (applyConfig_ok_iff _ _ _ _).1 happ
  have : idK = ⟨1, identityKernel⟩ := by
    unfold Config.identityKernel at e1; rw [hid] at e1; exact (Except.ok.inj e1).symm
  refine ⟨⟨h1, h2, h3, h4, this, ?_, ⟨_, g, rfl, rfl, ?_⟩, ⟨_, p, rfl, rfl, ?_⟩⟩, ⟨e2, e3⟩⟩
  · rintro h; apply hr; rw [e2]; exact congrArg some h
  · exact (growth_survives_iff _ _ e4).2 (hg g (by simp [Spec.loaded]))
  · exact (growth_survives_iff _ _ e5).2 (hp p (by simp [Spec.loaded]))

/-- C31: orbium survives. -/
theorem orbium_roundtrip (fs : Files) (fuel : Nat) (d : Nat → Draws) (r : Nat) (hr : r ≠ 0)
    (h0 : Spec.MixtureLength (d 0).kernel.length) (h1 : Spec.MixtureLength (d 1).kernel.length) :
    ∃ o o' o'', CCAObj.init fs (fuel + 1) d {} = some (.ok o) ∧
      o.loadConfig fs fuel d (orbiumConfig r) = some (.ok o') ∧
      o.loadConfig fs (fuel + 1) d o'.makeConfig.1 = some (.ok o'') ∧
      o''.dynamics = o'.dynamics := by
  obtain ⟨o, e1, e2, e3⟩ := init_plain fs fuel d {} (by decide) (by decide) (by decide) h0 rfl
  have hk : (orbiumConfig r).neighborhood.kernel =
      .ok ⟨r, normaliseKernel fun a b => bump 0.5 0.15 (radialGrid r a b)⟩ := by
    rw [← gaussian_kernel_eq r hr]
    simp [orbiumConfig, KernelCfg.kernel, kernelKwargs, kwLookup, optM, KwVal.asNum, bind,
      Except.bind, pure, Except.pure]
  have ha : Act.ofCfg { name := "GaussianMixture", parameters := some (.vec [0.15, 0.015]), mode := true } =
      .ok (.mixture [(1, 0.15, 0.015)] true) := by
    simp [Act.ofCfg, mixtureComponents, mixtureComponents.pairs, bind, Except.bind, pure, Except.pure]
  have happ := (applyConfig_ok_iff o (orbiumConfig r) (d 0).seq _).2
    ⟨_, r, _, _, _, rfl, rfl, hk, ha, ha, rfl⟩
  have hl : o.loadConfig fs fuel d (orbiumConfig r) =
      some (o.applyConfig (orbiumConfig r) (d 0).seq) := rfl
  rw [happ] at hl
  have hs := loaded_saveable fs fuel d o _ (orbiumConfig r) rfl hl rfl (by rw [e2]; rfl)
    (by rw [e2]; decide) (by rw [e2]; rfl) (by rw [e2]; rfl) (by simpa [orbiumConfig] using hr)
    (by intro g hg; simp [Spec.loaded] at hg; subst hg; exact ⟨by simp, by decide⟩)
    (by intro g hg; simp [Spec.loaded] at hg; subst hg; exact ⟨by simp, by decide⟩)
  obtain ⟨o'', f1, f2, _⟩ := config_roundtrip fs _ hs fuel d h1 o
  exact ⟨o, _, o'', e1, hl, f1, f2⟩

/-! ### What is lost -/

/-- C31, loss: whatever was saved, the reloaded identity kernel is the unit impulse, so a
custom identity kernel (SmoothLife) is lost. -/
theorem identity_kernel_lost_refuted (fs : Files) (fuel : Nat) (d : Nat → Draws) (o o₀ o' : CCAObj)
    (h : o₀.loadConfig fs fuel d o.makeConfig.1 = some (.ok o')) :
    o'.idLayer = ⟨1, identityKernel⟩ ∧
      (o.idLayer ≠ ⟨1, identityKernel⟩ → o'.dynamics ≠ o.dynamics) := by
  obtain ⟨o₁, idK, r, κ, g, p, e1, _, _, _, _, rfl⟩ := loadConfig_ok h
  have : idK = ⟨1, identityKernel⟩ := (Except.ok.inj e1).symm
  refine ⟨this, fun hne heq => hne ?_⟩
  have := congrArg CCADyn.idLayer heq
  simp only [CCAObj.dynamics, Spec.loaded] at this
  rw [← this]
  assumption

/-- C31, loss: an automaton has one growth function of each kind after loading, so reloading
one with several internal channels gives an automaton every step of which raises. -/
theorem multichannel_lost_refuted (fs : Files) (fuel : Nat) (d : Nat → Draws) (o₀ o' : CCAObj)
    (cfg : Config) (h : o₀.loadConfig fs fuel d cfg = some (.ok o')) (hi : o'.kw.intN ≠ 1)
    (t : ℝ) {N H W : Nat} (u : Univ ℝ N o'.dynamics.ext H W) :
    ∃ e, (o'.dynamics.toCCA t).forward u = .error e := by
  cases hf : (o'.dynamics.toCCA t).forward u with
  | error e => exact ⟨e, rfl⟩
  | ok r =>
    exfalso
    have := ((cca_runs_iff (o'.dynamics.toCCA t) u).1 ⟨r, hf⟩).2.2.1
    obtain ⟨o₁, idK, r, κ, g, p, _, _, _, _, _, rfl⟩ := loadConfig_ok h
    exact hi this.symm

/-- C31, loss: the random weights of a `neurofunctional` automaton are not saved; the reloaded
one has the weights drawn while loading. -/
theorem weights_lost_refuted (fs : Files) (fuel : Nat) (d : Nat → Draws) (o o₀ o' : CCAObj)
    (h : o₀.loadConfig fs fuel d o.makeConfig.1 = some (.ok o'))
    (hn : o'.kw.ca ≠ .functional) : o'.dynamics.seqWeights = some (d 0).seq := by
  obtain ⟨o₁, idK, r, κ, g, p, _, _, _, _, _, rfl⟩ := loadConfig_ok h
  have hn' : o₁.kw.ca ≠ .functional := hn
  simp [CCAObj.dynamics, Spec.loaded, hn']

/-- C31, loss: reloading an automaton with SmoothIntervals growth gives growth functions
without intervals, which are constantly -1. -/
theorem intervals_lost_refuted (fs : Files) (fuel : Nat) (d : Nat → Draws) (o o₀ o' : CCAObj)
    (c : ActCfg) (hc : o.genCfg = some c) (hn : c.name = "SmoothIntervals") (hm : c.mode = true)
    (is : List (ℝ × ℝ)) (al : ℝ) (b : Bool) (hg : o.genesis = [.smoothIntervals is al b])
    (h : o₀.loadConfig fs fuel d o.makeConfig.1 = some (.ok o')) :
    ∃ g, o'.genesis = [g] ∧ ∀ x, g.eval x = -1 := by
  obtain ⟨o₁, idK, r, κ, g, p, _, _, _, e4, _, rfl⟩ := loadConfig_ok h
  refine ⟨g, rfl, fun x => ?_⟩
  have hgen : o.makeConfig.1.genesis = { c with parameters := some (.vec []) } := by
    unfold CCAObj.makeConfig
    simp only [hc, hg]
    simp [readActs, Act.tensors, readTensors]
  rw [hgen] at e4
  have : g = .smoothIntervals [] (c.alpha.getD 0.0125) true := by
    simp [Act.ofCfg, hn, hm] at e4
    exact e4.symm
  rw [this]
  simp [Act.eval, smoothIntervalsFn]

/-- C31, loss: saving and reloading any Life-like automaton gives the automaton without birth
and survival rules, which kills every cell in one step. -/
theorem life_reload_dies (fs : Files) (fuel : Nat) (d : Nat → Draws)
    (hd : Spec.MixtureLength (d 1).kernel.length) (o o' : CCAObj)
    (birth survival : List Nat) (h1 : o.kw.extN = 1) (h2 : o.kw.intN = 1)
    (h3 : o.kw.mode = .circular) (h4 : o.kw.ca = .functional) (h5 : o.kw.threshold = 0.1)
    (hl : o.loadConfig fs fuel d (lifeLikeConfig 1 birth survival) = some (.ok o'))
    (hr : o.kw.caConfig.bind (readConfig fs) = none) :
    (∃ o'', o.loadConfig fs (fuel + 1) d o'.makeConfig.1 = some (.ok o'') ∧
      o''.dynamics = Spec.lifeDyn [] [] ∧ ∀ t, (Spec.lifeDyn [] []).toCCA t =
        { lifeCA [] [] with t := t }) ∧
    ∀ (t : ℝ) (N H W : Nat) (u : Univ ℝ N 1 H W), 1 ≤ H → 1 ≤ W → (∀ n c i j, u n c i j ≤ 1) →
      ∃ s, CCA.forward { lifeCA [] [] with t := t } u = .ok (fun _ _ _ _ => 0, s) := by
  have hkk : (lifeLikeConfig 1 birth survival).neighborhood.kernel = .ok ⟨1, mooreLike 1⟩ := by
    simp [lifeLikeConfig, KernelCfg.kernel, getKernel]
  refine ⟨?_, ?_⟩
  · have happ : o.applyConfig (lifeLikeConfig 1 birth survival) (d 0).seq = .ok o' :=
      Option.some.inj hl
    obtain ⟨idK, r, κ, g, p, e1, e2, e3, e4, e5, rfl⟩ := (applyConfig_ok_iff _ _ _ _).1 happ
    cases (ofCfg_intervals birth).symm.trans e4
    cases (ofCfg_intervals survival).symm.trans e5
    cases e2
    obtain ⟨o₁, f1, ht, k1, k2, k3, k4, k5⟩ := reload_unfold fs (Spec.loaded o
      (lifeLikeConfig 1 birth survival) (d 0).seq idK κ 1
      (.smoothIntervals (smoothInterval birth) 0.0125 true)
      (.smoothIntervals (smoothInterval survival) 0.0125 true))
      (by show o.kw.extN ≠ 0; rw [h1]; decide) (by show o.kw.intN ≠ 0; rw [h2]; decide)
      (by show (1 : Nat) ≠ 0; decide) hr fuel d hd o
    have ha := ofCfg_intervals []
    have happ2 := (applyConfig_ok_iff o₁ (Spec.loaded o
      (lifeLikeConfig 1 birth survival) (d 0).seq idK κ 1
      (.smoothIntervals (smoothInterval birth) 0.0125 true)
      (.smoothIntervals (smoothInterval survival) 0.0125 true)).makeConfig.1 (d 0).seq _).2
      ⟨_, 1, _, _, _, rfl, rfl, hkk, ha, ha, rfl⟩
    rw [happ2] at f1
    refine ⟨_, f1, ?_, fun t => lifeDyn_toCCA [] [] t⟩
    have k1' : o₁.kw.extN = 1 := k1.trans h1
    have k2' : o₁.kw.intN = 1 := k2.trans h2
    have k3' : o₁.kw.mode = .circular := k3.trans h3
    have k4' : o₁.kw.ca = .functional := k4.trans h4
    have k5' : o₁.kw.threshold = 0.1 := k5.trans h5
    simp only [CCAObj.dynamics, Spec.loaded, k1', k2', k3', k4', k5', if_true, Spec.lifeDyn]
    rfl
  · intro t N H W u hH hW hu
    obtain ⟨⟨u', s⟩, hf⟩ := life_runs [] [] t u hH hW
    refine ⟨s, ?_⟩
    rw [hf]
    obtain ⟨_, hc⟩ := life_cell hf
    have : u' = fun _ _ _ _ => 0 := by
      funext n c i j
      have hc0 : c = 0 := Subsingleton.elim _ _
      subst hc0
      have := hc n i j
      simp only [smoothInterval, List.map_nil, Act.eval, smoothIntervalsFn, List.sum_nil] at this
      rw [this, clamp01_real]
      have := hu n 0 i j
      norm_num
      linarith
    rw [this]

theorem bump_self (mu s : ℝ) : bump mu s mu = 1 := by simp [bump]

/-- C31, loss: the config of a freshly initialised `CCA` does not contain its growth functions:
reloading always gives the mixture `[0.15000001, 0.015]`, which is a different function unless
the random mean happened to be exactly 0.15000001 and the function Gaussian. -/
theorem default_growth_lost_refuted (fs : Files) (fuel : Nat) (d : Nat → Draws) (o o₀ o' : CCAObj)
    (kw : InstantKwargs) (dr : Draws) (ho : CCAObj.defaultInit kw dr = .ok o)
    (hi : kw.intN = 1) (hca : kw.ca ≠ .other)
    (h : o₀.loadConfig fs fuel d o.makeConfig.1 = some (.ok o')) :
    o'.genesis = [.mixture [(1, 0.15000001, 0.015)] true] ∧
    ∃ g, o.genesis = [g] ∧
      ((∀ s b, g ≠ .gaussian 0.15000001 s b) →
        (Act.mixture [(1, 0.15000001, 0.015)] true).eval ≠ g.eval) := by
  have ha : Act.ofCfg assumedGrowth = .ok (.mixture [(1, 0.15000001, 0.015)] true) := by
    simp [Act.ofCfg, assumedGrowth, mixtureComponents, mixtureComponents.pairs, bind, Except.bind,
      pure, Except.pure]
  unfold CCAObj.defaultInit at ho
  split at ho
  · cases ho
  split at ho
  · cases ho
  obtain ⟨κ, _, ho⟩ := bind_ok ho
  cases ho
  constructor
  · obtain ⟨o₁, idK, r, κ, g, p, _, _, _, e4, _, rfl⟩ := loadConfig_ok h
    cases ha.symm.trans e4
    rfl
  · refine ⟨(defaultFns 0 (dr.channel 0)).1, by simp [hi], fun hne heq => ?_⟩
    have hmix : ∀ x, (Act.mixture [(1, 0.15000001, 0.015)] true).eval x =
        bump 0.15000001 0.015 x * 2 - 1 := by
      intro x
      have h0 := bump_pos 0.15000001 0.015 x
      have h1 := bump_le_one 0.15000001 0.015 x
      simp only [Act.eval, mixtureFn, List.map_cons, List.map_nil, List.sum_cons, List.sum_nil,
        one_mul, add_zero, if_true, clampR]
      rw [max_eq_left (by linarith), min_eq_left (by linarith)]
    simp only [defaultFns] at heq hne
    rw [if_pos (by decide)] at heq hne
    cases hc : (dr.channel 0).coinGen with
    | true =>
      simp only [hc, if_true] at heq hne
      set mu := clip01 (0.15 * (1 + (dr.channel 0).nMu * 0.1))
      have h1 := congrFun heq mu
      rw [hmix] at h1
      simp only [Act.eval, gaussianFn, if_true, bump_self] at h1
      have h2 : bump 0.15000001 0.015 mu = 1 := by linarith
      rw [bump_eq_one_iff (by norm_num)] at h2
      exact hne _ _ (by rw [h2])
    | false =>
      simp only [hc] at heq
      have h1 := congrFun heq 0.15000001
      rw [hmix, bump_self] at h1
      simp only [Bool.false_eq_true, if_false, Act.eval, doGaussianFn, if_true] at h1
      have h2 := bump_le_one (clip01 (0.15 * (1 + (dr.channel 0).nMu * 0.1)))
        (clip01 (0.015 * (1 + (dr.channel 0).nSigma * 0.01))) (0.15000001 + 0.01)
      have h3 := bump_pos (clip01 (0.15 * (1 + (dr.channel 0).nMu * 0.1)))
        (clip01 (0.015 * (1 + (dr.channel 0).nSigma * 0.01))) (0.15000001 - 0.01)
      linarith

/-! ## C32: do saved configs describe the current parameters? -/

/-- C32: the `parameters` entries are the current growth parameters. -/
theorem growth_config_current (o o' : CCAObj) (v : List ℝ) (gc pc : ActCfg)
    (hg : o.genCfg = some gc) (hp : o.perCfg = some pc) (h : o.setParams v = (o', none)) :
    o'.makeConfig.1.genesis.parameters = some (.vec (v.take (readActs o.genesis).length)) ∧
    o'.makeConfig.1.persistence.parameters =
      some (.vec ((v.drop (readActs o.genesis).length).take (readActs o.persistence).length)) := by
  by_cases h1 : v.length < (readActs o.genesis).length + (readActs o.persistence).length
  · obtain ⟨_, _, h2, _⟩ := cca_params_short o v h1
    rw [h] at h2; cases h2
  · obtain ⟨gs, g1, g2, _⟩ := writeActs_enough o.genesis v (by omega)
    obtain ⟨ps, p1, p2, _⟩ := writeActs_enough o.persistence (v.drop (readActs o.genesis).length)
      (by rw [List.length_drop]; omega)
    rw [CCAObj.setParams, g1] at h
    simp only at h
    rw [p1] at h
    simp only at h
    split at h
    · cases h
    · split at h
      · cases h
      · cases h
        constructor
        · simp only [CCAObj.makeConfig, CCAObj.initNbLayer, CCAObj.addNeighborhoodKernel, hg, g2]
        · simp only [CCAObj.makeConfig, CCAObj.initNbLayer, CCAObj.addNeighborhoodKernel, hp, p2]

/-- C32, staleness: for every growth family but GaussianMixture and SmoothIntervals loading
ignores `parameters`, so the reloaded function is the one of the original config, whatever the
parameters are now. -/
theorem growth_config_stale (c : ActCfg) (g : Act ℝ) (h1 : c.name ≠ "GaussianMixture")
    (h2 : c.name ≠ "SmoothIntervals") : Spec.regrown c g = Act.ofCfg c := by
  simp only [Spec.regrown, Act.ofCfg, h1, h2, if_false]

/-- C32, refuted for Gaussian growth: after `set_params` changed its mean, the saved config still
describes the old function. -/
theorem gaussian_config_stale_refuted (fs : Files) (fuel : Nat) (d : Nat → Draws)
    (o o₀ o' : CCAObj) (c : ActCfg) (mu s mu' s' : ℝ) (b : Bool) (hn : c.name = "Gaussian")
    (hc : o.genCfg = some c) (hold : Act.ofCfg c = .ok (.gaussian mu s b))
    (hnow : o.genesis = [.gaussian mu' s' b]) (hne : mu' ≠ mu)
    (h : o₀.loadConfig fs fuel d o.makeConfig.1 = some (.ok o')) :
    o'.genesis = [.gaussian mu s b] ∧ o'.dynamics ≠ o.dynamics := by
  have hgen : o.makeConfig.1.genesis =
      { c with parameters := some (.vec (readActs [.gaussian mu' s' b])) } := by
    unfold CCAObj.makeConfig; simp only [hc, hnow]
  obtain ⟨o₁, idK, r, κ, g, p, _, _, _, e4, _, rfl⟩ := loadConfig_ok h
  have : g = .gaussian mu s b := by
    have h1 := growth_config_stale c (.gaussian mu' s' b) (by rw [hn]; decide) (by rw [hn]; decide)
    rw [hgen] at e4
    have h2 : Spec.regrown c (.gaussian mu' s' b) = .ok g := e4
    rw [h1, hold] at h2
    exact (Except.ok.inj h2).symm
  subst this
  refine ⟨rfl, fun heq => hne ?_⟩
  have := congrArg CCADyn.genesis heq
  simp only [CCAObj.dynamics, Spec.loaded, hnow, List.cons.injEq, Act.gaussian.injEq] at this
  exact this.1.1.symm

/-- Calls an evolution run makes on the automaton between saves. -/
inductive Spec.Call where
  | setParams (v : List ℝ)
  | makeConfig
  | setDt (dt : ℝ)

/-- The object after a sequence of calls. -/
noncomputable def Spec.runCalls (o : CCAObj) : List Spec.Call → CCAObj
  | [] => o
  | .setParams v :: cs => runCalls (o.setParams v).1 cs
  | .makeConfig :: cs => runCalls o.makeConfig.2 cs
  | .setDt dt :: cs => runCalls { o with dt := dt } cs

theorem setParams_nbCfg (o : CCAObj) (v : List ℝ) : (o.setParams v).1.nbCfg = o.nbCfg := by
  unfold CCAObj.setParams
  split
  · rfl
  · try dsimp only
    split
    · rfl
    · try dsimp only
      split
      · rfl
      · try dsimp only
        split <;> rfl

/-- C32, staleness: once there is a kernel config, no sequence of `set_params` and
`make_config` calls changes the kernel that is saved. -/
theorem kernel_config_frozen (o : CCAObj) (c : KernelCfg) (h : o.nbCfg = some c)
    (cs : List Spec.Call) : (Spec.runCalls o cs).makeConfig.1.neighborhood = c := by
  induction cs generalizing o with
  | nil => simp only [Spec.runCalls, CCAObj.makeConfig, h]
  | cons k cs ih =>
    cases k with
    | setParams v => exact ih _ (by rw [setParams_nbCfg, h])
    | makeConfig => exact ih _ (by simp only [CCAObj.makeConfig, h])
    | setDt dt => exact ih _ h

/-- C32, staleness: an automaton without a kernel config saves its kernel parameters the first
time, and those same parameters ever after. -/
theorem kernel_config_first (o : CCAObj) (l : List ℝ) (h : o.nbCfg = none)
    (hl : o.kernelParams = .vec l) (cs : List Spec.Call) :
    (Spec.runCalls o (.makeConfig :: cs)).makeConfig.1.neighborhood =
      ⟨"GaussianMixture", some o.kernelRadius, some [("parameters", .vec l)]⟩ :=
  kernel_config_frozen _ _ (by simp only [CCAObj.makeConfig, h, hl]) cs

/-- C32, staleness: all configs `get_elite_configs` saves have one and the same kernel. -/
theorem elite_configs_one_kernel (o : CCAObj) (vs : List (List ℝ)) (cfgs : List Config)
    (h : o.eliteConfigs vs = .ok cfgs) :
    ∃ k, ∀ c ∈ cfgs, c.neighborhood = k := by
  have key : ∀ (vs : List (List ℝ)) (o : CCAObj) (cfgs : List Config) (k : KernelCfg),
      o.nbCfg = some k → o.eliteConfigs vs = .ok cfgs → ∀ c ∈ cfgs, c.neighborhood = k := by
    intro vs
    induction vs with
    | nil => intro o cfgs k _ h; cases h; simp
    | cons v vs ih =>
      intro o cfgs k hk h
      rw [CCAObj.eliteConfigs] at h
      split at h
      · cases h
      · rename_i o' hs
        obtain ⟨rest, h1, h2⟩ := bind_ok h
        have hk' : o'.nbCfg = some k := by rw [← hk, ← setParams_nbCfg o v, hs]
        cases h2
        intro c hc
        rcases List.mem_cons.1 hc with rfl | hc
        · simp only [CCAObj.makeConfig, hk']
        · exact ih _ _ _ (by simp only [CCAObj.makeConfig, hk']) h1 c hc
  cases vs with
  | nil => cases h; exact ⟨⟨"", none, none⟩, by simp⟩
  | cons v vs =>
    rw [CCAObj.eliteConfigs] at h
    split at h
    · cases h
    · rename_i o' hs
      obtain ⟨rest, h1, h2⟩ := bind_ok h
      cases h2
      refine ⟨o'.makeConfig.1.neighborhood, fun c hc => ?_⟩
      rcases List.mem_cons.1 hc with rfl | hc
      · rfl
      · exact key vs _ _ _ rfl h1 c hc

/-- C32: an evolved automaton that has a kernel config is restored exactly when that config
happens to describe its current kernel. -/
theorem evolved_roundtrip_iff (fs : Files) (o : CCAObj) (h : Spec.Describable fs o) (c : KernelCfg)
    (hc : o.nbCfg = some c) (r : Nat) (hr : c.radius = some r) (κ : AnyKernel)
    (hκ : c.kernel = .ok κ) (fuel : Nat) (d : Nat → Draws)
    (hd : Spec.MixtureLength (d 1).kernel.length) (o₀ : CCAObj) :
    ∃ o', o₀.loadConfig fs (fuel + 1) d o.makeConfig.1 = some (.ok o') ∧
      (o'.dynamics = o.dynamics ↔ κ = o.nbLayer) := by
  have hm : o.makeConfig.1.neighborhood = c := by simp only [CCAObj.makeConfig, hc]
  obtain ⟨o', h1, h2, _⟩ := reload_dynamics fs o h fuel d hd o₀ r κ (by rw [hm]; exact hr)
    (by rw [hm]; exact hκ)
  refine ⟨o', h1, fun heq => ?_, fun heq => ?_⟩
  · rw [h2] at heq
    exact congrArg CCADyn.nbLayer heq
  · rw [h2, heq]; rfl

/-- An automaton with Gaussian mixture growth and kernel, as loaded from a config. -/
noncomputable def Witness.mixtureObj : CCAObj where
  kw := {}
  kernelRadius := 1
  kernelParams := .vec [1 / 2, 1 / 4]
  idKernel := ⟨1, identityKernel⟩
  nbKernel := ⟨1, normaliseKernel fun a b => bump (1 / 2) (1 / 4) (radialGrid 1 a b)⟩
  idLayer := ⟨1, identityKernel⟩
  nbLayer := ⟨1, normaliseKernel fun a b => bump (1 / 2) (1 / 4) (radialGrid 1 a b)⟩
  genesis := [.mixture [(1, 0.15, 0.015)] true]
  persistence := [.mixture [(1, 0.15, 0.015)] true]
  seqWeights := (fun _ _ => 0, fun _ _ => 0)
  nbCfg := some ⟨"GaussianMixture", some 1, some [("parameters", .vec [1 / 2, 1 / 4])]⟩
  genCfg := some { name := "GaussianMixture", parameters := some (.vec [0.15, 0.015]), mode := true }
  perCfg := some { name := "GaussianMixture", parameters := some (.vec [0.15, 0.015]), mode := true }
  dt := 0.1
  t := 0

/-- The same after an evolution step that only changed the kernel. -/
noncomputable def Witness.evolvedObj : CCAObj :=
  (Witness.mixtureObj.setParams [0.15, 0.015, 0.15, 0.015, 1 / 4, 1 / 2]).1

theorem evolvedObj_eq : Witness.evolvedObj = { Witness.mixtureObj with
    kernelParams := .vec [1 / 4, 1 / 2]
    nbKernel := ⟨1, normaliseKernel fun a b => bump (1 / 4) (1 / 2) (radialGrid 1 a b)⟩
    nbLayer := ⟨1, normaliseKernel fun a b => bump (1 / 4) (1 / 2) (radialGrid 1 a b)⟩ } := by
  have hk := mixture_kernel_pair 1 one_ne_zero (1 / 4) (1 / 2)
  simp [Witness.evolvedObj, Witness.mixtureObj, CCAObj.setParams, writeActs, writeTensors,
    Act.tensors, Act.setTensors, setComponents, KParams.len, CCAObj.addNeighborhoodKernel,
    CCAObj.initNbLayer]
  norm_num at hk ⊢
  rw [hk]

theorem regrown_witness :
    Spec.regrown { name := "GaussianMixture", parameters := some (.vec [0.15, 0.015]), mode := true }
      (.mixture [(1, 0.15, 0.015)] true) = .ok (.mixture [(1, 0.15, 0.015)] true) :=
  (mixture_regrown _ rfl [(1, 0.15, 0.015)] (by simp)).2 ⟨by simp, by decide⟩

theorem mixtureObj_saveable (fs : Files) : Spec.Saveable fs Witness.mixtureObj where
  functional := rfl
  ext := by decide
  int := rfl
  noRef := rfl
  idLayer := rfl
  radius := by decide
  kernel := ⟨rfl, (mixture_cfg_kernel _ _).trans (mixture_kernel_pair 1 one_ne_zero _ _)⟩
  genesis := ⟨_, _, rfl, rfl, regrown_witness⟩
  persistence := ⟨_, _, rfl, rfl, regrown_witness⟩

/-- C32, refuted for the kernel: an evolved kernel is lost.  A loaded automaton, given new
parameters and saved, comes back with the kernel it was loaded with. -/
theorem evolved_kernel_lost_refuted (fs : Files) (fuel : Nat) (d : Nat → Draws)
    (hd : Spec.MixtureLength (d 1).kernel.length) :
    ∃ (o : CCAObj) (v : List ℝ) (o' : CCAObj), Spec.Saveable fs o ∧ o.setParams v = (o', none) ∧
      ∃ o'', o.loadConfig fs (fuel + 1) d o'.makeConfig.1 = some (.ok o'') ∧
        o''.dynamics ≠ o'.dynamics ∧ o''.dynamics = o.dynamics := by
  have hs := mixtureObj_saveable fs
  have hD : Spec.Describable fs Witness.evolvedObj := by
    rw [evolvedObj_eq]
    exact ⟨hs.functional, hs.ext, hs.int, hs.noRef, hs.idLayer, hs.radius, hs.genesis,
      hs.persistence⟩
  have hm : Witness.evolvedObj.makeConfig.1.neighborhood =
      ⟨"GaussianMixture", some 1, some [("parameters", .vec [1 / 2, 1 / 4])]⟩ := by
    rw [evolvedObj_eq]; rfl
  obtain ⟨o'', h1, h2, _⟩ := reload_dynamics fs _ hD fuel d hd Witness.mixtureObj 1 _
    (by rw [hm]) (by rw [hm, mixture_cfg_kernel, mixture_kernel_pair 1 one_ne_zero])
  refine ⟨Witness.mixtureObj, [0.15, 0.015, 0.15, 0.015, 1 / 4, 1 / 2], Witness.evolvedObj, hs,
    ?_, o'', h1, ?_, ?_⟩
  · refine Prod.ext rfl ?_
    have hk := mixture_kernel_pair 1 one_ne_zero (1 / 4) (1 / 2)
    simp [Witness.mixtureObj, CCAObj.setParams, writeActs, writeTensors,
      Act.tensors, Act.setTensors, setComponents, KParams.len]
    norm_num at hk ⊢
    rw [hk]
  · rw [h2]
    intro heq
    have h3 := congrArg CCADyn.nbLayer heq
    rw [evolvedObj_eq] at h3
    simp only [CCAObj.dynamics] at h3
    have h' : (normaliseKernel fun a b => bump (1 / 2) (1 / 4) (radialGrid 1 a b)) =
        normaliseKernel fun a b => bump (1 / 4) (1 / 2) (radialGrid 1 a b) := by
      simpa using h3
    have e1 : normaliseKernel (r := 1) (fun a b => bump (1 / 2) (1 / 4) (radialGrid 1 a b)) 1 1 =
        normaliseKernel (r := 1) (fun a b => bump (1 / 2) (1 / 4) (radialGrid 1 a b)) 1 2 := by
      rw [normalise_inj, radial_centre, radial_edge]
      exact (bump_centre_edge (by norm_num)).2 rfl
    rw [h', normalise_inj, radial_centre, radial_edge, bump_centre_edge (by norm_num)] at e1
    norm_num at e1
  · rw [h2, evolvedObj_eq]; rfl

/-! ## The hypotheses can be met -/

example (fs : Files) (fuel : Nat) (d : Nat → Draws) (hd : Spec.MixtureLength (d 1).kernel.length) :
    ∃ o', Witness.mixtureObj.loadConfig fs (fuel + 1) d Witness.mixtureObj.makeConfig.1 =
      some (.ok o') ∧ o'.dynamics = Witness.mixtureObj.dynamics ∧ o'.t = 0 :=
  config_roundtrip fs _ (mixtureObj_saveable fs) fuel d hd _

/-- SmoothLife has a custom identity kernel. -/
example (fs : Files) (fuel : Nat) (d : Nat → Draws) (o : CCAObj) :
    ∃ o', o.loadConfig fs fuel d (smoothLifeConfig 2) = some (.ok o') ∧
      o'.idLayer ≠ ⟨1, identityKernel⟩ := by
  have hk : ∀ a b : ℝ, ∃ κ, (KernelCfg.mk "SmoothLifeKernel" (some 2)
      (some [("r_a", .num a), ("r_i", .num b)])).kernel = .ok ⟨2, κ⟩ := by
    intro a b
    refine ⟨normaliseKernel fun x y => smoothLifeFn a b (radialGrid 2 x y), ?_⟩
    simp [KernelCfg.kernel, kernelKwargs, kwLookup, optM, KwVal.asNum, getKernel, kernelFn,
      bind, Except.bind, pure, Except.pure]
  obtain ⟨κ₁, h1⟩ := hk (1/3) 0
  obtain ⟨κ₂, h2⟩ := hk 1.05 (1/3)
  have hg : Act.ofCfg (smoothLifeConfig 2).genesis =
      .ok (.smoothIntervals [(0.278, 0.365)] 0.028 true) := by
    simp [smoothLifeConfig, Act.ofCfg]
  have hp : Act.ofCfg (smoothLifeConfig 2).persistence =
      .ok (.smoothIntervals [(0.267, 0.445)] 0.147 true) := by
    simp [smoothLifeConfig, Act.ofCfg]
  have := (applyConfig_ok_iff o (smoothLifeConfig 2) (d 0).seq _).2
    ⟨_, 2, _, _, _, h1, rfl, h2, hg, hp, rfl⟩
  have hl : o.loadConfig fs fuel d (smoothLifeConfig 2) =
      some (o.applyConfig (smoothLifeConfig 2) (d 0).seq) := rfl
  rw [this] at hl
  refine ⟨_, hl, fun h => ?_⟩
  have := congrArg Sigma.fst h
  simp [Spec.loaded] at this

end Yuca
