import Verif.Props.Config
import Verif.Props.GrayScott

/-!
# Gray-Scott configs (C34), changing kernels (C35), default growth functions (C64), NCA configs
(C65), saving twice (C66)
-/

namespace Yuca

/-! ## C34: `RxnDfn` configs -/

/-- `RxnDfn.__init__` (yuca/ca/reaction_diffusion.py:23-38, 202-238); see `default_rxn`. -/
noncomputable def Spec.defaultRxn : RxnObj where
  kernelRadius := 1
  idLayer := ⟨1, identityKernel⟩
  nbLayer := ⟨1, logKernel (r := 1) 0.5 (radialGrid 1)⟩
  nbCfg := ⟨"LaplacianOfGaussian", some 1, some [("sigma", .num 0.5)]⟩
  diffU := 2e-5
  diffV := 1e-5
  f := 0.0620
  k := 0.0609
  dx := 1 / 330
  dt := 0.5
  t := 0

/-- The default object steps as the default automaton of the Gray-Scott theorems. -/
theorem default_rxn : Spec.defaultRxn.toRxn = RxnDfn.default := rfl

/-- The kernel in use is the one the stored config describes. -/
def Spec.RxnSound (o : RxnObj) : Prop := o.nbCfg.kernel = .ok o.nbLayer

theorem log_cfg_kernel (r : Nat) (hr : r ≠ 0) (s : ℝ) :
    (KernelCfg.mk "LaplacianOfGaussian" (some r) (some [("sigma", .num s)])).kernel =
      .ok ⟨r, logKernel s (radialGrid r)⟩ := by
  simp [KernelCfg.kernel, kernelKwargs, kwLookup, optM, KwVal.asNum, bind, Except.bind, pure,
    Except.pure, getKernel, hr]

theorem default_rxn_sound : Spec.RxnSound Spec.defaultRxn :=
  log_cfg_kernel 1 one_ne_zero 0.5

/-- Calls that change a `RxnDfn`. -/
inductive Spec.RxnCall where
  | setParams (v : List ℝ)
  | setKernelRadius (r : Nat)
  | loadConfig (cfg : RxnConfig)
  | setDt (x : ℝ)
  | setDx (x : ℝ)
  | setDiffU (x : ℝ)
  | setDiffV (x : ℝ)

/-- Run them; a call that raises ends the run, `set_params` leaves its partial result. -/
noncomputable def Spec.runRxn (o : RxnObj) : List Spec.RxnCall → RxnObj
  | [] => o
  | .setParams v :: cs => runRxn (o.setParams v).1 cs
  | .setKernelRadius r :: cs => match o.setKernelRadius r with
    | .ok o' => runRxn o' cs
    | .error _ => o
  | .loadConfig cfg :: cs => match o.loadConfig cfg with
    | .ok o' => runRxn o' cs
    | .error _ => o
  | .setDt x :: cs => runRxn { o with dt := x } cs
  | .setDx x :: cs => runRxn { o with dx := x } cs
  | .setDiffU x :: cs => runRxn { o with diffU := x } cs
  | .setDiffV x :: cs => runRxn { o with diffV := x } cs

theorem rxn_setParams_layers (o : RxnObj) (v : List ℝ) :
    (o.setParams v).1.nbCfg = o.nbCfg ∧ (o.setParams v).1.nbLayer = o.nbLayer ∧
      (o.setParams v).1.idLayer = o.idLayer := by
  unfold RxnObj.setParams
  split <;> exact ⟨rfl, rfl, rfl⟩

/-- What `load_config` of a `RxnDfn` does. -/
theorem rxn_load_iff (o o' : RxnObj) (cfg : RxnConfig) :
    o.loadConfig cfg = .ok o' ↔
      ∃ idK κ u v f k rest,
        cfg.identityKernel = .ok idK ∧
        cfg.neighborhood.kernel = .ok κ ∧ cfg.params = some (u :: v :: f :: k :: rest) ∧
        o' = { o with idLayer := idK, nbLayer := κ, nbCfg := cfg.neighborhood
                      diffU := u, diffV := v, f := f, k := k
                      dt := cfg.dt.getD 0.5, dx := cfg.dx.getD (1/330) } := by
  unfold RxnObj.loadConfig
  cases hid : cfg.identityKernel with
  | error e => simp [bind, Except.bind]
  | ok idK =>
    cases hk : cfg.neighborhood.kernel with
    | error e => simp [bind, Except.bind]
    | ok κ =>
      cases hp : cfg.params with
      | none => simp [bind, Except.bind]
      | some l =>
        match l with
        | [] => simp [bind, Except.bind, RxnObj.setParams]
        | [_] => simp [bind, Except.bind, RxnObj.setParams]
        | [_, _] => simp [bind, Except.bind, RxnObj.setParams]
        | [_, _, _] => simp [bind, Except.bind, RxnObj.setParams]
        | a :: b :: c :: d :: rest =>
          simp [bind, Except.bind, RxnObj.setParams]
          exact eq_comm

/-- Every `RxnDfn` reached from a new one by public calls uses the kernel its config
describes. -/
theorem rxn_sound_run (o : RxnObj) (h : Spec.RxnSound o) (cs : List Spec.RxnCall) :
    Spec.RxnSound (Spec.runRxn o cs) := by
  induction cs generalizing o with
  | nil => exact h
  | cons c cs ih =>
    cases c with
    | setParams v =>
      refine ih _ ?_
      obtain ⟨h1, h2, _⟩ := rxn_setParams_layers o v
      unfold Spec.RxnSound
      rw [h1, h2]
      exact h
    | setKernelRadius r =>
      simp only [Spec.runRxn]
      split
      · rename_i o' ho
        unfold RxnObj.setKernelRadius at ho
        obtain ⟨κ, hκ, ho⟩ := bind_ok ho
        cases ho
        exact ih _ hκ
      · exact h
    | loadConfig cfg =>
      simp only [Spec.runRxn]
      split
      · rename_i o' ho
        obtain ⟨idK, κ, u, v, f, k, rest, _, hκ, _, rfl⟩ := (rxn_load_iff ..).1 ho
        exact ih _ hκ
      · exact h
    | setDt x => exact ih _ h
    | setDx x => exact ih _ h
    | setDiffU x => exact ih _ h
    | setDiffV x => exact ih _ h

/-- C34: saving any `RxnDfn` (new, then changed by any calls) and loading the config into any
other one succeeds and gives the same rates, step sizes and neighborhood kernel, hence the same
automaton except for the clock, if the identity kernel is the default one. -/
theorem rxn_config_roundtrip (o o' : RxnObj) (h : Spec.RxnSound o) :
    ∃ o'', o'.loadConfig o.makeConfig = .ok o'' ∧ Spec.RxnSound o'' ∧
      o''.toRxn = { o.toRxn with t := o'.t, idL := identityLayer 2 2 .circular } ∧
      o''.nbCfg = o.nbCfg ∧ o''.getParams = o.getParams := by
  refine ⟨_, (rxn_load_iff ..).2 ⟨_, _, _, _, _, _, _, rfl, h, rfl, rfl⟩, h, rfl, rfl, rfl⟩

theorem rxn_config_same (o o' : RxnObj) (h : Spec.RxnSound o)
    (hid : o.idLayer = ⟨1, identityKernel⟩) :
    ∃ o'', o'.loadConfig o.makeConfig = .ok o'' ∧ o''.toRxn = { o.toRxn with t := o'.t } := by
  obtain ⟨o'', h1, _, h2, _⟩ := rxn_config_roundtrip o o' h
  have : o.toRxn.idL = identityLayer 2 2 .circular := by
    rw [show o.toRxn.idL = .ofKernel 2 2 .circular (2 * o.idLayer.1 + 1) o.idLayer.2 from rfl, hid]
    rfl
  refine ⟨o'', h1, h2.trans ?_⟩
  rw [← this]

/-- C34: hence the same universes after every number of steps from any start. -/
theorem rxn_config_trajectory (o o' : RxnObj) (h : Spec.RxnSound o)
    (hid : o.idLayer = ⟨1, identityKernel⟩) (ht : o'.t = o.t) {N H W : Nat} (n : Nat)
    (u : Univ ℝ N 2 H W) :
    ∃ o'', o'.loadConfig o.makeConfig = .ok o'' ∧
      iterate RxnDfn.forward n o''.toRxn u = iterate RxnDfn.forward n o.toRxn u := by
  obtain ⟨o'', h1, h2⟩ := rxn_config_same o o' h hid
  refine ⟨o'', h1, ?_⟩
  rw [h2, ht]
  rfl

example : Spec.RxnSound (Spec.runRxn Spec.defaultRxn
    [.setParams [1e-5, 2e-5, 0.03, 0.06], .setKernelRadius 2, .setDt 0.1]) :=
  rxn_sound_run _ default_rxn_sound _

/-- C34: the `params` entry decides; the individual rates of the config are ignored. -/
theorem rxn_params_override (o : RxnObj) (cfg : RxnConfig) (a b c d : Option ℝ) :
    o.loadConfig { cfg with decayRate := a, feedRate := b, diffusionU := c, diffusionV := d } =
      o.loadConfig cfg := by
  unfold RxnObj.loadConfig
  rw [show RxnConfig.identityKernel
    { cfg with decayRate := a, feedRate := b, diffusionU := c, diffusionV := d } =
      cfg.identityKernel from rfl]
  dsimp only
  cases cfg.identityKernel with
  | error e => rfl
  | ok idK =>
    cases cfg.neighborhood.kernel with
    | error e => rfl
    | ok κ =>
      cases cfg.params with
      | none => rfl
      | some l =>
        match l with
        | [] => rfl
        | [_] => rfl
        | [_, _] => rfl
        | [_, _, _] => rfl
        | a :: b :: c :: d :: rest => rfl

/-- C34, exception: a config without a `params` entry cannot be loaded, however many individual
rates it lists. -/
theorem rxn_params_required (o : RxnObj) (cfg : RxnConfig) (κ : AnyKernel)
    (hid : cfg.identityKernelConfig = none) (hκ : cfg.neighborhood.kernel = .ok κ)
    (hp : cfg.params = none) : o.loadConfig cfg = .error .key := by
  unfold RxnObj.loadConfig RxnConfig.identityKernel
  rw [hid, hκ, hp]
  rfl

/-- C34, exception: an identity kernel loaded from a config is not saved. -/
theorem rxn_identity_lost_refuted (o o' o'' : RxnObj)
    (h : o'.loadConfig o.makeConfig = .ok o'') (hid : o.idLayer ≠ ⟨1, identityKernel⟩) :
    o''.idLayer ≠ o.idLayer := by
  obtain ⟨idK, κ, u, v, f, k, rest, h1, _, _, rfl⟩ := (rxn_load_iff ..).1 h
  cases h1
  exact fun h => hid h.symm

/-! ## C35: changing the kernel of a `CCA` -/

/-- C35: `set_kernel_radius` on an automaton without a kernel config (every `CCA()` that has not
been loaded or saved) raises. -/
theorem set_radius_needs_config (o : CCAObj) (r : Nat) (h : o.nbCfg = none) :
    o.setKernelRadius r = .error .type := by
  unfold CCAObj.setKernelRadius
  rw [h]

theorem cfg_kernel_side (c : KernelCfg) (κ : AnyKernel) (h : c.kernel = .ok κ)
    (hn : c.name ≠ "InnerMoore") : c.radius = some κ.1 := by
  unfold KernelCfg.kernel at h
  split at h
  · have := kernel_side _ _ h
    rwa [if_neg hn] at this
  · split at h
    · have := kernel_side _ _ h
      rwa [if_neg hn] at this
    · split at h
      · cases h
      · have := kernel_side _ _ h
        rwa [if_neg hn] at this

/-- C35: `set_kernel_radius(r)` takes effect at once: the convolution in use becomes the kernel
of the stored config at radius `r`, of side `2r+1`, and nothing else the step reads changes. -/
theorem set_radius_takes_effect (o o' : CCAObj) (r : Nat) (h : o.setKernelRadius r = .ok o') :
    ∃ c κ, o.nbCfg = some c ∧ KernelCfg.kernel { c with radius := some r } = .ok κ ∧
      o'.dynamics = { o.dynamics with nbLayer := κ } ∧ o'.kernelRadius = r ∧
      o'.nbCfg = some { c with radius := some r } ∧
      (c.name ≠ "InnerMoore" → 2 * o'.nbLayer.1 + 1 = 2 * r + 1) := by
  unfold CCAObj.setKernelRadius at h
  cases hc : o.nbCfg with
  | none => rw [hc] at h; cases h
  | some c =>
    rw [hc] at h
    obtain ⟨κ, hκ, h⟩ := bind_ok h
    cases h
    refine ⟨c, κ, rfl, hκ, rfl, rfl, rfl, fun hn => ?_⟩
    have := cfg_kernel_side _ _ hκ hn
    simp only [Option.some.injEq] at this
    show 2 * κ.1 + 1 = _
    rw [this]

/-- C35: `set_kernel_config` (of a `CCA`) takes effect at once. -/
theorem set_kernel_config_takes_effect (o o' : CCAObj) (c : KernelCfg)
    (h : o.setKernelConfig c = .ok o') :
    ∃ κ, c.kernel = .ok κ ∧ o'.dynamics = { o.dynamics with nbLayer := κ } ∧
      o'.nbCfg = some c ∧ c.radius = some o'.kernelRadius := by
  unfold CCAObj.setKernelConfig at h
  obtain ⟨r, hr, h⟩ := bind_ok h
  have hr' : c.radius = some r := by
    unfold KernelCfg.radiusKey at hr
    split at hr
    · cases hr
    · cases hr; assumption
  obtain ⟨c', κ, h1, h2, h3, h4, h5, _⟩ := set_radius_takes_effect _ _ _ h
  cases h1
  have hcc : ({ c with radius := some r } : KernelCfg) = c := by rw [← hr']
  rw [hcc] at h2 h5
  exact ⟨κ, h2, h3, h5, by rw [h4]; exact hr'⟩

/-- C35: `add_neighborhood_kernel` alone never changes what the automaton does. -/
theorem add_kernel_no_effect (o : CCAObj) (κ : AnyKernel) :
    (o.addNeighborhoodKernel κ).dynamics = o.dynamics := rfl

/-- C35: it does once the layer is initialised. -/
theorem add_kernel_then_init (o : CCAObj) (κ : AnyKernel) :
    (o.addNeighborhoodKernel κ).initNbLayer.dynamics = { o.dynamics with nbLayer := κ } := rfl

/-- C35: `NCA.set_kernel_config` changes the kernel attribute, config and parameters but not the
convolution in use (nor the weights). -/
theorem nca_set_kernel_config_no_effect (o o' : NCAObj) (c : KernelCfg)
    (h : o.setKernelConfig c = .ok o') :
    o'.nbLayer = o.nbLayer ∧ o'.tensors = o.tensors ∧ c.kernel = .ok o'.nbKernel := by
  unfold NCAObj.setKernelConfig at h
  split at h
  · cases h
  · obtain ⟨κ, hκ, h⟩ := bind_ok h
    cases h
    exact ⟨rfl, rfl, hκ⟩

/-- C35, refuted: changing the radius of an automaton whose kernel was evolved with `set_params`
brings the kernel family back to the cached config: even re-setting the current radius changes
the automaton. -/
theorem set_radius_reverts_kernel_refuted :
    ∃ o' : CCAObj, Witness.evolvedObj.setKernelRadius Witness.evolvedObj.kernelRadius = .ok o' ∧
      o'.dynamics ≠ Witness.evolvedObj.dynamics ∧
      o'.dynamics = Witness.mixtureObj.dynamics ∧
      o'.kernelParams = Witness.evolvedObj.kernelParams := by
  have hk : KernelCfg.kernel ⟨"GaussianMixture", some 1, some [("parameters", .vec [1 / 2, 1 / 4])]⟩ =
      .ok ⟨1, normaliseKernel fun a b => bump (1 / 2) (1 / 4) (radialGrid 1 a b)⟩ :=
    (mixture_cfg_kernel _ _).trans (mixture_kernel_pair 1 one_ne_zero _ _)
  have hr : Witness.evolvedObj.kernelRadius = 1 := by rw [evolvedObj_eq]; rfl
  refine ⟨{ Witness.evolvedObj with
    nbKernel := Witness.mixtureObj.nbKernel, nbLayer := Witness.mixtureObj.nbLayer }, ?_, ?_, ?_, rfl⟩
  · unfold CCAObj.setKernelRadius
    rw [hr, evolvedObj_eq]
    simp only [Witness.mixtureObj, hk, bind, Except.bind, pure, Except.pure,
      CCAObj.addNeighborhoodKernel, CCAObj.initNbLayer]
  · intro heq
    have h3 := congrArg CCADyn.nbLayer heq
    rw [evolvedObj_eq] at h3
    simp only [CCAObj.dynamics, Witness.mixtureObj] at h3
    have h' : (normaliseKernel fun a b => bump (1 / 2) (1 / 4) (radialGrid 1 a b)) =
        normaliseKernel fun a b => bump (1 / 4) (1 / 2) (radialGrid 1 a b) := by
      simpa using h3
    have e1 : normaliseKernel (r := 1) (fun a b => bump (1 / 2) (1 / 4) (radialGrid 1 a b)) 1 1 =
        normaliseKernel (r := 1) (fun a b => bump (1 / 2) (1 / 4) (radialGrid 1 a b)) 1 2 := by
      rw [normalise_inj, radial_centre, radial_edge]
      exact (bump_centre_edge (by norm_num)).2 rfl
    rw [h', normalise_inj, radial_centre, radial_edge, bump_centre_edge (by norm_num)] at e1
    norm_num at e1
  · rw [evolvedObj_eq]; rfl

/-- A loaded automaton can change its radius. -/
example : ∃ o', Witness.mixtureObj.setKernelRadius 5 = .ok o' := by
  have hk : KernelCfg.kernel ⟨"GaussianMixture", some 5, some [("parameters", .vec [1 / 2, 1 / 4])]⟩ =
      .ok ⟨5, normaliseKernel fun a b => bump (1 / 2) (1 / 4) (radialGrid 5 a b)⟩ :=
    (mixture_cfg_kernel _ _).trans (mixture_kernel_pair 5 (by norm_num) _ _)
  unfold CCAObj.setKernelRadius
  simp only [Witness.mixtureObj, hk]
  exact ⟨_, rfl⟩

/-! ## C64: default growth functions -/

/-- C64: the persistence functions of a default-initialised `CCA` with at most eight internal
channels always have the parameters of its genesis functions: the separate random draws for
persistence are thrown away. -/
theorem default_persistence_parameters (kw : InstantKwargs) (d : Draws) (o : CCAObj)
    (h : CCAObj.defaultInit kw d = .ok o) (hi : kw.intN ≤ 8) :
    readActs o.persistence = readActs o.genesis := by
  unfold CCAObj.defaultInit at h
  split at h
  · cases h
  split at h
  · cases h
  obtain ⟨κ, _, h⟩ := bind_ok h
  cases h
  dsimp only
  split
  · rfl
  · unfold readActs
    simp only [List.flatMap_def, List.map_map]
    congr 1
    refine List.map_congr_left fun pp hpp => ?_
    have hlt : pp < 8 := by
      have := List.mem_range.1 hpp
      omega
    have hclip : ∀ x, clip01 (clip01 x) = clip01 x := by
      intro x
      unfold clip01 clampR
      rcases le_total x 0 with h | h <;> rcases le_total x 1 with h' | h' <;>
        simp [h, h']
    simp only [Function.comp, defaultFns, if_pos hlt, hclip]
    cases (d.channel pp).coinGen <;> cases (d.channel pp).coinPer <;> rfl

/-- C64: so with equal coin flips birth and survival are the same function. -/
theorem default_persistence_same (kw : InstantKwargs) (d : Draws) (o : CCAObj)
    (h : CCAObj.defaultInit kw d = .ok o) (hi : kw.intN ≤ 8)
    (hc : ∀ pp < kw.intN, (d.channel pp).coinGen = (d.channel pp).coinPer) :
    o.persistence = o.genesis := by
  unfold CCAObj.defaultInit at h
  split at h
  · cases h
  split at h
  · cases h
  obtain ⟨κ, _, h⟩ := bind_ok h
  cases h
  dsimp only
  split
  · rfl
  · simp only [List.map_map]
    refine List.map_congr_left fun pp hpp => ?_
    have hlt' := List.mem_range.1 hpp
    have hlt : pp < 8 := by omega
    have hclip : ∀ x, clip01 (clip01 x) = clip01 x := by
      intro x
      unfold clip01 clampR
      rcases le_total x 0 with h | h <;> rcases le_total x 1 with h' | h' <;>
        simp [h, h']
    simp only [Function.comp, defaultFns, if_pos hlt, hclip, hc pp hlt']

example (d : Draws) (hd : Spec.MixtureLength d.kernel.length) :
    ∃ o, CCAObj.defaultInit {} d = .ok o ∧ readActs o.persistence = readActs o.genesis := by
  obtain ⟨o, h, _⟩ := defaultInit_ok {} d (by decide) (by decide) (by decide) hd
  exact ⟨o, h, default_persistence_parameters _ _ _ h (by decide)⟩

/-! ## C65: NCA configs -/

/-- C65: what loading an NCA config does.  With vector kernel parameters the kernel is always the
Gaussian mixture of the tail of `params`, whatever kernel the config names. -/
theorem nca_load_vec (o : NCAObj) (fresh : List (List ℝ)) (cfg : NCAConfig) (r : Nat)
    (κ₀ : AnyKernel) (l : List ℝ) (hr : cfg.neighborhood.radius = some r)
    (hκ : cfg.neighborhood.kernel = .ok κ₀)
    (hl : updateKernelParams (cfg.neighborhood.kwargs.getD []) = .vec l)
    (hlen : cfg.params.length = Spec.size fresh + l.length) (hmix : Spec.MixtureLength l.length)
    (hr0 : r ≠ 0) :
    ∃ o', o.loadConfig fresh cfg = (o', none) ∧ o'.getParams = cfg.params ∧
      o'.tensors.map List.length = fresh.map List.length ∧
      gaussianMixtureKernel r (cfg.params.drop (Spec.size fresh)) = .ok o'.nbLayer ∧
      o'.dt = cfg.dt.getD 0.1 ∧ o'.kernelRadius = r := by
  obtain ⟨ts, h1, h2, h3⟩ := writeTensors_enough fresh cfg.params (by omega)
  have hrest : (cfg.params.drop (Spec.size fresh)).length = l.length := by
    rw [List.length_drop]; omega
  have htake : (cfg.params.drop (Spec.size fresh)).take l.length =
      cfg.params.drop (Spec.size fresh) := List.take_of_length_le (by omega)
  obtain ⟨κ, hκ'⟩ := (mixture_kernel_iff r (cfg.params.drop (Spec.size fresh))).2
    ⟨by rw [hrest]; exact hmix, hr0⟩
  refine ⟨{ tensors := ts, kernelRadius := r, kernelPeaks := o.kernelPeaks
            kernelParams := .vec (cfg.params.drop (Spec.size fresh))
            nbKernel := κ, nbLayer := κ
            nbCfg := some { cfg.neighborhood with kwargs := some (cfg.neighborhood.kwargs.getD []) }
            dt := cfg.dt.getD 0.1 }, ?_, ?_, h2, hκ', rfl, rfl⟩
  · unfold NCAObj.loadConfig
    rw [hr, hκ]
    dsimp only
    rw [NCAObj.setParams]
    simp only [h1, hl, htake, hκ']
  · rw [NCAObj.getParams]
    simp only
    rw [h3, List.take_append_drop]

/-- A single number as kernel parameter makes loading raise IndexError. -/
theorem nca_load_scalar (o : NCAObj) (fresh : List (List ℝ)) (cfg : NCAConfig) (r : Nat)
    (κ₀ : AnyKernel) (x : ℝ) (hr : cfg.neighborhood.radius = some r)
    (hκ : cfg.neighborhood.kernel = .ok κ₀)
    (hl : updateKernelParams (cfg.neighborhood.kwargs.getD []) = .scalar x)
    (hlen : Spec.size fresh ≤ cfg.params.length) :
    (o.loadConfig fresh cfg).2 = some .index := by
  obtain ⟨ts, h1, _⟩ := writeTensors_enough fresh cfg.params hlen
  unfold NCAObj.loadConfig
  rw [hr, hκ]
  dsimp only
  rw [NCAObj.setParams]
  simp only [h1, hl]

/-- C65: a kernel without parameters (`MooreLike`, `InnerMoore`) is the one loading puts in use. -/
theorem nca_load_plain (o : NCAObj) (fresh : List (List ℝ)) (cfg : NCAConfig) (r : Nat)
    (κ : AnyKernel) (hr : cfg.neighborhood.radius = some r)
    (hκ : cfg.neighborhood.kernel = .ok κ) (hk : cfg.neighborhood.kwargs.getD [] = [])
    (hlen : cfg.params.length = Spec.size fresh) :
    ∃ o', o.loadConfig fresh cfg = (o', none) ∧ readTensors o'.tensors = cfg.params ∧
      o'.tensors.map List.length = fresh.map List.length ∧
      o'.nbLayer = κ ∧ o'.nbKernel = κ ∧ o'.dt = cfg.dt.getD 0.1 ∧ o'.kernelRadius = r := by
  obtain ⟨ts, h1, h2, h3⟩ := writeTensors_enough fresh cfg.params hlen.ge
  refine ⟨{ tensors := ts, kernelRadius := r, kernelPeaks := o.kernelPeaks
            kernelParams := .none, nbKernel := κ, nbLayer := κ
            nbCfg := some { cfg.neighborhood with kwargs := some [] }
            dt := cfg.dt.getD 0.1 }, ?_, ?_, h2, rfl, rfl, rfl, rfl⟩
  · unfold NCAObj.loadConfig
    rw [hr, hκ]
    dsimp only
    rw [NCAObj.setParams]
    simp only [h1, hk, updateKernelParams]
  · rw [h3, ← hlen, List.take_length]

/-- Such a config: a Moore neighborhood. -/
example : ∃ κ, (KernelCfg.mk "MooreLike" (some 2) none).kernel = .ok κ ∧
    (KernelCfg.mk "MooreLike" (some 2) none).kwargs.getD [] = [] :=
  ⟨⟨2, mooreLike 2⟩, by simp [KernelCfg.kernel, getKernel], rfl⟩

/-- Flattening determines equally-shaped tensors. -/
theorem flatten_inj_shape {K : Type} : ∀ (ts us : List (List K)),
    ts.map List.length = us.map List.length → ts.flatten = us.flatten → ts = us
  | [], [], _, _ => rfl
  | [], _ :: _, h, _ => by simp at h
  | _ :: _, [], h, _ => by simp at h
  | t :: ts, u :: us, h, hf => by
    simp only [List.map_cons, List.cons.injEq] at h
    simp only [List.flatten_cons] at hf
    obtain ⟨h1, h2⟩ := List.append_inj hf h.1
    rw [h1, flatten_inj_shape ts us h.2 h2]

/-- An NCA whose convolution in use is the Gaussian mixture of its kernel parameters, and whose
config, if it has one, asks for a kernel with a single vector of parameters of that length. -/
structure Spec.NCASaveable (o : NCAObj) (l : List ℝ) : Prop where
  params : o.kernelParams = .vec l
  mix : Spec.MixtureLength l.length
  radius : o.kernelRadius ≠ 0
  layer : gaussianMixtureKernel o.kernelRadius l = .ok o.nbLayer
  cfg : match o.nbCfg with
    | none => l.length = o.kernelPeaks * 3
    | some c => c.radius = some o.kernelRadius ∧ (∃ κ, c.kernel = .ok κ) ∧
        ∃ name l₀, c.kwargs = some [(name, .vec l₀)] ∧ l₀.length = l.length

/-- C65: saving an NCA with a Gaussian-mixture kernel and loading the config reproduces weights,
kernel and step size, also when the kernel was evolved after the config was made (the stale
kernel entry is overridden by `params`). -/
theorem nca_config_roundtrip (o o₀ : NCAObj) (l : List ℝ) (h : Spec.NCASaveable o l)
    (fresh : List (List ℝ)) (hf : fresh.map List.length = o.tensors.map List.length) :
    ∃ o', o₀.loadConfig fresh o.makeConfig.1 = (o', none) ∧ o'.tensors = o.tensors ∧
      o'.nbLayer = o.nbLayer ∧ o'.dt = o.dt ∧ o'.getParams = o.getParams := by
  have hsize : Spec.size fresh = Spec.size o.tensors := by unfold Spec.size; rw [hf]
  have hgp : o.getParams = readTensors o.tensors ++ l := by
    rw [NCAObj.getParams, h.params]
  have hdrop : o.getParams.drop (Spec.size fresh) = l := by
    rw [hgp, hsize, ← readTensors_length, List.drop_left]
  have hlen : o.getParams.length = Spec.size fresh + l.length := by
    rw [hgp, List.length_append, readTensors_length, hsize]
  have key : ∃ (r : Nat) (κ₀ : AnyKernel) (l₀ : List ℝ),
      o.makeConfig.1.neighborhood.radius = some r ∧ r = o.kernelRadius ∧
      o.makeConfig.1.neighborhood.kernel = .ok κ₀ ∧
      updateKernelParams (o.makeConfig.1.neighborhood.kwargs.getD []) = .vec l₀ ∧
      l₀.length = l.length := by
    have hc := h.cfg
    unfold NCAObj.makeConfig
    cases hn : o.nbCfg with
    | none =>
      rw [hn] at hc
      dsimp only at hc ⊢
      have hl3 : lastN (o.kernelPeaks * 3) o.getParams = l := by
        unfold lastN
        have : l.length ≠ 0 := h.mix.1
        rw [if_neg (by omega), hgp, List.length_append, ← hc, Nat.add_sub_cancel, List.drop_left]
      rw [hl3]
      refine ⟨_, o.nbLayer, l, rfl, rfl, ?_, ?_, rfl⟩
      · rw [mixture_cfg_kernel]; exact h.layer
      · simp [updateKernelParams, KwVal.ravel]
    | some c =>
      rw [hn] at hc
      dsimp only at hc ⊢
      obtain ⟨h1, ⟨κ, h2⟩, name, l₀, h3, h4⟩ := hc
      refine ⟨_, κ, l₀, h1, rfl, h2, ?_, h4⟩
      rw [h3]
      simp [updateKernelParams, KwVal.ravel]
  obtain ⟨r, κ₀, l₀, h1, rfl, h2, h3, h4⟩ := key
  obtain ⟨o', g1, g2, g3, g4, g5, g6⟩ := nca_load_vec o₀ fresh o.makeConfig.1 _ κ₀ l₀ h1 h2 h3
    (by rw [h4]; exact hlen) (by rw [h4]; exact h.mix) h.radius
  have hp : o.makeConfig.1.params = o.getParams := rfl
  rw [hp] at g2 g4
  rw [hdrop, h.layer] at g4
  refine ⟨o', g1, ?_, (Except.ok.inj g4).symm, g5, g2⟩
  refine flatten_inj_shape _ _ (g3.trans hf) ?_
  have e1 : o'.tensors.flatten = o'.getParams.take (Spec.size o'.tensors) := by
    rw [NCAObj.getParams, readTensors]
    have : Spec.size o'.tensors = o'.tensors.flatten.length := by
      rw [← readTensors_length]; rfl
    rw [this, List.take_left']
    rfl
  have e2 : o.tensors.flatten = o.getParams.take (Spec.size o.tensors) := by
    rw [NCAObj.getParams, readTensors]
    have : Spec.size o.tensors = o.tensors.flatten.length := by
      rw [← readTensors_length]; rfl
    rw [this, List.take_left']
    rfl
  have e3 : Spec.size o'.tensors = Spec.size o.tensors := by
    unfold Spec.size; rw [g3, hf]
  rw [e1, e2, e3, g2]

/-- A saveable NCA with one weight tensor. -/
noncomputable def Witness.ncaObj : NCAObj where
  tensors := [[1, 2], [3]]
  kernelRadius := 1
  kernelPeaks := 1
  kernelParams := .vec [1 / 2, 1 / 4]
  nbKernel := ⟨1, normaliseKernel fun a b => bump (1 / 2) (1 / 4) (radialGrid 1 a b)⟩
  nbLayer := ⟨1, normaliseKernel fun a b => bump (1 / 2) (1 / 4) (radialGrid 1 a b)⟩
  nbCfg := some ⟨"GaussianMixture", some 1, some [("parameters", .vec [1 / 4, 1 / 2])]⟩
  dt := 0.1

theorem ncaObj_saveable : Spec.NCASaveable Witness.ncaObj [1 / 2, 1 / 4] where
  params := rfl
  mix := ⟨by simp, Or.inr (by simp)⟩
  radius := one_ne_zero
  layer := mixture_kernel_pair 1 one_ne_zero _ _
  cfg := ⟨rfl, ⟨_, (mixture_cfg_kernel _ _).trans (mixture_kernel_pair 1 one_ne_zero _ _)⟩,
    "parameters", _, rfl, rfl⟩

/-- C65, refuted after `set_kernel_config`: the convolution in use is not the configured kernel,
and loading the saved config gives the configured one: the reloaded NCA differs from the saved
one. -/
theorem nca_set_kernel_reload_refuted :
    ∃ (o o' : NCAObj) (c : KernelCfg), Spec.NCASaveable o [1 / 2, 1 / 4] ∧
      o.setKernelConfig c = .ok o' ∧ o'.nbLayer = o.nbLayer ∧
      ∃ o'', o.loadConfig o'.tensors o'.makeConfig.1 = (o'', none) ∧ o''.nbLayer ≠ o'.nbLayer := by
  have hk : KernelCfg.kernel ⟨"GaussianMixture", some 1, some [("parameters", .vec [1 / 4, 1 / 2])]⟩ =
      .ok ⟨1, normaliseKernel fun a b => bump (1 / 4) (1 / 2) (radialGrid 1 a b)⟩ :=
    (mixture_cfg_kernel _ _).trans (mixture_kernel_pair 1 one_ne_zero _ _)
  let c : KernelCfg := ⟨"GaussianMixture", some 1, some [("parameters", .vec [1 / 4, 1 / 2])]⟩
  let o' : NCAObj := { Witness.ncaObj with
    kernelParams := .vec [1 / 4, 1 / 2]
    nbKernel := ⟨1, normaliseKernel fun a b => bump (1 / 4) (1 / 2) (radialGrid 1 a b)⟩ }
  have hset : Witness.ncaObj.setKernelConfig c = .ok o' := by
    unfold NCAObj.setKernelConfig
    simp only [c, hk, bind, Except.bind, pure, Except.pure, updateKernelParams, KwVal.ravel]
    simp [o', Witness.ncaObj]
  have hd : o'.getParams.drop (Spec.size o'.tensors) = [1 / 4, 1 / 2] := by
    simp [o', NCAObj.getParams, Witness.ncaObj, readTensors, Spec.size]
  obtain ⟨o'', h1, _, _, h4, _⟩ := nca_load_vec Witness.ncaObj o'.tensors o'.makeConfig.1 1 _
    [1 / 4, 1 / 2] rfl hk (by simp [o', NCAObj.makeConfig, Witness.ncaObj, updateKernelParams,
      KwVal.ravel])
    (by simp [o', NCAObj.makeConfig, NCAObj.getParams, Witness.ncaObj, readTensors, Spec.size])
    ⟨by simp, Or.inr (by simp)⟩ one_ne_zero
  refine ⟨Witness.ncaObj, o', c, ncaObj_saveable, hset, rfl, o'', h1, ?_⟩
  have hp : o'.makeConfig.1.params = o'.getParams := rfl
  rw [hp, hd, mixture_kernel_pair 1 one_ne_zero] at h4
  rw [← Except.ok.inj h4]
  intro h3
  have h' : (normaliseKernel fun a b => bump (1 / 4) (1 / 2) (radialGrid 1 a b)) =
      normaliseKernel fun a b => bump (1 / 2) (1 / 4) (radialGrid 1 a b) := by
    simpa [o', Witness.ncaObj] using h3
  have e1 : normaliseKernel (r := 1) (fun a b => bump (1 / 2) (1 / 4) (radialGrid 1 a b)) 1 1 =
      normaliseKernel (r := 1) (fun a b => bump (1 / 2) (1 / 4) (radialGrid 1 a b)) 1 2 := by
    rw [normalise_inj, radial_centre, radial_edge]
    exact (bump_centre_edge (by norm_num)).2 rfl
  rw [← h', normalise_inj, radial_centre, radial_edge, bump_centre_edge (by norm_num)] at e1
  norm_num at e1

/-! ## C66: saving twice -/

/-- C66: `make_config` changes nothing the step function reads. -/
theorem make_config_pure (o : CCAObj) : o.makeConfig.2.dynamics = o.dynamics := by
  unfold CCAObj.makeConfig CCAObj.dynamics
  simp only [InstantKwargs.extN, InstantKwargs.intN, InstantKwargs.mode, InstantKwargs.ca,
    InstantKwargs.threshold, Option.getD_some]
  rfl

/-- C66: once an automaton has growth configs, saving again gives the same config. -/
theorem make_config_stable (o : CCAObj) (g p : ActCfg) (hg : o.genCfg = some g)
    (hp : o.perCfg = some p) : o.makeConfig.2.makeConfig.1 = o.makeConfig.1 := by
  unfold CCAObj.makeConfig
  simp only [hg, hp, InstantKwargs.extN, InstantKwargs.intN, InstantKwargs.mode,
    InstantKwargs.peaks, Option.getD_some]

/-- C66: from the second call on the config never changes. -/
theorem make_config_second_on (o : CCAObj) :
    o.makeConfig.2.makeConfig.2.makeConfig.1 = o.makeConfig.2.makeConfig.1 :=
  make_config_stable _ _ _ rfl rfl

/-- C66, refuted for the first call: a `CCA` that was never loaded is saved first with the
assumed growth parameters and the second time with its own, although nothing happened in
between. -/
theorem make_config_twice_refuted (o : CCAObj) (hg : o.genCfg = none)
    (hne : readActs o.genesis ≠ [0.15000001, 0.015]) :
    o.makeConfig.2.makeConfig.1 ≠ o.makeConfig.1 := by
  intro h
  have h1 := congrArg (fun c => c.genesis.parameters) h
  unfold CCAObj.makeConfig at h1
  simp only [hg, assumedGrowth, Option.some.injEq, ParamVal.vec.injEq] at h1
  exact hne h1

/-- Every default-initialised single-channel `CCA` whose mean is not 0.15000001 is such. -/
example (d : Draws) (hd : Spec.MixtureLength d.kernel.length)
    (hmu : clip01 (0.15 * (1 + (d.channel 0).nMu * 0.1)) ≠ 0.15000001) :
    ∃ o, CCAObj.defaultInit {} d = .ok o ∧ o.makeConfig.2.makeConfig.1 ≠ o.makeConfig.1 := by
  obtain ⟨κ, hκ⟩ := (mixture_kernel_iff (InstantKwargs.radius {}) d.kernel).2 ⟨hd, by decide⟩
  refine ⟨_, by unfold CCAObj.defaultInit; rw [if_neg (by decide), if_neg (by decide), hκ]; rfl,
    make_config_twice_refuted _ rfl ?_⟩
  have hi : InstantKwargs.intN {} = 1 := rfl
  have hc : InstantKwargs.ca {} ≠ .other := by decide
  simp only [hi, if_neg hc]
  simp only [List.range_one, List.map_cons, List.map_nil, defaultFns]
  rw [if_pos (by decide)]
  cases (d.channel 0).coinGen <;>
    · simp only [readActs, Bool.false_eq_true, if_false, if_true, List.flatMap_cons,
        List.flatMap_nil, List.append_nil, readTensors, Act.tensors, List.flatten_cons,
        List.flatten_nil, List.cons_append, List.nil_append]
      intro h
      exact hmu (List.cons.inj h).1

end Yuca
