import Verif.Model.Kernels
import Verif.Model.Life

/-!
# `CCA` objects: parameters, configs, saving and restoring

Over exact reals.  Dictionaries are records with optional fields; `kernel_kwargs` keeps its
insertion order because `update_kernel_params` depends on it.
-/

namespace Yuca

/-! ## Flat parameter vectors -/

/-- What `get_params` returns for a list of tensors (each given by its `ravel()`):
`params = np.append(params, param.detach().cpu().numpy().ravel())`
(yuca/ca/continuous.py:617-622, yuca/ca/neural.py:331-332, yuca/cppn.py:167-172). -/
def readTensors {K : Type} (ts : List (List K)) : List K := ts.flatten

/-- The loop of `set_params` (yuca/ca/continuous.py:648-661, yuca/lenia.py:76-89,
yuca/ca/neural.py:346-355, yuca/cppn.py:178-190, 250-262): each tensor takes its slice
`params[start:stop]`; a slice of the wrong length makes `reshape` raise ValueError.  Returns
the tensors after the call and either the unread rest of the vector or the exception. -/
def writeTensors {K : Type} : List (List K) → List K → List (List K) × Except PyErr (List K)
  | [], v => ([], .ok v)
  | t :: ts, v =>
    if (v.take t.length).length = t.length then
      let r := writeTensors ts (v.drop t.length)
      (v.take t.length :: r.1, r.2)
    else (t :: ts, .error .value)

/-- The tensors `named_parameters()` of an activation lists
(yuca/activations.py:95-97, 189-193, 239-240, 252-253, 309-313, 352-356).  A 0-d tensor is
reshaped to one element by the callers. -/
def Act.tensors {K : Type} : Act K → List (List K)
  | .gaussian mu s _ => [[mu], [s]]
  | .doGaussian mu s _ _ => [[mu], [s]]
  | .doubleGaussian m₀ m₁ s₀ s₁ _ => [[m₀, m₁], [s₀, s₁]]
  | .mixture cs _ => cs.flatMap fun c => [[c.2.1], [c.2.2]]
  | .polynomial cs _ => [cs]
  | .smoothIntervals _ _ _ => []
  | .identity => []
  | .relu => []
  | .tanh => []

/-- New means and widths for the components of a mixture; amplitudes stay. -/
def setComponents {K : Type} : List (K × K × K) → List (List K) → List (K × K × K)
  | c :: cs, [m] :: [s] :: ts => (c.1, m, s) :: setComponents cs ts
  | cs, _ => cs

/-- The activation after its parameter tensors were overwritten in place. -/
def Act.setTensors {K : Type} : Act K → List (List K) → Act K
  | .gaussian _ _ b, [[mu], [s]] => .gaussian mu s b
  | .doGaussian _ _ dx b, [[mu], [s]] => .doGaussian mu s dx b
  | .doubleGaussian _ _ _ _ b, [[m₀, m₁], [s₀, s₁]] => .doubleGaussian m₀ m₁ s₀ s₁ b
  | .mixture cs b, ts => .mixture (setComponents cs ts) b
  | .polynomial _ b, [cs] => .polynomial cs b
  | a, _ => a

/-- `get_genesis_params` / `get_persistence_params` (yuca/ca/continuous.py:615-631). -/
def readActs {K : Type} (as : List (Act K)) : List K := as.flatMap fun a => readTensors a.tensors

/-- The loop over `genesis_fns` (or `persistence_fns`) in `set_params`
(yuca/ca/continuous.py:648-661, 663-676). -/
def writeActs {K : Type} : List (Act K) → List K → List (Act K) × Except PyErr (List K)
  | [], v => ([], .ok v)
  | a :: as, v =>
    match writeTensors a.tensors v with
    | (ts, .error e) => (a.setTensors ts :: as, .error e)
    | (ts, .ok rest) =>
      let r := writeActs as rest
      (a.setTensors ts :: r.1, r.2)

/-! ## Config dictionaries -/

/-- A value stored in a config: a number or a 1-d tensor/array/list. -/
inductive KwVal where
  | num (x : ℝ)
  | vec (l : List ℝ)

/-- A number, or a one-element tensor standing for one.  Simplification: longer tensors would
broadcast; the model reports `.runtime`. -/
def KwVal.asNum : KwVal → Except PyErr ℝ
  | .num x => .ok x
  | .vec [x] => .ok x
  | .vec _ => .error .runtime

/-- A vector; `len()` of a 0-d tensor raises TypeError (yuca/activations.py:227). -/
def KwVal.asVec : KwVal → Except PyErr (List ℝ)
  | .num _ => .error .type
  | .vec l => .ok l

/-- `np.array(value).ravel()`. -/
def KwVal.ravel : KwVal → List ℝ
  | .num x => [x]
  | .vec l => l

/-- A kernel config dictionary with ordered `kernel_kwargs` (yuca/configs.py:32-45, 79-81,
105-108, 125-132). -/
structure KernelCfg where
  name : String
  radius : Option Nat
  kwargs : Option (List (String × KwVal))

/-- Look a key up in a dictionary. -/
def kwLookup (kws : List (String × KwVal)) (key : String) : Option KwVal :=
  (kws.find? fun p => p.1 = key).map (·.2)

/-- `mapM` for an optional value. -/
def optM {α β : Type} (f : α → Except PyErr β) : Option α → Except PyErr (Option β)
  | none => .ok none
  | some a => match f a with
    | .ok b => .ok (some b)
    | .error e => .error e

open Classical in
/-- Passing `**kernel_config["kernel_kwargs"]` to an activation (yuca/kernels.py:40); unknown
keys are ignored there. -/
noncomputable def kernelKwargs (kws : List (String × KwVal)) : Except PyErr KernelKwargs := do
  let mu ← optM KwVal.asNum (kwLookup kws "mu")
  let sigma ← optM KwVal.asNum (kwLookup kws "sigma")
  let omega ← optM KwVal.asNum (kwLookup kws "omega")
  let parameters ← optM KwVal.asVec (kwLookup kws "parameters")
  let ra ← optM KwVal.asNum (kwLookup kws "r_a")
  let ri ← optM KwVal.asNum (kwLookup kws "r_i")
  let mode ← optM KwVal.asNum (kwLookup kws "mode")
  let dx ← optM KwVal.asNum (kwLookup kws "dx")
  return { mu, sigma, omega, parameters, ra, ri, dx,
           mode := match mode with | some m => decide (m ≠ 0) | none => false }

/-- `get_kernel` on a dictionary (yuca/kernels.py:10-56). -/
noncomputable def KernelCfg.kernel (c : KernelCfg) : Except PyErr AnyKernel :=
  if c.name = "InnerMoore" ∨ c.name = "MooreLike" then getKernel ⟨c.name, c.radius, none⟩
  else
    match c.kwargs with
    | none => getKernel ⟨c.name, c.radius, none⟩
    | some kws => match kernelKwargs kws with
      | .error e => .error e
      | .ok kw => getKernel ⟨c.name, c.radius, some kw⟩

/-- `self.kernel_params`: `None`, a 0-d array, or a 1-d array. -/
inductive KParams where
  | none
  | scalar (x : ℝ)
  | vec (l : List ℝ)

/-- `np.append(params, self.kernel_params)` in `get_params` (yuca/ca/continuous.py:639).
Simplification: appending `None` yields an object array; the model reports `.type` for it. -/
def KParams.ravel : KParams → Except PyErr (List ℝ)
  | .none => .error .type
  | .scalar x => .ok [x]
  | .vec l => .ok l

/-- `self.kernel_params.shape[0]` (yuca/ca/continuous.py:678). -/
def KParams.len : KParams → Except PyErr Nat
  | .none => .error .attribute
  | .scalar _ => .error .index
  | .vec l => .ok l.length

/-- `update_kernel_params` (yuca/ca/common.py:274-283): the first value as it is, the later
ones appended. -/
def updateKernelParams : List (String × KwVal) → KParams
  | [] => .none
  | [(_, .num x)] => .scalar x
  | kws => .vec (kws.flatMap fun p => p.2.ravel)

/-- The `parameters` entry of a growth function config: a vector, or a matrix of interval
bounds. -/
inductive ParamVal where
  | vec (l : List ℝ)
  | mat (l : List (ℝ × ℝ))

/-- A growth function config dictionary (yuca/configs.py:47-57, 83-91, 110-113;
yuca/ca/continuous.py:212-214, 305-346). -/
structure ActCfg where
  name : String
  mu : Option KwVal := none
  sigma : Option KwVal := none
  dx : Option ℝ := none
  alpha : Option ℝ := none
  parameters : Option ParamVal := none
  coefficients : Option (List ℝ) := none
  mode : Bool := false

/-- The two entries of `DoubleGaussian.mu` / `.sigma` (yuca/activations.py:299-307): a 0-d
tensor has no `shape[0]`; one entry is doubled.  Simplification: more than two entries (the
rest is never read) is reported as `.value`. -/
def twoOf : Option KwVal → Except PyErr (ℝ × ℝ)
  | some (.vec [a]) => .ok (a, a)
  | some (.vec [a, b]) => .ok (a, b)
  | some (.vec _) => .error .value
  | _ => .error .index

/-- A number with a default. -/
def numD (d : ℝ) (o : Option KwVal) : Except PyErr ℝ :=
  match o with
  | none => .ok d
  | some v => v.asNum

/-- `add_genesis_fn` / `add_persistence_fn` build this activation from a config
(yuca/ca/continuous.py:427-471, yuca/activations.py).  An unknown name makes the warning
itself raise KeyError (`config['fn']`).  Simplifications: an empty mixture, or a vector where
interval bounds are expected, raises only when called; the model raises here. -/
noncomputable def Act.ofCfg (c : ActCfg) : Except PyErr (Act ℝ) :=
  if c.name = "Gaussian" then do
    return .gaussian (← numD 0 c.mu) (← numD 0.1 c.sigma) c.mode
  else if c.name = "DoGaussian" then do
    return .doGaussian (← numD 0 c.mu) (← numD 0.1 c.sigma) (c.dx.getD 0.01) c.mode
  else if c.name = "DoubleGaussian" then do
    let m ← twoOf c.mu
    let s ← twoOf c.sigma
    return .doubleGaussian m.1 m.2 s.1 s.2 c.mode
  else if c.name = "GaussianMixture" then
    match c.parameters with
    | none => .ok (.mixture [(1, 0.5, 0.15)] c.mode)
    | some (.mat _) => .error .runtime
    | some (.vec ps) =>
      match mixtureComponents 1 ps with
      | .error e => .error e
      | .ok [] => .error .index
      | .ok cs => .ok (.mixture cs c.mode)
  else if c.name = "Polynomial" then
    .ok (.polynomial (c.coefficients.getD [0.1, 0.1, 0.1]) c.mode)
  else if c.name = "ReLU" then .ok .relu
  else if c.name = "Tanh" then .ok .tanh
  else if c.name = "Identity" then .ok .identity
  else if c.name = "SmoothIntervals" then
    match c.parameters with
    | none => .ok (.smoothIntervals [(0.185, 0.375)] (c.alpha.getD 0.0125) c.mode)
    | some (.mat is) => .ok (.smoothIntervals is (c.alpha.getD 0.0125) c.mode)
    | some (.vec []) => .ok (.smoothIntervals [] (c.alpha.getD 0.0125) c.mode)
    | some (.vec _) => .error .index
  else .error .key

/-- `ca_mode` (yuca/ca/continuous.py:56, 294, 402). -/
inductive CAMode where
  | functional
  | neurofunctional
  | other
  deriving DecidableEq

/-- Keyword arguments a `CCA` is instantiated with, also stored under `instant_kwargs`
(yuca/ca/common.py:46-62, yuca/ca/continuous.py:50-63, 79-80, 249-256).  `tag`, `device`,
`use_grad` and `input_filepath` are left out. -/
structure InstantKwargs where
  kernelRadius : Option Nat := none
  kernelPeaks : Option Nat := none
  convMode : Option PadMode := none
  caMode : Option CAMode := none
  ext : Option Nat := none
  int : Option Nat := none
  thr : Option ℝ := none
  caConfig : Option String := none

/-- A CCA config dictionary (yuca/configs.py; yuca/ca/continuous.py:177-258).  `load_config`
reads the key `identity_kernel_config`, `make_config` writes `id_kernel_config`. -/
structure Config where
  instant : Option InstantKwargs := none
  identityKernelConfig : Option KernelCfg := none
  idKernelConfig : Option KernelCfg := none
  neighborhood : KernelCfg
  genesis : ActCfg
  persistence : ActCfg
  dt : Option ℝ := none

/-! ## The object -/

/-- A `CCA` object.  Attributes assigned only in `__init__` (`external_channels`,
`internal_channels`, `conv_mode`, `ca_mode`, `alive_threshold`, `kernel_peaks`) are read from
the stored `instant_kwargs`.  Both convolution layers hold one kernel broadcast to all
channels, remembered separately (`idLayer`, `nbLayer`) from the attributes `id_kernel` and
`neighborhood_kernels`.  `id_kernel_config` is never assigned and stays `None`. -/
structure CCAObj where
  kw : InstantKwargs
  kernelRadius : Nat
  kernelParams : KParams
  idKernel : AnyKernel
  nbKernel : AnyKernel
  idLayer : AnyKernel
  nbLayer : AnyKernel
  genesis : List (Act ℝ)
  persistence : List (Act ℝ)
  /-- the two random weight tensors of the non-functional weight layer
  (yuca/ca/continuous.py:414-424); unused in functional mode -/
  seqWeights : (Nat → Nat → ℝ) × (Nat → Nat → ℝ)
  nbCfg : Option KernelCfg
  genCfg : Option ActCfg
  perCfg : Option ActCfg
  dt : ℝ
  t : ℝ

namespace InstantKwargs

/-- yuca/ca/continuous.py:50, yuca/ca/common.py:48 -/
def radius (k : InstantKwargs) : Nat := k.kernelRadius.getD 13
/-- yuca/ca/common.py:49 -/
def peaks (k : InstantKwargs) : Nat := k.kernelPeaks.getD 3
/-- yuca/ca/continuous.py:59 -/
def extN (k : InstantKwargs) : Nat := k.ext.getD 1
/-- yuca/ca/continuous.py:58 -/
def intN (k : InstantKwargs) : Nat := k.int.getD 1
/-- yuca/ca/continuous.py:53 -/
def mode (k : InstantKwargs) : PadMode := k.convMode.getD .circular
/-- yuca/ca/continuous.py:56 -/
def ca (k : InstantKwargs) : CAMode := k.caMode.getD .functional
/-- yuca/ca/continuous.py:60 -/
noncomputable def threshold (k : InstantKwargs) : ℝ := k.thr.getD 0.1

end InstantKwargs

/-- Everything the step function of a `CCA` object reads. -/
structure CCADyn where
  ext : Nat
  int : Nat
  mode : PadMode
  idLayer : AnyKernel
  nbLayer : AnyKernel
  genesis : List (Act ℝ)
  persistence : List (Act ℝ)
  /-- `none` in functional mode -/
  seqWeights : Option ((Nat → Nat → ℝ) × (Nat → Nat → ℝ))
  thr : ℝ
  dt : ℝ

/-- The part of the object `forward` reads. -/
noncomputable def CCAObj.dynamics (o : CCAObj) : CCADyn where
  ext := o.kw.extN
  int := o.kw.intN
  mode := o.kw.mode
  idLayer := o.idLayer
  nbLayer := o.nbLayer
  genesis := o.genesis
  persistence := o.persistence
  seqWeights := if o.kw.ca = .functional then none else some o.seqWeights
  thr := o.kw.threshold
  dt := o.dt

/-- The automaton of the step model.  Functional weights are `ones / ones.sum()`
(yuca/ca/continuous.py:398-410). -/
noncomputable def CCADyn.toCCA (d : CCADyn) (t : ℝ) : CCA ℝ d.ext d.int where
  idL := .ofKernel d.ext d.int d.mode (2 * d.idLayer.1 + 1) d.idLayer.2
  nbL := .ofKernel d.ext d.int d.mode (2 * d.nbLayer.1 + 1) d.nbLayer.2
  genesis := d.genesis.map Act.eval
  persistence := d.persistence.map Act.eval
  weights := match d.seqWeights with
    | none => .functional fun _ _ => 1 / ((d.ext : ℝ) * d.int)
    | some w => .sequential (fun a b => w.1 a b) (fun a b => w.2 a b)
  thr := d.thr
  dt := d.dt
  t := t

/-- The random numbers drawn by `default_init` for one channel
(yuca/ca/continuous.py:299-346). -/
structure ChannelDraw where
  nMu : ℝ
  nSigma : ℝ
  coinGen : Bool
  coinPer : Bool
  genCoefs : List ℝ
  perCoefs : List ℝ

/-- The random numbers one run of `__init__` draws (yuca/ca/continuous.py:279, 299-346,
414-424). -/
structure Draws where
  kernel : List ℝ
  channel : Nat → ChannelDraw
  seq : (Nat → Nat → ℝ) × (Nat → Nat → ℝ)

/-- `np.clip(x, 0, 1.)`. -/
noncomputable def clip01 (x : ℝ) : ℝ := clampR 0 1 x

/-- The genesis and persistence functions `default_init` gives channel `pp`
(yuca/ca/continuous.py:297-349).  Lines 319-320 clip the *genesis* draws again, so the
persistence draws of 317-318 are discarded. -/
noncomputable def defaultFns (pp : Nat) (d : ChannelDraw) : Act ℝ × Act ℝ :=
  if pp < 8 then
    let genMu := clip01 (0.15 * (1 + d.nMu * 0.1))
    let genSigma := clip01 (0.015 * (1 + d.nSigma * 0.01))
    let perMu := clip01 genMu
    let perSigma := clip01 genSigma
    (if d.coinGen then .gaussian genMu genSigma true else .doGaussian genMu genSigma 0.01 true,
     if d.coinPer then .gaussian perMu perSigma true else .doGaussian perMu perSigma 0.01 true)
  else
    (.polynomial (d.genCoefs.mapIdx fun i c => c / 10 ^ i) false,
     .polynomial (d.perCoefs.mapIdx fun i c => c / 10 ^ i) false)

/-- `CCA.__init__` up to and including `default_init` (yuca/ca/continuous.py:47-77, 267-354).
No external channel makes `initialize_id_layer` divide by zero; no internal channel leaves no
kernel to add. -/
noncomputable def CCAObj.defaultInit (kw : InstantKwargs) (d : Draws) : Except PyErr CCAObj :=
  if kw.extN = 0 then .error .zeroDiv
  else if kw.intN = 0 then .error .runtime
  else do
    let κ ← gaussianMixtureKernel kw.radius d.kernel
    let fns := (List.range kw.intN).map fun pp => defaultFns pp (d.channel pp)
    return {
      kw := kw
      kernelRadius := kw.radius
      kernelParams := .vec d.kernel
      idKernel := ⟨1, identityKernel⟩
      nbKernel := κ
      idLayer := ⟨1, identityKernel⟩
      nbLayer := κ
      genesis := if kw.ca = .other then [] else fns.map (·.1)
      persistence := if kw.ca = .other then [] else fns.map (·.2)
      seqWeights := d.seq
      nbCfg := none
      genCfg := none
      perCfg := none
      dt := 0.1
      t := 0 }

/-- `add_neighborhood_kernel` for a square 4-d kernel (yuca/ca/common.py:144-184): the
attribute only, not the layer. -/
def CCAObj.addNeighborhoodKernel (o : CCAObj) (κ : AnyKernel) : CCAObj := { o with nbKernel := κ }

/-- `initialize_neighborhood_layer` (yuca/ca/common.py:201-220). -/
def CCAObj.initNbLayer (o : CCAObj) : CCAObj := { o with nbLayer := o.nbKernel }

/-- `set_kernel_radius` (yuca/ca/common.py:260-272); item assignment on `None` raises
TypeError. -/
noncomputable def CCAObj.setKernelRadius (o : CCAObj) (r : Nat) : Except PyErr CCAObj :=
  match o.nbCfg with
  | none => .error .type
  | some c => do
    let c' := { c with radius := some r }
    let κ ← c'.kernel
    return ({ o with nbCfg := some c', kernelRadius := r }.addNeighborhoodKernel κ).initNbLayer

/-- The identity kernel a config asks for (yuca/ca/continuous.py:112-116). -/
noncomputable def Config.identityKernel (cfg : Config) : Except PyErr AnyKernel :=
  match cfg.identityKernelConfig with
  | none => .ok ⟨1, Yuca.identityKernel⟩
  | some c => c.kernel

/-- `kernel_config["radius"]`. -/
def KernelCfg.radiusKey (c : KernelCfg) : Except PyErr Nat :=
  match c.radius with
  | none => .error .key
  | some r => .ok r

/-- `if "kernel_kwargs" in kernel_config.keys(): self.update_kernel_params(...)`
(yuca/ca/continuous.py:122-123, yuca/ca/common.py:288-289). -/
def CCAObj.updateParams (o : CCAObj) (c : KernelCfg) : CCAObj :=
  { o with kernelParams := match c.kwargs with
      | some kws => updateKernelParams kws
      | none => o.kernelParams }

/-- `set_kernel_config` (yuca/ca/common.py:285-291). -/
noncomputable def CCAObj.setKernelConfig (o : CCAObj) (c : KernelCfg) : Except PyErr CCAObj := do
  let r ← c.radiusKey
  ({ o with nbCfg := some c }.updateParams c).setKernelRadius r

/-- `load_config` after the `instant_kwargs` branch (yuca/ca/continuous.py:107-144).
`drawW` are the weights the non-functional weight layer is re-initialised with. -/
noncomputable def CCAObj.applyConfig (o : CCAObj) (cfg : Config)
    (drawW : (Nat → Nat → ℝ) × (Nat → Nat → ℝ)) : Except PyErr CCAObj := do
  let idK ← cfg.identityKernel
  let _ ← cfg.neighborhood.kernel
  let o₁ ← { o with genesis := [], persistence := [], idKernel := idK,
                    idLayer := idK }.setKernelConfig cfg.neighborhood
  let g ← Act.ofCfg cfg.genesis
  let p ← Act.ofCfg cfg.persistence
  return { o₁ with genesis := [g], persistence := [p],
                   genCfg := some cfg.genesis, perCfg := some cfg.persistence,
                   dt := cfg.dt.getD 0.1, seqWeights := drawW }

/-- A file system: config files by absolute or relative path. -/
abbrev Files := String → Option Config

/-- The path lookup of `restore_config` (yuca/ca/continuous.py:146-169): newlines are removed,
then the path itself and the path below the default directory are tried. -/
def readConfig (fs : Files) (path : String) : Option Config :=
  let path := String.ofList (path.toList.filter (· ≠ '\n'))
  match fs path with
  | some c => some c
  | none => fs ("ca_configs/" ++ path)

/-- `CCA.__init__` (yuca/ca/continuous.py:47-96) with `restore_config` and `load_config`
(146-173, 102-105) unfolded into it: `fuel` bounds the depth of nested `__init__` calls;
`none` means the bound was reached.  `d 0` are the draws of this call, `d 1` those of the
nested one and so on. -/
noncomputable def CCAObj.init (fs : Files) : Nat → (Nat → Draws) → InstantKwargs →
    Option (Except PyErr CCAObj)
  | 0, _, _ => none
  | fuel + 1, d, kw =>
    match CCAObj.defaultInit kw (d 0) with
    | .error e => some (.error e)
    | .ok o =>
      match kw.caConfig.bind (readConfig fs) with
      | none => some (.ok { o with t := 0 })
      | some cfg =>
        match (match cfg.instant with
          | none => some (Except.ok o)
          | some kw' => CCAObj.init fs fuel (fun n => d (n + 1)) kw') with
        | none => none
        | some (.error e) => some (.error e)
        | some (.ok o') =>
          match o'.applyConfig cfg (d 0).seq with
          | .error e => some (.error e)
          | .ok o'' => some (.ok { o'' with t := 0 })

/-- `load_config` (yuca/ca/continuous.py:102-144). -/
noncomputable def CCAObj.loadConfig (fs : Files) (fuel : Nat) (d : Nat → Draws) (o : CCAObj)
    (cfg : Config) : Option (Except PyErr CCAObj) :=
  match (match cfg.instant with
    | none => some (Except.ok o)
    | some kw => CCAObj.init fs fuel (fun n => d (n + 1)) kw) with
  | none => none
  | some (.error e) => some (.error e)
  | some (.ok o') => some (o'.applyConfig cfg (d 0).seq)

/-- `restore_config` (yuca/ca/continuous.py:146-173): a missing file is only reported on the
console. -/
noncomputable def CCAObj.restoreConfig (fs : Files) (fuel : Nat) (d : Nat → Draws) (o : CCAObj)
    (path : String) : Option (Except PyErr CCAObj) :=
  match readConfig fs path with
  | none => some (.ok o)
  | some cfg => o.loadConfig fs fuel d cfg

/-- The growth config `make_config` writes when none was stored
(yuca/ca/continuous.py:212-214, 228-230). -/
noncomputable def assumedGrowth : ActCfg :=
  { name := "GaussianMixture", parameters := some (.vec [0.15000001, 0.015]), mode := true }

/-- `make_config` (yuca/ca/continuous.py:175-258): the returned copy and the object after the
call, whose stored configs (which are the dictionaries passed to `load_config`) it updates. -/
noncomputable def CCAObj.makeConfig (o : CCAObj) : Config × CCAObj :=
  let nb : KernelCfg := match o.nbCfg with
    | some c => c
    | none =>
      { name := "GaussianMixture", radius := some o.kernelRadius,
        kwargs := match o.kernelParams with
          | .none => some []
          | .scalar x => some [("parameters", .num x)]
          | .vec l => some [("parameters", .vec l)] }
  let gen : ActCfg := match o.genCfg with
    | none => assumedGrowth
    | some c => { c with parameters := some (.vec (readActs o.genesis)) }
  let per : ActCfg := match o.perCfg with
    | none => assumedGrowth
    | some c => { c with parameters := some (.vec (readActs o.persistence)) }
  let kw : InstantKwargs := { o.kw with
    kernelRadius := some o.kernelRadius, kernelPeaks := some o.kw.peaks,
    convMode := some o.kw.mode, ext := some o.kw.extN, int := some o.kw.intN }
  ({ instant := some kw, idKernelConfig := some ⟨"InnerMoore", none, none⟩, neighborhood := nb,
     genesis := gen, persistence := per, dt := some o.dt },
   { o with nbCfg := some nb, genCfg := some gen, perCfg := some per, kw := kw })

/-! ## Parameters of the object -/

/-- `get_params` (yuca/ca/continuous.py:633-641). -/
def CCAObj.getParams (o : CCAObj) : Except PyErr (List ℝ) := do
  let k ← o.kernelParams.ravel
  return readActs o.genesis ++ readActs o.persistence ++ k

/-- `set_params` (yuca/ca/continuous.py:643-686): the object after the call (also when it
raised) and the exception, if any. -/
noncomputable def CCAObj.setParams (o : CCAObj) (v : List ℝ) : CCAObj × Option PyErr :=
  match writeActs o.genesis v with
  | (gs, .error e) => ({ o with genesis := gs }, some e)
  | (gs, .ok v₁) =>
    let o := { o with genesis := gs }
    match writeActs o.persistence v₁ with
    | (ps, .error e) => ({ o with persistence := ps }, some e)
    | (ps, .ok v₂) =>
      let o := { o with persistence := ps }
      match o.kernelParams.len with
      | .error e => (o, some e)
      | .ok n =>
        let o := { o with kernelParams := .vec (v₂.take n) }
        match gaussianMixtureKernel o.kernelRadius (v₂.take n) with
        | .error e => (o, some e)
        | .ok κ => ((o.addNeighborhoodKernel κ).initNbLayer, none)

/-- `Lenia.get_params` (yuca/lenia.py:63-69). -/
def CCAObj.leniaGetParams (o : CCAObj) : List ℝ := readActs o.genesis

/-- `Lenia.set_params` (yuca/lenia.py:71-89). -/
def CCAObj.leniaSetParams (o : CCAObj) (v : List ℝ) : CCAObj × Option PyErr :=
  match writeActs o.genesis v with
  | (gs, .error e) => ({ o with genesis := gs }, some e)
  | (gs, .ok _) => ({ o with genesis := gs }, none)

/-- The loop of `get_elite_configs` (yuca/cmaes.py:661-681): set the parameters of each elite,
then `make_config`.  Stops at the first exception of `set_params`. -/
noncomputable def CCAObj.eliteConfigs (o : CCAObj) : List (List ℝ) → Except PyErr (List Config)
  | [] => .ok []
  | v :: vs =>
    match o.setParams v with
    | (_, some e) => .error e
    | (o', none) => do
      let rest ← o'.makeConfig.2.eliteConfigs vs
      return o'.makeConfig.1 :: rest

/-! ## Built-in configs -/

/-- `torch.tensor(get_smooth_interval(rules))` (yuca/configs.py:6-15, 85, 90): a matrix, but
the empty tensor for an empty list. -/
noncomputable def intervalTensor (rules : List Nat) : ParamVal :=
  match rules with
  | [] => .vec []
  | _ => .mat (smoothInterval rules)

/-- `get_life_like_config` (yuca/configs.py:68-99). -/
noncomputable def lifeLikeConfig (radius : Nat) (birth survival : List Nat) : Config where
  neighborhood := ⟨"MooreLike", some radius, none⟩
  genesis := { name := "SmoothIntervals", parameters := some (intervalTensor birth), mode := true }
  persistence :=
    { name := "SmoothIntervals", parameters := some (intervalTensor survival), mode := true }
  dt := some 1

/-- `get_smooth_life_config` with its default intervals (yuca/configs.py:17-66). -/
noncomputable def smoothLifeConfig (radius : Nat) : Config where
  identityKernelConfig :=
    some ⟨"SmoothLifeKernel", some radius, some [("r_a", .num (1/3)), ("r_i", .num 0)]⟩
  neighborhood :=
    ⟨"SmoothLifeKernel", some radius, some [("r_a", .num 1.05), ("r_i", .num (1/3))]⟩
  genesis := { name := "SmoothIntervals", parameters := some (.mat [(0.278, 0.365)]),
               alpha := some 0.028, mode := true }
  persistence := { name := "SmoothIntervals", parameters := some (.mat [(0.267, 0.445)]),
                   alpha := some 0.147, mode := true }
  dt := some 1

/-- `get_orbium_config` (yuca/configs.py:101-119). -/
noncomputable def orbiumConfig (radius : Nat) : Config where
  neighborhood := ⟨"Gaussian", some radius, some [("mu", .num 0.5), ("sigma", .num 0.15)]⟩
  genesis := { name := "GaussianMixture", parameters := some (.vec [0.15, 0.015]), mode := true }
  persistence :=
    { name := "GaussianMixture", parameters := some (.vec [0.15, 0.015]), mode := true }

/-- `get_geminium_config` (yuca/configs.py:121-144). -/
noncomputable def geminiumConfig (radius : Nat) : Config where
  neighborhood := ⟨"GaussianMixture", some radius, some [("parameters", .vec
    [0.5, 0.093809, 0.033, 1.0, 0.28143, 0.033, 2/3, 0.46904, 0.033])]⟩
  genesis := { name := "GaussianMixture", parameters := some (.vec [0.26, 0.036]), mode := true }
  persistence :=
    { name := "GaussianMixture", parameters := some (.vec [0.26, 0.036]), mode := true }

/-! ## RxnDfn objects -/

/-- A `RxnDfn` config dictionary (yuca/ca/reaction_diffusion.py:76-125, 156-193).  Values are
numbers or one-element tensors, both read as numbers. -/
structure RxnConfig where
  identityKernelConfig : Option KernelCfg := none
  idKernelConfig : Option KernelCfg := none
  neighborhood : KernelCfg
  dt : Option ℝ := none
  dx : Option ℝ := none
  decayRate : Option ℝ := none
  feedRate : Option ℝ := none
  diffusionU : Option ℝ := none
  diffusionV : Option ℝ := none
  params : Option (List ℝ) := none

/-- A `RxnDfn` object (yuca/ca/reaction_diffusion.py:20-38, 202-238).  The keyword arguments
are not passed on, so `conv_mode` is always circular. -/
structure RxnObj where
  kernelRadius : Nat
  idLayer : AnyKernel
  nbLayer : AnyKernel
  nbCfg : KernelCfg
  diffU : ℝ
  diffV : ℝ
  f : ℝ
  k : ℝ
  dx : ℝ
  dt : ℝ
  t : ℝ

/-- The automaton of the step model. -/
noncomputable def RxnObj.toRxn (o : RxnObj) : RxnDfn ℝ where
  idL := .ofKernel 2 2 .circular (2 * o.idLayer.1 + 1) o.idLayer.2
  nbL := .ofKernel 2 2 .circular (2 * o.nbLayer.1 + 1) o.nbLayer.2
  diffU := o.diffU
  diffV := o.diffV
  f := o.f
  k := o.k
  dx := o.dx
  dt := o.dt
  t := o.t

/-- `RxnDfn.get_params` (yuca/ca/reaction_diffusion.py:378-385). -/
def RxnObj.getParams (o : RxnObj) : List ℝ := [o.diffU, o.diffV, o.f, o.k]

/-- `RxnDfn.set_params` (yuca/ca/reaction_diffusion.py:387-400): a missing entry raises
IndexError after the earlier ones were assigned. -/
def RxnObj.setParams (o : RxnObj) (v : List ℝ) : RxnObj × Option PyErr :=
  match v with
  | [] => (o, some .index)
  | [a] => ({ o with diffU := a }, some .index)
  | [a, b] => ({ o with diffU := a, diffV := b }, some .index)
  | [a, b, c] => ({ o with diffU := a, diffV := b, f := c }, some .index)
  | a :: b :: c :: d :: _ => ({ o with diffU := a, diffV := b, f := c, k := d }, none)

/-- The identity kernel a config asks for (yuca/ca/reaction_diffusion.py:80-84). -/
noncomputable def RxnConfig.identityKernel (cfg : RxnConfig) : Except PyErr AnyKernel :=
  match cfg.identityKernelConfig with
  | none => .ok ⟨1, Yuca.identityKernel⟩
  | some c => c.kernel

/-- `RxnDfn.load_config` (yuca/ca/reaction_diffusion.py:76-125). -/
noncomputable def RxnObj.loadConfig (o : RxnObj) (cfg : RxnConfig) : Except PyErr RxnObj := do
  let idK ← cfg.identityKernel
  let κ ← cfg.neighborhood.kernel
  let o := { o with
    idLayer := idK, nbLayer := κ, nbCfg := cfg.neighborhood
    dt := cfg.dt.getD 0.5, dx := cfg.dx.getD (1/330), k := cfg.decayRate.getD 0.00609
    f := cfg.feedRate.getD 0.00620, diffU := cfg.diffusionU.getD 2e-5
    diffV := cfg.diffusionV.getD 1e-5 }
  match cfg.params with
  | none => .error .key
  | some v => match o.setParams v with
    | (_, some e) => .error e
    | (o', none) => .ok o'

/-- `RxnDfn.make_config` (yuca/ca/reaction_diffusion.py:156-193); `id_kernel_config` is never
assigned, `neighborhood_kernel_config` always is (205). -/
def RxnObj.makeConfig (o : RxnObj) : RxnConfig where
  idKernelConfig := some ⟨"InnerMoore", none, none⟩
  neighborhood := o.nbCfg
  dt := some o.dt
  dx := some o.dx
  decayRate := some o.k
  feedRate := some o.f
  diffusionU := some o.diffU
  diffusionV := some o.diffV
  params := some o.getParams

/-- `RxnDfn.set_kernel_radius`: inherited (yuca/ca/common.py:260-272). -/
noncomputable def RxnObj.setKernelRadius (o : RxnObj) (r : Nat) : Except PyErr RxnObj := do
  let c := { o.nbCfg with radius := some r }
  let κ ← c.kernel
  return { o with nbCfg := c, nbLayer := κ, kernelRadius := r }

/-! ## NCA objects -/

/-- An `NCA` object: the tensors of `weights_layer.named_parameters()`, the kernel and its
parameters (yuca/ca/neural.py:59-132, 265-291, 326-366).  Identity layer, activation and
sizes are as for `NCA` of the step model and left out here. -/
structure NCAObj where
  tensors : List (List ℝ)
  kernelRadius : Nat
  kernelPeaks : Nat
  kernelParams : KParams
  nbKernel : AnyKernel
  nbLayer : AnyKernel
  nbCfg : Option KernelCfg
  dt : ℝ

/-- `NCA.get_params` (yuca/ca/neural.py:326-337). -/
def NCAObj.getParams (o : NCAObj) : List ℝ :=
  readTensors o.tensors ++ match o.kernelParams with
    | .none => []
    | .scalar x => [x]
    | .vec l => l

/-- `NCA.set_params` (yuca/ca/neural.py:339-366). -/
noncomputable def NCAObj.setParams (o : NCAObj) (v : List ℝ) : NCAObj × Option PyErr :=
  match writeTensors o.tensors v with
  | (ts, .error e) => ({ o with tensors := ts }, some e)
  | (ts, .ok rest) =>
    let o := { o with tensors := ts }
    match o.kernelParams with
    | .none => (o, none)
    | .scalar _ => (o, some .index)
    | .vec l =>
      let o := { o with kernelParams := .vec (rest.take l.length) }
      match gaussianMixtureKernel o.kernelRadius (rest.take l.length) with
      | .error e => (o, some e)
      | .ok κ => ({ o with nbKernel := κ, nbLayer := κ }, none)

/-- `NCA.set_kernel_config` (yuca/ca/neural.py:124-132): the layer is not re-initialised. -/
noncomputable def NCAObj.setKernelConfig (o : NCAObj) (c : KernelCfg) : Except PyErr NCAObj :=
  match c.radius with
  | none => .error .key
  | some r => do
    let κ ← c.kernel
    return { o with
      nbCfg := some c, kernelRadius := r
      kernelParams := match c.kwargs with
        | some kws => updateKernelParams kws
        | none => o.kernelParams
      nbKernel := κ }

/-- The part of an NCA config that concerns parameters and kernel
(yuca/ca/neural.py:134-173, 204-256). -/
structure NCAConfig where
  neighborhood : KernelCfg
  params : List ℝ
  dt : Option ℝ

/-- `params[-n:]` (Python slice; `-0` is `0`). -/
def lastN {K : Type} (n : Nat) (l : List K) : List K := if n = 0 then l else l.drop (l.length - n)

/-- `NCA.make_config` (yuca/ca/neural.py:204-256). -/
def NCAObj.makeConfig (o : NCAObj) : NCAConfig × NCAObj :=
  let nb : KernelCfg := match o.nbCfg with
    | some c => c
    | none =>
      { name := "GaussianMixture", radius := some o.kernelRadius,
        kwargs := some [("parameters", .vec (lastN (o.kernelPeaks * 3) o.getParams))] }
  ({ neighborhood := nb, params := o.getParams, dt := some o.dt }, { o with nbCfg := some nb })

/-- `NCA.load_config` (yuca/ca/neural.py:134-173) into an object freshly initialised from the
config's `instant_kwargs`; `fresh` are the new random weight tensors of
`initialize_weight_layer` (same shapes). -/
noncomputable def NCAObj.loadConfig (o : NCAObj) (fresh : List (List ℝ)) (cfg : NCAConfig) :
    NCAObj × Option PyErr :=
  match cfg.neighborhood.radius with
  | none => (o, some .key)
  | some r =>
    match cfg.neighborhood.kernel with
    | .error e => (o, some e)
    | .ok κ =>
      NCAObj.setParams
        { o with
          nbCfg := some { cfg.neighborhood with kwargs := some (cfg.neighborhood.kwargs.getD []) }
          kernelRadius := r
          kernelParams := updateKernelParams (cfg.neighborhood.kwargs.getD [])
          nbKernel := κ, nbLayer := κ, dt := cfg.dt.getD 0.1, tensors := fresh }
        cfg.params

/-! ## Pattern and parameter agents -/

/-- `ParamsAgent` (yuca/params_agent.py:11-61). -/
structure ParamsAgent (K : Type) where
  params : List K
  filter : Bool

/-- `np.clip(np.abs(x), 0.0001, 1.0)` (yuca/params_agent.py:53-58). -/
noncomputable def ParamsAgent.fil (x : ℝ) : ℝ := clampR 0.0001 1 |x|

/-- `ParamsAgent.set_params` (yuca/params_agent.py:49-61), for a filter `fil`. -/
def ParamsAgent.setParams {K : Type} (fil : K → K) (a : ParamsAgent K) (v : List K) :
    ParamsAgent K := { a with params := if a.filter then v.map fil else v }

/-- `CPPNPlus`: the tensors of the pattern network and a parameter agent, which it never asks
to filter (yuca/cppn.py:208-264); `CPPN` is the first component. -/
structure CPPNPlus (K : Type) where
  tensors : List (List K)
  agent : ParamsAgent K

/-- `CPPNPlus.get_params` (yuca/cppn.py:238-244). -/
def CPPNPlus.getParams {K : Type} (c : CPPNPlus K) : List K :=
  readTensors c.tensors ++ c.agent.params

/-- `CPPNPlus.set_params` (yuca/cppn.py:246-264). -/
def CPPNPlus.setParams {K : Type} (fil : K → K) (c : CPPNPlus K) (v : List K) :
    CPPNPlus K × Option PyErr :=
  match writeTensors c.tensors v with
  | (ts, .error e) => ({ c with tensors := ts }, some e)
  | (ts, .ok rest) => ({ c with tensors := ts, agent := c.agent.setParams fil rest }, none)

end Yuca
