import Verif.Model.Evolve
import Verif.Model.Neural
import Verif.Model.Cmaes

/-!
# From the command line to a search

Which numbers an experiment started with `python evolve.py ...` runs with: the options
(yuca/evolve.py:153-213), the constructors of the automata (yuca/ca/), of the wrappers
(yuca/wrappers/) and of `CMAES` (yuca/cmaes.py:27-110), all of which take what they need out of one
dictionary of keyword arguments with `query_kwargs` (yuca/utils.py:24-26).
-/

namespace Yuca

/-- The options of yuca/evolve.py:153-211 with their defaults.  `conv_mode` is one of the four names
torch accepts.  `seed` is a list here: the default 13 is wrapped in one at yuca/cmaes.py:33-34. -/
structure Options where
  activation : Str := "Gaussian".toList
  batchSize : Nat := 64
  caSteps : Nat := 1024
  caFn : Str := "CCA".toList
  caConfig : Option String := none
  internal : Nat := 1
  device : Str := "cpu".toList
  dt : ℝ := 0.3
  dtype : Str := "float32".toList
  selectionMode : Nat := 0
  envFn : Str := "HaltingWrapper".toList
  generations : Nat := 32
  hidden : Nat := 16
  inputFilepath : Option String := none
  kernelRadius : Nat := 13
  kernelPeaks : Nat := 3
  replicates : Nat := 1
  dim : Nat := 128
  populationSize : Nat := 32
  predictionMode : Nat := 0
  seed : List Nat := [13]
  tag : Str := "pattern_search".toList
  convMode : PadMode := .circular
  workers : Nat := 0
  external : Nat := 1

/-- The arguments `evolve` itself looks at. -/
def Options.args (o : Options) : EvolveArgs where
  tag := o.tag
  caFn := o.caFn
  envFn := o.envFn
  dtype := o.dtype
  hidden := some o.hidden
  external := o.external

/-! ## Files -/

/-- A config file of a `CCA`, with the log its `instant_kwargs` name (they are the keyword arguments
of the saved automaton, yuca/ca/common.py:46, yuca/ca/continuous.py:249). -/
structure SavedCfg where
  config : Config
  input : Option String

/-- The keyword arguments `NCA.__init__` reads (yuca/ca/neural.py:59-82, yuca/ca/common.py:48-62);
`dropout_rate` plays no part in an evaluation. -/
structure NCAKwargs where
  radius : Nat
  peaks : Nat
  mode : PadMode
  ext : Nat
  int : Nat
  hidden : Nat
  act : ActKind
  caConfig : Option String

/-- A config file of an `NCA`. -/
structure NCASaved where
  config : NCAConfig
  instant : Option NCAKwargs

/-- The files the constructors read: configs, as the `load_config` of each class sees them, and logs,
of which only `elite_params` matters: a list of arrays of parameter vectors. -/
structure Disk where
  cca : String → Option SavedCfg
  rxn : String → Option RxnConfig
  nca : String → Option NCASaved
  logs : String → Option (List (List (List ℝ)))

/-- The lookup of `restore_config` (yuca/ca/continuous.py:146-169, yuca/ca/neural.py:175-199,
yuca/ca/reaction_diffusion.py:127-151). -/
def lookCfg {α : Type} (fs : String → Option α) (path : String) : Option α :=
  let path := String.ofList (path.toList.filter (· ≠ '\n'))
  match fs path with
  | some c => some c
  | none => fs ("ca_configs/" ++ path)

/-- `np.load(path)["elite_params"][-1][0]` (yuca/ca/continuous.py:87-89,
yuca/wrappers/glider_wrapper.py:38-39). -/
def Disk.elite (disk : Disk) (path : String) : Except PyErr (List ℝ) :=
  match disk.logs path with
  | none => .error .notFound
  | some es =>
    match es.getLast? with
    | none => .error .index
    | some rows =>
      match rows.head? with
      | none => .error .index
      | some v => .ok v

/-- The next action of a computation that may run out of fuel or raise. -/
def andThen {α β : Type} (x : Option (Except PyErr α)) (f : α → Option (Except PyErr β)) :
    Option (Except PyErr β) :=
  match x with
  | none => none
  | some (.error e) => some (.error e)
  | some (.ok a) => f a

/-! ## CCA and its subclasses -/

/-- A `CCA` object and the `input_filepath` among its `instant_kwargs`. -/
structure BuiltCCA where
  obj : CCAObj
  input : Option String

/-- `set_params` of `CCA` or, overridden, of `Lenia`. -/
noncomputable def CCAObj.setParamsAs (lenia : Bool) (o : CCAObj) (v : List ℝ) :
    Except PyErr CCAObj :=
  match if lenia then o.leniaSetParams v else o.setParams v with
  | (_, some e) => .error e
  | (o', none) => .ok o'

/-- `if self.input_filepath is not None` (yuca/ca/continuous.py:83-91). -/
noncomputable def CCAObj.loadLog (disk : Disk) (lenia : Bool) (o : CCAObj) (input : Option String) :
    Except PyErr CCAObj :=
  match input with
  | none => .ok o
  | some p => do
    let v ← disk.elite p
    o.setParamsAs lenia v

/-- `restore_config` and `load_config` (yuca/ca/continuous.py:102-173); `again` is
`self.__init__(**config["instant_kwargs"])`, `w` are the weights drawn for the non-functional
weight layer. -/
noncomputable def BuiltCCA.restore (again : InstantKwargs → Option String →
      Option (Except PyErr BuiltCCA))
    (disk : Disk) (w : (Nat → Nat → ℝ) × (Nat → Nat → ℝ)) (b : BuiltCCA) (path : String) :
    Option (Except PyErr BuiltCCA) :=
  match lookCfg disk.cca path with
  | none => some (.ok b)
  | some s =>
    andThen (match s.config.instant with
      | none => some (.ok b)
      | some kw => again kw s.input) fun b' =>
    some ((b'.obj.applyConfig s.config w).map fun o => { b' with obj := o })

/-- `CCA.__init__` (yuca/ca/continuous.py:47-96).  As `CCAObj.init`, but with `input_filepath`: the
log named by the arguments of this call is loaded after the config has been restored, while the
stored `instant_kwargs` are those of the last nested call. -/
noncomputable def ccaInit (disk : Disk) (lenia : Bool) : Nat → (Nat → Draws) → InstantKwargs →
    Option String → Option (Except PyErr BuiltCCA)
  | 0, _, _, _ => none
  | fuel + 1, d, kw, input =>
    match CCAObj.defaultInit kw (d 0) with
    | .error e => some (.error e)
    | .ok o =>
      andThen (match kw.caConfig with
        | none => some (.ok ⟨o, input⟩)
        | some path => BuiltCCA.restore (fun kw' input' =>
            ccaInit disk lenia fuel (fun n => d (n + 1)) kw' input') disk (d 0).seq ⟨o, input⟩ path)
        fun b => some ((b.obj.loadLog disk lenia input).map fun o' => { b with obj := { o' with t := 0 } })

/-- What `save_config` writes (yuca/ca/continuous.py:175-265): `instant_kwargs` is the dictionary of
all keyword arguments, `input_filepath` among them. -/
noncomputable def BuiltCCA.save (b : BuiltCCA) : SavedCfg where
  config := b.obj.makeConfig.1
  input := b.input

/-! ## RxnDfn -/

/-- `RxnDfn.__init__` (yuca/ca/reaction_diffusion.py:22-38, 202-238), which does not use its keyword
arguments. -/
noncomputable def RxnObj.new : RxnObj where
  kernelRadius := 1
  idLayer := ⟨1, identityKernel⟩
  nbLayer := ⟨1, logKernel (r := 1) 0.5 (radialGrid 1)⟩
  nbCfg := ⟨"LaplacianOfGaussian", some 1, some [("sigma", .num 0.5)]⟩
  diffU := 2e-5
  diffV := 1e-5
  f := 0.0620
  k := 0.0609
  dx := 1 / 330
  dt := 0.5
  t := 0

/-- `RxnDfn.restore_config` (yuca/ca/reaction_diffusion.py:127-154). -/
noncomputable def RxnObj.restore (disk : Disk) (o : RxnObj) (path : String) : Except PyErr RxnObj :=
  match lookCfg disk.rxn path with
  | none => .ok o
  | some cfg => o.loadConfig cfg

/-! ## NCA -/

/-- An `NCA` object; `none` if it has no layers yet. -/
structure BuiltNCA where
  kw : NCAKwargs
  obj : Option NCAObj

/-- The attributes of an `NCA` without layers (yuca/ca/common.py:43-77); the kernels do not exist
and have a value nobody reads. -/
noncomputable def NCAObj.bare (kw : NCAKwargs) : NCAObj where
  tensors := []
  kernelRadius := kw.radius
  kernelPeaks := kw.peaks
  kernelParams := .none
  nbKernel := ⟨1, identityKernel⟩
  nbLayer := ⟨1, identityKernel⟩
  nbCfg := none
  dt := 0.1

/-- The weights torch draws for the three layers of a new network. -/
abbrev NCADraws := List ℝ × List ℝ × List ℝ

/-- `NCA.restore_config` and `load_config` (yuca/ca/neural.py:134-202). -/
noncomputable def BuiltNCA.restore (again : NCAKwargs → Option (Except PyErr BuiltNCA)) (disk : Disk)
    (w : NCADraws) (b : BuiltNCA) (path : String) : Option (Except PyErr BuiltNCA) :=
  match lookCfg disk.nca path with
  | none => some (.ok b)
  | some s =>
    andThen (match s.instant with
      | none => some (.ok b)
      | some kw => again kw) fun b' =>
    match NCAObj.loadConfig (b'.obj.getD (.bare b'.kw)) (initialTensors b'.kw.act w.1 w.2.1 w.2.2)
        s.config with
    | (_, some e) => some (.error e)
    | (o, none) => some (.ok { b' with obj := some o })

/-- `NCA.__init__` (yuca/ca/neural.py:59-82): with a `ca_config` there is no `default_init`. -/
noncomputable def ncaInit (disk : Disk) : Nat → (Nat → NCADraws) → NCAKwargs →
    Option (Except PyErr BuiltNCA)
  | 0, _, _ => none
  | fuel + 1, d, kw =>
    match kw.caConfig with
    | none => some ((NCAObj.defaultInit kw.act kw.radius kw.peaks (d 0).1 (d 0).2.1 (d 0).2.2).map
        fun o => ⟨kw, some o⟩)
    | some path => BuiltNCA.restore (fun kw' => ncaInit disk fuel (fun n => d (n + 1)) kw') disk (d 0)
        ⟨kw, none⟩ path

/-! ## Any automaton -/

/-- An automaton of one of the classes. -/
inductive BuiltCA where
  | cca (b : BuiltCCA)
  | rxn (o : RxnObj)
  | nca (b : BuiltNCA)

/-- The random numbers: those of the constructor and those of a second `restore_config`. -/
structure AllDraws where
  cca : Nat → Draws
  cca' : Nat → Draws
  nca : Nat → NCADraws
  nca' : Nat → NCADraws

/-- The step settings of the subclasses that do not use `dt` as it is (yuca/metaca.py:50,
yuca/code.py:47-51, yuca/random_step_ca.py:47-50).  `CODE` asks for `prev_dt`, `max_dt`, `min_dt`,
`error_threshold` and `static_dt`, which no option sets. -/
inductive Stepper where
  | fixed
  | momentum (ddt : ℝ)
  | adaptive (prev max min err static : ℝ)
  | random (prev max min err : ℝ)

/-- The step settings of a class. -/
noncomputable def stepperOf : CaClass → Stepper
  | .metaCA => .momentum 0.25
  | .code => .adaptive 0.3 0.5 0.01 1e-3 1.0
  | .randomStepCA => .random 0.3 0.25 0.05 1e-3
  | _ => .fixed

/-- Whether the class overrides `set_params` (yuca/lenia.py:63-89). -/
def CaClass.isLenia : CaClass → Bool
  | .lenia => true
  | _ => false

/-- The keyword arguments a `CCA` takes from the options (yuca/ca/continuous.py:50-63, 79-81);
`ca_mode` and `alive_threshold` are not among the options. -/
def Options.instant (o : Options) (ext : Nat) : InstantKwargs where
  kernelRadius := some o.kernelRadius
  kernelPeaks := some o.kernelPeaks
  convMode := some o.convMode
  ext := some ext
  int := some o.internal
  caConfig := o.caConfig

/-- The keyword arguments an `NCA` takes from the options. -/
def Options.ncaKwargs (o : Options) (ext hidden : Nat) : NCAKwargs where
  radius := o.kernelRadius
  peaks := o.kernelPeaks
  mode := o.convMode
  ext := ext
  int := o.internal
  hidden := hidden
  act := chooseAct (some o.activation)
  caConfig := o.caConfig

/-- `self.ca = ca_fn(**kwargs)` (yuca/wrappers/halting_wrapper.py:18-20, 121-122,
yuca/wrappers/glider_wrapper.py:21-23); `ext` and `hidden` may have been changed by `evolve`. -/
noncomputable def construct (disk : Disk) (fuel : Nat) (d : AllDraws) (cls : CaClass) (o : Options)
    (ext hidden : Nat) : Option (Except PyErr BuiltCA) :=
  match cls with
  | .rxnDfn => some (.ok (.rxn .new))
  | .nca => (ncaInit disk fuel d.nca (o.ncaKwargs ext hidden)).map fun r => r.map .nca
  | cls => (ccaInit disk cls.isLenia fuel d.cca (o.instant ext) o.inputFilepath).map
      fun r => r.map .cca

/-- `self.ca.restore_config(self.ca_config)` of a wrapper. -/
noncomputable def BuiltCA.restore (disk : Disk) (fuel : Nat) (d : AllDraws) (cls : CaClass)
    (ca : BuiltCA) (path : String) : Option (Except PyErr BuiltCA) :=
  match ca with
  | .cca b => (BuiltCCA.restore (fun kw input => ccaInit disk cls.isLenia fuel (fun n => d.cca' (n + 1))
      kw input) disk (d.cca' 0).seq b path).map fun r => r.map .cca
  | .rxn o => some ((o.restore disk path).map .rxn)
  | .nca b => (BuiltNCA.restore (fun kw => ncaInit disk fuel (fun n => d.nca' (n + 1)) kw) disk
      (d.nca' 0) b path).map fun r => r.map .nca

/-- `set_params` of any automaton; an `NCA` without layers has no `weights_layer`. -/
noncomputable def BuiltCA.setParams (cls : CaClass) (ca : BuiltCA) (v : List ℝ) :
    Except PyErr BuiltCA :=
  match ca with
  | .cca b => (b.obj.setParamsAs cls.isLenia v).map fun o => .cca { b with obj := o }
  | .rxn o => match o.setParams v with
    | (_, some e) => .error e
    | (o', none) => .ok (.rxn o')
  | .nca b => match b.obj with
    | none => .error .attribute
    | some o => match o.setParams v with
      | (_, some e) => .error e
      | (o', none) => .ok (.nca { b with obj := some o' })

/-- `get_params` of any automaton. -/
noncomputable def BuiltCA.getParams (cls : CaClass) : BuiltCA → Except PyErr (List ℝ)
  | .cca b => if cls.isLenia then .ok b.obj.leniaGetParams else b.obj.getParams
  | .rxn o => .ok o.getParams
  | .nca b => match b.obj with
    | none => .error .attribute
    | some o => .ok o.getParams

/-- `ca.external_channels`. -/
def BuiltCA.ext : BuiltCA → Nat
  | .cca b => b.obj.kw.extN
  | .rxn _ => 2
  | .nca b => b.kw.ext

/-! ## Wrappers -/

/-- What the constructor of a wrapper does with its automaton: `HaltingWrapper` restores the config
once more (yuca/wrappers/halting_wrapper.py:139-142), `GliderWrapper` restores the config or else
sets the parameters from the log (yuca/wrappers/glider_wrapper.py:32-45), the other two do nothing.
All but the last ask for the parameters (yuca/wrappers/halting_wrapper.py:32-33, 144-145). -/
noncomputable def wrap (disk : Disk) (fuel : Nat) (d : AllDraws) (cls : CaClass) (env : EnvClass)
    (o : Options) (ca : BuiltCA) : Option (Except PyErr BuiltCA) :=
  let asked (ca : BuiltCA) : Option (Except PyErr BuiltCA) :=
    some ((ca.getParams cls).map fun _ => ca)
  match env with
  | .simpleHalting => asked ca
  | .random => asked ca
  | .halting =>
    andThen (match o.caConfig with
      | none => some (.ok ca)
      | some path => ca.restore disk fuel d cls path) asked
  | .glider =>
    match o.caConfig, o.inputFilepath with
    | some path, _ => ca.restore disk fuel d cls path
    | none, some p => some do
        let v ← disk.elite p
        ca.setParams cls v
    | none, none => some (.ok ca)

/-! ## The search -/

/-- The number of parameters of a `CPPN` (yuca/cppn.py:42-50, 165-172): four linear layers with bias,
each followed by a Gaussian with two parameters. -/
def cppnSize (ext hidden : Nat) : Nat :=
  (16 * ext * hidden + hidden + 2) + (hidden * hidden + hidden + 2) + (hidden * hidden + hidden + 2) +
    (hidden * ext + ext + 2)

/-- What a `CMAES` object is set up with (yuca/cmaes.py:27-110), without the device. -/
structure Experiment where
  kind : SearchKind
  cls : CaClass
  env : EnvClass
  float64 : Bool
  ca : BuiltCA
  stepper : Stepper
  workers : Nat
  tag : Str
  seeds : List Nat
  dim : Nat
  caSteps : Nat
  replicates : Nat
  batchSize : Nat
  populationSize : Nat
  eliteKeep : Nat
  generations : Nat
  selectionMode : Nat
  /-- what the predictor of `HaltingWrapper` has to predict -/
  predicts : Option Nat
  /-- `prediction_mode` as printed and as part of the names of gifs -/
  immode : Nat
  /-- `starting_means.shape[0]` -/
  numParams : Nat
  /-- the channels of the agents made by `initialize_population` -/
  agentExt : Nat
  /-- the log the population is started from -/
  input : Option String

/-- `starting_means.shape[0]` (yuca/cmaes.py:64-76): a first agent is made with the
`external_channels` of the options in a search for patterns and with those of the automaton
otherwise. -/
noncomputable def startSize (kind : SearchKind) (cls : CaClass) (optExt : Nat) (ca : BuiltCA) :
    Except PyErr Nat :=
  match kind with
  | .pattern => .ok (cppnSize optExt 16)
  | .coevo => do
    let p ← ca.getParams cls
    return cppnSize ca.ext 16 + p.length
  | .universe_ => do
    let p ← ca.getParams cls
    return p.length

/-- `evolve(**kwargs)` up to `population.search()` (yuca/evolve.py:26-147, yuca/cmaes.py:27-110). -/
noncomputable def setup (disk : Disk) (fuel : Nat) (d : AllDraws) (o : Options) :
    Option (Except PyErr Experiment) :=
  match evolve o.args with
  | .error e => some (.error e)
  | .ok plan =>
    andThen (construct disk fuel d plan.ca o plan.external (plan.hidden.getD 0)) fun ca₀ =>
    andThen (wrap disk fuel d plan.ca plan.env o ca₀) fun ca =>
    match startSize plan.kind plan.ca plan.external ca with
    | .error e => some (.error e)
    | .ok n => some (.ok {
        kind := plan.kind, cls := plan.ca, env := plan.env, float64 := plan.float64
        ca := ca, stepper := stepperOf plan.ca
        workers := o.workers, tag := o.tag, seeds := o.seed, dim := o.dim, caSteps := o.caSteps
        replicates := o.replicates, batchSize := o.batchSize
        populationSize := o.populationSize, eliteKeep := eliteKeep o.populationSize
        generations := o.generations, selectionMode := o.selectionMode
        predicts := match plan.env with
          | .halting => some o.predictionMode
          | _ => none
        immode := o.predictionMode
        numParams := n, agentExt := ca.ext, input := o.inputFilepath })

/-- The length of `get_params()` of the agents of the population (yuca/cmaes.py:124-149): a `CPPN`
has the parameters of its network, whatever vector it is given; a `ParamsAgent` keeps the vector; a
`CPPNPlus` has its network and what is left of the vector (yuca/cppn.py:214-219). -/
def Experiment.agentSize (x : Experiment) : Nat :=
  match x.kind with
  | .pattern => cppnSize x.agentExt 16
  | .coevo => cppnSize x.agentExt 16 + (x.numParams - cppnSize x.agentExt 16)
  | .universe_ => x.numParams

/-- The length of the last axis of `elite_params - self.means` (yuca/cmaes.py:213, 307), arrays of
shapes `(elite_keep, p)` and `(q,)`, by numpy's rule for different lengths. -/
def subtractLast (p q : Nat) : Except PyErr Nat :=
  if p = q then .ok p else if p = 1 then .ok q else if q = 1 then .ok p else .error .value

/-- The covariance of the first generation. -/
def Experiment.firstCovar (x : Experiment) : Except PyErr Nat := subtractLast x.agentSize x.numParams

end Yuca
