import Verif.Model.Options
import Verif.Model.Zoo

/-!
# The config files of `ca_configs/`

The files are pickled dictionaries; this file writes down their entries.  A number of 64 (32) bits is
written as the shortest decimal that is read back as it; `1 / 3` and `2 / 3` stand for the 64-bit
numbers next to them.
-/

namespace Yuca

/-! ## Any config file, loaded into any automaton -/

/-- The entries the three `load_config` look at (yuca/ca/continuous.py:102-144,
yuca/ca/neural.py:134-173, yuca/ca/reaction_diffusion.py:76-125).  No stored file lacks a
`neighborhood_kernel_config`. -/
structure RawConfig where
  instant : Option NCAKwargs := none
  identityKernelConfig : Option KernelCfg := none
  idKernelConfig : Option KernelCfg := none
  neighborhood : KernelCfg
  genesis : Option ActCfg := none
  persistence : Option ActCfg := none
  params : Option (List ℝ) := none
  dt : Option ℝ := none
  dx : Option ℝ := none
  decayRate : Option ℝ := none
  feedRate : Option ℝ := none
  diffusionU : Option ℝ := none
  diffusionV : Option ℝ := none

/-- `config["key"]`. -/
def entry {α : Type} : Option α → Except PyErr α
  | none => .error .key
  | some a => .ok a

/-- yuca/ca/continuous.py:112-116, yuca/ca/neural.py:142-146,
yuca/ca/reaction_diffusion.py:80-84 -/
noncomputable def RawConfig.identityKernel (c : RawConfig) : Except PyErr AnyKernel :=
  match c.identityKernelConfig with
  | none => .ok ⟨1, Yuca.identityKernel⟩
  | some k => k.kernel

/-- The `instant_kwargs` of an `NCA` as a `CCA` reads them (yuca/ca/continuous.py:47-63,
yuca/ca/common.py:46-62): it has no use for `hidden_channels`, `activation` and `dropout_rate`. -/
def NCAKwargs.asCCA (kw : NCAKwargs) : InstantKwargs where
  kernelRadius := some kw.radius
  kernelPeaks := some kw.peaks
  convMode := some kw.mode
  ext := some kw.ext
  int := some kw.int
  caConfig := kw.caConfig

/-- `CCA.load_config` after the `instant_kwargs` branch (yuca/ca/continuous.py:107-144), as
`CCAObj.applyConfig`, where growth functions may be missing. -/
noncomputable def CCAObj.applyRaw (o : CCAObj) (c : RawConfig)
    (drawW : (Nat → Nat → ℝ) × (Nat → Nat → ℝ)) : Except PyErr CCAObj := do
  let idK ← c.identityKernel
  let _ ← c.neighborhood.kernel
  let o₁ ← { o with genesis := [], persistence := [], idKernel := idK,
                    idLayer := idK }.setKernelConfig c.neighborhood
  let gc ← entry c.genesis
  let g ← Act.ofCfg gc
  let pc ← entry c.persistence
  let p ← Act.ofCfg pc
  return { o₁ with genesis := [g], persistence := [p], genCfg := some gc, perCfg := some pc,
                   dt := c.dt.getD 0.1, seqWeights := drawW }

/-- `CCA.load_config` (yuca/ca/continuous.py:102-144). -/
noncomputable def CCAObj.loadRaw (fs : Files) (fuel : Nat) (d : Nat → Draws) (o : CCAObj)
    (c : RawConfig) : Option (Except PyErr CCAObj) :=
  andThen (match c.instant with
    | none => some (.ok o)
    | some kw => CCAObj.init fs fuel (fun n => d (n + 1)) kw.asCCA) fun o' =>
  some (o'.applyRaw c (d 0).seq)

/-- `NCA.load_config` (yuca/ca/neural.py:134-173), as in `BuiltNCA.restore`, where `params` may be
missing. -/
noncomputable def BuiltNCA.loadRaw (again : NCAKwargs → Option (Except PyErr BuiltNCA))
    (w : NCADraws) (b : BuiltNCA) (c : RawConfig) : Option (Except PyErr BuiltNCA) :=
  andThen (match c.instant with
    | none => some (.ok b)
    | some kw => again kw) fun b' =>
  some (do
    let _ ← c.identityKernel
    let _ ← c.neighborhood.radiusKey
    let _ ← c.neighborhood.kernel
    let v ← entry c.params
    match NCAObj.loadConfig (b'.obj.getD (.bare b'.kw)) (initialTensors b'.kw.act w.1 w.2.1 w.2.2)
        ⟨c.neighborhood, v, c.dt⟩ with
    | (_, some e) => .error e
    | (o, none) => .ok { b' with obj := some o })

/-- What `RxnDfn` sees of a config (yuca/ca/reaction_diffusion.py:76-125); `instant_kwargs` it does
not look for. -/
def RawConfig.rxn (c : RawConfig) : RxnConfig where
  identityKernelConfig := c.identityKernelConfig
  idKernelConfig := c.idKernelConfig
  neighborhood := c.neighborhood
  dt := c.dt
  dx := c.dx
  decayRate := c.decayRate
  feedRate := c.feedRate
  diffusionU := c.diffusionU
  diffusionV := c.diffusionV
  params := c.params

/-- `RxnDfn.load_config` (yuca/ca/reaction_diffusion.py:76-125). -/
noncomputable def RxnObj.loadRaw (o : RxnObj) (c : RawConfig) : Except PyErr RxnObj :=
  o.loadConfig c.rxn

/-! ## The kernels in the files -/

/-- The neighbourhood kernels of the stored rules and networks. -/
inductive StoredKernel where
  /-- `MooreLike` -/
  | moore
  /-- `Gaussian` with `mu` 0.5 and `sigma` 0.15 -/
  | ring
  /-- `GaussianMixture` -/
  | rings (ps : List ℚ)
  deriving DecidableEq

/-- `kernel_kwargs` (ca_configs/*.npy). -/
noncomputable def StoredKernel.kwargs : StoredKernel → List (String × KwVal)
  | .moore => []
  | .ring => [("mu", .num 0.5), ("sigma", .num 0.15)]
  | .rings ps => [("parameters", .vec (ps.map (↑)))]

/-- `neighborhood_kernel_config` (ca_configs/*.npy). -/
noncomputable def StoredKernel.cfg (k : StoredKernel) (radius : Nat) : KernelCfg where
  name := match k with
    | .moore => "MooreLike"
    | .ring => "Gaussian"
    | .rings _ => "GaussianMixture"
  radius := some radius
  kwargs := some k.kwargs

/-- The numbers of `kernel_kwargs`, in order (yuca/ca/common.py:274-283). -/
noncomputable def StoredKernel.numbers : StoredKernel → List ℝ
  | .moore => []
  | .ring => [0.5, 0.15]
  | .rings ps => ps.map (↑)

/-- The entry `id_kernel_config` of all files but smoothlife.npy; nothing reads it. -/
def innerMoore : KernelCfg := ⟨"InnerMoore", none, none⟩

/-! ## Files for `CCA` -/

/-- A stored rule of the Lenia family (42 files of ca_configs/ and ca_configs/evolved/): both growth
functions are `GaussianMixture` with one mean and one width, in mode 1. -/
structure StoredRule where
  file : String
  radius : Nat
  kernel : StoredKernel
  genesis : ℚ × ℚ
  persistence : ℚ × ℚ
  dt : Option ℚ
  deriving DecidableEq

/-- The kernel of ca_configs/geminium.npy, s613.npy and s643.npy. -/
def geminiumRings : StoredKernel :=
  .rings [0.5, 0.093809, 0.033, 1, 0.28143, 0.033, 2 / 3, 0.46904, 0.033]

/-- The same in 32 bits. -/
def geminiumRings32 : StoredKernel :=
  .rings [0.5, 0.093809, 0.033, 1, 0.28143, 0.033, 0.6666667, 0.46904, 0.033]

/-- The 42 files. -/
def storedRules : List StoredRule :=
  [⟨"discutium_solidus.npy", 13, .ring, (0.356, 0.063), (0.356, 0.063), none⟩,
   ⟨"discutium_valvatus.npy", 13, .ring, (0.337, 0.0595), (0.337, 0.0595), none⟩,
   ⟨"evolved/exp_local_glaberish_geminium_simple_halt_1649264299_seed3_config.npy",
     31, geminiumRings32, (0.04025370627641678, 0.004737271927297115),
     (0.26127874851226807, 0.020402640104293823), none⟩,
   ⟨"evolved/exp_local_glaberish_geminium_simple_halt_1649264299_seed5_config.npy",
     31, geminiumRings32, (0.02743549644947052, 0.004556957166641951),
     (0.2607150971889496, 0.022307900711894035), none⟩,
   ⟨"evolved/exp_local_glaberish_geminium_simple_halt_1649264299_seed7_config.npy",
     31, geminiumRings32, (0.04196501523256302, 0.004892199300229549),
     (0.26112332940101624, 0.029158171266317368), none⟩,
   ⟨"evolved/exp_local_glaberish_orbium_halt_1649112713_seed3_config.npy",
     13, .ring, (0.38204890489578247, 0.036570608615875244),
     (0.1545599400997162, 0.018143368884921074), none⟩,
   ⟨"evolved/exp_local_glaberish_orbium_halt_1649112713_seed7_config.npy",
     13, .ring, (0.08927449584007263, 0.01269656140357256),
     (0.1511480212211609, 0.006614907179027796), none⟩,
   ⟨"evolved/exp_local_glaberish_orbium_simple_halt_1649225959_seed3_config.npy",
     13, .ring, (0.3017308712005615, 0.031188858672976494),
     (0.1501632034778595, 0.017299743369221687), none⟩,
   ⟨"exp_local_glaberish_geminium_halt_1651935163_seed5.npy",
     13, geminiumRings32, (0.29912102222442627, 0.03591606393456459),
     (0.25912073254585266, 0.045663122087717056), none⟩,
   ⟨"exp_local_glaberish_geminium_random_1649461964_seed113.npy",
     13, geminiumRings32, (0.2659696340560913, 0.03819875419139862),
     (0.2893051207065582, 0.021493248641490936), none⟩,
   ⟨"exp_local_glaberish_geminium_simple_halt_1649264299_seed11_config.npy",
     31, geminiumRings32, (0.0760997012257576, 0.010745148174464703),
     (0.2603415548801422, 0.030266866087913513), none⟩,
   ⟨"exp_local_glaberish_geminium_simple_halt_1649264299_seed7_config.npy",
     31, geminiumRings32, (0.04196501523256302, 0.004892199300229549),
     (0.26112332940101624, 0.029158171266317368), none⟩,
   ⟨"exp_local_glaberish_geminium_simple_halt_1649312229_seed5_config.npy",
     31, geminiumRings32, (0.02743549644947052, 0.004556957166641951),
     (0.2607150971889496, 0.022307900711894035), none⟩,
   ⟨"exp_local_glaberish_orbium_halt_1649112713_seed3_config.npy",
     13, .ring, (0.38204890489578247, 0.036570608615875244),
     (0.1545599400997162, 0.018143368884921074), none⟩,
   ⟨"exp_local_glaberish_orbium_halt_1649112713_seed7_config.npy",
     13, .ring, (0.08927449584007263, 0.01269656140357256),
     (0.1511480212211609, 0.006614907179027796), none⟩,
   ⟨"exp_local_glaberish_orbium_random_1649112702_seed3_config.npy",
     13, .ring, (0.17731639742851257, 0.02875511720776558),
     (0.1499384045600891, 0.004323218017816544), none⟩,
   ⟨"exp_local_glaberish_orbium_random_1649112702_seed5_config.npy",
     13, .ring, (0.5950424075126648, 0.02126379869878292),
     (0.15717720985412598, 0.011378111317753792), none⟩,
   ⟨"exp_local_glaberish_orbium_random_1649112702_seed7_config.npy",
     13, .ring, (0.20850211381912231, 0.02172183245420456),
     (0.14999611675739288, 0.010107187554240227), none⟩,
   ⟨"exp_test_tag_1671048884_seed13.npy",
     13, .ring, (0.11503926664590836, 0.015164399519562721),
     (0.13679490983486176, 0.011276893317699432), none⟩,
   ⟨"geminium.npy", 31, geminiumRings, (0.26, 0.036), (0.26, 0.036), none⟩,
   ⟨"geminium2.npy", 31, geminiumRings, (0.26, 0.036), (0.26, 0.036), none⟩,
   ⟨"hedgehog.npy",
     31, (.rings [0.5, 0.1, 0.03, 0.25, 0.2, 0.03, 0.125, 0.35, 0.03, 0.25, 0.5, 0.03, 0.5, 0.6, 0.03]),
     (0.25999999046325684, 0.035999998450279236), (0.25999999046325684, 0.035999998450279236), none⟩,
   ⟨"o_bicaudatus.npy", 13, .ring, (0.15, 0.014), (0.15, 0.014), none⟩,
   ⟨"o_bicaudatus_ignis.npy", 13, .ring, (0.12, 0.0113), (0.12, 0.0113), none⟩,
   ⟨"o_unicaudatus.npy", 13, .ring, (0.119, 0.0148), (0.119, 0.0148), none⟩,
   ⟨"o_unicaudatus_fixed.npy",
     26, .ring, (0.11900000274181366, 0.014800000004470348),
     (0.11900000274181366, 0.014800000004470348), none⟩,
   ⟨"orbium.npy", 13, .ring, (0.15, 0.015), (0.15, 0.015), none⟩,
   ⟨"p_arcus_labens.npy", 13, .ring, (0.357, 0.059), (0.357, 0.059), none⟩,
   ⟨"p_arcus_labens_fixed.npy",
     26, .ring, (0.3569999933242798, 0.05900000035762787),
     (0.3569999933242798, 0.05900000035762787), none⟩,
   ⟨"p_arcus_saliens_ignis.npy", 13, .ring, (0.313, 0.05), (0.313, 0.05), none⟩,
   ⟨"p_cavus_labens.npy", 13, .ring, (0.329, 0.0481), (0.329, 0.0481), none⟩,
   ⟨"p_sinus_labens.npy", 13, .ring, (0.33, 0.0462), (0.33, 0.0462), none⟩,
   ⟨"s613.npy",
     31, geminiumRings, (0.06206113485619129, 0.008785098113067265),
     (0.21510242119809753, 0.036865240155497435), none⟩,
   ⟨"s643.npy",
     31, geminiumRings, (0.0670302166943472, 0.01006998027038328),
     (0.24803355319349515, 0.018610070090547205), none⟩,
   ⟨"scutium_gravidus.npy", 13, .ring, (0.283, 0.0369), (0.283, 0.0369), some 0.5⟩,
   ⟨"scutium_solidus.npy", 13, .ring, (0.29, 0.043), (0.29, 0.043), none⟩,
   ⟨"scutium_valvatus.npy", 13, .ring, (0.292, 0.0486), (0.292, 0.0486), none⟩,
   ⟨"synorbium.npy", 13, .ring, (0.152, 0.0156), (0.152, 0.0156), none⟩,
   ⟨"triscutium_solidus.npy", 13, .ring, (0.4, 0.079), (0.4, 0.079), none⟩,
   ⟨"vagoptera.npy", 26, .ring, (0.218, 0.0351), (0.218, 0.0351), none⟩,
   ⟨"vagoptera_fixed.npy",
     52, .ring, (0.21799999475479126, 0.035100001841783524),
     (0.21799999475479126, 0.035100001841783524), none⟩,
   ⟨"vagorbium.npy", 26, .ring, (0.126, 0.0155), (0.126, 0.0155), none⟩]

/-- `genesis_config` and `persistence_config`. -/
noncomputable def storedGrowth (g : ℚ × ℚ) : ActCfg :=
  { name := "GaussianMixture", parameters := some (.vec [(g.1 : ℝ), (g.2 : ℝ)]), mode := true }

/-- The dictionary in the file. -/
noncomputable def StoredRule.raw (s : StoredRule) : RawConfig where
  idKernelConfig := some innerMoore
  neighborhood := s.kernel.cfg s.radius
  genesis := some (storedGrowth s.genesis)
  persistence := some (storedGrowth s.persistence)
  dt := s.dt.map (↑)

/-- ca_configs/conway_life.npy, morley.npy and smoothlife.npy. -/
inductive StoredLife where
  | conway
  | morley
  | smooth
  deriving DecidableEq

/-- The file. -/
def StoredLife.file : StoredLife → String
  | .conway => "conway_life.npy"
  | .morley => "morley.npy"
  | .smooth => "smoothlife.npy"

/-- A `Config` as a dictionary. -/
def Config.raw (c : Config) : RawConfig where
  identityKernelConfig := c.identityKernelConfig
  idKernelConfig := c.idKernelConfig
  neighborhood := c.neighborhood
  genesis := some c.genesis
  persistence := some c.persistence
  dt := c.dt

/-- ca_configs/smoothlife.npy. -/
noncomputable def storedSmooth : Config where
  identityKernelConfig :=
    some ⟨"SmoothLifeKernel", some 10, some [("r_a", .num (1 / 3)), ("r_i", .num 0)]⟩
  neighborhood :=
    ⟨"SmoothLifeKernel", some 10, some [("r_a", .num 1.05), ("r_i", .num (1 / 3))]⟩
  genesis := { name := "SmoothIntervals", parameters := some (.mat [(0.278, 0.365)]),
               alpha := some 0.028, mode := true }
  persistence := { name := "SmoothIntervals", parameters := some (.mat [(0.267, 0.445)]),
                   alpha := some 0.147, mode := true }
  dt := some 1

/-- The dictionary in the file. -/
noncomputable def StoredLife.raw : StoredLife → RawConfig
  | .conway => storedConway.raw
  | .morley => storedMorley.raw
  | .smooth => storedSmooth.raw

/-! ## Files for `NCA` and `RxnDfn` -/

/-- A stored network: how many weights `params` starts with, and `hidden_channels` and `activation`
if there are `instant_kwargs` (which then have one external and one internal channel, three kernel
peaks and circular padding). -/
structure StoredNet where
  file : String
  radius : Nat
  kernel : StoredKernel
  weights : Nat
  instant : Option (Nat × ActKind)
  dt : Option ℚ
  deriving DecidableEq

/-- The kernel of most networks: three times the same ring. -/
def threeRings : StoredKernel := .rings [1 / 3, 0.5, 0.15, 1 / 3, 0.5, 0.15, 1 / 3, 0.5, 0.15]

/-- The 11 files. -/
def storedNets : List StoredNet :=
  [⟨"nca_clone_tanh_o_bicaudatus_ignis_good.npy", 13, threeRings, 66308, none, none⟩,
   ⟨"nca_clone_tanh_p_sinus_labens_bad.npy", 13, threeRings, 66308, none, none⟩,
   ⟨"nca_clone_tanh_s643_bad.npy", 31, geminiumRings, 66308, none, none⟩,
   ⟨"nca_clone_tanh_scutium_valvatus_good.npy", 13, threeRings, 66308, none, none⟩,
   ⟨"nca_clone_tanh_synorbium_good.npy", 13, threeRings, 66308, none, none⟩,
   ⟨"neurolife_a.npy", 1, .moore, 16768, some (128, .tanh), some 1⟩,
   ⟨"neurop_sinus_labens_a.npy", 13, threeRings, 66308, some (256, .gaussian), some 0.1⟩,
   ⟨"neurorbium_a.npy", 13, .ring, 16768, some (128, .tanh), some 0.1⟩,
   ⟨"neurorbium_bicaudatus_a.npy", 13, threeRings, 66308, some (256, .gaussian), some 0.1⟩,
   ⟨"neuroscutium_valvatus_a.npy", 13, threeRings, 66308, some (256, .gaussian), some 0.1⟩,
   ⟨"neurosynorbium_a.npy", 13, threeRings, 66308, some (256, .gaussian), some 0.1⟩]

/-- The `instant_kwargs` of a stored network. -/
def StoredNet.kwargs (s : StoredNet) (h : Nat × ActKind) : NCAKwargs where
  radius := s.radius
  peaks := 3
  mode := .circular
  ext := 1
  int := 1
  hidden := h.1
  act := h.2
  caConfig := none

/-- The dictionary in the file.  The entry `params` is the weights followed by the numbers of the
kernel.  The weights themselves are an argument. -/
noncomputable def StoredNet.raw (s : StoredNet) (weights : List ℝ) : RawConfig where
  instant := s.instant.map s.kwargs
  idKernelConfig := some innerMoore
  neighborhood := s.kernel.cfg s.radius
  params := some (weights ++ s.kernel.numbers)
  dt := s.dt.map (↑)

/-- ca_configs/uskate_rxndfn.npy. -/
noncomputable def storedUskate : RawConfig where
  idKernelConfig := some innerMoore
  neighborhood := ⟨"LaplacianOfGaussian", some 1, some [("sigma", .num 0.5)]⟩
  params := some [1.9999999494757503e-05, 9.999999747378752e-06, 0.06199999898672104,
    0.0608999989926815]
  dt := some 0.5
  dx := some 0.0030303029343485832
  diffusionU := some 1.9999999494757503e-05
  diffusionV := some 9.999999747378752e-06
  feedRate := some 0.06199999898672104
  decayRate := some 0.0608999989926815

/-! ## The pattern library -/

/-- A stored config. -/
inductive Stored where
  | rule (s : StoredRule)
  | life (s : StoredLife)
  | net (s : StoredNet)
  | uskate
  deriving DecidableEq

/-- The 57 files. -/
def storedConfigs : List Stored :=
  storedRules.map .rule ++ [.life .conway, .life .morley, .life .smooth] ++ storedNets.map .net ++
    [.uskate]

/-- The path of the file below ca_configs/. -/
def Stored.file : Stored → String
  | .rule s => s.file
  | .life s => s.file
  | .net s => s.file
  | .uskate => "uskate_rxndfn.npy"

/-- The dictionary in the file; `weights` gives every network its weights. -/
noncomputable def Stored.raw (weights : StoredNet → List ℝ) : Stored → RawConfig
  | .rule s => s.raw
  | .life s => s.raw
  | .net s => s.raw (weights s)
  | .uskate => storedUskate

/-- The patterns of yuca/zoo/ and the configs named in the first lines of their csv files. -/
def zooConfigs : List (String × String) :=
  [("discutium_solidus_6wide_waveglider000", "discutium_solidus.npy"),
   ("discutium_valvatus_5wide_waveglider000", "discutium_valvatus.npy"), ("frog000", "s613.npy"),
   ("geminium000", "geminium.npy"), ("geminium2_wobble_glider000", "geminium2.npy"),
   ("geminium_hydrogeminium_natans000", "geminium.npy"), ("gol_25P3H1V0_1000", "conway_life.npy"),
   ("gol_large_spaceship000", "conway_life.npy"), ("gol_medium_spaceship000", "conway_life.npy"),
   ("gol_reflex_glider000", "conway_life.npy"), ("gol_small_spaceship000", "conway_life.npy"),
   ("neuroo_bicaudatus_ignis000", "neurorbium_bicaudatus_a.npy"),
   ("neurop_sinus_labens_waveglider000", "neurop_sinus_labens_a.npy"),
   ("neurorbium000", "neurorbium_a.npy"), ("neuroreflex_glider000", "neurolife_a.npy"),
   ("neurosingle_glider000", "neuroscutium_valvatus_a.npy"),
   ("neurosynorbium000", "neurosynorbium_a.npy"),
   ("neurowobble_glider000", "neuroscutium_valvatus_a.npy"),
   ("o_bicaudatus_ignis_orbium000", "o_bicaudatus_ignis.npy"),
   ("o_bicaudatus_orbium000", "o_bicaudatus.npy"), ("orbium_orbium000", "orbium.npy"),
   ("p_arcus_labens_fixed_5wide_waveglider000", "p_arcus_labens_fixed.npy"),
   ("p_arcus_saliens_ignis_5wide_waveglider000", "p_arcus_saliens_ignis.npy"),
   ("p_cavus_labens_4wide_waveglider000", "p_cavus_labens.npy"),
   ("p_sinus_labens_6wide_waveglider000", "p_sinus_labens.npy"),
   ("s113_amorphous_changing_glider000", "exp_local_glaberish_geminium_random_1649461964_seed113.npy"),
   ("s11_config_evolved_ca_slow_glider000", "exp_local_glaberish_geminium_simple_halt_1649264299_seed11_config.npy"),
   ("s613_fast_wobble_glider000", "s613.npy"), ("s613_s613_frog000", "s613.npy"),
   ("s643_s643_3wide_wobble_glider000", "s643.npy"), ("s643_s643_frog000", "s643.npy"),
   ("s7_config_semistable_frog000", "exp_local_glaberish_geminium_simple_halt_1649264299_seed7_config.npy"),
   ("s7_config_spiky_frog_egg000", "exp_local_glaberish_geminium_simple_halt_1649264299_seed7_config.npy"),
   ("scutium_gravidus_4wide_waveglider000", "scutium_gravidus.npy"),
   ("scutium_gravidus_single000", "scutium_gravidus.npy"),
   ("scutium_gravidus_superwide_000", "scutium_gravidus.npy"),
   ("scutium_solidus_5wide_waveglider000", "scutium_solidus.npy"),
   ("scutium_valvatus_3wide_glider000", "scutium_valvatus.npy"),
   ("smoothlife_single_glider000", "smoothlife.npy"), ("synorbium_orbium000", "synorbium.npy"),
   ("triscutium_solidus_triscutium000", "triscutium_solidus.npy"),
   ("uskate_berrycup000", "uskate_rxndfn.npy"), ("uskate_berrycup001", "uskate_rxndfn.npy"),
   ("uskate_daedalus000", "uskate_rxndfn.npy"), ("uskate_daedalus001", "uskate_rxndfn.npy"),
   ("uskate_glider000", "uskate_rxndfn.npy"), ("uskate_glider001", "uskate_rxndfn.npy"),
   ("vagoptera_duorbium000", "vagoptera.npy"), ("wobbler000", "s613.npy")]

end Yuca
