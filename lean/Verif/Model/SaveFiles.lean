import Verif.Model.Stored
import Verif.Model.Replay

/-!
# Saving and restoring automata of every class

Config files of the three classes lie in the same directories, so this file has one file system for
all of them.
-/

namespace Yuca

/-- The config files on disk, whatever class wrote them. -/
abbrev RawFiles := String → Option RawConfig

/-- `np.save(filepath, config)` (yuca/ca/neural.py:263, yuca/ca/reaction_diffusion.py:200,
yuca/ca/continuous.py:265).  The directory of the path exists. -/
def saveRaw (fs : RawFiles) (path : String) (c : RawConfig) : RawFiles :=
  Function.update fs (npSaved path) (some c)

/-- The config of a `RxnDfn` as a dictionary (yuca/ca/reaction_diffusion.py:156-193). -/
def RxnConfig.raw (c : RxnConfig) : RawConfig where
  identityKernelConfig := c.identityKernelConfig
  idKernelConfig := c.idKernelConfig
  neighborhood := c.neighborhood
  params := c.params
  dt := c.dt
  dx := c.dx
  decayRate := c.decayRate
  feedRate := c.feedRate
  diffusionU := c.diffusionU
  diffusionV := c.diffusionV

/-- `RxnDfn.save_config` (yuca/ca/reaction_diffusion.py:195-200): the files afterwards. -/
def RxnObj.saveConfig (o : RxnObj) (fs : RawFiles) (path : String) : RawFiles :=
  saveRaw fs path o.makeConfig.raw

/-- `RxnDfn.restore_config` (yuca/ca/reaction_diffusion.py:127-154): a missing file is only reported
on the console. -/
noncomputable def RxnObj.restoreRaw (o : RxnObj) (fs : RawFiles) (path : String) :
    Except PyErr RxnObj :=
  match lookCfg fs path with
  | none => .ok o
  | some c => o.loadRaw c

/-- `NCA.make_config` (yuca/ca/neural.py:204-256): the dictionary and the object afterwards, whose
`instant_kwargs` it updates in place.  The activation is written as a name; the model holds what the
constructor makes of that name.  An object without layers has no weights to read. -/
def BuiltNCA.makeRaw (b : BuiltNCA) : Except PyErr (RawConfig × BuiltNCA) :=
  match b.obj with
  | none => .error .attribute
  | some o =>
    let kw : NCAKwargs := { b.kw with
      radius := o.kernelRadius, peaks := o.kernelPeaks
      act := chooseAct (some b.kw.act.savedName) }
    .ok ({ instant := some kw, idKernelConfig := some ⟨"InnerMoore", none, none⟩
           neighborhood := o.makeConfig.1.neighborhood, params := some o.makeConfig.1.params
           dt := o.makeConfig.1.dt },
      ⟨kw, some o.makeConfig.2⟩)

/-- `NCA.__init__` (yuca/ca/neural.py:59-82) with `restore_config` (175-202) unfolded into it: with a
`ca_config` there is no `default_init`, even if the file is missing.  `fuel` bounds the depth of
nested calls; `none` means that it was reached. -/
noncomputable def ncaInitRaw (fs : RawFiles) : Nat → (Nat → NCADraws) → NCAKwargs →
    Option (Except PyErr BuiltNCA)
  | 0, _, _ => none
  | fuel + 1, d, kw =>
    match kw.caConfig with
    | none => some ((NCAObj.defaultInit kw.act kw.radius kw.peaks (d 0).1 (d 0).2.1 (d 0).2.2).map
        fun o => ⟨kw, some o⟩)
    | some path =>
      match lookCfg fs path with
      | none => some (.ok ⟨kw, none⟩)
      | some c => BuiltNCA.loadRaw (ncaInitRaw fs fuel fun n => d (n + 1)) (d 0) ⟨kw, none⟩ c

/-- `NCA.restore_config` (yuca/ca/neural.py:175-202). -/
noncomputable def BuiltNCA.restoreRaw (fs : RawFiles) (fuel : Nat) (d : Nat → NCADraws)
    (b : BuiltNCA) (path : String) : Option (Except PyErr BuiltNCA) :=
  match lookCfg fs path with
  | none => some (.ok b)
  | some c => b.loadRaw (ncaInitRaw fs fuel fun n => d (n + 1)) (d 0) c

/-- The `instant_kwargs` of a `CCA` as an `NCA` reads them (yuca/ca/neural.py:59-73,
yuca/ca/common.py:46-62): hidden channels and activation are the defaults. -/
def InstantKwargs.asNCA (kw : InstantKwargs) : NCAKwargs where
  radius := kw.radius
  peaks := kw.peaks
  mode := kw.mode
  ext := kw.extN
  int := kw.intN
  hidden := 64
  act := .gaussian
  caConfig := kw.caConfig

/-- The config `CCA.make_config` (yuca/ca/continuous.py:175-258) returns, as the other classes read
it. -/
noncomputable def CCAObj.makeRaw (o : CCAObj) : RawConfig :=
  { o.makeConfig.1.raw with instant := o.makeConfig.1.instant.map InstantKwargs.asNCA }

end Yuca
