import Verif.Model.Arith

/-!
# Gradient switches and the parameter registry

A parameter tensor is an object with an identity (a number) and a flag `requires_grad`; values are
left out.  Assigning in place (`param[:] = …`) to a parameter whose flag is set raises a
RuntimeError.  A new `nn.Parameter` has its flag set.
-/

namespace Yuca

/-- Names `gen_fn_i_j` and `per_fn_i_j` of `include_parameters` (yuca/ca/continuous.py:478, 483). -/
inductive PName where
  | gen (i j : Nat)
  | per (i j : Nat)
  deriving DecidableEq

/-- What concerns gradients in a `CCA` object: the parameters of its growth functions and layers by
identity, the registry of the module (`_parameters`), and the flags.  Identities from `next` on are
unused. -/
structure GradCCA where
  useGrad : Bool
  functional : Bool
  genesis : List (List Nat)
  persistence : List (List Nat)
  weights : List Nat
  idLayer : List Nat
  nbLayer : List Nat
  registry : PName → Option Nat
  named : List PName
  flag : Nat → Bool
  next : Nat

/-- Set the flag of some parameters. -/
def setFlags (ids : List Nat) (b : Bool) (flag : Nat → Bool) : Nat → Bool :=
  fun x => if x ∈ ids then b else flag x

/-- The identities of `n` new parameters. -/
def newIds (o : GradCCA) (n : Nat) : List Nat := List.range' o.next n

/-- `nn.Parameter` `n` times: new identities, flags set. -/
def GradCCA.create (o : GradCCA) (n : Nat) : GradCCA :=
  { o with next := o.next + n, flag := setFlags (newIds o n) true o.flag }

/-- `param[:] = …` for some parameters one after the other. -/
def writeInPlace (flag : Nat → Bool) (ids : List Nat) : Except PyErr Unit :=
  if ids.any flag then .error .runtime else .ok ()

/-- The identities in the registry, in registration order. -/
def GradCCA.registered (o : GradCCA) : List Nat := o.named.filterMap o.registry

/-- `self.named_parameters()`: the registry and the three registered layers; the growth functions are
in plain lists and do not count. -/
def GradCCA.namedParameters (o : GradCCA) : List Nat :=
  o.registered ++ o.idLayer ++ o.nbLayer ++ o.weights

/-- `no_grad` (yuca/ca/continuous.py:688-704). -/
def GradCCA.noGrad (o : GradCCA) : GradCCA :=
  { o with
    useGrad := false
    flag := setFlags o.persistence.flatten false (setFlags o.genesis.flatten false
      (setFlags o.weights false (setFlags o.namedParameters false o.flag))) }

/-- `initialize_id_layer` (yuca/ca/common.py:122-142): the flag is cleared before the kernel is written. -/
def GradCCA.initIdLayer (o : GradCCA) : Except PyErr GradCCA := do
  let p := newIds o 1
  let o := o.create 1
  let o := { o with idLayer := p, flag := setFlags p false o.flag }
  writeInPlace o.flag p
  return o

/-- `initialize_neighborhood_layer` (yuca/ca/common.py:201-220). -/
def GradCCA.initNbLayer (o : GradCCA) : Except PyErr GradCCA := do
  let p := newIds o 1
  let o := o.create 1
  let o := { o with nbLayer := p, flag := setFlags p false o.flag }
  writeInPlace o.flag p
  return o

/-- `initialize_weight_layer` (yuca/ca/continuous.py:396-424): one parameter whose flag becomes
`use_grad`, or two that keep theirs. -/
def GradCCA.initWeights (o : GradCCA) : Except PyErr GradCCA :=
  if o.functional then do
    let p := newIds o 1
    let o := o.create 1
    let o := { o with weights := p, flag := setFlags p false o.flag }
    writeInPlace o.flag p
    return { o with flag := setFlags p o.useGrad o.flag }
  else .ok { o.create 2 with weights := newIds o 2 }

/-- `add_genesis_fn` for an activation with `n` parameter tensors (yuca/ca/continuous.py:427-449). -/
def GradCCA.addGenesis (o : GradCCA) (n : Nat) : GradCCA :=
  { o.create n with genesis := o.genesis ++ [newIds o n] }

/-- `add_persistence_fn` (yuca/ca/continuous.py:451-471). -/
def GradCCA.addPersistence (o : GradCCA) (n : Nat) : GradCCA :=
  { o.create n with persistence := o.persistence ++ [newIds o n] }

/-- `register_parameter`: a new name is appended, an old one is redirected. -/
def GradCCA.register (o : GradCCA) (name : PName) (p : Nat) : GradCCA :=
  { o with
    registry := fun x => if x = name then some p else o.registry x
    named := if name ∈ o.named then o.named else o.named ++ [name] }

/-- The names and parameters `include_parameters` goes through. -/
def GradCCA.pairs (o : GradCCA) : List (PName × Nat) :=
  (o.genesis.zipIdx.flatMap fun f => f.1.zipIdx.map fun p => (PName.gen f.2 p.2, p.1)) ++
    o.persistence.zipIdx.flatMap fun f => f.1.zipIdx.map fun p => (PName.per f.2 p.2, p.1)

/-- `include_parameters` (yuca/ca/continuous.py:473-483). -/
def GradCCA.includeParameters (o : GradCCA) : GradCCA :=
  o.pairs.foldl (fun o x => o.register x.1 x.2) o

/-- `to_device` (yuca/ca/continuous.py:586-612): `param[:] = param.to(my_device)` for the named
parameters.  A parameter without dimensions is reshaped first; the view requires gradients exactly
if the parameter does. -/
def GradCCA.toDevice (o : GradCCA) : Except PyErr GradCCA := do
  let o := o.noGrad
  writeInPlace o.flag o.namedParameters
  return o

/-- `set_params` (yuca/ca/continuous.py:643-686) with a vector that is long enough. -/
def GradCCA.setParams (o : GradCCA) : Except PyErr GradCCA := do
  let o := o.noGrad
  writeInPlace o.flag o.genesis.flatten
  writeInPlace o.flag o.persistence.flatten
  let o ← o.initNbLayer
  o.toDevice

/-- `Lenia.set_params` (yuca/lenia.py:71-89): only the genesis functions. -/
def GradCCA.leniaSetParams (o : GradCCA) : Except PyErr GradCCA := do
  let o := o.noGrad
  writeInPlace o.flag o.genesis.flatten
  return o

/-- `set_kernel_radius` (yuca/ca/common.py:259-272). -/
def GradCCA.setKernelRadius (o : GradCCA) : Except PyErr GradCCA := do
  let o ← o.initNbLayer
  o.toDevice

/-- `default_init` (yuca/ca/continuous.py:266-354); the numbers of parameter tensors of the functions
it adds are `gens` and `pers` (`none` of them when `ca_mode` is neither "functional" nor
"neurofunctional"). -/
def GradCCA.defaultInit (o : GradCCA) (gens pers : List Nat) : Except PyErr GradCCA := do
  let o := { o with genesis := [], persistence := [] }
  let o ← o.initIdLayer
  let o ← o.initNbLayer
  let o ← o.initWeights
  let o := gens.foldl GradCCA.addGenesis o
  let o := pers.foldl GradCCA.addPersistence o
  return o.includeParameters

/-- A new module: `nn.Module.__init__` empties the registry (yuca/ca/common.py:44). -/
def GradCCA.blank (useGrad functional : Bool) (o : GradCCA) : GradCCA :=
  { o with useGrad := useGrad, functional := functional, genesis := [], persistence := []
           weights := [], idLayer := [], nbLayer := [], registry := fun _ => none, named := [] }

/-- The part of `CCA.__init__` before `ca_config` is looked at, and its end (yuca/ca/continuous.py:47-83,
93-96). -/
def GradCCA.construct (o : GradCCA) (useGrad functional : Bool) (gens pers : List Nat) :
    Except PyErr GradCCA := do
  let o ← (o.blank useGrad functional).defaultInit gens pers
  return if o.useGrad then o else o.noGrad

/-- `load_config` (yuca/ca/continuous.py:102-143).  `instant` are the `instant_kwargs`, if the config
has any, with the functions the inner `__init__` draws; a config names one genesis and one
persistence function. -/
def GradCCA.loadConfig (o : GradCCA) (instant : Option (Bool × Bool × List Nat × List Nat))
    (gen per : Nat) : Except PyErr GradCCA := do
  let o ← match instant with
    | none => pure o
    | some (g, f, gens, pers) => o.construct g f gens pers
  let o := { o with genesis := [], persistence := [] }
  let o ← o.initIdLayer
  let o ← o.setKernelRadius
  let o ← o.initNbLayer
  let o := o.addGenesis gen
  let o := o.addPersistence per
  let o ← o.initWeights
  o.includeParameters.toDevice

/-- `CCA(use_grad=…, ca_config=…)` (yuca/ca/continuous.py:47-96): the config, if there is one, is
loaded between construction and the final check of `use_grad`. -/
def GradCCA.init (o : GradCCA) (useGrad functional : Bool) (gens pers : List Nat)
    (config : Option (Option (Bool × Bool × List Nat × List Nat) × Nat × Nat)) :
    Except PyErr GradCCA := do
  let o ← (o.blank useGrad functional).defaultInit gens pers
  let o ← match config with
    | none => pure o
    | some (instant, gen, per) => o.loadConfig instant gen per
  return if o.useGrad then o else o.noGrad

/-! ## NCA -/

/-- What concerns gradients in an `NCA` object: only the flags of `weights_layer`; the two
convolutions are not touched by the switches. -/
structure GradNCA where
  useGrad : Bool
  flags : List Bool

/-- `initialize_weight_layer` (yuca/ca/neural.py:265-291) for `n` parameters: the flags are cleared,
the parameters squared in place, and `use_grad` is not looked at. -/
def GradNCA.initWeights (o : GradNCA) (n : Nat) : GradNCA := { o with flags := List.replicate n false }

/-- `no_grad` (yuca/ca/neural.py:368-373). -/
def GradNCA.noGrad (o : GradNCA) : GradNCA := ⟨false, o.flags.map fun _ => false⟩

/-- `yes_grad` (yuca/ca/neural.py:375-380). -/
def GradNCA.yesGrad (o : GradNCA) : GradNCA := ⟨true, o.flags.map fun _ => true⟩

/-- `to_device` (yuca/ca/neural.py:311-323). -/
def GradNCA.toDevice (o : GradNCA) : GradNCA := o.noGrad

/-- `set_params` (yuca/ca/neural.py:339-366) with a vector that is long enough; `kernel` says whether
there are kernel parameters (only then `to_device` is called). -/
def GradNCA.setParams (o : GradNCA) (kernel : Bool) : Except PyErr GradNCA :=
  let o := o.noGrad
  if o.flags.any id then .error .runtime else .ok (if kernel then o.toDevice else o)

/-- `NCA(use_grad=…)` without a config (yuca/ca/neural.py:59-83, 96-121). -/
def GradNCA.construct (useGrad : Bool) (n : Nat) : GradNCA := (GradNCA.mk useGrad []).initWeights n

/-- The switches `clone_from_ca` throws on a new network before it trains it (yuca/clone.py:61-76). -/
def GradNCA.forTraining (n : Nat) : GradNCA :=
  (GradNCA.construct false n).yesGrad.toDevice.yesGrad

/-! ## RxnDfn -/

/-- The four rates of a `RxnDfn` object (diffusion of u and v, feed, kill), whether they require
gradients, and the four registered parameters (`none` before `include_parameters`).  The registered
parameters are objects of their own. -/
structure GradRxn (K : Type) where
  useGrad : Bool
  rates : List K
  ratesGrad : Bool
  registered : Option (List K)
  registeredGrad : Bool

variable {K : Type}

/-- `include_parameters` (yuca/ca/reaction_diffusion.py:403-407): new parameters with the values of
the rates. -/
def GradRxn.includeParameters (o : GradRxn K) : GradRxn K :=
  { o with registered := some o.rates, registeredGrad := true }

/-- `no_grad` (yuca/ca/reaction_diffusion.py:409-414): only registered parameters. -/
def GradRxn.noGrad (o : GradRxn K) : GradRxn K :=
  { o with useGrad := false, registeredGrad := false }

/-- `set_params` (yuca/ca/reaction_diffusion.py:386-400) with at least four numbers: new tensors for
the rates with `requires_grad = self.use_grad`. -/
def GradRxn.setParams (o : GradRxn K) (v : List K) : GradRxn K :=
  let o := o.noGrad
  { o with rates := v.take 4, ratesGrad := o.useGrad }

/-- `to_device` (yuca/ca/reaction_diffusion.py:416-435). -/
def GradRxn.toDevice (o : GradRxn K) : GradRxn K := o.noGrad.noGrad

/-- `load_config` (yuca/ca/reaction_diffusion.py:98-125) as far as the rates are concerned: tensors
without gradients are replaced by `set_params`, then registered. -/
def GradRxn.loadConfig (o : GradRxn K) (params : List K) : GradRxn K :=
  (o.setParams params).includeParameters

end Yuca
