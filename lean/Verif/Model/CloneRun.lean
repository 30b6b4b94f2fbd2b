import Verif.Model.Clone
import Verif.Model.Multiverse
import Verif.Model.Object

/-!
# A whole run of `clone_from_ca` (yuca/clone.py)

`Model/Clone.lean` follows the training of one config with errors that are numbers.  Here errors may be
`nan` (or infinite), the options are read, and the configs are gone through one after the other.
Restoring a config, the measured errors and the weights are arguments; `torch.save` to a directory that
does not exist and devices that are missing are not modelled.
-/

namespace Yuca

/-- The keyword arguments `clone_from_ca` looks for (yuca/clone.py:25-54). -/
structure CloneKw where
  device : Option Str := none
  maxHidden : Option Nat := none
  threshold : Option ℚ := none
  maxIterations : Option Int := none
  maxSteps : Option Int := none
  batchSize : Option Nat := none
  learningRate : Option ℚ := none
  verbose : Option Bool := none
  saveName : Option Str := none
  caConfig : Option (Str ⊕ List Str) := none
  hidden : Option Nat := none

/-- What it makes of them. -/
structure CloneOpts where
  device : Str
  maxHidden : Nat
  threshold : ℚ
  maxIterations : Int
  maxSteps : Int
  displayEvery : Int
  batchSize : Nat
  learningRate : ℚ
  verbose : Bool
  saveName : Str
  configs : List Str
  hidden : Nat
  deriving DecidableEq

/-- yuca/clone.py:25-54: the defaults, `display_every`, and a single config as a list. -/
def CloneKw.opts (kw : CloneKw) : CloneOpts where
  device := kw.device.getD "cpu".toList
  maxHidden := kw.maxHidden.getD 2048
  threshold := kw.threshold.getD (1 / 100)
  maxIterations := kw.maxIterations.getD 10
  maxSteps := kw.maxSteps.getD 1024
  displayEvery := max (Int.fdiv (kw.maxSteps.getD 1024) 10) 1
  batchSize := kw.batchSize.getD 32
  learningRate := kw.learningRate.getD (1 / 1000)
  verbose := kw.verbose.getD false
  saveName := kw.saveName.getD "default_nca.pt".toList
  configs := match kw.caConfig.getD (.inl "orbium".toList) with
    | .inl s => [s]
    | .inr l => l
  hidden := kw.hidden.getD 32

/-- What the command line gives, option by option; `none` for an option that is not given. -/
structure CloneArgs where
  caConfig : Option (List Str) := none
  device : Option Str := none
  threshold : Option ℚ := none
  maxSteps : Option Int := none
  hidden : Option Nat := none
  maxIterations : Option Int := none
  learningRate : Option ℚ := none
  saveName : Option Str := none
  verbose : Option Int := none

/-- `dict(args._get_kwargs())` (yuca/clone.py:162-196): every option of the command line is passed
on, with its own default; `max_hidden_channels` and `batch_size` have no option. -/
def CloneArgs.kw (a : CloneArgs) : CloneKw where
  device := some (a.device.getD "cuda:0".toList)
  threshold := some (a.threshold.getD (1 / 1000))
  maxIterations := some (a.maxIterations.getD 1)
  maxSteps := some (a.maxSteps.getD 100)
  learningRate := some (a.learningRate.getD (1 / 1000))
  verbose := some (decide (a.verbose.getD 0 ≠ 0))
  saveName := some (a.saveName.getD "default_nca.pt".toList)
  caConfig := some (.inr (a.caConfig.getD ["orbium.npy".toList]))
  hidden := some (a.hidden.getD 32)

/-- `e < b`: false if `e` is `nan` or infinite, which is `none`; for `b` it is `float("Inf")`. -/
def errBelow : Option ℚ → Option ℚ → Bool
  | none, _ => false
  | some _, none => true
  | some e, some b => decide (e < b)

/-- The training loop of one iteration (yuca/clone.py:80-125) for `k` more steps from step `s`;
returns the number of optimizer steps made and the best so far. -/
def cloneTrain (threshold : ℚ) (it : Nat) (err : Nat → Option ℚ) :
    Nat → Nat → Option ℚ → CloneBest → Nat × CloneBest
  | 0, s, _, best => (s, best)
  | k + 1, s, itBest, best =>
    if errBelow (err s) itBest then
      let best' := if errBelow (err s) best.error then ⟨err s, some it⟩ else best
      if errBelow (err s) (some threshold) then (s + 1, best')
      else cloneTrain threshold it err k (s + 1) (err s) best'
    else cloneTrain threshold it err k (s + 1) itBest best

/-- The iterations for one config (yuca/clone.py:57-141) for `k` more iterations from `it` on. -/
def cloneRounds (threshold : ℚ) (maxSteps : Nat) (err : Nat → Nat → Option ℚ) :
    Nat → Nat → CloneBest → List Nat × CloneBest
  | 0, _, best => ([], best)
  | k + 1, it, best =>
    let r := cloneTrain threshold it (err it) maxSteps 0 none best
    let rest := cloneRounds threshold maxSteps err k (it + 1) r.2
    (r.1 :: rest.1, rest.2)

/-- What is done for one config: the automaton that is imitated, the hidden channels and the
optimizer steps of each iteration, the message whether the threshold is met, and the file. -/
structure CloneRecord (T W : Type) where
  teacher : T
  hidden : List Nat
  steps : List Nat
  met : Bool
  path : Str
  saved : Option W

/-- The loop over the configs (yuca/clone.py:44-159) from config number `c` on, with the path and
`best_state_dict` left by the one before.  `restore c name` is what `ca.restore_config` makes of the new
`CCA()`; an exception ends the run. -/
def cloneConfigs {T W : Type} (o : CloneOpts) (restore : Nat → Str → Except PyErr T)
    (err : Nat → Nat → Nat → Option ℚ) (weights : Nat → Nat → Nat → W) :
    Nat → Str → Option W → List Str → List (CloneRecord T W) × Except PyErr Unit
  | _, _, _, [] => ([], .ok ())
  | c, path, held, name :: names =>
    match restore c name with
    | .error e => ([], .error e)
    | .ok t =>
      let r := cloneRounds o.threshold o.maxSteps.toNat (err c) o.maxIterations.toNat 0
        ⟨none, none⟩
      let saved := match r.2.net with
        | some it => some (weights c it (r.1.getD it 0))
        | none => held
      let path' := clonePath path name
      let rest := cloneConfigs o restore err weights (c + 1) path' saved names
      (⟨t, (List.range o.maxIterations.toNat).map (hiddenAt o.maxHidden o.hidden), r.1,
        errBelow r.2.error (some o.threshold), path', saved⟩ :: rest.1, rest.2)

/-- `clone_from_ca` (yuca/clone.py:14-159); `logs` is `log_directory`. -/
def cloneFromCa {T W : Type} (logs : Str) (kw : CloneKw) (restore : Nat → Str → Except PyErr T)
    (err : Nat → Nat → Nat → Option ℚ) (weights : Nat → Nat → Nat → W) :
    List (CloneRecord T W) × Except PyErr Unit :=
  cloneConfigs kw.opts restore err weights 0 (pathJoin logs kw.opts.saveName) none kw.opts.configs

/-- `ca = CCA(); ca.restore_config(ca_config)` (yuca/clone.py:48-49) for config number `c`, with the
random numbers drawn for the new automaton and while restoring; endless nesting ends in a
`RecursionError`. -/
noncomputable def cloneTeacher (fs : Files) (fuel : Nat) (new restored : Nat → Nat → Draws) (c : Nat)
    (name : Str) : Except PyErr CCAObj :=
  match CCAObj.init fs (fuel + 1) (new c) {} with
  | none => .error .recursion
  | some (.error e) => .error e
  | some (.ok o) =>
    match o.restoreConfig fs fuel (restored c) (String.ofList name) with
    | none => .error .recursion
    | some r => r

/-- What a file holds after the `torch.save` of every config (yuca/clone.py:159); `none` if it was never
written. -/
def fileAfter {T W : Type} (rs : List (CloneRecord T W)) (path : Str) : Option (Option W) :=
  rs.foldl (fun f r => if r.path = path then some r.saved else f) none

end Yuca
