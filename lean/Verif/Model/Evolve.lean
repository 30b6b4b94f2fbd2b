import Verif.Model.Text
import Verif.Model.Arith

/-!
# Starting an experiment (yuca/evolve.py)
-/

namespace Yuca

/-- The automaton classes `evolve` knows. -/
inductive CaClass where
  | metaCA | cca | nca | rxnDfn | code | lenia | randomStepCA
  deriving DecidableEq

/-- The environment classes. -/
inductive EnvClass where
  | simpleHalting | halting | random | glider
  deriving DecidableEq

/-- The three searches of evolve.py, which also fix the agent: `CPPN` for patterns, `CPPNPlus`
for coevolution, `ParamsAgent` (the default of yuca/cmaes.py:56) for universes. -/
inductive SearchKind where
  | pattern | coevo | universe_
  deriving DecidableEq

/-- The `if "MetaCA" in kwargs["ca_fn"]` chain (yuca/evolve.py:31-50, 64-83, 105-124). -/
def caFn (s : Str) : Except PyErr CaClass :=
  if hasSub "MetaCA".toList s then .ok .metaCA
  else if hasSub "CCA".toList s then .ok .cca
  else if hasSub "NCA".toList s then .ok .nca
  else if hasSub "RxnDfn".toList s then .ok .rxnDfn
  else if hasSub "CODE".toList s then .ok .code
  else if hasSub "Lenia".toList s then .ok .lenia
  else if hasSub "RandomStepCA".toList s then .ok .randomStepCA
  else .error .assertion

/-- The `env_fn` chain of `universe_search` (yuca/evolve.py:94-103). -/
def envFn (s : Str) : Except PyErr EnvClass :=
  if hasSub "SimpleHaltingWrapper".toList s then .ok .simpleHalting
  else if hasSub "HaltingWrapper".toList s then .ok .halting
  else if hasSub "RandomWrapper".toList s then .ok .random
  else .error .assertion

/-- The arguments that decide what is run. -/
structure EvolveArgs where
  tag : Str
  caFn : Str
  envFn : Str
  dtype : Str
  hidden : Option Nat
  external : Nat

/-- What is run: the classes and the arguments the functions change. -/
structure EvolvePlan where
  kind : SearchKind
  ca : CaClass
  env : EnvClass
  float64 : Bool
  hidden : Option Nat
  external : Nat
  deriving DecidableEq

/-- `evolve` (yuca/evolve.py:135-147). -/
def searchKind (tag : Str) : SearchKind :=
  if hasSub "pattern".toList tag then .pattern
  else if hasSub "coevo".toList tag then .coevo
  else .universe_

/-- The changes to `hidden_channels` and `external_channels` in the chain. -/
def evolvePlan (kind : SearchKind) (env : EnvClass) (a : EvolveArgs) (ca : CaClass) : EvolvePlan :=
  { kind, ca, env
    float64 := hasSub "float64".toList a.dtype
    hidden := match ca with
      | .nca => some (a.hidden.getD (match kind with
        | .pattern => 256
        | _ => 16))
      | _ => a.hidden
    external := match ca with
      | .rxnDfn => 2
      | _ => a.external }

/-- `evolve` up to the constructor of the search (yuca/evolve.py:26-147). -/
def evolve (a : EvolveArgs) : Except PyErr EvolvePlan :=
  match searchKind a.tag with
  | .universe_ =>
    match envFn a.envFn with
    | .error e => .error e
    | .ok env => (caFn a.caFn).map (evolvePlan .universe_ env a)
  | k => (caFn a.caFn).map (evolvePlan k .glider a)

/-- `exp_id` (yuca/cmaes.py:83), for the time in seconds. -/
def expId (tag : Str) (time : Nat) : Str := "exp_".toList ++ (tag ++ ('_' :: decimal time))

/-- The grouping of the command line (yuca/evolve.py:236-242, yuca/analyze.py:469-475) from the
groups found so far, last group first. -/
def groupArgs : List (List Str) → List Str → Except PyErr (List (List Str))
  | acc, [] => .ok acc.reverse
  | acc, a :: rest =>
    if hasSub ['-'] a then groupArgs ([a] :: acc) rest
    else match acc with
      | [] => .error .index
      | g :: gs => groupArgs ((g ++ [a]) :: gs) rest

/-- `sorted_args` after `sort()` (yuca/evolve.py:236-244). -/
def entryArgs (args : List Str) : Except PyErr (List (List Str)) :=
  (groupArgs [] args).map fun gs => gs.mergeSort fun a b => decide (a ≤ b)

end Yuca
