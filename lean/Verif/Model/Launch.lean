import Verif.Model.Mpi
import Verif.Model.Text

/-!
# How the processes of a search come to be (yuca/cmaes.py, `mpi_fork` and `search`)

A process is known by its environment variables and by the communicator it was started in.  The
command line is text, as `subprocess.check_call` gets it, and `mpirun` is modelled as far as that
command goes.
-/

namespace Yuca

/-- `os.environ`. -/
abbrev Environ := Str → Option Str

/-- A running script: its environment, and the size and the rank that `comm.Get_size()` and
`comm.Get_rank()` report (1 and 0 for a script that was not started by `mpirun`). -/
structure Proc where
  env : Environ
  size : Nat
  rank : Nat

/-- What a process is in a search (yuca/cmaes.py:408-416): `num_worker` is the global variable that
`mpi_fork` sets. -/
inductive Role where
  /-- leaves with `os._exit(0)` once its `mpirun` is through -/
  | launcher
  /-- runs `self.mantle()` -/
  | mantle (numWorker : Nat)
  /-- runs `self.arm()` -/
  | arm (numWorker rank : Nat)
  deriving DecidableEq

/-- The variable by which a process knows that it was started by `mpirun`
(yuca/cmaes.py:391, 397). -/
def inMpi : Str := "IN_MPI".toList

/-- `env.update(...)` of one variable. -/
def Environ.set (e : Environ) (key value : Str) : Environ := fun k => if k = key then some value
  else e k

/-- The environment that the new processes get (yuca/cmaes.py:393-398). -/
def childEnv (e : Environ) : Environ :=
  ((e.set "MKL_NUM_THREADS".toList "1".toList).set "OMP_NUM_THREAdS".toList "1".toList).set
    inMpi "1".toList

/-- The command that starts the new processes (yuca/cmaes.py:400-401). `workers` is at least 2
there. -/
def launchCommand (workers : Int) (exe : Str) (argv : List Str) : List Str :=
  ["mpirun".toList, "-np".toList, decimal workers.toNat, exe] ++ ["-u".toList] ++ argv

/-- What `mpi_fork` does (yuca/cmaes.py:377-406): either the process is a "child" that knows
`num_worker` and `rank`, or it is the "parent" and runs a command in an environment. -/
inductive Fork where
  | child (numWorker rank : Nat)
  | parent (cmd : List Str) (env : Environ)

/-- `mpi_fork` (yuca/cmaes.py:377-406). -/
def mpiFork (workers : Int) (exe : Str) (argv : List Str) (p : Proc) : Fork :=
  if workers ≤ 1 then .child 0 0
  else match p.env inMpi with
    | none => .parent (launchCommand workers exe argv) (childEnv p.env)
    | some _ => .child p.size p.rank

/-- The branches of `search` (yuca/cmaes.py:408-416). -/
def Fork.role : Fork → Role
  | .parent _ _ => .launcher
  | .child n r => if r = 0 then .mantle n else .arm n r

/-- The digits of a number that a program reads from its command line. -/
def readNat (s : Str) : Option Nat :=
  if s = [] then none
  else if s.all (·.isDigit) then some (s.foldl (fun n c => 10 * n + (c.toNat - '0'.toNat)) 0)
  else none

/-- What `mpirun -np N python -u ARGV` starts: `N` processes of one communicator, all with the
environment of the call (`mpirun` adds variables of its own, which no code here reads), and
`sys.argv` of each. -/
def mpirun (exe : Str) (env : Environ) : List Str → Option (List Proc × List Str)
  | prog :: np :: n :: py :: u :: argv =>
    if prog = "mpirun".toList ∧ np = "-np".toList ∧ py = exe ∧ u = "-u".toList then
      (readNat n).map fun n => ((List.range n).map fun r => ⟨env, n, r⟩, argv)
    else none
  | _ => none

/-- What a fork leads to, given what the new processes lead to. -/
def Fork.below (exe : Str) (run : List Str → List Proc → Option (List (List Role))) :
    Fork → Option (List (List Role))
  | .child _ _ => some []
  | .parent cmd env =>
    match mpirun exe env cmd with
    | none => none
    | some (qs, argv) => run argv qs

/-- All processes that a call of the script leads to, communicator by communicator: first the
roles in the given one, then those in all that are started from it. `workers` is what the script
reads from its command line (yuca/evolve.py:221, yuca/cmaes.py:29). `none` if the processes never
stop starting others within the given depth, or if a command cannot be run. -/
def started (workers : List Str → Int) (exe : Str) :
    Nat → List Str → List Proc → Option (List (List Role))
  | 0, _, _ => none
  | depth + 1, argv, ps =>
    (ps.mapM fun p => (mpiFork (workers argv) exe argv p).below exe
      fun argv' qs => started workers exe depth argv' qs).map fun below =>
      (ps.map fun p => (mpiFork (workers argv) exe argv p).role) :: below.flatten

/-- How a mantle evaluates a generation. -/
inductive Evaluation where
  /-- yuca/cmaes.py:471-479 -/
  | serial
  /-- the agents sent to each destination, and the ranks whose answers are awaited -/
  | parallel (sends : List (Nat × List Nat)) (recvs : List Nat)
  deriving DecidableEq

/-- The evaluation of a generation (yuca/cmaes.py:471-516): `self.workers` and `num_worker` are
different variables. `int(a / b)` truncates and `%` has the sign of the divisor. A message to a
rank that the communicator does not have is an error of MPI. -/
def mantleJobs (pop : Nat) (workers : Int) (numWorker : Nat) : Except PyErr Evaluation :=
  if workers = 0 then .ok .serial
  else if workers - 1 = 0 then .error .zeroDiv
  else if (numWorker : Int) - 1 = 0 then .error .zeroDiv
  else
    let sub := Int.tdiv pop (workers - 1)
    let rem := Int.fmod pop ((numWorker : Int) - 1)
    let batches := splitLoop sub.toNat pop (workers - 1).toNat rem.toNat 0
    if (numWorker : Int) < workers then .error .runtime
    else .ok (.parallel ((List.range' 1 (workers - 1).toNat).zip batches)
      (List.range' 1 (numWorker - 1)))

end Yuca
