import Verif.Model.Cmaes
import Mathlib.Logic.Function.Basic
import Mathlib.Logic.Relation

/-!
# Parallel evaluation (yuca/cmaes.py, `mantle` and `arm`)

The root process (rank 0) and `W = workers - 1` arms (ranks 1 to `W`) exchange messages over
channels that keep the order of the messages between two processes, which is what MPI promises.
`comm.send` may return at once (the message is buffered) or wait until the message is taken; MPI
is free to choose for every message, so both are steps of the model.

The communicator is taken to have as many processes as `-w` asked for, and the arms to evaluate
an agent exactly as the root would: `fit seed params`.  An arm rebuilds the whole population from
the message before it evaluates.
-/

namespace Yuca

/-- The loop that gives each arm its agents (yuca/cmaes.py:486-504). `population_left` is never
changed in it. -/
def splitLoop (sub pop : Nat) : Nat → Nat → Nat → List (List Nat)
  | 0, _, _ => []
  | k + 1, rem, start =>
    let size := min sub pop + if rem = 0 then 0 else 1
    List.range' start size :: splitLoop sub pop k (rem - 1) (start + size)

/-- The agents of all arms (yuca/cmaes.py:482-504). With `-w 1` the first division fails. -/
def split (pop workers : Nat) : Except PyErr (List (List Nat)) :=
  if workers - 1 = 0 then .error .zeroDiv
  else .ok (splitLoop (pop / (workers - 1)) pop (workers - 1) (pop % (workers - 1)) 0)

/-- What the root sends: `(parameters_list, agent_indices, generation * my_seed)` or the shutdown
message `(0, 0, 0)`. -/
inductive Msg (P : Type) where
  | job (params : List P) (idx : List Nat) (seed : Nat)
  | shutdown

/-- What an arm is doing (yuca/cmaes.py:593-618). -/
inductive Arm (P : Type) where
  /-- waiting in `comm.recv` -/
  | idle
  /-- evaluating -/
  | working (params : List P) (idx : List Nat) (seed : Nat)
  /-- left the loop -/
  | stopped

/-- What the root is doing (yuca/cmaes.py:464-590). -/
inductive Phase (F : Type) where
  /-- about to send to arm `c` -/
  | send (c : Nat)
  /-- about to receive from arm `d`; fitness gathered so far -/
  | recv (d : Nat) (acc : List F)
  /-- about to send the shutdown message to arm `c` -/
  | stop (c : Nat)
  | done

/-- Everything `mantle` does between two evaluations: its state `S`, the agents' parameters, the
seed, whether another generation follows, and what it does with the fitness list. -/
structure Mantle (S P F : Type) where
  params : S → List P
  seed : S → Nat
  more : S → Bool
  upd : S → List F → S
  fit : Nat → P → F
  pop : Nat

/-- A state of all processes and channels; `hist` collects the fitness lists of all
generations. -/
structure Sys (S P F : Type) where
  state : S
  hist : List (List F)
  phase : Phase F
  arm : Nat → Arm P
  toArm : Nat → List (Msg P)
  fromArm : Nat → List (List F)

variable {S P F : Type}

/-- What an arm does with a message (yuca/cmaes.py:596-599). -/
def Msg.receive : Msg P → Arm P
  | .job p i s => .working p i s
  | .shutdown => .stopped

/-- An arm's evaluation (yuca/cmaes.py:601-616); an agent index outside the list is an
IndexError. -/
def armResult (fit : Nat → P → F) (params : List P) (idx : List Nat) (seed : Nat) :
    Except PyErr (List F) :=
  match gather params idx with
  | .error e => .error e
  | .ok ps => .ok (ps.map (fit seed))

/-- The message for arm `c` (yuca/cmaes.py:501-507). -/
def Mantle.job (M : Mantle S P F) (batches : List (List Nat)) (s : S) (c : Nat) : Msg P :=
  .job (M.params s) (batches.getD (c - 1) []) (M.seed s)

/-- Where the root goes when it looks for the next generation. -/
def Mantle.top (M : Mantle S P F) (s : S) : Phase F := if M.more s then .send 1 else .stop 1

/-- One step of some process. The flag says that the step is a send that returned without the
receiver taking the message. -/
inductive Step (M : Mantle S P F) (batches : List (List Nat)) (W : Nat) :
    Bool → Sys S P F → Sys S P F → Prop
  /-- yuca/cmaes.py:506-507, buffered -/
  | sendBuf (y : Sys S P F) (c : Nat) (hp : y.phase = .send c) (hc : c ≤ W) :
      Step M batches W true y { y with
        phase := .send (c + 1)
        toArm := Function.update y.toArm c (y.toArm c ++ [M.job batches y.state c]) }
  /-- the same, taken by the arm at once -/
  | sendNow (y : Sys S P F) (c : Nat) (hp : y.phase = .send c) (hc : c ≤ W)
      (ha : y.arm c = .idle) (he : y.toArm c = []) :
      Step M batches W false y { y with
        phase := .send (c + 1)
        arm := Function.update y.arm c (M.job batches y.state c).receive }
  /-- end of the sending loop -/
  | sent (y : Sys S P F) (c : Nat) (hp : y.phase = .send c) (hc : W < c) :
      Step M batches W false y { y with phase := .recv 1 [] }
  /-- yuca/cmaes.py:511-516 -/
  | recv (y : Sys S P F) (d : Nat) (acc x : List F) (rest : List (List F))
      (hp : y.phase = .recv d acc) (hd : d ≤ W) (hq : y.fromArm d = x :: rest) :
      Step M batches W false y { y with
        phase := .recv (d + 1) (acc ++ x)
        fromArm := Function.update y.fromArm d rest }
  /-- the same, directly from an arm that is sending -/
  | recvNow (y : Sys S P F) (d : Nat) (acc x : List F) (params : List P) (idx : List Nat)
      (seed : Nat) (hp : y.phase = .recv d acc) (hd : d ≤ W) (hq : y.fromArm d = [])
      (ha : y.arm d = .working params idx seed) (hr : armResult M.fit params idx seed = .ok x) :
      Step M batches W false y { y with
        phase := .recv (d + 1) (acc ++ x)
        arm := Function.update y.arm d .idle }
  /-- the generation is over: yuca/cmaes.py:520-569 -/
  | generation (y : Sys S P F) (d : Nat) (acc : List F) (hp : y.phase = .recv d acc)
      (hd : W < d) :
      Step M batches W false y { y with
        state := M.upd y.state acc
        hist := y.hist ++ [acc]
        phase := M.top (M.upd y.state acc) }
  /-- yuca/cmaes.py:588-590, buffered -/
  | stopBuf (y : Sys S P F) (c : Nat) (hp : y.phase = .stop c) (hc : c ≤ W) :
      Step M batches W true y { y with
        phase := .stop (c + 1)
        toArm := Function.update y.toArm c (y.toArm c ++ [.shutdown]) }
  /-- the same, taken by the arm at once -/
  | stopNow (y : Sys S P F) (c : Nat) (hp : y.phase = .stop c) (hc : c ≤ W)
      (ha : y.arm c = .idle) (he : y.toArm c = []) :
      Step M batches W false y { y with
        phase := .stop (c + 1)
        arm := Function.update y.arm c .stopped }
  /-- `mantle` returns -/
  | finish (y : Sys S P F) (c : Nat) (hp : y.phase = .stop c) (hc : W < c) :
      Step M batches W false y { y with phase := .done }
  /-- yuca/cmaes.py:596, a buffered message -/
  | take (y : Sys S P F) (i : Nat) (m : Msg P) (rest : List (Msg P)) (hi : 1 ≤ i ∧ i ≤ W)
      (ha : y.arm i = .idle) (hq : y.toArm i = m :: rest) :
      Step M batches W false y { y with
        arm := Function.update y.arm i m.receive
        toArm := Function.update y.toArm i rest }
  /-- yuca/cmaes.py:618, buffered -/
  | reply (y : Sys S P F) (i : Nat) (x : List F) (params : List P) (idx : List Nat) (seed : Nat)
      (hi : 1 ≤ i ∧ i ≤ W) (ha : y.arm i = .working params idx seed)
      (hr : armResult M.fit params idx seed = .ok x) :
      Step M batches W true y { y with
        arm := Function.update y.arm i .idle
        fromArm := Function.update y.fromArm i (y.fromArm i ++ [x]) }

/-- All processes have just started. -/
def Sys.start (M : Mantle S P F) (s : S) : Sys S P F :=
  { state := s, hist := [], phase := M.top s, arm := fun _ => .idle, toArm := fun _ => []
    fromArm := fun _ => [] }

/-- A step of some process. -/
def Step.any (M : Mantle S P F) (batches : List (List Nat)) (W : Nat) (y z : Sys S P F) : Prop :=
  ∃ b, Step M batches W b y z

/-- The states that can be reached. -/
def Reach (M : Mantle S P F) (batches : List (List Nat)) (W : Nat) (s : S) (y : Sys S P F) :
    Prop :=
  Relation.ReflTransGen (Step.any M batches W) (Sys.start M s) y

end Yuca
