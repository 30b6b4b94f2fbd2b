import Verif.Model.Layers

/-! # Specification of simulated time -/

namespace Yuca.Spec

open Arith

/-- The step sizes used since the last `reset`, for a history in which the step size
used by each call is given (`used`: the values `get_dt` would show after the call) and it
is known which calls returned. -/
def stepsSinceReset {α β : Type} (acc : List α) : List (Op α β × Bool × α) → List α
  | [] => acc
  | (.reset, _, _) :: rest => stepsSinceReset [] rest
  | (.forward _, true, used) :: rest => stepsSinceReset (acc ++ [used]) rest
  | _ :: rest => stepsSinceReset acc rest

/-- Add up a list of step sizes from zero, in order. -/
def total {α : Type} [Arith α] (l : List α) : α := l.foldl add zero

/-- Number of calls of `forward` in a history. -/
def countForward {α β : Type} : List (Op α β) → Nat
  | [] => 0
  | .forward _ :: r => countForward r + 1
  | _ :: r => countForward r

/-- The history neither resets nor changes the step size. -/
def ConstantDt {α β : Type} (ops : List (Op α β)) : Prop :=
  ∀ o ∈ ops, (∃ b, o = .forward b) ∨ ∃ b, o = .getFrame b

end Yuca.Spec
