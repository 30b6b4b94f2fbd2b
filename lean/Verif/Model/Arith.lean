import Mathlib.Analysis.SpecialFunctions.Trigonometric.DerivHyp

/-!
# Arithmetic carriers and Python errors

The step functions of the automata are written once, over an arbitrary carrier
with *lawless* operations.  Nothing is assumed about `add`, `mul`, ...: they may
round, overflow or produce NaN.  Theorems proved at this level therefore hold for
`float16`, `float32` and `float64` alike.
-/

namespace Yuca

/-- Python exceptions the modelled code can raise (exceptions are values here). -/
inductive PyErr where
  | assertion   -- AssertionError
  | index       -- IndexError
  | key         -- KeyError
  | type        -- TypeError
  | attribute   -- AttributeError
  | value       -- ValueError
  | zeroDiv     -- ZeroDivisionError
  | runtime     -- RuntimeError (torch shape and padding errors)
  | unbound     -- UnboundLocalError
  | recursion   -- RecursionError
  | notFound    -- FileNotFoundError
  deriving DecidableEq, Repr

/-- Operations used by the tensor code, with no laws.  `dot` stands for the inner
product a convolution computes at one output cell: an arbitrary function of the
list of (weight, input) pairs, so the summation order, fused multiply-add and
rounding are all left open.  `lt` and `le` are IEEE `<` and `<=` (false when an
operand is NaN); `lit` converts a decimal literal of the source. -/
class Arith (α : Type) where
  zero : α
  one : α
  add : α → α → α
  sub : α → α → α
  mul : α → α → α
  div : α → α → α
  lt : α → α → Bool
  le : α → α → Bool
  abs : α → α
  lit : ℚ → α
  dot : List (α × α) → α

open Arith

/-- Exact real arithmetic. -/
noncomputable instance : Arith ℝ where
  zero := 0
  one := 1
  add := (· + ·)
  sub := (· - ·)
  mul := (· * ·)
  div := (· / ·)
  lt a b := @decide (a < b) (Classical.propDecidable _)
  le a b := @decide (a ≤ b) (Classical.propDecidable _)
  abs a := |a|
  lit q := (q : ℝ)
  dot l := (l.map fun p => p.1 * p.2).sum

/-- Exact rational arithmetic (computable; used for concrete witnesses). -/
instance : Arith ℚ where
  zero := 0
  one := 1
  add := (· + ·)
  sub := (· - ·)
  mul := (· * ·)
  div := (· / ·)
  lt a b := decide (a < b)
  le a b := decide (a ≤ b)
  abs a := |a|
  lit q := q
  dot l := (l.map fun p => p.1 * p.2).sum

/-- IEEE binary64 with left-to-right summation (computable; for running the model). -/
instance : Arith Float where
  zero := 0
  one := 1
  add := (· + ·)
  sub := (· - ·)
  mul := (· * ·)
  div := (· / ·)
  lt a b := decide (a < b)
  le a b := decide (a ≤ b)
  abs a := Float.abs a
  lit q := Float.ofInt q.num / Float.ofNat q.den
  dot l := l.foldl (fun s p => s + p.1 * p.2) 0

/-- Elementary functions used by the activations and kernels, again with no laws. -/
class Transc (α : Type) where
  exp : α → α
  sqrt : α → α
  cos : α → α
  tanh : α → α

noncomputable instance : Transc ℝ where
  exp := Real.exp
  sqrt := Real.sqrt
  cos := Real.cos
  tanh := Real.tanh

instance : Transc Float where
  exp := Float.exp
  sqrt := Float.sqrt
  cos := Float.cos
  tanh := Float.tanh

/-- The comparisons between the constants 0 and 1 that IEEE and exact arithmetic
share; the only laws the range theorem needs. -/
class ClampLaws (α : Type) [Arith α] : Prop where
  not_zero_lt_zero : lt (zero : α) zero = false
  not_one_lt_zero : lt (one : α) zero = false
  not_one_lt_one : lt (one : α) one = false

/-- `torch.clamp(x, 0, 1.0)`: used at yuca/ca/common.py:327,332,345,
yuca/ca/continuous.py:552,560,573, yuca/ca/reaction_diffusion.py:371,
yuca/metaca.py:70, yuca/random_step_ca.py:83, yuca/code.py:142.
torch computes `min(max(x, 0), 1)` and passes NaN through; with IEEE `<` so does
this definition. -/
def clamp01 {α : Type} [Arith α] (x : α) : α :=
  if lt x zero then zero else if lt one x then one else x

end Yuca
