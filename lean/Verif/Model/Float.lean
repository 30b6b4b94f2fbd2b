import Mathlib.Data.Int.Log
import Mathlib.Data.Rat.Floor
import Mathlib.Algebra.Order.Round

/-!
# Rounding to double precision

Where the outcome of a computation in the Python code hinges on the last bit (the length of an
`np.arange`), the model rounds as IEEE 754 binary64 does, to the nearest number with 53 significant
bits, ties to even.  Overflow and underflow are not modelled.
-/

namespace Yuca

/-- Nearest integer, ties to even. -/
def nearestEven (x : ℚ) : ℤ :=
  let f := ⌊x⌋
  if x - f < 1 / 2 then f
  else if 1 / 2 < x - f then f + 1
  else if f % 2 = 0 then f else f + 1

/-- The double nearest to `q`. -/
def double (q : ℚ) : ℚ :=
  if q = 0 then 0
  else
    let ulp : ℚ := 2 ^ (Int.log 2 |q| - 52)
    nearestEven (q / ulp) * ulp

/-- The number of elements of `np.arange(start, stop, step)` for doubles (numpy computes
`ceil((stop - start) / step)` in double precision). -/
def arangeLen (start stop step : ℚ) : ℤ := ⌈double (double (stop - start) / step)⌉

end Yuca
