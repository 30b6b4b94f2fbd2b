import Verif.Model.EntropyMap

/-!
# Conditional entropy of a grid (yuca/analyze.py:80-141)

`Model/Analyze.lean` has the table of a list of pairs; here the pairs are made from the grid.
-/

namespace Yuca

/-- `uint8_grid` (yuca/analyze.py:103-107): the least and the greatest value are those of the whole
grid.  `np.min` of an empty grid raises.  In a grid without differences every cell is 0/0, and
`nan` is the byte numpy makes of it.  Rounding is not modelled. -/
noncomputable def gridBytes (nan : ℤ) (grid : List (List ℝ)) : Except PyErr (List (List ℤ)) :=
  let cells := grid.flatten
  if cells.isEmpty then .error .value
  else
    let lo := npMin cells
    let span := npMax (cells.map (· - lo))
    .ok (grid.map fun row => row.map fun x => if span = 0 then nan else toByte lo span 0 x)

/-- `get_conditional_grid_entropy` (yuca/analyze.py:80-132).  `shift` is first used after the grid
was turned into bytes, so an empty grid raises before a wrong direction does.  Directions that are
no natural numbers leave `shift` unbound too and are not modelled. -/
noncomputable def conditionalOf (nan : ℤ) (grid : List (List ℝ)) (direction : Nat) :
    Except PyErr ℝ := do
  let bytes ← gridBytes nan grid
  let shift ← directionShift direction
  let shifted := npShift bytes shift
  .ok (conditionalEntropy (bytes.flatten.zip shifted.flatten))

/-- `get_multiconditional_grid_entropy` (yuca/analyze.py:134-141). -/
noncomputable def multiconditionalOf (nan : ℤ) (grid : List (List ℝ)) : Except PyErr ℝ :=
  (List.range 4).foldlM (fun result direction => do
    let h ← conditionalOf nan grid direction
    .ok (result + h / 4)) 0

end Yuca
