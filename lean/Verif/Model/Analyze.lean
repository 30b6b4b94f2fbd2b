import Verif.Model.Librarian
import Verif.Model.Arith
import Mathlib.Analysis.SpecialFunctions.Log.Base
import Mathlib.Algebra.BigOperators.Fin

/-!
# Analysis of universes (yuca/analyze.py)
-/

namespace Yuca

/-! ## Shifting -/

/-- `np.pad(l, k, mode="wrap")` along one axis: the periodic continuation of a nonempty axis by
`k` entries on both sides. -/
def padWrap {K : Type} [Inhabited K] (l : List K) (k : Nat) : List K :=
  (List.range (l.length + 2 * k)).map fun i : Nat =>
    l.getD (((i : Int) - k) % (l.length : Int)).toNat default

/-- `padded[1 + s : 1 + n + s]` along one axis. -/
def shiftAxis {K : Type} [Inhabited K] (l : List K) (s : Int) : List K :=
  pySlice (padWrap l 1) (1 + s) (1 + l.length + s)

/-- `np_shift` (yuca/analyze.py:20-28). -/
def npShift {K : Type} [Inhabited K] (grid : List (List K)) (s : Int × Int) : List (List K) :=
  (shiftAxis grid s.1).map fun row => shiftAxis row s.2

/-- The shift of each direction (yuca/analyze.py:94-101); in other directions `shift` is
unbound. -/
def directionShift : Nat → Except PyErr (Int × Int)
  | 0 => .ok (-1, 0)
  | 1 => .ok (0, 1)
  | 2 => .ok (1, 0)
  | 3 => .ok (0, -1)
  | _ => .error .unbound

/-! ## Entropy -/

/-- `np.uint8(255 * stretched_grid)` for one cell with `lo = np.min(grid)` and
`span = np.max(grid - np.min(grid))`, plus `eps` in the method of `Phanes`
(yuca/analyze.py:40-42, 215-217).  Rounding is not modelled. -/
noncomputable def toByte (lo span eps x : ℝ) : ℤ := ⌊255 * ((x - lo) / (span + eps))⌋

/-- `p` before normalisation (yuca/analyze.py:44-47) for the bytes of a grid, in any order. -/
def histogram (bytes : List ℤ) (i : Fin 256) : Nat := bytes.countP fun b => decide (b = (i.val : ℤ))

/-- `p = p / p.sum()`. -/
noncomputable def byteProb (bytes : List ℤ) (i : Fin 256) : ℝ :=
  histogram bytes i / ∑ j, (histogram bytes j : ℝ)

/-- `get_grid_entropy` after the conversion to bytes (yuca/analyze.py:44-54, 219-229). -/
noncomputable def gridEntropy (bytes : List ℤ) : ℝ :=
  -∑ i, byteProb bytes i * Real.logb 2 (1e-9 + byteProb bytes i)

/-- `p` before normalisation (yuca/analyze.py:112-116): the pairs are a cell and its shifted
neighbour. -/
def jointTable (pairs : List (ℤ × ℤ)) (i j : Fin 256) : Nat :=
  pairs.countP fun c => decide (c.1 = (i.val : ℤ)) == decide (c.2 = (j.val : ℤ))

/-- `p_su` (yuca/analyze.py:119). -/
noncomputable def jointProb (pairs : List (ℤ × ℤ)) (i j : Fin 256) : ℝ :=
  jointTable pairs i j / ∑ k, ∑ l, (jointTable pairs k l : ℝ)

/-- `p_s_given_u` (yuca/analyze.py:122-127). -/
noncomputable def condProb (pairs : List (ℤ × ℤ)) (i j : Fin 256) : ℝ :=
  jointTable pairs i j / ∑ k, (jointTable pairs k j : ℝ)

/-- `get_conditional_grid_entropy` after the conversion to bytes and the shift
(yuca/analyze.py:112-132). -/
noncomputable def conditionalEntropy (pairs : List (ℤ × ℤ)) : ℝ :=
  -∑ i, ∑ j, jointProb pairs i j * Real.logb 2 (1e-9 + condProb pairs i j)

/-- `get_multiconditional_grid_entropy` (yuca/analyze.py:134-141) for the pairs of the four
directions. -/
noncomputable def multiconditionalEntropy (pairs : Fin 4 → List (ℤ × ℤ)) : ℝ :=
  (List.finRange 4).foldl (fun acc d => acc + conditionalEntropy (pairs d) / 4) 0

/-- For `windowSize ≥ 1`, one axis of the window of the module's `get_spatial_entropy` (yuca/analyze.py:58, 71-74). -/
def windowAxis {K : Type} (l : List K) (windowSize x : Nat) : List K :=
  let half := (windowSize - 1) / 2
  pySlice l (max ((x : Int) - half) 0) (min ((x : Int) + half) l.length)

/-- For `windowSize ≥ 1`, `padded_grid[x : x + 2 * half_window + 1]`, one axis of the window of
`Phanes.get_spatial_entropy` (yuca/analyze.py:238-252, 270-274). -/
def wrapWindow {K : Type} [Inhabited K] (l : List K) (windowSize x : Nat) : List K :=
  let half := (windowSize - 1) / 2
  pySlice (padWrap l half) x (x + 2 * half + 1 : Nat)

/-! ## The vanishing record -/

/-- `last_step[(last_step * (active_grids == 0)) == -1] = step` for one sample
(yuca/analyze.py:345). -/
def recordLast (last : Int) (active : Bool) (step : Nat) : Int :=
  if last * (if active then 0 else 1) = -1 then step else last

/-- The loop of `analyze_universe` (yuca/analyze.py:329-361) for `k` more steps from `step` on:
`active` tells which samples are active after a step, `empty` whether `grid.mean() == 0`.  Returns
the record and the number of steps made. -/
def lastStepLoop {B : Type} (active : Nat → B → Bool) (empty : Nat → Bool) :
    Nat → Nat → (B → Int) → (B → Int) × Nat
  | 0, step, last => (last, step)
  | k + 1, step, last =>
    let last' := fun b => recordLast (last b) (active step b) step
    if empty step then (last', step + 1)
    else lastStepLoop active empty k (step + 1) last'

/-- `last_step` of `analyze_universe`. -/
def lastStep {B : Type} (active : Nat → B → Bool) (empty : Nat → Bool) (caSteps : Nat) :
    (B → Int) × Nat :=
  lastStepLoop active empty caSteps 0 fun _ => -1

/-- `active_grids` for one sample, the list of its cells (yuca/analyze.py:333-334); the means of a
tensor with one channel are those of its cells. -/
noncomputable def sampleActive (cells : List ℝ) : Bool := decide (0 < cells.sum / cells.length)

/-- `grid.mean() == 0.0` (yuca/analyze.py:360). -/
noncomputable def batchEmpty (batch : List (List ℝ)) : Bool :=
  decide (batch.flatten.sum / batch.flatten.length = 0)

/-! ## The start box -/

/-- The bounds of the slice `b_dim//2 : -b_dim//2` of an axis of length `dim`
(yuca/analyze.py:298, 309): Python reads the end as `(-b_dim)//2`. -/
def boxBounds (dim : Nat) : Nat × Nat :=
  let b := dim / 2
  (sliceBound dim (b / 2 : Nat), sliceBound dim (Int.fdiv (-(b : Int)) 2))

/-- Can the random patch be assigned to the slice (yuca/analyze.py:309-310)? A patch of side 1 is
broadcast. -/
def boxAssign (dim : Nat) : Except PyErr Unit :=
  let b := dim / 2
  let len := (boxBounds dim).2 - (boxBounds dim).1
  if b = len ∨ b = 1 then .ok () else .error .runtime

/-- Does the start universe keep what is in row or column `x` (random patch, or the CPPN pattern
after yuca/analyze.py:303-306)? -/
def boxKeeps (dim x : Nat) : Bool :=
  decide ((boxBounds dim).1 ≤ x ∧ x < (boxBounds dim).2)

end Yuca
