import Verif.Model.Analyze
import Verif.Model.Analysis

/-!
# Maps of the local entropy (yuca/analyze.py:56-77, 205-276, 351-355)

A grid is a list of rows.  Exact real arithmetic; window sizes are at least 1.
-/

namespace Yuca

/-- The bytes of a window (yuca/analyze.py:40-42, 215-217).  `np.min` of an empty window raises.
Where the span and `eps` are both 0 every cell is 0/0, and `nan` is the byte numpy makes of it
(the same for every cell). -/
noncomputable def windowBytes (eps : ℝ) (nan : ℤ) : List ℝ → Except PyErr (List ℤ)
  | [] => .error .value
  | x :: xs =>
    let cells := x :: xs
    let lo := npMin cells
    let span := npMax (cells.map (· - lo))
    .ok (cells.map fun x => if span + eps = 0 then nan else toByte lo span eps x)

/-- `get_grid_entropy` of a window: `eps` is 0 in the function of the module
(yuca/analyze.py:30-54), 1e-9 in the method of `Phanes` (yuca/analyze.py:205-229). -/
noncomputable def windowEntropy (eps : ℝ) (nan : ℤ) (cells : List ℝ) : Except PyErr ℝ :=
  (windowBytes eps nan cells).map gridEntropy

/-- The kind of the array a map is stored in: `np.zeros_like(grid)` has that of the grid.
(Boolean grids are refused by the subtraction; not modelled.) -/
inductive MapKind where
  | float
  | int
  deriving DecidableEq

/-- What is left of a number stored in an array of that kind: an integer array drops the part
after the point.  Rounding to single precision is not modelled. -/
noncomputable def MapKind.store : MapKind → ℝ → ℝ
  | .float, x => x
  | .int, x => if 0 ≤ x then ⌊x⌋ else ⌈x⌉

/-- The double loop over the cells that fills a map. -/
def fillMap (height width : Nat) (entry : Nat → Nat → Except PyErr ℝ) :
    Except PyErr (List (List ℝ)) :=
  (List.range height).mapM fun x => (List.range width).mapM fun y => entry x y

/-- `get_spatial_entropy` of the module (yuca/analyze.py:56-77); its `padded_grid` is not used. -/
noncomputable def moduleMap (nan : ℤ) (kind : MapKind) (grid : List (List ℝ)) (windowSize : Nat) :
    Except PyErr (List (List ℝ)) :=
  fillMap grid.length (grid.headD []).length fun x y =>
    (windowEntropy 0 nan
      ((windowAxis grid windowSize x).map fun row => windowAxis row windowSize y).flatten).map
        kind.store

/-- `np.pad(grid, pad_width=half_window, mode="wrap")` of a matrix (yuca/analyze.py:243, 270). -/
def padWrap2 (grid : List (List ℝ)) (k : Nat) : List (List ℝ) :=
  (padWrap grid k).map fun row => padWrap row k

/-- `Phanes.get_spatial_entropy` of a matrix (yuca/analyze.py:238-252). -/
noncomputable def phanesMap (kind : MapKind) (grid : List (List ℝ)) (windowSize : Nat) :
    Except PyErr (List (List ℝ)) :=
  let half := (windowSize - 1) / 2
  let padded := padWrap2 grid half
  fillMap grid.length (grid.headD []).length fun x y =>
    (windowEntropy 1e-9 0
      ((pySlice padded x (x + 2 * half + 1 : Nat)).map fun row =>
        pySlice row y (y + 2 * half + 1 : Nat)).flatten).map kind.store

/-- An array by its number of axes: samples of channels of matrices have four. -/
inductive NpGrid where
  | two (kind : MapKind) (grid : List (List ℝ))
  | four (grid : List (List (List (List ℝ))))
  | other

/-- `Phanes.get_spatial_entropy` (yuca/analyze.py:231-276): with four axes the map is made by
`np.zeros`, hence of floats; with another number of axes `spatial_h` is unbound. -/
noncomputable def phanesEntropy (grid : NpGrid) (windowSize : Nat) : Except PyErr NpGrid :=
  match grid with
  | .two kind g => (phanesMap kind g windowSize).map (.two kind)
  | .four g =>
    (g.mapM fun (sample : List (List (List ℝ))) =>
      sample.mapM fun channel => phanesMap .float channel windowSize).map .four
  | .other => .error .unbound

/-- The rows of one channel of one sample. -/
def gridRows {B C H W : Nat} (u : Univ ℝ B C H W) (n : Fin B) (c : Fin C) : List (List ℝ) :=
  (List.finRange H).map fun i => (List.finRange W).map fun j => u n c i j

/-- `grid.detach().cpu().numpy()` of a universe. -/
def gridArray {B C H W : Nat} (u : Univ ℝ B C H W) : List (List (List (List ℝ))) :=
  (List.finRange B).map fun n => (List.finRange C).map fun c => gridRows u n c

/-- The entropy columns of one turn of the loop of `analyze_universe` (yuca/analyze.py:353-355):
mean and standard deviation of the map with windows of the size of the kernel
(yuca/analyze.py:288). -/
noncomputable def entropyRow {B C H W : Nat} (radius : Nat) (u : Univ ℝ B C H W) :
    Except PyErr (ℝ × ℝ) := do
  match ← phanesEntropy (.four (gridArray u)) (radius * 2 + 1) with
  | .four m =>
    let cells := (m.flatten.flatten).flatten
    return (npMean cells, npStd cells)
  | _ => .error .type

/-- The loop of `analyze_universe` (yuca/analyze.py:329-361) with its entropy columns only, for `k`
more steps; the other columns are in `analyzeLoop`. -/
noncomputable def entropyLoop {S : Type} {B C H W : Nat} (radius : Nat)
    (step : S → Univ ℝ B C H W → Except PyErr (Univ ℝ B C H W × S)) :
    Nat → S → Univ ℝ B C H W → Except PyErr (List (ℝ × ℝ))
  | 0, _, _ => .ok []
  | k + 1, s, grid => do
    let (grid, s) ← step s grid
    let row ← entropyRow radius grid
    if gridMean grid = 0 then .ok [row]
    else do
      let rows ← entropyLoop radius step k s grid
      .ok (row :: rows)

end Yuca
