import Verif.Model.Dyn
import Mathlib.Analysis.SpecialFunctions.Pow.Real

/-!
# What `Phanes.analyze_universe` records (yuca/analyze.py)

Exact real arithmetic.  The spatial entropy columns are in `Verif/Model/EntropyMap.lean`.
-/

namespace Yuca

open scoped BigOperators

variable {B C H W : Nat}

/-- `grid.mean()`. -/
noncomputable def gridMean (g : Univ ℝ B C H W) : ℝ :=
  (∑ n, ∑ c, ∑ i, ∑ j, g n c i j) / (B * C * H * W : ℕ)

/-- `grid.std()` (torch: divided by one less than the number of cells). -/
noncomputable def gridStd (g : Univ ℝ B C H W) : ℝ :=
  Real.sqrt ((∑ n, ∑ c, ∑ i, ∑ j, (g n c i j - gridMean g) ^ 2) / (((B * C * H * W : ℕ) : ℝ) - 1))

/-- `(eps + grid - grid.mean()) / (eps + grid.std())` (yuca/analyze.py:194-197). -/
noncomputable def autoNorm (g : Univ ℝ B C H W) : Univ ℝ B C H W := fun n c i j =>
  (1e-7 + g n c i j - gridMean g) / (1e-7 + gridStd g)

/-- `Phanes.autocorrelate` (yuca/analyze.py:193-203) for two grids of one shape.  After the
transposition the samples are the input channels of the convolution and the second grid is its
kernel, as large as the image, so that the result has one cell for every pair of channels. -/
noncomputable def autocorrelate (g1 g2 : Univ ℝ B C H W) : Fin C → Fin C → ℝ := fun c d =>
  (∑ n, ∑ i, ∑ j, autoNorm g1 n c i j * autoNorm g2 n d i j) / (B * C * H * W : ℕ)

/-- `np.mean`. -/
noncomputable def npMean (l : List ℝ) : ℝ := l.sum / l.length

/-- `np.std`. -/
noncomputable def npStd (l : List ℝ) : ℝ :=
  Real.sqrt ((l.map fun x => (x - npMean l) ^ 2).sum / l.length)

/-- `np.min` (of an empty array it raises; not modelled). -/
noncomputable def npMin : List ℝ → ℝ
  | [] => 0
  | x :: xs => xs.foldl min x

/-- `np.max` (of an empty array it raises; not modelled). -/
noncomputable def npMax : List ℝ → ℝ
  | [] => 0
  | x :: xs => xs.foldl max x

/-- The cells of the array `autocorrelate` returns. -/
noncomputable def autoCells (g1 g2 : Univ ℝ B C H W) : List ℝ :=
  (List.finRange C).flatMap fun c => (List.finRange C).map fun d => autocorrelate g1 g2 c d

/-- What one step adds to the lists of `analyze_universe`. -/
structure AnalysisRow where
  /-- mean, standard deviation, minimum and maximum -/
  auto : List ℝ
  mortality : ℝ
  fertility : ℝ

/-- `active_grids` of one sample (yuca/analyze.py:333-334). -/
noncomputable def activeFlag (g : Univ ℝ B C H W) (n : Fin B) : ℝ :=
  if 0 < (∑ c, (∑ i, ∑ j, g n c i j) / (H * W : ℕ)) / C then 1 else 0

/-- `escape_mask` (yuca/analyze.py:312-317). -/
noncomputable def escapeMask (i : Fin H) (j : Fin W) : ℝ :=
  if i.val = 0 ∨ i.val + 1 = H ∨ j.val = 0 ∨ j.val + 1 = W then 1 else 0

/-- `fertile_grids` of one sample (yuca/analyze.py:336-337). -/
noncomputable def fertileFlag (g : Univ ℝ B C H W) (n : Fin B) : ℝ :=
  if 0 < ∑ c, ∑ i, ∑ j, escapeMask i j * g n c i j then 1 else 0

/-- One turn of the loop (yuca/analyze.py:333-349) with the grid after and before the step. -/
noncomputable def analysisRow (g old : Univ ℝ B C H W) : AnalysisRow where
  auto :=
    let a := autoCells g old
    [npMean a, npStd a, npMin a, npMax a]
  mortality := 1 - (∑ n, activeFlag g n) / B
  fertility := (∑ n, fertileFlag g n) / B

/-- The loop of `analyze_universe` (yuca/analyze.py:329-361) for `k` more steps.  `step` is the
automaton with its state; the entropy columns are left out. -/
noncomputable def analyzeLoop {S : Type} (step : S → Univ ℝ B C H W → Except PyErr (Univ ℝ B C H W × S)) :
    Nat → S → Univ ℝ B C H W → Univ ℝ B C H W → Except PyErr (List AnalysisRow)
  | 0, _, _, _ => .ok []
  | k + 1, s, grid, oldGrid => do
    let (grid, s) ← step s grid
    let row := analysisRow grid oldGrid
    let oldGrid := grid
    if gridMean grid = 0 then .ok [row]
    else do
      let rows ← analyzeLoop step k s grid oldGrid
      .ok (row :: rows)

/-- `analyze_universe` from a start grid: `old_grid` starts as the grid itself
(yuca/analyze.py:326). -/
noncomputable def analyzeUniverse {S : Type}
    (step : S → Univ ℝ B C H W → Except PyErr (Univ ℝ B C H W × S)) (caSteps : Nat) (s : S)
    (grid : Univ ℝ B C H W) : Except PyErr (List AnalysisRow) :=
  analyzeLoop step caSteps s grid grid

/-- The "avg./final autocorrelation" `analyze_multiverse` prints (yuca/analyze.py:391-393):
`np.mean` of the whole table, and the first column of its last row. -/
noncomputable def printedAutocorrelation (rows : List AnalysisRow) : Except PyErr (ℝ × ℝ) :=
  match rows.getLast? with
  | none => .error .index
  | some last => .ok (npMean (rows.map AnalysisRow.auto).flatten, last.auto.headD 0)

end Yuca
