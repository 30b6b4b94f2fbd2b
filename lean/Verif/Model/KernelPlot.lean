import Verif.Model.Arith
import Verif.Model.Float

/-!
# The curves that plot_kernel_growth and plot_kernel_genper draw

Only the curves are modelled; the images of the kernel, the colour bars, the titles and the ticks
are left out.
-/

namespace Yuca

/-- The third argument of `np.arange(a, b, (b - a) / K)`, in double precision
(yuca/utils.py:138, notebooks/my_helpers.py:75, 128-129). -/
def plotStep (K : ℕ) (a b : ℚ) : ℚ := double (double (b - a) / K)

/-- Element `i` of `np.arange(a, b, (b - a) / K)`, in double precision.  Numpy computes the first
two elements, `a` and `a + step`, and fills the rest with `a + i * delta`, where `delta` is the
difference of the first two (yuca/utils.py:138, notebooks/my_helpers.py:75, 128-129). -/
def plotX (K : ℕ) (a b : ℚ) (i : ℕ) : ℚ :=
  if i = 0 then a
  else
    let second := double (a + plotStep K a b)
    if i = 1 then second else double (a + double (i * double (second - a)))

/-- `np.arange(a, b, (b - a) / K)` for floats `a` and `b` of Python; a step of 0 divides by zero
(yuca/utils.py:138, notebooks/my_helpers.py:75, 128-129).  Infinite values, overflow and underflow
are not modelled. -/
def plotPoints (K : ℕ) (a b : ℚ) : Except PyErr (List ℚ) :=
  if a = b then .error .zeroDiv
  else .ok ((List.range (arangeLen a b (plotStep K a b)).toNat).map (plotX K a b))

/-- A curve: its points in the order in which they are joined. -/
abbrev GraphPts : Type := List (ℝ × ℝ)

/-- `plot(x, f(x))`; the values of `f` are not rounded (yuca/utils.py:140,
notebooks/my_helpers.py:78). -/
noncomputable def curve (xs : List ℚ) (f : ℝ → ℝ) : GraphPts := xs.map fun x : ℚ => ((x : ℝ), f (x : ℝ))

/-- The curve of `plot_kernel_growth` (yuca/utils.py:128-145 and notebooks/my_helpers.py:35-93);
the two differ in the default of `my_xrange`. -/
noncomputable def plotKernelGrowth (g : ℝ → ℝ) (xrange : ℚ × ℚ) : Except PyErr GraphPts := do
  let x ← plotPoints 1000 xrange.1 xrange.2
  pure (curve x g)

/-- The default `my_xrange=[-0.1, 1.1]` (yuca/utils.py:129). -/
def growthRange : ℚ × ℚ := (double (-1 / 10), double (11 / 10))

/-- The default `my_xrange=[-0.5, 1.1]` of the notebooks (notebooks/my_helpers.py:36). -/
def notebookRange : ℚ × ℚ := (double (-1 / 2), double (11 / 10))

/-- The curves of `plot_kernel_genper`, in the order drawn: genesis, persistence and, if
`show_combined`, the combined growth, which is drawn over the range of genesis
(notebooks/my_helpers.py:94-152). -/
noncomputable def plotKernelGenper (gen per : ℝ → ℝ) (showCombined : Bool)
    (range0 range1 : ℚ × ℚ) : Except PyErr (List GraphPts) := do
  let x0 ← plotPoints 10000 range0.1 range0.2
  let x1 ← plotPoints 10000 range1.1 range1.2
  if showCombined then
    pure [curve x0 (fun x => gen x / 2 - 0.5), curve x1 (fun x => per x / 2 - 0.5),
      curve x0 (fun x => gen x / 2 + per x / 2)]
  else pure [curve x0 gen, curve x1 per]

end Yuca
