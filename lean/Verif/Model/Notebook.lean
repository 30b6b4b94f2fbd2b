import Verif.Model.Conv
import Verif.Model.Text
import Mathlib.Analysis.SpecialFunctions.Exp
import Mathlib.Analysis.SpecialFunctions.Sqrt
import Mathlib.Algebra.BigOperators.Fin

/-!
# The helpers of the notebooks (notebooks/my_helpers.py) and the Life of the first notebook

Numbers are exact reals.  Plotting is left out.
-/

namespace Yuca

/-- `get_smooth_interval` (notebooks/my_helpers.py:234-243).  Not that of yuca/configs.py: it
divides by 18 instead of 16. -/
noncomputable def nbInterval (rules : List Nat) : List (ℝ × ℝ) :=
  rules.map fun (b : Nat) => ((2 * (b : ℝ) - 1) / 18, (2 * (b : ℝ) + 1) / 18)

/-- `gaussian` (notebooks/my_helpers.py:277-283). -/
noncomputable def nbGaussian (mu sigma u : ℝ) : ℝ := Real.exp (-((u - mu) / sigma) ^ 2 / 2)

/-- The distances `rr` (notebooks/my_helpers.py:267-270); `radius` is not 0 (there they are NaN). -/
noncomputable def nbDistance (radius : Nat) (y x : Fin (2 * radius + 1)) : ℝ :=
  Real.sqrt (((x.val : ℝ) - radius) ^ 2 + ((y.val : ℝ) - radius) ^ 2) / radius

/-- `get_kernel` (notebooks/my_helpers.py:265-274): `kernel_fn` is not used. -/
noncomputable def nbKernel (_kernelFn : ℝ → ℝ) (mu sigma : ℝ) (radius : Nat) :
    Grid ℝ (2 * radius + 1) (2 * radius + 1) :=
  let kernel := fun y x => nbGaussian mu sigma (nbDistance radius y x)
  fun y x => kernel y x / ∑ a, ∑ b, kernel a b

/-- `sigmoid_1` (notebooks/my_helpers.py:285-286). -/
noncomputable def nbSigmoid (x mu alpha : ℝ) : ℝ := 1 / (1 + Real.exp (-4 * (x - mu) / alpha))

/-- `get_smooth_steps_fn` (notebooks/my_helpers.py:288-301). -/
noncomputable def nbSteps (a : List (ℝ × ℝ)) (alpha x : ℝ) : ℝ :=
  a.foldl (fun result edges =>
    result + nbSigmoid x edges.1 alpha * (1 - nbSigmoid x edges.2 alpha)) 0

/-- The row or column `d` away on a torus. -/
def nbWrap {n : Nat} (i : Fin n) (d : Int) : Fin n :=
  ⟨(((i.val : Int) + d) % (n : Int)).toNat, by
    have hn : 0 < (n : Int) := by have := i.isLt; omega
    have h1 := Int.emod_lt_of_pos ((i.val : Int) + d) hn
    have h2 := Int.emod_nonneg ((i.val : Int) + d) (b := (n : Int)) (by omega)
    omega⟩

/-- `get_conv_fn` (notebooks/my_helpers.py:303-310): `convolve2d` with `mode='same'` and
`boundary='wrap'`, for a square kernel of odd side. -/
noncomputable def nbConv {H W : Nat} (r : Nat) (kernel : Grid ℝ (2 * r + 1) (2 * r + 1))
    (x : Grid ℝ H W) : Grid ℝ H W :=
  fun i j => ∑ a, ∑ b, kernel a b * x (nbWrap i (r - a.val)) (nbWrap j (r - b.val))

/-- `kernel_moore` of the Life cell (notebooks/glaberish_animations.ipynb:237-242). -/
noncomputable def nbMoore : Grid ℝ 3 3 :=
  let k : Grid ℝ 3 3 := nbKernel (nbGaussian 0.99 0.3) 0.99 0.3 1
  let k := fun a b => if k a b > 0.01 then 1.0 else k a b
  let k := fun a b => if k a b ≤ 0.01 then 0.0 else k a b
  fun a b => k a b / ∑ c, ∑ d, k c d

/-- `kernel_eye` (notebooks/glaberish_animations.ipynb:245-249). -/
noncomputable def nbEye : Grid ℝ 3 3 :=
  let k : Grid ℝ 3 3 := nbKernel (nbGaussian 0 0.1) 0 0.1 1
  let k := fun a b => if k a b < 0.99 then 0.0 else k a b
  fun a b => k a b / ∑ c, ∑ d, k c d

/-- `growth_fn_b` and `growth_fn_s` for rule lists (notebooks/glaberish_animations.ipynb:234-235,
251-255). -/
noncomputable def nbGrowth (rules : List Nat) (x : ℝ) : ℝ := nbSteps (nbInterval rules) 0.0125 x

/-- `np.clip(v, 0, 1.0)`. -/
noncomputable def nbClip (v : ℝ) : ℝ := min (max v 0) 1

/-- `update` (notebooks/glaberish_animations.ipynb:185-203) for the growth functions of rule lists
and `dt = 1.0`: what becomes of `grid`. -/
noncomputable def nbUpdate {H W : Nat} (useLenia : Bool) (birth survival : List Nat)
    (grid : Grid ℝ H W) : Grid ℝ H W :=
  let n := nbConv 1 nbMoore grid
  let m := nbConv 1 nbEye grid
  let g := fun i j =>
    if useLenia then nbGrowth birth (n i j) + nbGrowth survival (n i j) - 1
    else ((1 - m i j) * nbGrowth birth (n i j) + m i j * nbGrowth survival (n i j)) * 2 - 1
  fun i j => nbClip (grid i j + 1.0 * g i j)

/-- The Life of the notebook (notebooks/glaberish_animations.ipynb:231-235, 257, 282). -/
noncomputable def nbLife {H W : Nat} (grid : Grid ℝ H W) : Grid ℝ H W :=
  nbUpdate true [3] [2, 3] grid

/-! ## `make_gif` of the helpers -/

/-- `make_gif` (notebooks/my_helpers.py:203-230) on a directory of named files: the frames of the
gif in order, and the files left.  `sorted` is the sorted listing; `rm *png` removes the files
whose names end in `png` and do not start with a dot. -/
def nbMakeGif {A : Type} (sorted : List (Str × A)) : Except PyErr (List A × List (Str × A)) :=
  let frames := (sorted.filter fun f => hasSub "png".toList f.1).map Prod.snd
  if 1 < frames.length then
    match frames.head? with
    | none => .error .index
    | some first =>
      .ok (first :: frames, sorted.filter fun f =>
        !(("png".toList).isSuffixOf f.1 && !(".".toList).isPrefixOf f.1))
  else .error .assertion

end Yuca
