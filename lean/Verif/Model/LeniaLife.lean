import Verif.Model.Notebook
import Verif.Model.Life

/-!
# Life-like rules in the Lenia framework (notebooks/glaberish_animations.ipynb, yuca/lenia.py)

The import cell of the notebook asks for `yuca.multiverse`, which is not in the repository
(notebooks/glaberish_animations.ipynb:96); `yuca.multiverse.CA` is read as the `CCA` it has become.
Numbers are exact reals.
-/

namespace Yuca

/-- `update` (notebooks/glaberish_animations.ipynb:185-203) with its globals as arguments:
`kernel_moore`, `growth_fn_b`, `growth_fn_s`, `combined_growth_fn` and `dt`.  What becomes of
`grid`; the four subplots are left out. -/
noncomputable def nbUpdateFn {H W : Nat} (useLenia : Bool) (kernel : Grid ℝ 3 3)
    (growthB growthS combined : ℝ → ℝ) (dt : ℝ) (grid : Grid ℝ H W) : Grid ℝ H W :=
  let n := nbConv 1 kernel grid
  let m := nbConv 1 nbEye grid
  let g := fun i j =>
    if useLenia then combined (n i j)
    else ((1 - m i j) * growthB (n i j) + m i j * growthS (n i j)) * 2 - 1
  fun i j => nbClip (grid i j + dt * g i j)

/-- `growth_fn_b`, `growth_fn_s`, `genesis_fn` and `persistence_fn` of the two cells about Morley
(notebooks/glaberish_animations.ipynb:312-313, 374-378): the growth function of a rule list as the
automaton loaded from a life-like config has it. -/
noncomputable def cellGrowth (rules : List Nat) : ℝ → ℝ :=
  (Act.smoothIntervals (smoothInterval rules) 0.0125 true).eval

/-- A frame of the cell "Morley: not readily implementable in the Lenia Framework"
(notebooks/glaberish_animations.ipynb:305-349), for any rule lists: `use_lenia = True`,
`combined_growth_fn` the plain sum of the two growth functions, `dt = 1.0`. -/
noncomputable def morleyLenia {H W : Nat} (birth survival : List Nat) (grid : Grid ℝ H W) :
    Grid ℝ H W :=
  nbUpdateFn true (mooreLike 1) (cellGrowth birth) (cellGrowth survival)
    (fun x => cellGrowth birth x + cellGrowth survival x) 1.0 grid

/-- A frame of the cell "Morley works in Glaberish"
(notebooks/glaberish_animations.ipynb:366-413), for any rule lists: `use_lenia = False`,
`dt = 1.0`.  The combined growth function of the cell before is still there but not used. -/
noncomputable def morleyGlaberish {H W : Nat} (birth survival : List Nat) (grid : Grid ℝ H W) :
    Grid ℝ H W :=
  nbUpdateFn false (mooreLike 1) (cellGrowth birth) (cellGrowth survival)
    (fun x => cellGrowth birth x + cellGrowth survival x) 1.0 grid

/-- A `Lenia` (yuca/lenia.py:42-60) with one channel, the default identity kernel, the 3×3
neighborhood kernel `κ`, growth function `g`, unit weight and `dt = 1`: the object of a life-like
config with kernel and growth function exchanged. -/
noncomputable def leniaWith (κ : Grid ℝ 3 3) (g : ℝ → ℝ) : CCA ℝ 1 1 :=
  { lifeCA [] [] with nbL := .ofKernel 1 1 .circular 3 κ, genesis := [g] }

/-- The 6×6 array `glider` (notebooks/glaberish_animations.ipynb:324-333, 388-397), the
assignments in order. -/
def morleyGlider : List (Nat × Nat) :=
  [(2, 0), (3, 0), (1, 1), (4, 1), (0, 2), (1, 2), (2, 2), (3, 2), (4, 2), (5, 2), (1, 3), (4, 3),
    (1, 4), (4, 4), (2, 5), (3, 5)]

/-- The cells that are 1 in `grid` after `grid[10:16, 4:10] = glider`
(notebooks/glaberish_animations.ipynb:335, 399); the grid is 24×24 in one cell and 36×36 in the
other. -/
def morleyStart (H W : Nat) : Fin H → Fin W → Bool :=
  fun i j => morleyGlider.any fun c => i.val == 10 + c.1 && j.val == 4 + c.2

end Yuca
