import Verif.Model.LeniaLife
import Verif.Model.Stored
import Verif.Model.Patterns
import Mathlib.Algebra.Field.Defs

/-!
# The figures of two notebooks (notebooks/glaberish_static_figures.ipynb and
notebooks/halting_evo.ipynb)

Both import `CA` from `yuca.multiverse`, which is not in the repository: an automaton is the map
`ca(grid)` on grids.  Drawing is left out; what is drawn is not.
-/

namespace Yuca

/-! ## The timelapse (glaberish_static_figures.ipynb:562-625) -/

section Timelapse

variable {K : Type} [Field K]

/-- `T[r:r+d, c:c+d] = g`. -/
def setBlock (r c d : Nat) (g T : Nat → Nat → K) : Nat → Nat → K :=
  fun y x => if (r ≤ y ∧ y < r + d) ∧ c ≤ x ∧ x < c + d then g (y - r) (x - c) else T y x

/-- `T[r, :] = 0.1`. -/
def rowLine (r : Nat) (T : Nat → Nat → K) : Nat → Nat → K := fun y x => if y = r then 1 / 10 else T y x

/-- `T[:, c] = 0.1`. -/
def colLine (c : Nat) (T : Nat → Nat → K) : Nat → Nat → K := fun y x => if x = c then 1 / 10 else T y x

/-- The body of the two loops (glaberish_static_figures.ipynb:581-588) for `p = (jj, ii)`: the
picture and the grid. -/
def lapseRound (step : (Nat → Nat → K) → Nat → Nat → K) (dim : Nat)
    (s : (Nat → Nat → K) × (Nat → Nat → K)) (p : Nat × Nat) :
    (Nat → Nat → K) × (Nat → Nat → K) :=
  (colLine (p.2 * dim) (rowLine (p.1 * dim) (setBlock (p.1 % 3 * dim) (p.2 * dim) dim
      (fun y x => s.2 y x * (4 + p.2 * p.1) / 8) s.1)),
    step^[19] s.2)

/-- The values `(jj, ii)` takes (glaberish_static_figures.ipynb:578-579). -/
def lapseOrder : List (Nat × Nat) :=
  [(0, 0), (0, 1), (0, 2), (1, 0), (1, 1), (1, 2), (2, 0), (2, 1), (2, 2)]

/-- `timelapse` (glaberish_static_figures.ipynb:571-593), `3 dim` by `3 dim` cells. -/
def timelapse (step : (Nat → Nat → K) → Nat → Nat → K) (dim : Nat) (grid : Nat → Nat → K) :
    Nat → Nat → K :=
  colLine (3 * dim - 1) (rowLine (3 * dim - 1)
    (lapseOrder.foldl (lapseRound step dim) (fun _ _ => 0, grid)).1)

/-- The annotations (glaberish_static_figures.ipynb:618-625) in drawing order: `xx`, `yy` (the
place, in columns and rows) and the number in `note`. -/
def lapseNotes : List (ℚ × ℚ × Nat) :=
  (List.range 3).flatMap fun (ii : Nat) => (List.range 3).map fun (jj : Nat) =>
    (3 / 2 + (ii : ℚ) * 26, 11 / 2 + (jj : ℚ) * 26, (ii + 3 * jj) * 19)

end Timelapse

/-- `ca(torch.tensor(grid).reshape(1,1,dim,dim)).numpy()[0,0]` (glaberish_static_figures.ipynb:588),
read outside the grid as 0.  A call that raised would end the cell; here it leaves the grid. -/
noncomputable def onceOn (ca : CCA ℝ 1 1) (dim : Nat) (g : Nat → Nat → ℝ) : Nat → Nat → ℝ :=
  match ca.forward (fun _ _ i j => g i.val j.val : Univ ℝ 1 1 dim dim) with
  | .ok r => fun y x => if h : y < dim ∧ x < dim then r.1 0 0 ⟨y, h.1⟩ ⟨x, h.2⟩ else 0
  | .error _ => g

/-- `grid` before the loops (glaberish_static_figures.ipynb:564-569): the puffer at row 8 and column
5 of 26 by 26 cells. -/
noncomputable def pufferGrid (y x : Nat) : ℝ :=
  if h : (8 ≤ y ∧ y < 16) ∧ 5 ≤ x ∧ x < 13 then getPuffer ⟨y - 8, by omega⟩ ⟨x - 5, by omega⟩ else 0

/-- Cell 16 (glaberish_static_figures.ipynb:474-490): a Lenia step with the drawn growth function
`morley_birth(x)/2 + morley_survival(x)/2`, the Moore kernel and `dt = 1`, in the notation of
`update` of glaberish_animations.ipynb. -/
noncomputable def halfLenia {H W : Nat} (birth survival : List Nat) (grid : Grid ℝ H W) :
    Grid ℝ H W :=
  nbUpdateFn true (mooreLike 1) (cellGrowth birth) (cellGrowth survival)
    (fun x => cellGrowth birth x / 2 + cellGrowth survival x / 2) 1.0 grid

/-! ## The statistics (glaberish_static_figures.ipynb:714-862) -/

section Statistics

variable {β E K : Type}

/-- What one automaton leaves in a round of the outer loop: one of the lists of measurements,
`h_cond_step`, the means and the grid. -/
structure Stats (β E K : Type) where
  h : List E
  at_ : List Nat
  means : List K
  grid : β

/-- The body of the loop (glaberish_static_figures.ipynb:799-826) for one automaton and one of the
measurements `h`. -/
def statRound (step : β → β) (h : β → E) (mean : β → K) (steps every : Nat) (s : Stats β E K)
    (k : Nat) : Stats β E K :=
  let m := decide (k % every = 0) || decide (k = steps - 1)
  let g := step s.grid
  { h := if m then s.h ++ [h s.grid] else s.h
    at_ := if m then s.at_ ++ [k] else s.at_
    means := s.means ++ [mean g]
    grid := g }

/-- The loop, with `calculate_every = steps // 10` (glaberish_static_figures.ipynb:732).  Fewer
than ten steps raise ZeroDivisionError at the first test. -/
def statLoop (step : β → β) (h : β → E) (mean : β → K) (steps : Nat) (grid : β) :
    Except PyErr (Stats β E K) :=
  if steps / 10 = 0 ∧ steps ≠ 0 then .error .zeroDiv
  else .ok ((List.range steps).foldl (statRound step h mean steps (steps / 10)) ⟨[], [], [], grid⟩)

/-- `grid_0_end` (glaberish_static_figures.ipynb:828-835): `steps` more steps, without
measurements. -/
def statEnd (step : β → β) (steps : Nat) (s : Stats β E K) : β := step^[steps] s.grid

/-- What `elem[-1]` takes from `spatial_h0s` for the message "over … runs of {steps*2} steps"
(glaberish_static_figures.ipynb:1144-1152). -/
def messageValue (s : Stats β E K) : Except PyErr E :=
  match s.h.getLast? with
  | some e => .ok e
  | none => .error .index

/-- The steps announced in that message. -/
def messageSteps (steps : Nat) : Nat := steps * 2

/-- `my_step` (glaberish_static_figures.ipynb:1166-1179) when the curve of run number `runs` (from
0) is drawn, `n` measurements per run: the list is not emptied between the runs. -/
def plotSteps (steps n : Nat) : Nat → List Nat
  | 0 => (List.range (n - 1)).map (· * (steps / 10)) ++ [steps]
  | runs + 1 => plotSteps steps n runs ++ ((List.range (n - 1)).map (· * (steps / 10)) ++ [steps])

variable [Field K] [DecidableEq K]

/-- `[elem / np.mean(mean_gem) for elem in mean_gem]` (glaberish_static_figures.ipynb:840-841);
`none` stands for the NaNs of a division by a mean of 0. -/
def normMeans (l : List K) : Option (List K) :=
  if l.sum / l.length = 0 then none else some (l.map (· / (l.sum / l.length)))

/-- `h_cond_gems_2` (glaberish_static_figures.ipynb:797, 843-844, 851-854): run by run the baseline
is appended and the measurements minus `h_baselines[0]` are kept. -/
def gammaRuns : List K → List (K × List K) → List (List K)
  | _, [] => []
  | baselines, (b, hs) :: rest =>
    let baselines := baselines ++ [b]
    hs.map (· - baselines.headD 0) :: gammaRuns baselines rest

/-- `h_baselines * len(h_cond_s613)` (glaberish_static_figures.ipynb:1412, 1480). -/
def baselineCurve (baselines : List K) (n : Nat) : List K := (List.replicate n baselines).flatten

end Statistics

/-! ## The 4×4 animation (halting_evo.ipynb:94-165) -/

/-- A grid with its height and width. -/
structure Pic (K : Type) where
  h : Nat
  w : Nat
  px : Nat → Nat → K

section Pictures

variable {K : Type}

/-- `torch.cat([p, q], dim=-1)`. -/
def Pic.beside (p q : Pic K) : Except PyErr (Pic K) :=
  if p.h = q.h then .ok ⟨p.h, p.w + q.w, fun y x => if x < p.w then p.px y x else q.px y (x - p.w)⟩
  else .error .runtime

/-- `torch.cat([p, q], dim=-2)`. -/
def Pic.above (p q : Pic K) : Except PyErr (Pic K) :=
  if p.w = q.w then .ok ⟨p.h + q.h, p.w, fun y x => if y < p.h then p.px y x else q.px (y - p.h) x⟩
  else .error .runtime

/-- `grids[k]`. -/
def pick (grids : List (Pic K)) (k : Nat) : Except PyErr (Pic K) :=
  match grids[k]? with
  | some p => .ok p
  | none => .error .index

/-- `torch.cat([grids[k], …], dim=-1)` for the listed indices. -/
def catRow (grids : List (Pic K)) : List Nat → Except PyErr (Pic K)
  | [] => .error .runtime
  | [k] => pick grids k
  | k :: ks => do
    let p ← pick grids k
    let q ← catRow grids ks
    p.beside q

/-- The rows below each other, each appended at the bottom. -/
def catRows (grids : List (Pic K)) : Pic K → List (List Nat) → Except PyErr (Pic K)
  | p, [] => .ok p
  | p, r :: rs => do
    let q ← catRow grids r
    let p ← p.above q
    catRows grids p rs

/-- `grid` in `plot_4x4` (halting_evo.ipynb:104-110). -/
def plot4x4 (grids : List (Pic K)) : Except PyErr (Pic K) := do
  let p ← catRow grids [0, 1, 2]
  catRows grids p [[4, 5, 6], [8, 9, 10], [12, 13, 14]]

/-- `grid` in `update` (halting_evo.ipynb:142-159): in the branch for colab the last line is only
`grid`. -/
def updatePic (inColab : Bool) (grids : List (Pic K)) : Except PyErr (Pic K) := do
  if inColab then
    let p ← catRow grids [0, 1, 2]
    catRows grids p [[4, 5, 6], [8, 10, 11]]
  else
    let p ← catRow grids [0, 1, 2]
    catRows grids p [[4, 5, 6, 7], [8, 10, 11, 12], [12, 13, 14, 15]]

/-- `for ii in range(len(grids)): grids[ii] = population[ii](grids[ii])` (halting_evo.ipynb:132-133);
the population holds at least as many automata as there are grids. -/
def stepAll (population : List (Pic K → Pic K)) (grids : List (Pic K)) : List (Pic K) :=
  List.zipWith (fun ca g => ca g) population grids

/-- The picture of frame `n` (from 0) of the animation, from `grids = [1.0 * rand_grid] * 16`
(halting_evo.ipynb:264-280). -/
def frame4x4 (inColab : Bool) (population : List (Pic K → Pic K)) (rand : Pic K) (n : Nat) :
    Except PyErr (Pic K) :=
  updatePic inColab ((stepAll population)^[n + 1] (List.replicate 16 rand))

end Pictures

/-! ## The guessing game (halting_evo.ipynb:299-457) -/

section Game

variable {β : Type}

/-- What is shown and judged in one round of the game for one of the grids. -/
structure GameView (β : Type) where
  /-- top row of the training picture -/
  trainFirst : β
  /-- bottom row of the training picture, labelled "256 steps" -/
  trainLast : β
  /-- the grid shown before the question "Will grid … vanish?" -/
  asked : β
  /-- the grid the answer is compared with, labelled "256 steps" -/
  judged : β

/-- One round (halting_evo.ipynb:328-419): `train` and `test` are the random grids of the last
training picture and of the question. -/
def gameRound (ca : β → β) (firstSteps caSteps : Nat) (train test : β) : GameView β :=
  let trainGrids := ca^[firstSteps] train
  let grids := ca^[firstSteps] test
  let first := grids
  let grids := ca^[caSteps] grids
  let grids := ca^[caSteps] grids
  { trainFirst := trainGrids, trainLast := ca^[caSteps] trainGrids, asked := first, judged := grids }

/-- `correct_count` (halting_evo.ipynb:443-447). -/
def correctCount (dead : β → Bool) (judged : List β) (guesses : List Bool) : Nat :=
  (List.zipWith (fun g b => decide (dead b = g)) guesses judged).count true

/-- How many of the configs are played (halting_evo.ipynb:319-325, 453-457): after every one but
the last the player is asked whether to go on. -/
def played : Nat → List Bool → Nat
  | 0, _ => 0
  | 1, _ => 1
  | _ + 2, [] => 1
  | n + 2, more :: answers => if more then 1 + played (n + 1) answers else 1

/-- The configs named in the notebook (halting_evo.ipynb:191-207, 307-310). -/
def haltingConfigs : List String :=
  ["orbium.npy", "p_sinus_labens.npy", "geminium.npy", "synorbium.npy",
   "exp_local_glaberish_orbium_random_1649112702_seed3_config.npy",
   "exp_local_glaberish_orbium_random_1649112702_seed5_config.npy",
   "exp_local_glaberish_orbium_random_1649112702_seed7_config.npy",
   "ca_configs/exp_local_glaberish_geminium_random_1649461964_seed113.npy",
   "s643.npy",
   "exp_local_glaberish_geminium_simple_halt_1649264299_seed11_config.npy",
   "exp_local_glaberish_geminium_simple_halt_1649264299_seed7_config.npy",
   "exp_local_glaberish_geminium_simple_halt_1649312229_seed5_config.npy",
   "exp_local_glaberish_orbium_halt_1649112713_seed3_config.npy",
   "exp_local_glaberish_orbium_halt_1649112713_seed7_config.npy",
   "s613.npy",
   "exp_local_glaberish_geminium_halt_1651935163_seed5.npy"]

/-- The lookup of `restore_config` (yuca/ca/continuous.py:146-169) with the working directory `cwd`
and the directory ca_configs/ of the package apart; the names have no newlines. -/
def findConfig (cwd pkg : Files) (name : String) : Option Config :=
  match cwd name with
  | some c => some c
  | none => pkg name

end Game

end Yuca
