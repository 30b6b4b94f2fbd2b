import Verif.Model.Layers
import Mathlib.Algebra.BigOperators.Group.Finset.Basic
import Mathlib.Algebra.Order.Round

/-!
# Reward wrappers (yuca/wrappers)

The automaton is an arbitrary step function `f`, so the statements apply to every class.
`self.ca.set_params(action)` (the first statement of each `step`) is modelled with the
parameter vectors, not here: `s` is the automaton after it.
-/

namespace Yuca

open Arith

variable {α : Type} [Arith α] {σ : Type} {N C H W : Nat}

/-! ## SimpleHaltingWrapper -/

/-- All cells of one sample. -/
def sampleCells (x : Fin C → Grid α H W) : List α :=
  (List.finRange C).flatMap fun c => (List.finRange H).flatMap fun i =>
    (List.finRange W).map fun j => x c i j

/-- `grid.mean()`: torch sums in some order and divides. -/
def uMean (u : Univ α N C H W) : α :=
  div (dot (((List.finRange N).flatMap fun n => sampleCells (u n)).map fun x => (one, x)))
    (lit (N * C * H * W : Nat))

/-- Mean of one sample.  The code takes the mean over rows and columns first and then over
channels (yuca/wrappers/halting_wrapper.py:82), which differs from this by rounding only. -/
def sampleMean (x : Fin C → Grid α H W) : α :=
  div (dot ((sampleCells x).map fun x => (one, x))) (lit (C * H * W : Nat))

/-- Whether position `i` of an axis of length `n` lies in the Python slice `[-h:]`
(`-0` is `0`, so `[-0:]` is the whole axis). -/
def inTailSlice (n h i : Nat) : Bool := if h = 0 then true else decide (n - h ≤ i)

/-- The start grid of a rollout (yuca/wrappers/halting_wrapper.py:65-73): random values `rnd`
with a border of width `dim // 4` multiplied by zero. -/
def startGrid (dim : Nat) (rnd : Univ α N C dim dim) : Univ α N C dim dim :=
  let half := dim / 4
  fun n c i j =>
    let x := rnd n c i j
    let x := if i.val < half then mul x zero else x
    let x := if j.val < half then mul x zero else x
    let x := if inTailSlice dim half i.val then mul x zero else x
    if inTailSlice dim half j.val then mul x zero else x

/-- The rollout loop (yuca/wrappers/halting_wrapper.py:75-79): step, then stop if the mean of
the grid is not positive. -/
def haltingRollout (f : σ → Univ α N C H W → Except PyErr (Univ α N C H W × σ)) :
    Nat → σ → Univ α N C H W → Except PyErr (Univ α N C H W × σ)
  | 0, s, u => .ok (u, s)
  | k + 1, s, u => do
    let (u', s') ← f s u
    if le (uMean u') zero then return (u', s') else haltingRollout f k s' u'

/-- `active_grid` (yuca/wrappers/halting_wrapper.py:81-82, 89): the proportion of samples whose
mean is positive. -/
def activeGrid (u : Univ α N C H W) : α :=
  div (dot ((List.finRange N).map fun n =>
    (one, if lt zero (sampleMean (u n)) then one else zero))) (lit (N : Nat))

/-- The reward (yuca/wrappers/halting_wrapper.py:26, 96) for a given `active_grid`. -/
noncomputable def haltingReward (active : ℝ) : ℝ := -Real.sqrt ((0.5001 - active) ^ 2)

/-! ## HaltingWrapper -/

/-- `torch.round`: to the nearest integer, halves to the even one. -/
noncomputable def torchRound (x : ℝ) : ℤ :=
  if Int.fract x < 1 / 2 then ⌊x⌋
  else if 1 / 2 < Int.fract x then ⌊x⌋ + 1
  else if ⌊x⌋ % 2 = 0 then ⌊x⌋ else ⌊x⌋ + 1

/-- `torch.clamp(.., 0, 1)` on an integer-valued tensor. -/
def clampInt (x : ℤ) : ℤ := max 0 (min 1 x)

/-- `get_accuracy` (yuca/wrappers/halting_wrapper.py:217-227) on `K` predictions. -/
noncomputable def accuracy {K : Nat} (prediction target : Fin K → ℝ) : ℝ :=
  (∑ i, if clampInt (torchRound (target i)) = clampInt (torchRound (prediction i)) then (1 : ℝ)
    else 0) / K

/-- `reward = - self.get_accuracy(pred, target)` (yuca/wrappers/halting_wrapper.py:325). -/
noncomputable def haltingPredictorReward {K : Nat} (prediction target : Fin K → ℝ) : ℝ :=
  -accuracy prediction target

/-- The vanishing label of one sample while training (yuca/wrappers/halting_wrapper.py:257-260):
mean above 0.0001. -/
noncomputable def trainLabel (x : Fin C → Grid ℝ H W) : Prop := 0.0001 < sampleMean x

/-- The vanishing label of one sample when the reward is computed
(yuca/wrappers/halting_wrapper.py:299-303): maximum above 0.00001. -/
def evalLabel (x : Fin C → Grid ℝ H W) : Prop := ∃ c i j, 0.00001 < x c i j

/-! ## GliderWrapper -/

variable {D : Nat}

/-- `y_displacement_1` (yuca/wrappers/glider_wrapper.py:101, 139-147): `y_grid` holds the
column index divided by the kernel radius; the numerator uses sample 0 only, the denominator
the whole batch. -/
noncomputable def centreOfMass (radius : ℝ) (u : Univ ℝ (N + 1) C D D) : ℝ :=
  (∑ c, ∑ i : Fin D, ∑ j : Fin D, ((j.val : ℝ) / radius) * u 0 c i j) /
    (1e-6 + ∑ n, ∑ c, ∑ i, ∑ j, u n c i j)

/-- `kernel_span = self.y_grid.max()` (yuca/wrappers/glider_wrapper.py:89), for `D ≥ 1` and a
positive radius. -/
noncomputable def kernelSpan (radius : ℝ) (D : Nat) : ℝ := ((D : ℝ) - 1) / radius

/-- `growth` (yuca/wrappers/glider_wrapper.py:105). -/
noncomputable def growthPenalty (mean mean0 : ℝ) : ℝ := |1 - mean / (mean0 + 1e-6)|

/-- Local variables of `meta_step` that survive an iteration. -/
structure GliderVars (σ : Type) (N C D : Nat) where
  s : σ
  action : Univ ℝ (N + 1) C D D
  old : Univ ℝ (N + 1) C D D
  mean0 : ℝ
  y0 : ℝ
  reward : ℝ
  /-- `y_displacement` and `growth`; unbound before the first iteration. -/
  last : Option (ℝ × ℝ)

open Classical in
/-- One pass of the loop body (yuca/wrappers/glider_wrapper.py:93-128); the flag says whether
`break` was reached.  `score_every` is 1, so every step is scored. -/
noncomputable def gliderBody
    (f : σ → Univ ℝ (N + 1) C D D → Except PyErr (Univ ℝ (N + 1) C D D × σ)) (radius : ℝ)
    (v : GliderVars σ N C D) : Except PyErr (GliderVars σ N C D × Bool) := do
  let (action, s) ← f v.s v.action
  let mean := uMean action
  let y1 := centreOfMass radius action
  let growth := growthPenalty mean v.mean0
  let span := kernelSpan radius D
  let disp : ℝ :=
    if v.y0 ≠ 0 then
      if span - 2 < v.y0 ∧ y1 < 2 then y1 - v.y0 + span else y1 - v.y0
    else 0
  let stop := mean = 0 ∨ ∀ n c i j, action n c i j - v.old n c i j ≤ 1e-5
  return ({ s := s, action := action, old := action, mean0 := mean, y0 := y1,
            reward := v.reward + (disp - growth), last := some (disp, growth) }, decide stop)

/-- The loop `for step in range(self.ca_steps)`. -/
noncomputable def gliderLoop
    (f : σ → Univ ℝ (N + 1) C D D → Except PyErr (Univ ℝ (N + 1) C D D × σ)) (radius : ℝ) :
    Nat → GliderVars σ N C D → Except PyErr (GliderVars σ N C D)
  | 0, v => .ok v
  | k + 1, v => do
    let (v', stop) ← gliderBody f radius v
    if stop then return v' else gliderLoop f radius k v'

/-- `meta_step` (yuca/wrappers/glider_wrapper.py:70-137): the reward, or `UnboundLocalError` at
`info["y_displacment"] = y_displacement` when no iteration ran.  `reset` is `self.ca.reset()`
(line 88). -/
noncomputable def gliderStep
    (f : σ → Univ ℝ (N + 1) C D D → Except PyErr (Univ ℝ (N + 1) C D D × σ)) (reset : σ → σ)
    (radius : ℝ) (caSteps : Nat) (s : σ) (action : Univ ℝ (N + 1) C D D) :
    Except PyErr (ℝ × ℝ × ℝ) := do
  let v ← gliderLoop f radius caSteps
    { s := reset s, action := action, old := action, mean0 := uMean action, y0 := 0, reward := 0,
      last := none }
  match v.last with
  | some (disp, growth) => return (v.reward, disp, growth)
  | none => .error .unbound

end Yuca
