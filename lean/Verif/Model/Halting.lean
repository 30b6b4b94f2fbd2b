import Verif.Model.Coevolve
import Verif.Model.Predictor

/-!
# `HaltingWrapper` as an environment (yuca/wrappers/halting_wrapper.py:114-358)

A network is trained for a few steps to tell from an early grid how a run ends; a rule is good when
the network fails.  Batch, channels and `dim` are at least 1, so that means and maxima exist.
-/

namespace Yuca

variable {σ T G : Type} {C K N D : Nat}

/-! ## The network -/

/-- What torch contributes to the network: `T` holds the weights together with the state of the
optimizer.  `K` is the number of outputs. -/
structure Learner (T G : Type) (C K : Nat) where
  /-- `init_model` (lines 172-203): fresh weights from the torch generator, a fresh optimizer. -/
  init : G → T × G
  /-- Block `hh` (lines 178-188): three convolutions with padding 1, which keep the size, with
  dropout and ReLU.  The flag says whether the block is in training mode; dropout draws. -/
  block : T → Bool → Nat → G → ∀ {N D : Nat}, Univ ℝ N C D D → Univ ℝ N C D D × G
  /-- `final_layer` (lines 193-200). -/
  final : T → ∀ {N D : Nat}, Univ ℝ N C D D → Univ ℝ N K D D
  /-- `zero_grad`, `loss.backward()` and `optimizer.step()` (lines 236, 276-278), for the grid and
  the targets, and the generator at the time of `forward`, which fixes what was dropped. -/
  learn : T → G → ∀ {N D : Nat}, Univ ℝ N C D D → (Fin N → Fin K → ℝ) → T

/-- `F.avg_pool2d(x, kernel_size=2)` (line 161) with its stride of 2; an odd last row and column
are left out. -/
noncomputable def avgPool (x : Univ ℝ N C D D) : Univ ℝ N C (D / 2) (D / 2) := fun n c i j =>
  (x n c ⟨2 * i, by omega⟩ ⟨2 * j, by omega⟩ + x n c ⟨2 * i, by omega⟩ ⟨2 * j + 1, by omega⟩ +
    x n c ⟨2 * i + 1, by omega⟩ ⟨2 * j, by omega⟩ +
    x n c ⟨2 * i + 1, by omega⟩ ⟨2 * j + 1, by omega⟩) / 4

/-- `forward` (lines 156-167) from block `hh` on, with `k` blocks to go.  Pooling a grid below
2x2 raises RuntimeError. -/
noncomputable def Learner.forward (L : Learner T G C K) (t : T) (training : Bool) :
    Nat → Nat → G → ∀ {N D : Nat}, Univ ℝ N C D D → Except PyErr ((Fin N → Fin K → ℝ) × G)
  | 0, _, g, _, D, x =>
    .ok (fun n k => (∑ i : Fin D, ∑ j : Fin D, sigmoid (L.final t x n k i j)) / (D * D), g)
  | k + 1, hh, g, _, D, x =>
    let (y, g) := L.block t training hh g x
    if D < 2 then .error .runtime else L.forward t training k (hh + 1) g (avgPool y)

/-! ## Labels -/

/-- Outputs of `final_layer` (lines 193-200). -/
def labelOutputs (mode : Nat) : Nat := if mode = 2 then 2 else 1

/-- Columns of `target` (lines 257-274, 299-319). -/
def labelColumns (mode : Nat) : Nat := if mode = 0 then 1 else if mode = 1 then 1 else 2

open Classical in
/-- `1.0 * (...)` of a comparison. -/
noncomputable def oneIf (p : Prop) : ℝ := if p then 1 else 0

/-- `dgrid = torch.abs(grid - self.ca(grid))` (lines 256, 298), for one sample. -/
noncomputable def stepChange {H W : Nat} (x y : Fin C → Grid ℝ H W) : Fin C → Grid ℝ H W :=
  fun c i j => |x c i j - y c i j|

/-- Column `k` of `target` while training (lines 257-274), for a sample `x` and its successor
`y`. -/
noncomputable def trainTarget (mode : Nat) {H W : Nat} (x y : Fin C → Grid ℝ H W) (k : Nat) : ℝ :=
  if mode = 0 then oneIf (trainLabel x)
  else if mode = 1 then oneIf (trainLabel (stepChange x y))
  else if k = 0 then oneIf (evalLabel x) else oneIf (trainLabel (stepChange x y))

/-- Column `k` of `target` for the reward (lines 299-319). -/
noncomputable def evalTarget (mode : Nat) {H W : Nat} (x y : Fin C → Grid ℝ H W) (k : Nat) : ℝ :=
  if mode = 0 then oneIf (evalLabel x)
  else if mode = 1 then oneIf (evalLabel (stepChange x y))
  else if k = 0 then oneIf (evalLabel x) else oneIf (evalLabel (stepChange x y))

/-! ## Runs -/

/-- `for mm in range(self.bigbang_steps)` (lines 243-245, 286-287). -/
def bigBang (f : σ → Univ ℝ N C D D → Except PyErr (Univ ℝ N C D D × σ)) :
    Nat → σ → Univ ℝ N C D D → Except PyErr (Univ ℝ N C D D × σ)
  | 0, s, u => .ok (u, s)
  | k + 1, s, u =>
    match f s u with
    | .error e => .error e
    | .ok (u', s') => bigBang f k s' u'

open Classical in
/-- `while kk < self.ca_steps and grid.mean() > 0.0` (lines 250-254). -/
noncomputable def trainRun (f : σ → Univ ℝ N C D D → Except PyErr (Univ ℝ N C D D × σ)) :
    Nat → σ → Univ ℝ N C D D → Except PyErr (Univ ℝ N C D D × σ)
  | 0, s, u => .ok (u, s)
  | k + 1, s, u =>
    if 0 < uMean u then
      match f s u with
      | .error e => .error e
      | .ok (u', s') => trainRun f k s' u'
    else .ok (u, s)

/-- `grid.max() == 0.0` (line 295). -/
def topIsZero (u : Univ ℝ N C D D) : Prop :=
  (∀ n c i j, u n c i j ≤ 0) ∧ ∃ n c i j, u n c i j = 0

open Classical in
/-- `for kk in range(self.ca_steps)` with its `break` (lines 291-296). -/
noncomputable def evalRun (f : σ → Univ ℝ N C D D → Except PyErr (Univ ℝ N C D D × σ)) :
    Nat → σ → Univ ℝ N C D D → Except PyErr (Univ ℝ N C D D × σ)
  | 0, s, u => .ok (u, s)
  | k + 1, s, u =>
    match f s u with
    | .error e => .error e
    | .ok (u', s') => if topIsZero u' then .ok (u', s') else evalRun f k s' u'

/-- A call of the automaton with the generators. -/
noncomputable def Automaton.draw (M : Automaton σ G C) (p : σ × G) (u : Univ ℝ N C D D) :
    Except PyErr (Univ ℝ N C D D × (σ × G)) :=
  match M.call p.1 p.2 u with
  | .error e => .error e
  | .ok (u', s', g') => .ok (u', (s', g'))

/-- `bigbang_steps` (line 136). -/
def bigBangSteps : Nat := 8

/-- `train_steps` (line 129). -/
def trainSteps : Nat := 8

/-- The keyword arguments. -/
structure HaltingArgs where
  numBlocks : Nat
  caSteps : Nat
  mode : Nat

/-- One training step (lines 234-278).  `rand` is `torch.rand(batch_size, external_channels, dim,
dim)`, `reset` is `self.ca.reset()`.  `BCELoss` raises ValueError when prediction and target have
different numbers of columns. -/
noncomputable def trainOnce (M : Automaton σ G C) (reset : σ → σ) (a : HaltingArgs)
    (L : Learner T G C (labelOutputs a.mode)) (rand : G → Univ ℝ N C D D × G) (s : σ) (t : T) (g : G) :
    Except PyErr (T × σ × G) :=
  match bigBang M.draw bigBangSteps (reset s, (rand g).2) (rand g).1 with
  | .error e => .error e
  | .ok (u, (s₁, g₁)) =>
    match L.forward t true a.numBlocks 0 g₁ u with
    | .error e => .error e
    | .ok (_, g₂) =>
      match trainRun M.draw a.caSteps (s₁, g₂) u with
      | .error e => .error e
      | .ok (w, p) =>
        match M.draw p w with
        | .error e => .error e
        | .ok (w', (s₂, g₃)) =>
          if labelOutputs a.mode = labelColumns a.mode then
            .ok (L.learn t g₁ u (fun n k => trainTarget a.mode (w n) (w' n) k), s₂, g₃)
          else .error .value

/-- `for train_step in range(self.train_steps)` (line 233). -/
noncomputable def trainLoop (M : Automaton σ G C) (reset : σ → σ) (a : HaltingArgs)
    (L : Learner T G C (labelOutputs a.mode)) (rand : G → Univ ℝ N C D D × G) :
    Nat → σ → T → G → Except PyErr (T × σ × G)
  | 0, s, t, g => .ok (t, s, g)
  | k + 1, s, t, g =>
    match trainOnce M reset a L rand s t g with
    | .error e => .error e
    | .ok (t', s', g') => trainLoop M reset a L rand k s' t' g'

/-- A table of predictions or targets in one row, as `mean` reads it. -/
def inOneRow (x : Fin N → Fin K → ℝ) : Fin (N * K) → ℝ := fun i => x i.divNat i.modNat

/-- The rest of `step` (lines 280-338): reward and `active_grid`.  The automaton is not reset
here. -/
noncomputable def judge (M : Automaton σ G C) (a : HaltingArgs)
    (L : Learner T G C (labelOutputs a.mode)) (rand : G → Univ ℝ N C D D × G) (s : σ) (t : T) (g : G) :
    Except PyErr ((ℝ × ℝ) × (σ × T) × G) :=
  match bigBang M.draw bigBangSteps (s, (rand g).2) (rand g).1 with
  | .error e => .error e
  | .ok (u, (s₁, g₁)) =>
    match L.forward t false a.numBlocks 0 g₁ u with
    | .error e => .error e
    | .ok (pred, g₂) =>
      match evalRun M.draw a.caSteps (s₁, g₂) u with
      | .error e => .error e
      | .ok (w, p) =>
        match M.draw p w with
        | .error e => .error e
        | .ok (w', (s₂, g₃)) =>
          if labelOutputs a.mode = labelColumns a.mode then
            let target : Fin N → Fin (labelOutputs a.mode) → ℝ := fun n k =>
              evalTarget a.mode (w n) (w' n) k
            .ok ((haltingPredictorReward (inOneRow pred) (inOneRow target),
              (∑ n, ∑ k, target n k) / (N * labelOutputs a.mode)), (s₂, t), g₃)
          else .error .value

/-- `HaltingWrapper` (yuca/wrappers/halting_wrapper.py:169-170, 229-338): `reset` makes a new
network and leaves the automaton alone. -/
noncomputable def haltingEnv (M : Automaton σ G C) (reset : σ → σ) (a : HaltingArgs)
    (L : Learner T G C (labelOutputs a.mode)) (rand : G → Univ ℝ N C D D × G) :
    Env (σ × T) (List ℝ) G where
  reset s g := ((s.1, (L.init g).1), (L.init g).2)
  step s v g :=
    match M.setParams s.1 v with
    | (_, some e) => .error e
    | (s', none) =>
      match trainLoop M reset a L rand trainSteps s' s.2 g with
      | .error e => .error e
      | .ok (t₁, s₁, g₁) => judge M a L rand s₁ t₁ g₁

end Yuca
