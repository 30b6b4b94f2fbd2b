import Verif.Model.Text
import Verif.Model.Arith
import Mathlib.Analysis.SpecialFunctions.Exp

/-!
# `StepPredictor` (yuca/step_predictor.py)
-/

namespace Yuca

/-- One round of `forward` (yuca/step_predictor.py:73-76): `mix x conv₀ conv₁` is
`x + sigmoid(conv₁(dropout(relu(conv₀(x)))))`. -/
abbrev PredictorMix (A L : Type) := A → L → L → A

/-- `range(0, n, 2)`. -/
def evens (n : Nat) : List Nat := (List.range ((n + 1) / 2)).map (2 * ·)

/-- `forward` (yuca/step_predictor.py:69-78) with `layers = self.conv_layers`. -/
def predictorForward {A L : Type} (mix : PredictorMix A L) (repeats : Nat) (layers : List L)
    (x : A) : Except PyErr A :=
  (evens repeats).foldlM (fun x jj =>
    match layers[jj]?, layers[jj + 1]? with
    | some a, some b => .ok (mix x a b)
    | _, _ => .error .index) x

/-- `init_model` (yuca/step_predictor.py:46-67): two layers per repeat, given by `make`. -/
def predictorLayers {L : Type} (make : Nat → L) (repeats : Nat) : List L :=
  (List.range (2 * repeats)).map make

/-- `torch.sigmoid`. -/
noncomputable def sigmoid (x : ℝ) : ℝ := 1 / (1 + Real.exp (-x))

/-- A round over exact reals, cell by cell, with layers as maps of pictures to pictures; `drop` is
the dropout. -/
noncomputable def realMix {Cell : Type} (drop : (Cell → ℝ) → Cell → ℝ) :
    PredictorMix (Cell → ℝ) ((Cell → ℝ) → Cell → ℝ) :=
  fun x conv₀ conv₁ c => x c + sigmoid (conv₁ (drop fun d => max (conv₀ x d) 0) c)

/-! ## Saving -/

/-- What is at a path. -/
inductive Node where
  | file | dir
  deriving DecidableEq

/-- A file system: paths are lists of components. -/
abbrev Tree := List Str → Option Node

/-- Opening a file for writing: the directory must exist and the path must not be a directory. -/
def Tree.save (t : Tree) (path : List Str) : Except PyErr Tree :=
  if t path.dropLast ≠ some .dir then .error .notFound
  else if t path = some .dir then .error .notFound
  else .ok fun p => if p = path then some .file else t p

/-- A tree in which only directories have content. -/
def Tree.Wf (t : Tree) : Prop := ∀ p c, t (p ++ [c]) ≠ none → t p = some .dir

/-- The saving at the end of a displayed epoch (yuca/step_predictor.py:157-164): `model_save_path`
is made from the already changed `save_path`. -/
def predictorSave (t : Tree) (root : List Str) (tag : Str) : Except PyErr Tree :=
  let savePath := root ++ ["logs".toList, tag ++ ".npy".toList]
  let modelPath := savePath ++ ["models".toList, tag ++ "_model.pt".toList]
  match t.save savePath with
  | .error e => .error e
  | .ok t' => t'.save modelPath

/-- The epochs of `fit` (yuca/step_predictor.py:97-164) as far as saving goes; returns the number
of epochs trained and the error, if any.  `dispEvery` is positive. -/
def predictorFit (root : List Str) (tag : Str) (maxEpochs dispEvery : Nat) :
    Nat → Nat → Tree → Nat × Option PyErr
  | 0, epoch, _ => (epoch, none)
  | k + 1, epoch, t =>
    if epoch % dispEvery = 0 ∨ epoch + 1 = maxEpochs then
      match predictorSave t root tag with
      | .error e => (epoch + 1, some e)
      | .ok t' => predictorFit root tag maxEpochs dispEvery k (epoch + 1) t'
    else predictorFit root tag maxEpochs dispEvery k (epoch + 1) t

end Yuca
