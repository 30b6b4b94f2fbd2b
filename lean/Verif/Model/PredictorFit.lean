import Verif.Model.Predictor
import Verif.Model.Clone

/-!
# Training and testing the step predictor (yuca/step_predictor.py:81-294)

Numbers are exact reals.  A row of the data is an input picture and a target, the target as the
list of its cells.  What the network computes and what an optimizer step does to its weights are
arguments; rows of a batch are treated independently by the network.  Printing, wall clock times
and devices are left out.
-/

namespace Yuca

/-- A row of the data: input and cells of the target. -/
abbrev Row (I : Type) := I × List ℝ

/-- `torch.sum((batch_y - pred)**2)` for one row (yuca/step_predictor.py:132, 180); prediction and
target have as many cells (simplification: no broadcasting). -/
noncomputable def rowError {I : Type} (net : I → List ℝ) (r : Row I) : ℝ :=
  (List.zipWith (fun y p => (y - p) ^ 2) r.2 (net r.1)).sum

/-- `torch.mean((batch_y - pred)**2)` for a batch (yuca/step_predictor.py:107). -/
noncomputable def batchMean {I : Type} (net : I → List ℝ) (batch : List (Row I)) : ℝ :=
  (batch.map (rowError net)).sum / (batch.map fun r => r.2.length).sum

/-- One batch of an evaluation (yuca/step_predictor.py:177-182). -/
noncomputable def evaluateStep {I : Type} (net : I → List ℝ) (acc : ℝ × Nat)
    (batch : List (Row I)) : ℝ × Nat :=
  (acc.1 + (batch.map (rowError net)).sum, acc.2 + batch.length)

/-- `evaluate` (yuca/step_predictor.py:167-187), and the same lines in `fit` (123-136).  The
network called is the global `model`, not `self`: `none` if there is no such global. -/
noncomputable def predictorEvaluate {I : Type} (model : Option (I → List ℝ))
    (loader : List (List (Row I))) : Except PyErr ℝ :=
  match model with
  | none => if loader = [] then .error .zeroDiv else .error .unbound
  | some net =>
    let acc := loader.foldl (evaluateStep net) (0, 0)
    if acc.2 = 0 then .error .zeroDiv else .ok (acc.1 / acc.2)

/-- The batches of a `DataLoader` with `batch_size = n`, with as much fuel as rows. -/
def loaderBatches {A : Type} (n : Nat) : Nat → List A → List (List A)
  | 0, _ => []
  | _, [] => []
  | k + 1, rows => rows.take n :: loaderBatches n k (rows.drop n)

/-- `DataLoader(rows, batch_size=512)` (yuca/step_predictor.py:235, 261-270, 289-292). -/
def predictorLoader {A : Type} (rows : List A) : List (List A) :=
  loaderBatches 512 rows.length rows

/-! ## Training -/

/-- The network and its training: the weights drawn for a number of layers and a seed, the
prediction without dropout, the prediction in training step `k` with dropout, and what backward
pass and optimizer step `k` do to the weights. -/
structure Trainer (I W : Type) where
  init : Nat → Nat → W
  predict : W → I → List ℝ
  noisy : Nat → W → I → List ℝ
  update : Nat → W → List (Row I) → W

/-- What `fit` keeps (yuca/step_predictor.py:89-93): weights, optimizer steps, `smooth_loss`,
`epochs` and `val_losses`. -/
structure Progress (W : Type) where
  weights : W
  steps : Nat
  smooth : List ℝ
  epochs : List Nat
  val : List ℝ

/-- The next entry of `smooth_loss` (yuca/step_predictor.py:112-117). -/
noncomputable def smoothNext (smooth : List ℝ) (loss : ℝ) : ℝ :=
  match smooth.getLast? with
  | some s => s * (99 / 100) + loss * (1 / 100)
  | none => loss

/-- One batch of training (yuca/step_predictor.py:103-119); the loss is that before the step. -/
noncomputable def trainStep {I W : Type} (T : Trainer I W) (p : Progress W)
    (batch : List (Row I)) : Progress W :=
  { p with
    weights := T.update p.steps p.weights batch
    steps := p.steps + 1
    smooth := p.smooth ++ [smoothNext p.smooth (batchMean (T.noisy p.steps p.weights) batch)] }

/-- `np.save` and `torch.save` at the end of a displayed epoch (yuca/step_predictor.py:157-164),
with the files as they are left. -/
def saveProgress (t : Tree) (root : List Str) (tag : Str) : Tree × Option PyErr :=
  let savePath := root ++ ["logs".toList, tag ++ ".npy".toList]
  let modelPath := savePath ++ ["models".toList, tag ++ "_model.pt".toList]
  match t.save savePath with
  | .error e => (t, some e)
  | .ok t' =>
    match t'.save modelPath with
    | .error e => (t', some e)
    | .ok t'' => (t'', none)

/-- A displayed epoch after its training (yuca/step_predictor.py:122-164). -/
noncomputable def showEpoch {I W : Type} (T : Trainer I W) (root : List Str) (tag : Str)
    (val : Option (List (List (Row I)))) (epoch : Nat) (p : Progress W) (t : Tree) :
    Progress W × Tree × Option PyErr :=
  match val with
  | none => (p, t, some .type)
  | some loader =>
    match predictorEvaluate (some (T.predict p.weights)) loader with
    | .error e => (p, t, some e)
    | .ok v =>
      let p' := { p with epochs := p.epochs ++ [epoch], val := p.val ++ [v] }
      let s := saveProgress t root tag
      (p', s.1, s.2)

/-- The epochs of `fit` (yuca/step_predictor.py:97-164), `k` more from `epoch` on, called on the
object that the global `model` is.  `batches e` are the shuffled batches of epoch `e`. -/
noncomputable def fitEpochs {I W : Type} (T : Trainer I W) (root : List Str) (tag : Str)
    (maxEpochs dispEvery : Nat) (batches : Nat → List (List (Row I)))
    (val : Option (List (List (Row I)))) :
    Nat → Nat → Progress W → Tree → Progress W × Tree × Option PyErr
  | 0, _, p, t => (p, t, none)
  | k + 1, epoch, p, t =>
    let p' := (batches epoch).foldl (trainStep T) p
    if dispEvery = 0 then (p', t, some .zeroDiv)
    else if epoch % dispEvery = 0 ∨ epoch + 1 = maxEpochs then
      match showEpoch T root tag val epoch p' t with
      | (p'', t', some e) => (p'', t', some e)
      | (p'', t', none) =>
        fitEpochs T root tag maxEpochs dispEvery batches val k (epoch + 1) p'' t'
    else fitEpochs T root tag maxEpochs dispEvery batches val k (epoch + 1) p' t

/-- `fit` (yuca/step_predictor.py:81-164); `dispEvery` is `none` if not given. -/
noncomputable def fit {I W : Type} (T : Trainer I W) (root : List Str) (tag : Str)
    (maxEpochs : Nat) (dispEvery : Option Nat) (batches : Nat → List (List (Row I)))
    (val : Option (List (List (Row I)))) (w : W) (t : Tree) :
    Progress W × Tree × Option PyErr :=
  fitEpochs T root tag maxEpochs (dispEvery.getD (max 1 (maxEpochs / 10))) batches val
    maxEpochs 0 ⟨w, 0, [], [], []⟩ t

/-! ## The script -/

/-- `os.path.split(s)[-1]`. -/
def lastPart (s : Str) : Str := (s.reverse.takeWhile (· ≠ '/')).reverse

/-- `tag` (yuca/step_predictor.py:273). -/
def dataTag (path : Str) : Str := (stem (lastPart path)).take 8

/-- `exp_tag` (yuca/step_predictor.py:43-44) with the radius 31 and the 8 channels of the script
(233-234); `stamp` are the six last digits of the clock. -/
def expTag (tag : Str) (repeats seed : Nat) (stamp : Str) : Str :=
  tag ++ "_l_".toList ++ decimal repeats ++ "_kr_31_hid8_seed".toList ++ decimal seed ++
    "_".toList ++ stamp

/-- The path of the test data (yuca/step_predictor.py:283-284). -/
def testPath (path : Str) : Str := pyReplace "train".toList "test".toList path.length path

/-- `TensorDataset(inputs, targets)`. -/
def tensorDataset {I : Type} (inputs : List I) (targets : List (List ℝ)) :
    Except PyErr (List (Row I)) :=
  if inputs.length = targets.length then .ok (inputs.zip targets) else .error .assertion

/-- `torch.load(path)`. -/
def loadRows {A : Type} (disk : Str → Option (List A)) (path : Str) : Except PyErr (List A) :=
  match disk path with
  | some rows => .ok rows
  | none => .error .notFound

/-- The training and validation rows (yuca/step_predictor.py:244-270), training rows first; a
shuffling `DataLoader` does not take an empty data set. -/
def splitData {I : Type} (inputs : Str → Option (List I)) (targets : Str → Option (List (List ℝ)))
    (inputPath targetPath : Str) : Except PyErr (List (Row I) × List (Row I)) := do
  let data ← loadRows inputs inputPath
  let target ← loadRows targets targetPath
  let split := data.length / 10
  let train ← tensorDataset (data.drop split) (target.drop split)
  let val ← tensorDataset (data.take split) (target.take split)
  if train = [] then .error .value else .ok (train, val)

/-- The test rows (yuca/step_predictor.py:283-287). -/
def testData {I : Type} (inputs : Str → Option (List I)) (targets : Str → Option (List (List ℝ)))
    (inputPath targetPath : Str) : Except PyErr (List (Row I)) := do
  let data ← loadRows inputs (testPath inputPath)
  let target ← loadRows targets (testPath targetPath)
  tensorDataset data target

/-- The three losses of `end_evaluate` (yuca/step_predictor.py:191-193). -/
noncomputable def endLosses {I : Type} (model : Option (I → List ℝ))
    (train val test : List (List (Row I))) : Except PyErr (ℝ × ℝ × ℝ) := do
  let a ← predictorEvaluate model train
  let b ← predictorEvaluate model val
  let c ← predictorEvaluate model test
  .ok (a, b, c)

/-- What the script runs with: the network, the data files, the shuffled rows of epoch `e` of run
`n`, and the stamp of run `n`. -/
structure PredictorWorld (I W : Type) where
  trainer : Trainer I W
  inputs : Str → Option (List I)
  targets : Str → Option (List (List ℝ))
  shuffle : Nat → Nat → List (Row I) → List (Row I)
  stamp : Nat → Str

/-- What a run leaves: the number of layer repeats and the seed, the state of `fit`, and the
losses written to the final file, if it comes to that. -/
structure PredictorRun (W : Type) where
  repeats : Nat
  seed : Nat
  tag : Str
  progress : Progress W
  losses : Option (ℝ × ℝ × ℝ)

/-- From the testing on (yuca/step_predictor.py:283-294, 189-208): the losses and the files. -/
noncomputable def finishRun {I W : Type} (w : PredictorWorld I W) (root : List Str)
    (inputPath targetPath tag : Str) (weights : W) (train val : List (List (Row I))) (t : Tree) :
    Except PyErr ((ℝ × ℝ × ℝ) × Tree) := do
  let test ← testData w.inputs w.targets inputPath targetPath
  let losses ← endLosses (some (w.trainer.predict weights)) train val (predictorLoader test)
  let t' ← t.save (root ++ ["logs".toList, tag ++ "_final.txt".toList])
  .ok (losses, t')

/-- Run number `n` of the script (yuca/step_predictor.py:244-294): what it leaves, unless it does
not come to a model, the files, and the exception, if any.  A negative number of epochs is as
good as 0; seeds are natural numbers (`np.random.seed` takes no others). -/
noncomputable def oneRun {I W : Type} (w : PredictorWorld I W) (root : List Str)
    (inputPath targetPath : Str) (maxEpochs n seed repeats : Nat) (t : Tree) :
    Option (PredictorRun W) × Tree × Option PyErr :=
  match splitData w.inputs w.targets inputPath targetPath with
  | .error e => (none, t, some e)
  | .ok (train, val) =>
    let tag := expTag (dataTag inputPath) repeats seed (w.stamp n)
    let batches := fun e => predictorLoader (w.shuffle n e train)
    match fit w.trainer root tag maxEpochs none batches (some (predictorLoader val))
        (w.trainer.init repeats seed) t with
    | (p, t', some e) => (some ⟨repeats, seed, tag, p, none⟩, t', some e)
    | (p, t', none) =>
      match finishRun w root inputPath targetPath tag p.weights (batches maxEpochs)
          (predictorLoader val) t' with
      | .error e => (some ⟨repeats, seed, tag, p, none⟩, t', some e)
      | .ok (losses, t'') => (some ⟨repeats, seed, tag, p, some losses⟩, t'', none)

/-- The runs of the script (yuca/step_predictor.py:241-294) from run `n` on, for the given pairs
of seed and layer repeats; an exception ends the script. -/
noncomputable def runAll {I W : Type} (w : PredictorWorld I W) (root : List Str)
    (inputPath targetPath : Str) (maxEpochs : Nat) :
    Nat → List (Nat × Nat) → Tree → List (PredictorRun W) × Tree × Option PyErr
  | _, [], t => ([], t, none)
  | n, (seed, repeats) :: rest, t =>
    match oneRun w root inputPath targetPath maxEpochs n seed repeats t with
    | (r, t', some e) => (r.toList, t', some e)
    | (r, t', none) =>
      let more := runAll w root inputPath targetPath maxEpochs (n + 1) rest t'
      (r.toList ++ more.1, more.2.1, more.2.2)

/-- The pairs of the loops (yuca/step_predictor.py:241-242). -/
def runPairs (seeds : List Nat) : List (Nat × Nat) :=
  seeds.flatMap fun s => [1, 2, 4].map fun r => (s, r)

/-- The script (yuca/step_predictor.py:211-294). -/
noncomputable def predictorScript {I W : Type} (w : PredictorWorld I W) (root : List Str)
    (inputPath targetPath : Str) (maxEpochs : Nat) (seeds : List Nat) (t : Tree) :
    List (PredictorRun W) × Tree × Option PyErr :=
  runAll w root inputPath targetPath maxEpochs 0 (runPairs seeds) t

/-- The default paths (yuca/step_predictor.py:215-220). -/
def defaultInputPath : Str := "data/geminium_test_dataset_x.pt".toList

/-- The default path of the targets (yuca/step_predictor.py:218-220). -/
def defaultTargetPath : Str := "data/geminium_test_dataset_y.pt".toList

end Yuca
