import Verif.Model.PredictorFit
import Verif.Props.Predictor
import Verif.Props.Clone
import Verif.Lemmas.Text
import Mathlib.Tactic.Linarith
import Mathlib.Tactic.Ring
import Mathlib.Tactic.FieldSimp
import Mathlib.Tactic.NormNum
import Mathlib.Algebra.BigOperators.Group.List.Basic
import Mathlib.Algebra.BigOperators.Intervals
import Mathlib.Algebra.Order.BigOperators.Group.Finset

/-!
# Training and testing the step predictor (C98)
-/

namespace Yuca

theorem ok_then {A B : Type} (a : A) (f : A → Except PyErr B) : (Except.ok a >>= f) = f a := rfl

theorem error_then {A B : Type} (e : PyErr) (f : A → Except PyErr B) :
    (Except.error e >>= f) = .error e := rfl

/-! ## What an evaluation measures -/

/-- Sum over rows and cells of the squared difference between target and prediction. -/
noncomputable def Spec.squares {I : Type} (net : I → List ℝ) (rows : List (I × List ℝ)) : ℝ :=
  (rows.map fun r => ((r.2.zip (net r.1)).map fun q => (q.1 - q.2) ^ 2).sum).sum

/-- The squares per row. -/
noncomputable def Spec.perRow {I : Type} (net : I → List ℝ) (rows : List (I × List ℝ)) : ℝ :=
  Spec.squares net rows / rows.length

/-- The squares per cell. -/
noncomputable def Spec.perCell {I : Type} (net : I → List ℝ) (rows : List (I × List ℝ))
    (cells : Nat) : ℝ :=
  Spec.squares net rows / (rows.length * cells)

theorem rowError_sum {I : Type} (net : I → List ℝ) (rows : List (Row I)) :
    (rows.map (rowError net)).sum = Spec.squares net rows := by
  unfold Spec.squares rowError
  simp only [List.zip, List.map_zipWith]

theorem Spec.squares_append {I : Type} (net : I → List ℝ) (a b : List (I × List ℝ)) :
    Spec.squares net (a ++ b) = Spec.squares net a + Spec.squares net b := by
  simp [Spec.squares]

theorem Spec.squares_perm {I : Type} (net : I → List ℝ) {a b : List (I × List ℝ)}
    (h : a.Perm b) : Spec.squares net a = Spec.squares net b :=
  (h.map _).sum_eq

theorem evaluate_fold {I : Type} (net : I → List ℝ) (loader : List (List (Row I)))
    (acc : ℝ × Nat) :
    loader.foldl (evaluateStep net) acc =
      (acc.1 + Spec.squares net loader.flatten, acc.2 + loader.flatten.length) := by
  induction loader generalizing acc with
  | nil => simp [Spec.squares]
  | cons b rest ih =>
    rw [List.foldl_cons, ih, List.flatten_cons, Spec.squares_append, List.length_append]
    unfold evaluateStep
    rw [rowError_sum]
    ext
    · dsimp only; ring
    · dsimp only; omega

/-- C98: `evaluate` gives the squared differences per row, however the rows are cut into batches;
without rows it divides by zero. -/
theorem evaluate_eq {I : Type} (net : I → List ℝ) (loader : List (List (Row I))) :
    predictorEvaluate (some net) loader =
      if loader.flatten = [] then .error .zeroDiv
      else .ok (Spec.perRow net loader.flatten) := by
  unfold predictorEvaluate
  dsimp only
  rw [evaluate_fold]
  simp only [zero_add, List.length_eq_zero_iff, Spec.perRow]

/-- C98: the order of the rows and the cut into batches do not matter. -/
theorem evaluate_perm {I : Type} (net : I → List ℝ) {a b : List (List (Row I))}
    (h : a.flatten.Perm b.flatten) :
    predictorEvaluate (some net) a = predictorEvaluate (some net) b := by
  rw [evaluate_eq, evaluate_eq]
  have he : a.flatten = [] ↔ b.flatten = [] := by
    rw [← List.length_eq_zero_iff, ← List.length_eq_zero_iff, h.length_eq]
  simp only [he, Spec.perRow, Spec.squares_perm net h, h.length_eq]

/-- C98, where it fails: in a program that has no global `model`, evaluating any data raises. -/
theorem evaluate_global_refuted {I : Type} {loader : List (List (Row I))} (h : loader ≠ []) :
    predictorEvaluate none loader = .error .unbound := by
  unfold predictorEvaluate
  rw [if_neg h]

theorem cells_sum {I : Type} {rows : List (Row I)} {cells : Nat}
    (h : ∀ r ∈ rows, r.2.length = cells) :
    (rows.map fun r => r.2.length).sum = rows.length * cells := by
  rw [List.map_congr_left h]
  simp

/-- C98: the training loss of a batch is the squared difference per cell. -/
theorem batchMean_eq {I : Type} (net : I → List ℝ) {rows : List (Row I)} {cells : Nat}
    (h : ∀ r ∈ rows, r.2.length = cells) : batchMean net rows = Spec.perCell net rows cells := by
  unfold batchMean Spec.perCell
  rw [rowError_sum, cells_sum h]
  push_cast
  rfl

/-- C98: so on the same data with the same predictions, the reported validation, test and final
losses are the training loss times the number of cells of a picture. -/
theorem evaluate_scale {I : Type} (net : I → List ℝ) {loader : List (List (Row I))} {cells : Nat}
    (hc : 0 < cells) (hne : loader.flatten ≠ [])
    (h : ∀ r ∈ loader.flatten, r.2.length = cells) :
    predictorEvaluate (some net) loader = .ok (cells * batchMean net loader.flatten) := by
  rw [evaluate_eq, if_neg hne, batchMean_eq net h]
  unfold Spec.perRow Spec.perCell
  have h1 : (loader.flatten.length : ℝ) ≠ 0 := fun h =>
    hne (List.length_eq_zero_iff.1 (by exact_mod_cast h))
  have h2 : (cells : ℝ) ≠ 0 := by exact_mod_cast hc.ne'
  congr 1
  field_simp

/-- A picture of four cells, each off by 1: training loss 1, validation loss 4. -/
example : ∃ net : Unit → List ℝ, ∃ rows : List (Row Unit),
    batchMean net rows = 1 ∧ predictorEvaluate (some net) [rows] = .ok 4 := by
  refine ⟨fun _ => [0, 0, 0, 0], [((), [1, 1, 1, 1])], ?_, ?_⟩
  · norm_num [batchMean, rowError]
  · norm_num [predictorEvaluate, evaluateStep, rowError]

/-! ## Batches -/

theorem loaderBatches_flatten {A : Type} {n : Nat} (hn : 0 < n) (k : Nat) (rows : List A)
    (hk : rows.length ≤ k) : (loaderBatches n k rows).flatten = rows := by
  induction k generalizing rows with
  | zero => rw [List.length_eq_zero_iff.1 (Nat.le_zero.1 hk)]; rfl
  | succ k ih =>
    cases rows with
    | nil => rfl
    | cons r rest =>
      have : loaderBatches n (k + 1) (r :: rest) =
        (r :: rest).take n :: loaderBatches n k ((r :: rest).drop n) := rfl
      rw [this, List.flatten_cons, ih, List.take_append_drop]
      rw [List.length_drop]
      simp only [List.length_cons] at hk ⊢
      omega

/-- C98: the loader gives every row once, in order. -/
theorem loader_rows {A : Type} (rows : List A) : (predictorLoader rows).flatten = rows :=
  loaderBatches_flatten (by decide) _ _ (le_refl _)

theorem loaderBatches_length {A : Type} {n : Nat} (hn : 0 < n) (k : Nat) (rows : List A)
    (hk : rows.length ≤ k) : (loaderBatches n k rows).length = (rows.length + (n - 1)) / n := by
  induction k generalizing rows with
  | zero =>
    rw [List.length_eq_zero_iff.1 (Nat.le_zero.1 hk)]
    simp only [loaderBatches, List.length_nil, Nat.zero_add]
    rw [Nat.div_eq_of_lt (by omega)]
  | succ k ih =>
    cases rows with
    | nil =>
      simp only [loaderBatches, List.length_nil, Nat.zero_add]
      rw [Nat.div_eq_of_lt (by omega)]
    | cons r rest =>
      have : loaderBatches n (k + 1) (r :: rest) =
        (r :: rest).take n :: loaderBatches n k ((r :: rest).drop n) := rfl
      rw [this, List.length_cons, ih]
      · rw [List.length_drop]
        simp only [List.length_cons] at hk ⊢
        by_cases h : rest.length + 1 ≤ n
        · rw [show rest.length + 1 - n = 0 by omega, Nat.zero_add,
            Nat.div_eq_of_lt (by omega : n - 1 < n),
            show rest.length + 1 + (n - 1) = rest.length + n by omega,
            Nat.add_div_right _ hn, Nat.div_eq_of_lt (by omega)]
        · rw [← Nat.add_div_right _ hn]
          congr 1
          omega
      · rw [List.length_drop]
        simp only [List.length_cons] at hk ⊢
        omega

/-- C98: an epoch has one batch per 512 rows, rounded up. -/
theorem loader_count {A : Type} (rows : List A) :
    (predictorLoader rows).length = (rows.length + 511) / 512 :=
  loaderBatches_length (by decide) _ _ (le_refl _)

/-- C98: no batch is empty or has more than 512 rows. -/
theorem loader_sizes {A : Type} (rows : List A) :
    ∀ b ∈ predictorLoader rows, 1 ≤ b.length ∧ b.length ≤ 512 := by
  have : ∀ (k : Nat) (rows : List A), ∀ b ∈ loaderBatches 512 k rows,
      1 ≤ b.length ∧ b.length ≤ 512 := by
    intro k
    induction k with
    | zero => intro rows b hb; simp [loaderBatches] at hb
    | succ k ih =>
      intro rows b hb
      cases rows with
      | nil => simp [loaderBatches] at hb
      | cons r rest =>
        have he : loaderBatches 512 (k + 1) (r :: rest) =
          (r :: rest).take 512 :: loaderBatches 512 k ((r :: rest).drop 512) := rfl
        rw [he, List.mem_cons] at hb
        rcases hb with rfl | hb
        · rw [List.length_take, List.length_cons]; omega
        · exact ih _ _ hb
  exact this _ _

example : (predictorLoader (List.range 1025)).length = 3 := by rw [loader_count]; simp

/-! ## The training curve -/

/-- The weights after `i` optimizer steps on the given batches. -/
def Spec.weightsAt {I W : Type} (T : Trainer I W) (w : W) (batches : List (List (I × List ℝ))) :
    Nat → W
  | 0 => w
  | i + 1 => T.update i (Spec.weightsAt T w batches i) (batches.getD i [])

/-- The loss of batch `i`: with dropout, and with the weights before its step. -/
noncomputable def Spec.lossAt {I W : Type} (T : Trainer I W) (w : W)
    (batches : List (List (I × List ℝ))) (i : Nat) : ℝ :=
  batchMean (T.noisy i (Spec.weightsAt T w batches i)) (batches.getD i [])

/-- Entry `k` of the smooth curve of losses `l 0, l 1, …`. -/
noncomputable def Spec.smooth (l : Nat → ℝ) (k : Nat) : ℝ :=
  (99 / 100) ^ k * l 0 +
    ∑ i ∈ Finset.range k, (1 / 100) * (99 / 100) ^ (k - 1 - i) * l (i + 1)

theorem Spec.smooth_succ (l : Nat → ℝ) (k : Nat) :
    Spec.smooth l (k + 1) = Spec.smooth l k * (99 / 100) + l (k + 1) * (1 / 100) := by
  unfold Spec.smooth
  rw [Finset.sum_range_succ, pow_succ]
  have : ∑ i ∈ Finset.range k, (1 / 100 : ℝ) * (99 / 100) ^ (k + 1 - 1 - i) * l (i + 1) =
      (∑ i ∈ Finset.range k, (1 / 100) * (99 / 100) ^ (k - 1 - i) * l (i + 1)) * (99 / 100) := by
    rw [Finset.sum_mul]
    refine Finset.sum_congr rfl fun i hi => ?_
    rw [Finset.mem_range] at hi
    rw [show k + 1 - 1 - i = (k - 1 - i) + 1 by omega, pow_succ]
    ring
  rw [this, show k + 1 - 1 - k = 0 by omega]
  ring

theorem Spec.weightsAt_append {I W : Type} (T : Trainer I W) (w : W)
    (batches : List (List (I × List ℝ))) (b : List (I × List ℝ)) {i : Nat}
    (h : i ≤ batches.length) :
    Spec.weightsAt T w (batches ++ [b]) i = Spec.weightsAt T w batches i := by
  induction i with
  | zero => rfl
  | succ i ih =>
    unfold Spec.weightsAt
    rw [ih (by omega)]
    congr 1
    rw [List.getD_eq_getElem?_getD, List.getD_eq_getElem?_getD,
      List.getElem?_append_left (by omega)]

/-- C98: training goes through the batches in order, one optimizer step each, and records the
moving average with factors 0.99 and 0.01 of their losses, started at the first loss. -/
theorem train_epoch {I W : Type} (T : Trainer I W) (w : W) (batches : List (List (Row I))) :
    batches.foldl (trainStep T) ⟨w, 0, [], [], []⟩ =
      ⟨Spec.weightsAt T w batches batches.length, batches.length,
        (List.range batches.length).map (Spec.smooth (Spec.lossAt T w batches)), [], []⟩ := by
  induction batches using List.reverseRecOn with
  | nil => rfl
  | append_singleton batches b ih =>
    rw [List.foldl_append, ih, List.foldl_cons, List.foldl_nil]
    have hlast : (batches ++ [b]).getD batches.length [] = b := by simp
    have hw : ∀ i, i ≤ batches.length → Spec.weightsAt T w (batches ++ [b]) i =
        Spec.weightsAt T w batches i := fun i h => Spec.weightsAt_append T w batches b h
    have hl : ∀ i, i < batches.length → Spec.lossAt T w (batches ++ [b]) i =
        Spec.lossAt T w batches i := by
      intro i h
      unfold Spec.lossAt
      rw [hw i (by omega)]
      congr 1
      rw [List.getD_eq_getElem?_getD, List.getD_eq_getElem?_getD, List.getElem?_append_left h]
    have hs : ∀ i, i < batches.length → Spec.smooth (Spec.lossAt T w (batches ++ [b])) i =
        Spec.smooth (Spec.lossAt T w batches) i := by
      intro i h
      unfold Spec.smooth
      rw [hl 0 (by omega)]
      congr 1
      refine Finset.sum_congr rfl fun j hj => ?_
      rw [Finset.mem_range] at hj
      rw [hl (j + 1) (by omega)]
    unfold trainStep
    rw [List.length_append, List.length_singleton, List.range_succ, List.map_append]
    dsimp only
    congr 1
    · conv_rhs => unfold Spec.weightsAt
      rw [hw _ (le_refl _), hlast]
    · congr 1
      · refine List.map_congr_left fun i hi => ?_
        rw [List.mem_range] at hi
        exact (hs i hi).symm
      · rw [List.map_singleton]
        congr 1
        have hloss : batchMean (T.noisy batches.length (Spec.weightsAt T w batches batches.length)) b
            = Spec.lossAt T w (batches ++ [b]) batches.length := by
          unfold Spec.lossAt
          rw [hw _ (le_refl _), hlast]
        rw [hloss]
        unfold smoothNext
        cases h : batches.length with
        | zero =>
          simp [Spec.smooth]
        | succ k =>
          rw [List.range_succ, List.map_append, List.map_singleton, List.getLast?_concat]
          dsimp only
          rw [Spec.smooth_succ, hs k (by omega)]

/-- C98: the smooth loss stays between the bounds of the losses. -/
theorem smooth_between {l : Nat → ℝ} {a b : ℝ} (h : ∀ i, a ≤ l i ∧ l i ≤ b) (k : Nat) :
    a ≤ Spec.smooth l k ∧ Spec.smooth l k ≤ b := by
  induction k with
  | zero => simpa [Spec.smooth] using h 0
  | succ k ih =>
    rw [Spec.smooth_succ]
    have := h (k + 1)
    constructor <;> linarith [ih.1, ih.2, this.1, this.2]

/-- C98: if the loss falls to `c` after the first batch, the smooth loss still shows `0.99 ^ k` of
the fall after `k` further batches. -/
theorem smooth_lag {l : Nat → ℝ} {c : ℝ} (h : ∀ i, 1 ≤ i → l i = c) (k : Nat) :
    Spec.smooth l k - c = (99 / 100) ^ k * (l 0 - c) := by
  induction k with
  | zero => simp [Spec.smooth]
  | succ k ih =>
    rw [Spec.smooth_succ, h (k + 1) (by omega), pow_succ]
    have : Spec.smooth l k = c + (99 / 100) ^ k * (l 0 - c) := by linarith
    rw [this]
    ring

/-- C98: the first loss has more than half of the weight in exactly the first 69 entries. -/
theorem first_loss_weight (k : Nat) : (1 / 2 : ℝ) < (99 / 100) ^ k ↔ k ≤ 68 := by
  constructor
  · intro h
    by_contra hk
    have h1 : (99 / 100 : ℝ) ^ k ≤ (99 / 100) ^ 69 :=
      pow_le_pow_of_le_one (by norm_num) (by norm_num) (by omega)
    have h2 : (99 / 100 : ℝ) ^ 69 < 1 / 2 := by norm_num
    linarith
  · intro hk
    have h1 : (99 / 100 : ℝ) ^ 68 ≤ (99 / 100) ^ k :=
      pow_le_pow_of_le_one (by norm_num) (by norm_num) hk
    have h2 : (1 / 2 : ℝ) < (99 / 100) ^ 68 := by norm_num
    linarith

/-! ## `fit` -/

/-- The files with one more. -/
def Spec.withFile (t : List Str → Option Node) (path : List Str) : List Str → Option Node :=
  fun p => if p = path then some .file else t p

theorem saveProgress_eq (t : Tree) (hw : t.Wf) (root : List Str) (tag : Str) :
    saveProgress t root tag =
      (if t (root ++ ["logs".toList]) = some .dir ∧
          t (root ++ ["logs".toList, tag ++ ".npy".toList]) ≠ some .dir
        then Spec.withFile t (root ++ ["logs".toList, tag ++ ".npy".toList]) else t,
        some .notFound) := by
  unfold saveProgress
  dsimp only
  set p := root ++ ["logs".toList, tag ++ ".npy".toList] with hp
  have hd : p.dropLast = root ++ ["logs".toList] := by
    rw [hp, show root ++ ["logs".toList, tag ++ ".npy".toList] =
      (root ++ ["logs".toList]) ++ [tag ++ ".npy".toList] by simp, List.dropLast_concat]
  have hd2 : (p ++ ["models".toList, tag ++ "_model.pt".toList]).dropLast = p ++ ["models".toList] := by
    rw [show p ++ ["models".toList, tag ++ "_model.pt".toList] =
      (p ++ ["models".toList]) ++ [tag ++ "_model.pt".toList] by simp, List.dropLast_concat]
  by_cases h1 : t (root ++ ["logs".toList]) = some .dir
  · by_cases h2 : t p = some .dir
    · have : t.save p = .error .notFound := by
        unfold Tree.save
        rw [hd, if_neg (not_not.2 h1), if_pos h2]
      rw [this, if_neg fun h => h.2 h2]
    · have h3 : t.save p = .ok (Spec.withFile t p) := by
        unfold Tree.save
        rw [hd, if_neg (not_not.2 h1), if_neg h2]
        rfl
      have h4 : Tree.save (Spec.withFile t p) (p ++ ["models".toList, tag ++ "_model.pt".toList]) =
          .error .notFound := by
        unfold Tree.save
        rw [hd2, if_pos]
        unfold Spec.withFile
        rw [if_neg (by simp)]
        intro hdir
        exact h2 (hw p "models".toList (by rw [hdir]; simp))
      rw [h3, if_pos ⟨h1, h2⟩]
      dsimp only
      rw [h4]
  · have : t.save p = .error .notFound := by
      unfold Tree.save
      rw [hd, if_pos h1]
    rw [this, if_neg fun h => h1 h.1]

/-- C98: `fit` with no epoch does nothing. -/
theorem fit_none {I W : Type} (T : Trainer I W) (root : List Str) (tag : Str)
    (dispEvery : Option Nat) (batches : Nat → List (List (Row I)))
    (val : Option (List (List (Row I)))) (w : W) (t : Tree) :
    fit T root tag 0 dispEvery batches val w t = (⟨w, 0, [], [], []⟩, t, none) := rfl

theorem showEpoch_empty {I W : Type} (T : Trainer I W) (root : List Str) (tag : Str)
    (epoch : Nat) (p : Progress W) (t : Tree) {loader : List (List (Row I))}
    (h : loader.flatten = []) :
    showEpoch T root tag (some loader) epoch p t = (p, t, some .zeroDiv) := by
  unfold showEpoch
  dsimp only
  rw [evaluate_eq, if_pos h]

theorem showEpoch_full {I W : Type} (T : Trainer I W) (root : List Str) (tag : Str)
    (epoch : Nat) (p : Progress W) (t : Tree) {loader : List (List (Row I))}
    (h : loader.flatten ≠ []) :
    showEpoch T root tag (some loader) epoch p t =
      (⟨p.weights, p.steps, p.smooth, p.epochs ++ [epoch],
          p.val ++ [Spec.perRow (T.predict p.weights) loader.flatten]⟩,
        (saveProgress t root tag).1, (saveProgress t root tag).2) := by
  unfold showEpoch
  dsimp only
  rw [evaluate_eq, if_neg h]

theorem fit_first {I W : Type} (T : Trainer I W) (root : List Str) (tag : Str)
    {maxEpochs : Nat} (h : 1 ≤ maxEpochs) (dispEvery : Option Nat)
    (batches : Nat → List (List (Row I))) (val : Option (List (List (Row I)))) (w : W)
    (t : Tree) :
    fit T root tag maxEpochs dispEvery batches val w t =
      if dispEvery = some 0 then
        (⟨Spec.weightsAt T w (batches 0) (batches 0).length, (batches 0).length,
          (List.range (batches 0).length).map (Spec.smooth (Spec.lossAt T w (batches 0))),
          [], []⟩, t, some .zeroDiv)
      else
        match showEpoch T root tag val 0
          ⟨Spec.weightsAt T w (batches 0) (batches 0).length, (batches 0).length,
          (List.range (batches 0).length).map (Spec.smooth (Spec.lossAt T w (batches 0))),
          [], []⟩ t with
        | (p'', t', some e) => (p'', t', some e)
        | (p'', t', none) =>
          fitEpochs T root tag maxEpochs (dispEvery.getD (max 1 (maxEpochs / 10))) batches val
            (maxEpochs - 1) 1 p'' t' := by
  obtain ⟨k, rfl⟩ : ∃ k, maxEpochs = k + 1 := ⟨maxEpochs - 1, by omega⟩
  unfold fit
  rw [fitEpochs, train_epoch]
  have h0 : dispEvery.getD (max 1 ((k + 1) / 10)) = 0 ↔ dispEvery = some 0 := by
    cases dispEvery with
    | none => simp
    | some d => simp
  by_cases hd : dispEvery = some 0
  · rw [if_pos hd, if_pos (h0.2 hd)]
  · rw [if_neg hd, if_neg (fun h => hd (h0.1 h)), if_pos (Or.inl (by simp))]
    rfl

/-- What the one epoch of `fit` ends with: the exception, and whether it came to a validation. -/
def Spec.fitError {I : Type} (dispEvery : Option Nat)
    (val : Option (List (List (I × List ℝ)))) : PyErr × Bool :=
  match dispEvery, val with
  | some 0, _ => (.zeroDiv, false)
  | _, none => (.type, false)
  | _, some loader => if loader.flatten = [] then (.zeroDiv, false) else (.notFound, true)

/-- C98: `fit` with at least one epoch trains for exactly one and ends with an exception: a
division by zero if there is nothing to validate on, a `TypeError` without a validation set, and
otherwise, after the validation, because the weights cannot be saved. -/
theorem fit_stops {I W : Type} (T : Trainer I W) (root : List Str) (tag : Str)
    {maxEpochs : Nat} (h : 1 ≤ maxEpochs) (dispEvery : Option Nat)
    (batches : Nat → List (List (Row I))) (val : Option (List (List (Row I)))) (w : W)
    (t : Tree) (hw : t.Wf) :
    let r := fit T root tag maxEpochs dispEvery batches val w t
    let b := batches 0
    r.1.weights = Spec.weightsAt T w b b.length ∧ r.1.steps = b.length ∧
      r.1.smooth = (List.range b.length).map (Spec.smooth (Spec.lossAt T w b)) ∧
      r.2.2 = some (Spec.fitError dispEvery val).1 ∧
      r.1.epochs = (if (Spec.fitError dispEvery val).2 then [0] else []) ∧
      r.1.val = (if (Spec.fitError dispEvery val).2 then
        [Spec.perRow (T.predict (Spec.weightsAt T w b b.length)) (val.getD []).flatten]
        else []) ∧
      r.2.1 = (if (Spec.fitError dispEvery val).2 ∧ t (root ++ ["logs".toList]) = some .dir ∧
          t (root ++ ["logs".toList, tag ++ ".npy".toList]) ≠ some .dir
        then Spec.withFile t (root ++ ["logs".toList, tag ++ ".npy".toList]) else t) := by
  intro r b
  have hr := fit_first T root tag h dispEvery batches val w t
  by_cases h0 : dispEvery = some 0
  · rw [if_pos h0] at hr
    have hs : Spec.fitError dispEvery val = (PyErr.zeroDiv, false) := by
      rw [h0]; unfold Spec.fitError; cases val <;> rfl
    rw [hs, show r = _ from hr]
    simp [b]
  · rw [if_neg h0] at hr
    cases val with
    | none =>
      have hs : Spec.fitError (I := I) dispEvery none = (PyErr.type, false) := by
        unfold Spec.fitError
        split <;> simp_all
      rw [hs, show r = _ from hr]
      simp [b, showEpoch]
    | some loader =>
      have hs : Spec.fitError dispEvery (some loader) =
          if loader.flatten = [] then (PyErr.zeroDiv, false) else (.notFound, true) := by
        unfold Spec.fitError
        split <;> simp_all
      by_cases hl : loader.flatten = []
      · rw [if_pos hl] at hs
        rw [showEpoch_empty _ _ _ _ _ _ hl] at hr
        rw [hs, show r = _ from hr]
        simp [b]
      · rw [if_neg hl] at hs
        rw [showEpoch_full _ _ _ _ _ _ hl, saveProgress_eq t hw] at hr
        rw [hs, show r = _ from hr]
        simp [b]

/-! ## Splitting the data -/

/-- C98: when both files are there with as many rows, and not none, a tenth of the rows (rounded
down) from the start of the file are for validation and all others for training: each row is in
exactly one of the two, with its own target. -/
theorem split_ok {I : Type} {inputs : Str → Option (List I)}
    {targets : Str → Option (List (List ℝ))} {pi pt : Str} {data : List I}
    {target : List (List ℝ)} (hi : inputs pi = some data) (ht : targets pt = some target)
    (hl : data.length = target.length) (hne : data ≠ []) :
    ∃ train val, splitData inputs targets pi pt = .ok (train, val) ∧
      val ++ train = data.zip target ∧ val.length = data.length / 10 := by
  refine ⟨(data.drop (data.length / 10)).zip (target.drop (data.length / 10)),
    (data.take (data.length / 10)).zip (target.take (data.length / 10)), ?_, ?_, ?_⟩
  · have hpos : 0 < data.length := List.length_pos_of_ne_nil hne
    simp only [splitData, loadRows, hi, ht, tensorDataset, ok_then, List.length_drop,
      List.length_take]
    rw [if_pos (by omega), if_pos (by omega), ok_then, ok_then, if_neg]
    rw [← List.length_eq_zero_iff, List.length_zip, List.length_drop, List.length_drop, hl]
    omega
  · rw [← List.zip_append (by simp [hl]), List.take_append_drop, List.take_append_drop]
  · rw [List.length_zip, List.length_take, List.length_take, hl]
    omega

/-- C98: otherwise the script raises before it trains: a missing file, an `AssertionError` for
different numbers of rows, a `ValueError` for no rows. -/
theorem split_fails {I : Type} (inputs : Str → Option (List I))
    (targets : Str → Option (List (List ℝ))) (pi pt : Str) :
    (inputs pi = none → splitData inputs targets pi pt = .error .notFound) ∧
    (targets pt = none → splitData inputs targets pi pt = .error .notFound) ∧
    (∀ data target, inputs pi = some data → targets pt = some target →
      (data.length ≠ target.length → splitData inputs targets pi pt = .error .assertion) ∧
      (data = [] → target = [] → splitData inputs targets pi pt = .error .value)) := by
  refine ⟨fun h => ?_, fun h => ?_, fun data target hi ht => ⟨fun hl => ?_, fun h1 h2 => ?_⟩⟩
  · simp only [splitData, loadRows, h]; rfl
  · simp only [splitData, loadRows, h]
    cases inputs pi <;> rfl
  · simp only [splitData, loadRows, hi, ht, tensorDataset, ok_then, List.length_drop]
    rw [if_neg (by omega)]
    rfl
  · subst h1 h2
    simp [splitData, loadRows, hi, ht, tensorDataset, ok_then]

theorem split_train_ne {I : Type} {inputs : Str → Option (List I)}
    {targets : Str → Option (List (List ℝ))} {pi pt : Str} {train val : List (Row I)}
    (h : splitData inputs targets pi pt = .ok (train, val)) : train ≠ [] := by
  rintro rfl
  unfold splitData at h
  cases h1 : loadRows inputs pi with
  | error e => rw [h1, error_then] at h; cases h
  | ok data =>
    cases h2 : loadRows targets pt with
    | error e => rw [h1, h2, ok_then, error_then] at h; cases h
    | ok target =>
      rw [h1, h2, ok_then, ok_then] at h
      dsimp only at h
      cases h3 : tensorDataset (data.drop (data.length / 10)) (target.drop (data.length / 10)) with
      | error e => rw [h3, error_then] at h; cases h
      | ok a =>
        rw [h3, ok_then] at h
        cases h4 : tensorDataset (data.take (data.length / 10)) (target.take (data.length / 10)) with
        | error e => rw [h4, error_then] at h; cases h
        | ok b =>
          rw [h4, ok_then] at h
          split at h
          · cases h
          · next hne =>
            simp only [Except.ok.injEq, Prod.mk.injEq] at h
            exact hne h.1

/-! ## The test data -/

theorem Spec.Replaced.length {s t : Str} (h : Spec.Replaced "train".toList "test".toList s t) :
    t.length ≤ s.length ∧ (t.length = s.length → t = s ∧ ¬ "train".toList <:+: s) := by
  induction h with
  | nil => exact ⟨le_refl _, fun _ => ⟨rfl, by decide⟩⟩
  | @hit s t _ ih =>
    have h1 : ("train".toList ++ s).length = 5 + s.length := by simp; omega
    have h2 : ("test".toList ++ t).length = 4 + t.length := by simp; omega
    rw [h1, h2]
    exact ⟨by omega, fun h => by omega⟩
  | @skip c s t hn _ ih =>
    simp only [List.length_cons]
    refine ⟨by omega, fun h => ?_⟩
    obtain ⟨h1, h2⟩ := ih.2 (by omega)
    refine ⟨by rw [h1], ?_⟩
    rw [List.infix_cons_iff]
    rintro (h | h)
    · exact hn h
    · exact h2 h

/-- C98: the test file is that of the training data with each "train" in its path turned into
"test". -/
theorem testPath_replaced (path : Str) :
    Spec.Replaced "train".toList "test".toList path (testPath path) :=
  pyReplace_replaced _ (by decide) _ _ (le_refl _)

theorem Spec.Replaced.same {pat rep s t : Str} (h : Spec.Replaced pat rep s t)
    (hs : ¬ pat <:+: s) : t = s := by
  induction h with
  | nil => rfl
  | @hit s t _ _ => exact absurd ⟨[], s, by simp⟩ hs
  | @skip c s t _ _ ih =>
    rw [ih fun h => hs (by rw [List.infix_cons_iff]; exact Or.inr h)]

/-- C98: it is the file of the training data itself exactly if "train" is not in the path. -/
theorem testPath_same_iff (path : Str) :
    testPath path = path ↔ ¬ "train".toList <:+: path := by
  constructor
  · intro h
    exact ((testPath_replaced path).length.2 (by rw [h])).2
  · exact (testPath_replaced path).same

/-- C98, where it fails: with the default paths, which are those of the inputs and the targets of
the same set, the network is tested on its training data. -/
theorem default_test_refuted :
    testPath defaultInputPath = defaultInputPath ∧
      testPath defaultTargetPath = defaultTargetPath ∧
      defaultTargetPath = defaultInputPath.map fun c => if c = 'x' then 'y' else c := by
  refine ⟨?_, ?_, ?_⟩ <;> decide +kernel

/-- C98: then the test rows are the validation rows and the training rows, and the test loss is
their average, weighted by the numbers of rows. -/
theorem test_leak {I : Type} {inputs : Str → Option (List I)}
    {targets : Str → Option (List (List ℝ))} {pi pt : Str} {train val : List (Row I)}
    (h : splitData inputs targets pi pt = .ok (train, val))
    (hi : ¬ "train".toList <:+: pi) (ht : ¬ "train".toList <:+: pt) :
    testData inputs targets pi pt = .ok (val ++ train) ∧
      ∀ net : I → List ℝ, ((val ++ train).length : ℝ) * Spec.perRow net (val ++ train) =
        val.length * Spec.perRow net val + train.length * Spec.perRow net train := by
  constructor
  · unfold testData
    rw [(testPath_same_iff pi).2 hi, (testPath_same_iff pt).2 ht]
    unfold loadRows
    cases hd : inputs pi with
    | none => rw [(split_fails inputs targets pi pt).1 hd] at h; cases h
    | some data =>
      cases hg : targets pt with
      | none => rw [(split_fails inputs targets pi pt).2.1 hg] at h; cases h
      | some target =>
        have hl : data.length = target.length := by
          by_contra hl
          rw [((split_fails inputs targets pi pt).2.2 data target hd hg).1 hl] at h
          cases h
        have hne : data ≠ [] := by
          intro hne
          have : target = [] := by
            rw [← List.length_eq_zero_iff, ← hl, hne]; rfl
          rw [((split_fails inputs targets pi pt).2.2 data target hd hg).2 hne this] at h
          cases h
        obtain ⟨a, b, h1, h2, -⟩ := split_ok hd hg hl hne
        rw [h1] at h
        simp only [Except.ok.injEq, Prod.mk.injEq] at h
        obtain ⟨rfl, rfl⟩ := h
        rw [h2]
        simp only [ok_then, tensorDataset, hl, if_true]
  · intro net
    have key : ∀ rows : List (Row I), (rows.length : ℝ) * Spec.perRow net rows =
        Spec.squares net rows := by
      intro rows
      unfold Spec.perRow
      cases rows with
      | nil => simp [Spec.squares]
      | cons r rest =>
        have : (((r :: rest).length : ℕ) : ℝ) ≠ 0 := by
          simp only [List.length_cons]; positivity
        field_simp
    rw [key, key, key, Spec.squares_append]

/-! ## The script -/

/-- The pairs of seed and layer repeats. -/
theorem runPairs_cons (s : Nat) (seeds : List Nat) :
    runPairs (s :: seeds) = (s, 1) :: (s, 2) :: (s, 4) :: runPairs seeds := rfl

/-- C98: with at least one epoch the script always ends with an exception.  It comes at most to
one model, that with one layer repeat and the first seed, trained for one epoch; no test data is
read and no loss is written. -/
theorem script_stops {I W : Type} (w : PredictorWorld I W)
    (hsh : ∀ n e rows, (w.shuffle n e rows).Perm rows) (root : List Str)
    (pi pt : Str) {maxEpochs : Nat} (h : 1 ≤ maxEpochs) (s : Nat) (seeds : List Nat)
    (t : Tree) (hw : t.Wf) :
    let r := predictorScript w root pi pt maxEpochs (s :: seeds) t
    (∃ e, r.2.2 = some e) ∧ r.1.length ≤ 1 ∧
      (∀ run ∈ r.1, run.repeats = 1 ∧ run.seed = s ∧ run.losses = none ∧
        ∃ train val, splitData w.inputs w.targets pi pt = .ok (train, val) ∧
          run.progress.steps = (train.length + 511) / 512 ∧
          (r.2.2 = some .zeroDiv ↔ val = []) ∧ (r.2.2 = some .notFound ↔ val ≠ [])) ∧
      (r.1 = [] ↔ ∃ e, splitData w.inputs w.targets pi pt = .error e ∧ r.2.2 = some e) ∧
      (r.2.1 = t ∨ ∃ tag, r.2.1 =
        Spec.withFile t (root ++ ["logs".toList, tag ++ ".npy".toList])) := by
  intro r
  have hr : r = runAll w root pi pt maxEpochs 0 ((s, 1) :: (s, 2) :: (s, 4) :: runPairs seeds) t := rfl
  rw [runAll] at hr
  unfold oneRun at hr
  cases hsplit : splitData w.inputs w.targets pi pt with
  | error e =>
    rw [hsplit] at hr
    dsimp only at hr
    rw [hr]
    simp
  | ok tv =>
    obtain ⟨train, val⟩ := tv
    rw [hsplit] at hr
    dsimp only at hr
    have hf := fit_stops w.trainer root (expTag (dataTag pi) 1 s (w.stamp 0)) h none
      (fun e => predictorLoader (w.shuffle 0 e train)) (some (predictorLoader val))
      (w.trainer.init 1 s) t hw
    generalize hg : fit w.trainer root (expTag (dataTag pi) 1 s (w.stamp 0)) maxEpochs none
      (fun e => predictorLoader (w.shuffle 0 e train)) (some (predictorLoader val))
      (w.trainer.init 1 s) t = g at hr hf
    obtain ⟨p, t', oe⟩ := g
    dsimp only at hf
    obtain ⟨-, hsteps, -, herr, -, -, htree⟩ := hf
    have hfe : Spec.fitError none (some (predictorLoader val)) =
        if val = [] then (PyErr.zeroDiv, false) else (.notFound, true) := by
      unfold Spec.fitError
      dsimp only
      rw [loader_rows]
    rw [herr] at hr
    dsimp only at hr
    rw [hr]
    refine ⟨⟨_, rfl⟩, by simp, ?_, by simp, ?_⟩
    · intro run hrun
      simp only [Option.toList_some, List.mem_singleton] at hrun
      subst hrun
      refine ⟨rfl, rfl, rfl, train, val, rfl, ?_, ?_, ?_⟩
      · dsimp only
        rw [hsteps, loader_count, (hsh _ _ _).length_eq]
      · rw [hfe]; split <;> simp [*]
      · rw [hfe]; split <;> simp [*]
    · dsimp only
      rw [htree]
      split
      · exact Or.inr ⟨_, rfl⟩
      · exact Or.inl rfl

/-- The files allow a result of any name to be written to the log directory. -/
def Spec.Logs (t : List Str → Option Node) (root : List Str) : Prop :=
  t (root ++ ["logs".toList]) = some .dir ∧
    ∀ name, t (root ++ ["logs".toList, name]) ≠ some .dir

theorem Spec.Logs.save {t : Tree} {root : List Str} (h : Spec.Logs t root) (name : Str) :
    Tree.save t (root ++ ["logs".toList, name]) =
        .ok (Spec.withFile t (root ++ ["logs".toList, name])) ∧
      Spec.Logs (Spec.withFile t (root ++ ["logs".toList, name])) root := by
  have hd : (root ++ ["logs".toList, name]).dropLast = root ++ ["logs".toList] := by
    rw [show root ++ ["logs".toList, name] = (root ++ ["logs".toList]) ++ [name] by simp,
      List.dropLast_concat]
  constructor
  · unfold Tree.save
    rw [hd, if_neg (not_not.2 h.1), if_neg (h.2 name)]
    rfl
  · constructor
    · unfold Spec.withFile
      rw [if_neg (by simp), h.1]
    · intro n
      unfold Spec.withFile
      split
      · simp
      · exact h.2 n

/-- C98: without epochs (and with at least 10 rows, test rows, and a log directory) the script
runs all seeds with 1, 2 and 4 layer repeats and writes, for each, the losses of the untrained
network on training, validation and test rows. -/
theorem script_untrained {I W : Type} (w : PredictorWorld I W)
    (hsh : ∀ n e rows, (w.shuffle n e rows).Perm rows) (root : List Str) {pi pt : Str}
    {train val test : List (Row I)}
    (hsplit : splitData w.inputs w.targets pi pt = .ok (train, val))
    (htest : testData w.inputs w.targets pi pt = .ok test) (hval : val ≠ [])
    (hne : test ≠ []) (seeds : List Nat) {t : Tree} (hl : Spec.Logs t root) :
    let r := predictorScript w root pi pt 0 seeds t
    r.2.2 = none ∧
      r.1.map (fun run => (run.seed, run.repeats)) =
        seeds.flatMap (fun s => [(s, 1), (s, 2), (s, 4)]) ∧
      (∀ run ∈ r.1, run.progress = ⟨w.trainer.init run.repeats run.seed, 0, [], [], []⟩ ∧
        run.losses = some
          (Spec.perRow (w.trainer.predict (w.trainer.init run.repeats run.seed)) train,
           Spec.perRow (w.trainer.predict (w.trainer.init run.repeats run.seed)) val,
           Spec.perRow (w.trainer.predict (w.trainer.init run.repeats run.seed)) test) ∧
        r.2.1 (root ++ ["logs".toList, run.tag ++ "_final.txt".toList]) = some .file) := by
  have htr := split_train_ne hsplit
  have one : ∀ n seed repeats (t : Tree), Spec.Logs t root →
      oneRun w root pi pt 0 n seed repeats t =
        (some ⟨repeats, seed, expTag (dataTag pi) repeats seed (w.stamp n),
            ⟨w.trainer.init repeats seed, 0, [], [], []⟩, some
            (Spec.perRow (w.trainer.predict (w.trainer.init repeats seed)) train,
             Spec.perRow (w.trainer.predict (w.trainer.init repeats seed)) val,
             Spec.perRow (w.trainer.predict (w.trainer.init repeats seed)) test)⟩,
          Spec.withFile t (root ++ ["logs".toList,
            expTag (dataTag pi) repeats seed (w.stamp n) ++ "_final.txt".toList]), none) := by
    intro n seed repeats t hl
    unfold oneRun
    rw [hsplit]
    dsimp only
    rw [fit_none]
    dsimp only
    have hp := hsh n 0 train
    have hfin : finishRun w root pi pt (expTag (dataTag pi) repeats seed (w.stamp n))
        (w.trainer.init repeats seed) (predictorLoader (w.shuffle n 0 train)) (predictorLoader val) t
        = .ok ((Spec.perRow (w.trainer.predict (w.trainer.init repeats seed)) train,
             Spec.perRow (w.trainer.predict (w.trainer.init repeats seed)) val,
             Spec.perRow (w.trainer.predict (w.trainer.init repeats seed)) test),
          Spec.withFile t (root ++ ["logs".toList,
            expTag (dataTag pi) repeats seed (w.stamp n) ++ "_final.txt".toList])) := by
      unfold finishRun endLosses
      rw [htest]
      simp only [ok_then]
      rw [evaluate_perm _ (b := [train]) (by rw [loader_rows]; simpa using hp)]
      rw [evaluate_eq, evaluate_eq, evaluate_eq, loader_rows, loader_rows]
      simp only [List.flatten_cons, List.flatten_nil, List.append_nil, if_neg hval, if_neg htr,
        if_neg hne, ok_then]
      rw [(hl.save _).1]
      rfl
    rw [hfin]
  have all : ∀ (pairs : List (Nat × Nat)) (n : Nat) (t : Tree), Spec.Logs t root →
      let r := runAll w root pi pt 0 n pairs t
      r.2.2 = none ∧ r.1.map (fun run => (run.seed, run.repeats)) = pairs ∧
      (∀ run ∈ r.1, run.progress = ⟨w.trainer.init run.repeats run.seed, 0, [], [], []⟩ ∧
        run.losses = some
          (Spec.perRow (w.trainer.predict (w.trainer.init run.repeats run.seed)) train,
           Spec.perRow (w.trainer.predict (w.trainer.init run.repeats run.seed)) val,
           Spec.perRow (w.trainer.predict (w.trainer.init run.repeats run.seed)) test) ∧
        r.2.1 (root ++ ["logs".toList, run.tag ++ "_final.txt".toList]) = some .file) ∧
      (∀ p, t p = some .file → r.2.1 p = some .file) := by
    intro pairs
    induction pairs with
    | nil => intro n t _; simp [runAll]
    | cons pr rest ih =>
      intro n t hl
      obtain ⟨seed, repeats⟩ := pr
      have ih' := ih (n + 1) _ (hl.save (expTag (dataTag pi) repeats seed (w.stamp n) ++
        "_final.txt".toList)).2
      rw [runAll, one n seed repeats t hl]
      dsimp only at ih' ⊢
      obtain ⟨h1, h2, h3, h4⟩ := ih'
      refine ⟨h1, by rw [List.map_append, h2]; rfl, ?_, ?_⟩
      · intro run hrun
        simp only [Option.toList_some, List.cons_append, List.nil_append, List.mem_cons] at hrun
        rcases hrun with rfl | hrun
        · refine ⟨rfl, rfl, h4 _ ?_⟩
          unfold Spec.withFile
          rw [if_pos rfl]
        · exact h3 run hrun
      · intro p hp
        apply h4
        unfold Spec.withFile
        split
        · rfl
        · exact hp
  intro r
  have := all (runPairs seeds) 0 t hl
  dsimp only at this
  exact ⟨this.1, this.2.1, this.2.2.1⟩

/-- C98: without epochs but with fewer than 10 rows it divides by zero, and writes nothing. -/
theorem script_few_rows {I W : Type} (w : PredictorWorld I W)
    (hsh : ∀ n e rows, (w.shuffle n e rows).Perm rows) (root : List Str) {pi pt : Str}
    {train test : List (Row I)}
    (hsplit : splitData w.inputs w.targets pi pt = .ok (train, []))
    (htest : testData w.inputs w.targets pi pt = .ok test) (s : Nat) (seeds : List Nat) (t : Tree) :
    (predictorScript w root pi pt 0 (s :: seeds) t).2 = (t, some .zeroDiv) := by
  have htr := split_train_ne hsplit
  unfold predictorScript
  rw [runPairs_cons, runAll]
  have : oneRun w root pi pt 0 0 s 1 t = (some ⟨1, s, expTag (dataTag pi) 1 s (w.stamp 0),
      ⟨w.trainer.init 1 s, 0, [], [], []⟩, none⟩, t, some .zeroDiv) := by
    unfold oneRun
    rw [hsplit]
    dsimp only
    rw [fit_none]
    dsimp only
    have hfin : finishRun w root pi pt (expTag (dataTag pi) 1 s (w.stamp 0))
        (w.trainer.init 1 s) (predictorLoader (w.shuffle 0 0 train)) (predictorLoader []) t
        = .error .zeroDiv := by
      unfold finishRun endLosses
      rw [htest]
      simp only [ok_then]
      rw [evaluate_perm _ (b := [train]) (by rw [loader_rows]; simpa using hsh 0 0 train)]
      rw [evaluate_eq, evaluate_eq, loader_rows]
      simp only [List.flatten_cons, List.flatten_nil, List.append_nil, if_neg htr, if_true, ok_then]
      rfl
    rw [hfin]
  rw [this]

/-- A world with 20 rows of one cell. -/
noncomputable def Witness.predictorWorld : PredictorWorld Unit Nat where
  trainer := ⟨fun r s => r + s, fun w _ => [(w : ℝ)], fun _ w _ => [(w : ℝ)], fun _ w _ => w + 1⟩
  inputs := fun _ => some (List.replicate 20 ())
  targets := fun _ => some (List.replicate 20 [0])
  shuffle := fun _ _ rows => rows.reverse
  stamp := fun _ => "000000".toList

/-- Files with a log directory. -/
def Witness.logTree : Tree := fun p => if p = [] ∨ p = ["logs".toList] then some .dir else none

example : Spec.Logs Witness.logTree [] := by
  refine ⟨rfl, fun name => ?_⟩
  simp [Witness.logTree]

example : ∃ train val, splitData Witness.predictorWorld.inputs Witness.predictorWorld.targets
    defaultInputPath defaultTargetPath = .ok (train, val) ∧ val.length = 2 ∧ train.length = 18 ∧
    testData Witness.predictorWorld.inputs Witness.predictorWorld.targets
      defaultInputPath defaultTargetPath = .ok (val ++ train) ∧
    ∀ n e rows, (Witness.predictorWorld.shuffle n e rows).Perm rows := by
  obtain ⟨train, val, h1, h2, h3⟩ := split_ok (inputs := Witness.predictorWorld.inputs)
    (targets := Witness.predictorWorld.targets) (pi := defaultInputPath) (pt := defaultTargetPath)
    rfl rfl (by simp) (by simp)
  have h4 : val.length = 2 := by rw [h3]; simp
  refine ⟨train, val, h1, h4, ?_, (test_leak h1 ?_ ?_).1, fun n e rows => List.reverse_perm rows⟩
  · have := congrArg List.length h2
    rw [List.length_append, h4] at this
    simp at this
    omega
  · exact (testPath_same_iff _).1 default_test_refuted.1
  · exact (testPath_same_iff _).1 default_test_refuted.2.1

/-! ## Names -/

/-- C98: runs of different seeds or layer repeats write to different files. -/
theorem expTag_inj {tag stamp stamp' : Str} {r r' s s' : Nat} (hr : r ∈ [1, 2, 4])
    (hr' : r' ∈ [1, 2, 4]) (h1 : stamp.length = 6) (h2 : stamp'.length = 6)
    (h : expTag tag r s stamp = expTag tag r' s' stamp') : r = r' ∧ s = s' ∧ stamp = stamp' := by
  unfold expTag at h
  simp only [List.append_assoc, List.append_cancel_left_eq] at h
  have hd : (decimal r).length = (decimal r').length := by
    simp only [List.mem_cons, List.not_mem_nil, or_false] at hr hr'
    rcases hr with rfl | rfl | rfl <;> rcases hr' with rfl | rfl | rfl <;> decide +kernel
  obtain ⟨ha, hb⟩ := List.append_inj h hd
  simp only [List.append_cancel_left_eq] at hb
  obtain ⟨hc, hd'⟩ := List.append_inj' hb (by simp [h1, h2])
  have he : stamp = stamp' := by simpa using hd'
  refine ⟨?_, ?_, he⟩
  · rw [← value_decimal r, ha, value_decimal]
  · rw [← value_decimal s, hc, value_decimal]

example : expTag (dataTag defaultInputPath) 2 13 "123456".toList =
    "geminium_l_2_kr_31_hid8_seed13_123456".toList := by decide +kernel

end Yuca
