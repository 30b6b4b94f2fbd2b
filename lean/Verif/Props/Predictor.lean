import Verif.Model.Predictor
import Mathlib.Tactic.Linarith
import Mathlib.Tactic.NormNum
import Mathlib.Tactic.Positivity
import Mathlib.Tactic.FieldSimp

/-!
# The step predictor (C58, C74, C75)
-/

namespace Yuca

/-! ## Which layers are used -/

/-- The rounds, written out: round `k` uses layers `2 k` and `2 k + 1`. -/
def Spec.rounds {A L : Type} (mix : A → L → L → A) (make : Nat → L) (x : A) : Nat → A
  | 0 => x
  | k + 1 => mix (Spec.rounds mix make x k) (make (2 * k)) (make (2 * k + 1))

theorem predictorForward_rounds {A L : Type} (mix : PredictorMix A L) (layers : List L)
    (make : Nat → L) (x : A) (n : Nat) (h : ∀ i < 2 * n, layers[i]? = some (make i)) :
    ((List.range n).map (2 * ·)).foldlM (fun x jj =>
      match layers[jj]?, layers[jj + 1]? with
      | some a, some b => (.ok (mix x a b) : Except PyErr A)
      | _, _ => .error .index) x = .ok (Spec.rounds mix make x n) := by
  induction n with
  | zero => rfl
  | succ n ih =>
    rw [List.range_succ, List.map_append, List.foldlM_append, ih (fun i hi => h i (by omega))]
    simp only [List.map_cons, List.map_nil, List.foldlM_cons, List.foldlM_nil, bind, Except.bind,
      pure, Except.pure]
    rw [h (2 * n) (by omega), h (2 * n + 1) (by omega)]
    rfl

/-- C58: the forward pass never raises, and is `⌈repeats / 2⌉` rounds with the first layers. -/
theorem predictorForward_spec {A L : Type} (mix : PredictorMix A L) (make : Nat → L)
    (repeats : Nat) (x : A) :
    predictorForward mix repeats (predictorLayers make repeats) x =
      .ok (Spec.rounds mix make x ((repeats + 1) / 2)) := by
  unfold predictorForward evens
  apply predictorForward_rounds
  intro i hi
  unfold predictorLayers
  rw [List.getElem?_map, List.getElem?_range (by omega)]
  rfl

theorem Spec.rounds_congr {A L : Type} (mix : A → L → L → A) {make make' : Nat → L} (x : A) :
    ∀ n, (∀ i < 2 * n, make i = make' i) → Spec.rounds mix make x n = Spec.rounds mix make' x n
  | 0, _ => rfl
  | n + 1, h => by
    rw [Spec.rounds, Spec.rounds, Spec.rounds_congr mix x n (fun i hi => h i (by omega)),
      h (2 * n) (by omega), h (2 * n + 1) (by omega)]

/-- C58: what the layers from `2⌈repeats/2⌉` on hold makes no difference to any output. -/
theorem predictor_dead_layers {A L : Type} (mix : PredictorMix A L) {make make' : Nat → L}
    (repeats : Nat) (h : ∀ i < 2 * ((repeats + 1) / 2), make i = make' i) (x : A) :
    predictorForward mix repeats (predictorLayers make repeats) x =
      predictorForward mix repeats (predictorLayers make' repeats) x := by
  rw [predictorForward_spec, predictorForward_spec, Spec.rounds_congr mix x _ h]

/-- C58: from two repeats on there are such layers: half of them for an even number. -/
theorem predictor_dead_count {L : Type} (make : Nat → L) (repeats : Nat) :
    (predictorLayers make repeats).length - 2 * ((repeats + 1) / 2) = 2 * (repeats / 2) := by
  simp only [predictorLayers, List.length_map, List.length_range]
  omega

/-- C58: an even number of repeats computes the same as one repeat fewer. -/
theorem predictor_even_same {A L : Type} (mix : PredictorMix A L) (make : Nat → L) (k : Nat)
    (x : A) :
    predictorForward mix (2 * k + 2) (predictorLayers make (2 * k + 2)) x =
      predictorForward mix (2 * k + 1) (predictorLayers make (2 * k + 1)) x := by
  rw [predictorForward_spec, predictorForward_spec]
  congr 2
  omega

/-- C58: every layer of the used half is used: a mix that records shows them all. -/
theorem predictor_used_layers (repeats : Nat) :
    predictorForward (fun (x : List Nat) a b => x ++ [a, b]) repeats
      (predictorLayers id repeats) [] = .ok (List.range (2 * ((repeats + 1) / 2))) := by
  rw [predictorForward_spec]
  congr 1
  generalize (repeats + 1) / 2 = n
  induction n with
  | zero => rfl
  | succ n ih =>
    rw [Spec.rounds, ih, show 2 * (n + 1) = 2 * n + 1 + 1 by omega, List.range_succ,
      List.range_succ]
    simp

/-- The three networks the script trains: 1, 2 and 4 repeats use layers 0-1, 0-1 and 0-3. -/
example : (predictorForward (fun (x : List Nat) a b => x ++ [a, b]) 4 (predictorLayers id 4) []).toOption
    = some [0, 1, 2, 3] ∧
    (predictorForward (fun (x : List Nat) a b => x ++ [a, b]) 2 (predictorLayers id 2) []).toOption
    = some [0, 1] := by decide

/-! ## What can be predicted -/

theorem sigmoid_pos (x : ℝ) : 0 < sigmoid x := by
  unfold sigmoid
  have := Real.exp_pos (-x)
  positivity

theorem sigmoid_lt_one (x : ℝ) : sigmoid x < 1 := by
  unfold sigmoid
  have := Real.exp_pos (-x)
  rw [div_lt_one (by linarith)]
  linarith

/-- C74: every prediction lies strictly above the input in every cell, whatever the weights, by
less than the number of rounds. -/
theorem predictor_increases {Cell : Type} (drop : (Cell → ℝ) → Cell → ℝ)
    (make : Nat → (Cell → ℝ) → Cell → ℝ) {repeats : Nat} (h : 1 ≤ repeats) (x : Cell → ℝ) :
    ∃ y, predictorForward (realMix drop) repeats (predictorLayers make repeats) x = .ok y ∧
      ∀ c, x c < y c ∧ y c < x c + ((repeats + 1) / 2 : Nat) := by
  refine ⟨_, predictorForward_spec _ _ _ _, fun c => ?_⟩
  have key : ∀ n, x c ≤ Spec.rounds (realMix drop) make x n c ∧
      Spec.rounds (realMix drop) make x n c ≤ x c + (n : Nat) ∧
      (1 ≤ n → x c < Spec.rounds (realMix drop) make x n c ∧
        Spec.rounds (realMix drop) make x n c < x c + (n : Nat)) := by
    intro n
    induction n with
    | zero => simp [Spec.rounds]
    | succ n ih =>
      rw [Spec.rounds]
      unfold realMix at ih ⊢
      generalize Spec.rounds _ make x n = y at ih
      have h1 := sigmoid_pos (make (2 * n + 1) (drop fun d => max (make (2 * n) y d) 0) c)
      have h2 := sigmoid_lt_one (make (2 * n + 1) (drop fun d => max (make (2 * n) y d) 0) c)
      push_cast
      refine ⟨by linarith [ih.1], by linarith [ih.2.1], fun _ => ⟨by linarith [ih.1], ?_⟩⟩
      linarith [ih.2.1]
  exact (key _).2.2 (by omega)

/-- C74: so no cell of a target that does not rise is ever met, and the mean squared error of a
training pair with such a cell is never zero. -/
theorem predictor_never_exact {Cell : Type} (drop : (Cell → ℝ) → Cell → ℝ)
    (make : Nat → (Cell → ℝ) → Cell → ℝ) {repeats : Nat} (h : 1 ≤ repeats) (x target : Cell → ℝ)
    (c : Cell) (hc : target c ≤ x c) :
    predictorForward (realMix drop) repeats (predictorLayers make repeats) x ≠ .ok target := by
  obtain ⟨y, hy, hb⟩ := predictor_increases drop make h x
  rw [hy]
  intro he
  have := congrFun (Except.ok.inj he) c
  have := (hb c).1
  linarith

/-- An empty picture that stays empty cannot be predicted. -/
example : predictorForward (realMix (Cell := Fin 4) id) 1 (predictorLayers (fun _ x => x) 1)
    (fun _ => 0) ≠ .ok (fun _ => 0) :=
  predictor_never_exact id _ (le_refl 1) _ _ 0 (le_refl _)

/-- C74: with no repeat the input is returned. -/
theorem predictor_no_repeat {A L : Type} (mix : PredictorMix A L) (make : Nat → L) (x : A) :
    predictorForward mix 0 (predictorLayers make 0) x = .ok x := rfl

/-! ## Saving -/

/-- C75: saving the model always raises, on every file system. -/
theorem predictorSave_error (t : Tree) (hw : t.Wf) (root : List Str) (tag : Str) :
    predictorSave t root tag = .error .notFound := by
  unfold predictorSave
  dsimp only
  set p := root ++ ["logs".toList, tag ++ ".npy".toList] with hp
  unfold Tree.save
  by_cases h1 : t p.dropLast ≠ some .dir
  · rw [if_pos h1]
  rw [if_neg h1]
  by_cases h2 : t p = some .dir
  · rw [if_pos h2]
  rw [if_neg h2]
  dsimp only
  rw [if_pos]
  have hd : (p ++ ["models".toList, tag ++ "_model.pt".toList]).dropLast = p ++ ["models".toList] := by
    rw [show p ++ ["models".toList, tag ++ "_model.pt".toList] =
      (p ++ ["models".toList]) ++ [tag ++ "_model.pt".toList] by simp, List.dropLast_concat]
  rw [hd, if_neg (by simp)]
  intro hdir
  have := hw p "models".toList (by rw [hdir]; simp)
  exact h2 this

/-- C75: so `fit` with at least one epoch ends with an error after exactly one epoch. -/
theorem predictorFit_error (t : Tree) (hw : t.Wf) (root : List Str) (tag : Str)
    {maxEpochs : Nat} (dispEvery : Nat) (h : 1 ≤ maxEpochs) :
    predictorFit root tag maxEpochs dispEvery maxEpochs 0 t = (1, some .notFound) := by
  obtain ⟨k, rfl⟩ := Nat.exists_eq_add_of_le h
  rw [Nat.add_comm]
  unfold predictorFit
  rw [if_pos (Or.inl (by simp)), predictorSave_error t hw]

/-- A tree with the log directories present. -/
example : Tree.Wf (fun p => if p = [] ∨ p = ["logs".toList] then some .dir else none) := by
  intro p c h
  simp only [ne_eq, ite_eq_right_iff, reduceCtorEq, imp_false, not_not] at h
  rcases h with h | h
  · simp at h
  · have : p = [] := by
      have := congrArg List.length h
      simp at this
      exact this
    simp [this]

end Yuca
