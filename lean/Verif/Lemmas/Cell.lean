import Verif.Props.Structure

/-! # What one step does to one cell, over exact reals -/

namespace Yuca

open Arith

variable {ext int N H W : Nat}

theorem clamp01_real (x : ℝ) : clamp01 x = max 0 (min 1 x) := by
  unfold clamp01
  simp only [Arith.lt, Arith.zero, Arith.one, decide_eq_true_eq]
  split
  · rename_i h; rw [min_eq_right (by linarith), max_eq_left h.le]
  · rename_i h
    split
    · rename_i h'; rw [min_eq_left h'.le, max_eq_right (by norm_num)]
    · rename_i h'; rw [min_eq_right (by linarith), max_eq_right (by linarith)]

theorem clamp01_mem (x : ℝ) : 0 ≤ clamp01 x ∧ clamp01 x ≤ 1 := by
  rw [clamp01_real]
  exact ⟨le_max_left _ _, max_le (by norm_num) (min_le_left _ _)⟩

theorem clamp01_of_mem {x : ℝ} (h0 : 0 ≤ x) (h1 : x ≤ 1) : clamp01 x = x := by
  rw [clamp01_real, min_eq_right h1, max_eq_right h0]

theorem clamp01_move {v : ℝ} (h0 : 0 ≤ v) (h1 : v ≤ 1) (d : ℝ) :
    |clamp01 (v + d) - v| ≤ |d| := by
  rw [clamp01_real]
  rcases abs_cases d with ⟨h, _⟩ | ⟨h, _⟩ <;> rw [h, abs_le] <;>
    rcases max_cases 0 (min 1 (v + d)) with ⟨h2, _⟩ | ⟨h2, _⟩ <;> rw [h2] <;>
    rcases min_cases 1 (v + d) with ⟨h3, _⟩ | ⟨h3, _⟩ <;> constructor <;> linarith

theorem dot_finRange {n : Nat} (w x : Fin n → ℝ) :
    Arith.dot ((List.finRange n).map fun o => (w o, x o)) = ∑ o, w o * x o := by
  simp only [Arith.dot, List.map_map, Function.comp_def]
  simp [Finset.sum, Fin.univ_val_map, List.ofFn_eq_map]

theorem perChannel_ok {fns : List (ℝ → ℝ)} {x y : Univ ℝ N int H W}
    (h : perChannel fns x = .ok y) :
    ∃ hl : fns.length = int, y = fun n o i j => fns.get (Fin.cast hl.symm o) (x n o i j) := by
  unfold perChannel at h
  split at h
  · rename_i hl; exact ⟨hl, by cases h; rfl⟩
  · cases h

/-- The growth function of internal channel `o` (0 if the list is too short). -/
def chanFn (fns : List (ℝ → ℝ)) (o : Fin int) : ℝ → ℝ := fns.getD o.val (fun _ => 0)

theorem chanFn_get {fns : List (ℝ → ℝ)} (hl : fns.length = int) (o : Fin int) :
    fns.get (Fin.cast hl.symm o) = chanFn fns o := by
  have : o.val < fns.length := by have := o.isLt; omega
  simp [chanFn, List.getD, List.getElem?_eq_getElem this]

theorem chanFn_mem {fns : List (ℝ → ℝ)} (hl : fns.length = int) (o : Fin int) :
    chanFn fns o ∈ fns := by
  rw [← chanFn_get hl]; exact List.get_mem _ _

/-- One cell of one `CCA` step with a linear weight layer. -/
theorem cca_cell {ca : CCA ℝ ext int} {w : Fin ext → Fin int → ℝ}
    (hw : ca.weights = .functional w) {u : Univ ℝ N ext H W} {r : Univ ℝ N ext H W × CCA ℝ ext int}
    (h : ca.forward u = .ok r) :
    ca.genesis.length = int ∧ ca.persistence.length = int ∧
    r.2 = { ca with t := ca.t + ca.dt } ∧
    ∀ n e i j, r.1 n e i j = clamp01 (maskIf ca.thr u n e i j + ca.dt * ∑ o, w e o *
      ((1 - dot (ca.idL.taps (maskIf ca.thr u n) o i j)) *
          chanFn ca.genesis o (dot (ca.nbL.taps (maskIf ca.thr u n) o i j)) +
        dot (ca.idL.taps (maskIf ca.thr u n) o i j) *
          chanFn ca.persistence o (dot (ca.nbL.taps (maskIf ca.thr u n) o i j)))) := by
  obtain ⟨idn, nb, upd, h1, h2, h3, rfl⟩ := CCA.forward_ok h
  obtain ⟨_, rfl⟩ := apply_ok h1
  obtain ⟨_, rfl⟩ := apply_ok h2
  unfold CCA.updateUniverse at h3
  obtain ⟨g, h4, h3⟩ := bind_ok h3
  obtain ⟨p, h5, h3⟩ := bind_ok h3
  obtain ⟨hg, rfl⟩ := perChannel_ok h4
  obtain ⟨hp, rfl⟩ := perChannel_ok h5
  cases h3
  refine ⟨hg, hp, rfl, fun n e i j => ?_⟩
  simp only [eulerClamp, hw, Weights.apply, conv1x1, dot_finRange, chanFn_get hg, chanFn_get hp]
  rfl

/-- One cell of one `Lenia` step with a linear weight layer. -/
theorem lenia_cell {ca : CCA ℝ ext int} {w : Fin ext → Fin int → ℝ}
    (hw : ca.weights = .functional w) {u : Univ ℝ N ext H W} {r : Univ ℝ N ext H W × CCA ℝ ext int}
    (h : ca.leniaForward u = .ok r) :
    ca.genesis.length = int ∧
    r.2 = { ca with t := ca.t + ca.dt } ∧
    ∀ n e i j, r.1 n e i j = clamp01 (maskIf ca.thr u n e i j + ca.dt * ∑ o, w e o *
          chanFn ca.genesis o (dot (ca.nbL.taps (maskIf ca.thr u n) o i j))) := by
  obtain ⟨idn, nb, upd, h1, h2, h3, rfl⟩ := CCA.leniaForward_ok h
  obtain ⟨_, rfl⟩ := apply_ok h2
  unfold CCA.leniaUpdateUniverse at h3
  obtain ⟨g, h4, h3⟩ := bind_ok h3
  obtain ⟨hg, rfl⟩ := perChannel_ok h4
  cases h3
  refine ⟨hg, rfl, fun n e i j => ?_⟩
  simp only [eulerClamp, hw, Weights.apply, conv1x1, dot_finRange, chanFn_get hg]
  rfl

theorem maskIf_cases (thr : ℝ) (u : Univ ℝ N ext H W) (n : Fin N) (e : Fin ext) (i : Fin H)
    (j : Fin W) : maskIf thr u n e i j = u n e i j ∨ maskIf thr u n e i j = 0 := by
  unfold maskIf
  split
  · simp only [aliveMask, Arith.mul, Arith.one, Arith.zero]
    split <;> simp
  · exact .inl rfl

theorem maskIf_zero (thr : ℝ) : maskIf thr (fun _ _ _ _ => 0 : Univ ℝ N ext H W) =
    fun _ _ _ _ => 0 := by
  funext n e i j
  rcases maskIf_cases thr (fun _ _ _ _ => 0 : Univ ℝ N ext H W) n e i j with h | h <;> exact h

/-- Any layer maps the zero grid to zero, whatever the padding. -/
theorem taps_zero (L : ConvLayer ℝ ext int) (o : Fin int) (i : Fin H) (j : Fin W) :
    dot (L.taps (fun _ _ _ => (0 : ℝ)) o i j) = 0 := by
  rw [conv_sum_pad]
  have : ∀ a b, padRead L.mode (fun (_ : Fin H) (_ : Fin W) => (0 : ℝ)) a b = 0 := by
    intro a b; unfold padRead; split <;> rfl
  simp [this]

end Yuca
