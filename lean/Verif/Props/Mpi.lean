import Verif.Model.Mpi
import Verif.Props.Cmaes
import Mathlib.Algebra.BigOperators.Group.List.Basic
import Mathlib.Algebra.Order.BigOperators.Group.Finset

/-! # C44, C71: evaluation by several processes -/

namespace Yuca

variable {S P F : Type}

/-! ## Specification -/

/-- The fitness list of serial evaluation (yuca/cmaes.py:471-478). -/
def Spec.eval (M : Mantle S P F) (s : S) : List F :=
  ((M.params s).take M.pop).map (M.fit (M.seed s))

/-- The serial loop, started in `s`, can be in state `s'` after the generations `h`. -/
inductive Spec.Serial (M : Mantle S P F) (s : S) : List (List F) → S → Prop
  | start : Spec.Serial M s [] s
  | step {h s'} : Spec.Serial M s h s' → M.more s' = true →
      Spec.Serial M s (h ++ [Spec.eval M s']) (M.upd s' (Spec.eval M s'))

/-! ## The split -/

theorem splitLoop_length (sub pop k rem start : Nat) :
    (splitLoop sub pop k rem start).length = k := by
  induction k generalizing rem start with
  | zero => rfl
  | succ k ih => rw [splitLoop, List.length_cons, ih]

theorem splitLoop_flatten (sub pop k rem start : Nat) (hs : sub ≤ pop) (hr : rem ≤ k) :
    (splitLoop sub pop k rem start).flatten = List.range' start (k * sub + rem) := by
  induction k generalizing rem start with
  | zero =>
    obtain rfl : rem = 0 := by omega
    simp [splitLoop]
  | succ k ih =>
    rw [splitLoop, List.flatten_cons, ih _ _ (by omega), Nat.min_eq_left hs, List.range'_append_1]
    congr 1
    split
    · subst_vars
      simp [Nat.add_mul]
      omega
    · rw [Nat.add_mul]
      omega

/-- C44: the agents are dealt out in contiguous blocks that cover the population in order. -/
theorem split_correct (pop workers : Nat) (hw : 2 ≤ workers) :
    ∃ b, split pop workers = .ok b ∧ b.length = workers - 1 ∧ b.flatten = List.range pop := by
  refine ⟨_, if_neg (by omega), splitLoop_length _ _ _ _ _, ?_⟩
  rw [splitLoop_flatten _ _ _ _ _ (Nat.div_le_self _ _)
    (Nat.le_of_lt (Nat.mod_lt _ (by omega))), Nat.div_add_mod, List.range_eq_range']

/-- C44: the blocks differ in size by at most one, so no arm has two agents more than another. -/
theorem split_balanced (pop workers : Nat) (b : List (List Nat)) (h : split pop workers = .ok b)
    (l : List Nat) (hl : l ∈ b) :
    l.length = pop / (workers - 1) ∨ l.length = pop / (workers - 1) + 1 := by
  unfold split at h
  split at h
  · cases h
  · cases h
    have key : ∀ (sub k rem start : Nat), sub ≤ pop → ∀ l ∈ splitLoop sub pop k rem start,
        l.length = sub ∨ l.length = sub + 1 := by
      intro sub k
      induction k with
      | zero => intro rem start _ l hl; cases hl
      | succ k ih =>
        intro rem start hs l hl
        rw [splitLoop] at hl
        rcases List.mem_cons.1 hl with rfl | hl
        · rw [List.length_range', Nat.min_eq_left hs]
          split <;> simp
        · exact ih _ _ hs l hl
    exact key _ _ _ _ (Nat.div_le_self _ _) l hl

/-- C44: with `-w 1` the split divides by zero. -/
theorem split_one (pop : Nat) : split pop 1 = .error .zeroDiv := rfl

/-! ## The invariant -/

section
variable (M : Mantle S P F) (batches : List (List Nat)) (W : Nat)

/-- The fitness of the agents `idx`. -/
def Spec.part (s : S) (idx : List Nat) : List F :=
  (idx.filterMap fun k => (M.params s)[k]?).map (M.fit (M.seed s))

/-- Arm `i` has nothing to do. -/
def Spec.Idle (y : Sys S P F) (i : Nat) : Prop :=
  y.arm i = .idle ∧ y.toArm i = [] ∧ y.fromArm i = []

/-- Arm `i` is on its part of this generation. -/
def Spec.Busy (y : Sys S P F) (i : Nat) : Prop :=
  (y.arm i = .idle ∧ y.toArm i = [M.job batches y.state i] ∧ y.fromArm i = []) ∨
  (y.arm i = .working (M.params y.state) (batches.getD (i - 1) []) (M.seed y.state) ∧
    y.toArm i = [] ∧ y.fromArm i = []) ∨
  (y.arm i = .idle ∧ y.toArm i = [] ∧
    y.fromArm i = [Spec.part M y.state (batches.getD (i - 1) [])])

/-- Arm `i` has stopped or is about to. -/
def Spec.Off (y : Sys S P F) (i : Nat) : Prop :=
  (y.arm i = .idle ∧ y.toArm i = [.shutdown] ∧ y.fromArm i = []) ∨
  (y.arm i = .stopped ∧ y.toArm i = [] ∧ y.fromArm i = [])

/-- What holds in every reachable state. -/
def Spec.Inv (s₀ : S) (y : Sys S P F) : Prop :=
  Spec.Serial M s₀ y.hist y.state ∧
  match y.phase with
  | .send c => M.more y.state = true ∧ 1 ≤ c ∧ c ≤ W + 1 ∧ ∀ i, 1 ≤ i → i ≤ W →
      (i < c → Spec.Busy M batches y i) ∧ (c ≤ i → Spec.Idle y i)
  | .recv d acc => M.more y.state = true ∧ 1 ≤ d ∧ d ≤ W + 1 ∧
      acc = ((batches.take (d - 1)).map (Spec.part M y.state)).flatten ∧ ∀ i, 1 ≤ i → i ≤ W →
      (i < d → Spec.Idle y i) ∧ (d ≤ i → Spec.Busy M batches y i)
  | .stop c => M.more y.state = false ∧ 1 ≤ c ∧ c ≤ W + 1 ∧ ∀ i, 1 ≤ i → i ≤ W →
      (i < c → Spec.Off y i) ∧ (c ≤ i → Spec.Idle y i)
  | .done => M.more y.state = false ∧ ∀ i, 1 ≤ i → i ≤ W → Spec.Off y i

end

variable {M : Mantle S P F} {batches : List (List Nat)} {W : Nat}

theorem armResult_part (hM : ∀ s, M.pop ≤ (M.params s).length)
    (hb : batches.flatten = List.range M.pop) (s : S) (i : Nat) :
    armResult M.fit (M.params s) (batches.getD i []) (M.seed s) =
      .ok (Spec.part M s (batches.getD i [])) := by
  have hlt : ∀ k ∈ batches.getD i [], k < (M.params s).length := by
    intro k hk
    have : k ∈ batches.flatten := by
      rw [List.getD_eq_getElem?_getD] at hk
      cases h : batches[i]? with
      | none => rw [h] at hk; cases hk
      | some l =>
        rw [h] at hk
        exact List.mem_flatten.2 ⟨l, List.mem_of_getElem? h, hk⟩
    rw [hb, List.mem_range] at this
    exact lt_of_lt_of_le this (hM s)
  generalize batches.getD i [] = idx at hlt
  unfold armResult
  have hg : gather (M.params s) idx = .ok (idx.filterMap fun k => (M.params s)[k]?) := by
    rw [gather_ok_iff]
    induction idx with
    | nil => exact .nil
    | cons k idx ih =>
      have hk := hlt k (List.mem_cons_self ..)
      rw [List.filterMap_cons, List.getElem?_eq_getElem hk]
      exact .cons (List.getElem?_eq_getElem hk) (ih fun k hk => hlt k (List.mem_cons_of_mem _ hk))
  rw [hg]
  rfl

theorem part_all (hM : ∀ s, M.pop ≤ (M.params s).length)
    (hb : batches.flatten = List.range M.pop) (s : S) :
    (batches.map (Spec.part M s)).flatten = Spec.eval M s := by
  have key : ∀ b : List (List Nat),
      (b.map (Spec.part M s)).flatten = Spec.part M s b.flatten := by
    intro b
    induction b with
    | nil => rfl
    | cons l b ih =>
      rw [List.map_cons, List.flatten_cons, List.flatten_cons, ih]
      simp [Spec.part]
  rw [key, hb]
  unfold Spec.part Spec.eval
  congr 1
  have hp := hM s
  have h2 : ∀ m, m ≤ (M.params s).length →
      (List.range m).filterMap (fun k => (M.params s)[k]?) = (M.params s).take m := by
    intro m
    induction m with
    | zero => intro _; rfl
    | succ m ih =>
      intro hm
      rw [List.range_succ, List.filterMap_append, ih (by omega), List.take_add_one,
        List.getElem?_eq_getElem (by omega)]
      simp [List.getElem?_eq_getElem (show m < (M.params s).length by omega)]
  exact h2 _ hp

theorem top_inv {s₀ : S} (y : Sys S P F) (hs : Spec.Serial M s₀ y.hist y.state)
    (hp : y.phase = M.top y.state) (hi : ∀ i, 1 ≤ i → i ≤ W → Spec.Idle y i) :
    Spec.Inv M batches W s₀ y := by
  refine ⟨hs, ?_⟩
  rw [hp]
  unfold Mantle.top
  cases hm : M.more y.state with
  | true => exact ⟨rfl, le_refl 1, by omega, fun i h1 h2 => ⟨fun h => by omega, fun _ => hi i h1 h2⟩⟩
  | false => exact ⟨rfl, le_refl 1, by omega, fun i h1 h2 => ⟨fun h => by omega, fun _ => hi i h1 h2⟩⟩

/-- The invariant holds after every step. -/
theorem inv_step (hM : ∀ s, M.pop ≤ (M.params s).length)
    (hb : batches.flatten = List.range M.pop) (hl : batches.length = W) {s₀ : S} {b : Bool}
    {y z : Sys S P F} (h : Step M batches W b y z) (hy : Spec.Inv M batches W s₀ y) :
    Spec.Inv M batches W s₀ z := by
  obtain ⟨hs, hy⟩ := hy
  cases h with
  | sendBuf _ c hp hc =>
    rw [hp] at hy
    obtain ⟨h1, h2, h3, h4⟩ := hy
    refine ⟨hs, h1, by omega, by omega, fun i hi1 hi2 => ?_⟩
    obtain ⟨k1, k2⟩ := h4 i hi1 hi2
    by_cases hic : i = c
    · subst hic
      refine ⟨fun _ => Or.inl ?_, fun h => by omega⟩
      obtain ⟨q1, q2, q3⟩ := k2 (le_refl _)
      refine ⟨q1, ?_, q3⟩
      show Function.update y.toArm i _ i = _
      rw [Function.update_self, q2]
      rfl
    · have e : Function.update y.toArm c (y.toArm c ++ [M.job batches y.state c]) i = y.toArm i :=
        Function.update_of_ne hic _ _
      refine ⟨fun h => ?_, fun h => ?_⟩
      · have := k1 (by omega)
        unfold Spec.Busy at this ⊢
        dsimp only
        rw [e]
        exact this
      · have := k2 (by omega)
        unfold Spec.Idle at this ⊢
        dsimp only
        rw [e]
        exact this
  | sendNow _ c hp hc ha he =>
    rw [hp] at hy
    obtain ⟨h1, h2, h3, h4⟩ := hy
    refine ⟨hs, h1, by omega, by omega, fun i hi1 hi2 => ?_⟩
    obtain ⟨k1, k2⟩ := h4 i hi1 hi2
    by_cases hic : i = c
    · subst hic
      refine ⟨fun _ => Or.inr (Or.inl ?_), fun h => by omega⟩
      obtain ⟨q1, q2, q3⟩ := k2 (le_refl _)
      refine ⟨?_, q2, q3⟩
      show Function.update y.arm i _ i = _
      rw [Function.update_self]
      rfl
    · have e : Function.update y.arm c (M.job batches y.state c).receive i = y.arm i :=
        Function.update_of_ne hic _ _
      refine ⟨fun h => ?_, fun h => ?_⟩
      · have := k1 (by omega)
        unfold Spec.Busy at this ⊢
        dsimp only
        rw [e]
        exact this
      · have := k2 (by omega)
        unfold Spec.Idle at this ⊢
        dsimp only
        rw [e]
        exact this
  | sent _ c hp hc =>
    rw [hp] at hy
    obtain ⟨h1, h2, h3, h4⟩ := hy
    refine ⟨hs, h1, le_refl 1, by omega, rfl, fun i hi1 hi2 => ?_⟩
    exact ⟨fun h => by omega, fun _ => (h4 i hi1 hi2).1 (by omega)⟩
  | recv _ d acc x rest hp hd hq =>
    rw [hp] at hy
    obtain ⟨h1, h2, h3, hacc, h4⟩ := hy
    have hBd := (h4 d h2 hd).2 (le_refl _)
    have hBd' : y.arm d = .idle ∧ y.toArm d = [] ∧
        x = Spec.part M y.state (batches.getD (d - 1) []) ∧ rest = [] := by
      rcases hBd with ⟨_, _, q⟩ | ⟨_, _, q⟩ | ⟨q1, q2, q⟩
      · rw [q] at hq; cases hq
      · rw [q] at hq; cases hq
      · rw [q] at hq
        cases hq
        exact ⟨q1, q2, rfl, rfl⟩
    obtain ⟨g1, g2, g3, rfl⟩ := hBd'
    refine ⟨hs, h1, by omega, by omega, ?_, fun i hi1 hi2 => ?_⟩
    · show acc ++ x = _
      rw [hacc, g3, show d + 1 - 1 = (d - 1) + 1 by omega, List.take_add_one, List.map_append,
        List.flatten_append, List.getD_eq_getElem?_getD,
        List.getElem?_eq_getElem (show d - 1 < batches.length by omega)]
      simp
    · obtain ⟨k1, k2⟩ := h4 i hi1 hi2
      by_cases hic : i = d
      · subst hic
        refine ⟨fun _ => ⟨g1, g2, ?_⟩, fun h => by omega⟩
        exact Function.update_self ..
      · have e : Function.update y.fromArm d [] i = y.fromArm i := Function.update_of_ne hic _ _
        refine ⟨fun h => ?_, fun h => ?_⟩
        · have := k1 (by omega)
          unfold Spec.Idle at this ⊢
          dsimp only
          rw [e]
          exact this
        · have := k2 (by omega)
          unfold Spec.Busy at this ⊢
          dsimp only
          rw [e]
          exact this
  | recvNow _ d acc x params idx seed hp hd hq ha hr =>
    rw [hp] at hy
    obtain ⟨h1, h2, h3, hacc, h4⟩ := hy
    have hBd := (h4 d h2 hd).2 (le_refl _)
    have hBd' : y.toArm d = [] ∧ x = Spec.part M y.state (batches.getD (d - 1) []) := by
      rcases hBd with ⟨q, _⟩ | ⟨q, q2, _⟩ | ⟨q, _⟩
      · rw [q] at ha; cases ha
      · rw [q] at ha
        cases ha
        rw [armResult_part hM hb] at hr
        cases hr
        exact ⟨q2, rfl⟩
      · rw [q] at ha; cases ha
    obtain ⟨g2, g3⟩ := hBd'
    refine ⟨hs, h1, by omega, by omega, ?_, fun i hi1 hi2 => ?_⟩
    · show acc ++ x = _
      rw [hacc, g3, show d + 1 - 1 = (d - 1) + 1 by omega, List.take_add_one, List.map_append,
        List.flatten_append, List.getD_eq_getElem?_getD,
        List.getElem?_eq_getElem (show d - 1 < batches.length by omega)]
      simp
    · obtain ⟨k1, k2⟩ := h4 i hi1 hi2
      by_cases hic : i = d
      · subst hic
        refine ⟨fun _ => ⟨?_, g2, hq⟩, fun h => by omega⟩
        exact Function.update_self ..
      · have e : Function.update y.arm d .idle i = y.arm i := Function.update_of_ne hic _ _
        refine ⟨fun h => ?_, fun h => ?_⟩
        · have := k1 (by omega)
          unfold Spec.Idle at this ⊢
          dsimp only
          rw [e]
          exact this
        · have := k2 (by omega)
          unfold Spec.Busy at this ⊢
          dsimp only
          rw [e]
          exact this
  | generation _ d acc hp hd =>
    rw [hp] at hy
    obtain ⟨h1, h2, h3, hacc, h4⟩ := hy
    have hev : acc = Spec.eval M y.state := by
      rw [hacc, List.take_of_length_le (by omega), part_all hM hb]
    subst hev
    refine top_inv _ (hs.step h1) rfl fun i hi1 hi2 => ?_
    exact (h4 i hi1 hi2).1 (by omega)
  | stopBuf _ c hp hc =>
    rw [hp] at hy
    obtain ⟨h1, h2, h3, h4⟩ := hy
    refine ⟨hs, h1, by omega, by omega, fun i hi1 hi2 => ?_⟩
    obtain ⟨k1, k2⟩ := h4 i hi1 hi2
    by_cases hic : i = c
    · subst hic
      refine ⟨fun _ => Or.inl ?_, fun h => by omega⟩
      obtain ⟨q1, q2, q3⟩ := k2 (le_refl _)
      refine ⟨q1, ?_, q3⟩
      show Function.update y.toArm i _ i = _
      rw [Function.update_self, q2]
      rfl
    · have e : Function.update y.toArm c (y.toArm c ++ [.shutdown]) i = y.toArm i :=
        Function.update_of_ne hic _ _
      refine ⟨fun h => ?_, fun h => ?_⟩
      · have := k1 (by omega)
        unfold Spec.Off at this ⊢
        dsimp only
        rw [e]
        exact this
      · have := k2 (by omega)
        unfold Spec.Idle at this ⊢
        dsimp only
        rw [e]
        exact this
  | stopNow _ c hp hc ha he =>
    rw [hp] at hy
    obtain ⟨h1, h2, h3, h4⟩ := hy
    refine ⟨hs, h1, by omega, by omega, fun i hi1 hi2 => ?_⟩
    obtain ⟨k1, k2⟩ := h4 i hi1 hi2
    by_cases hic : i = c
    · subst hic
      refine ⟨fun _ => Or.inr ?_, fun h => by omega⟩
      obtain ⟨q1, q2, q3⟩ := k2 (le_refl _)
      exact ⟨Function.update_self .., q2, q3⟩
    · have e : Function.update y.arm c .stopped i = y.arm i := Function.update_of_ne hic _ _
      refine ⟨fun h => ?_, fun h => ?_⟩
      · have := k1 (by omega)
        unfold Spec.Off at this ⊢
        dsimp only
        rw [e]
        exact this
      · have := k2 (by omega)
        unfold Spec.Idle at this ⊢
        dsimp only
        rw [e]
        exact this
  | finish _ c hp hc =>
    rw [hp] at hy
    obtain ⟨h1, h2, h3, h4⟩ := hy
    exact ⟨hs, h1, fun i hi1 hi2 => (h4 i hi1 hi2).1 (by omega)⟩
  | take _ i m rest hi ha hq =>
    have idle_no : ¬ Spec.Idle y i := fun h => by rw [h.2.1] at hq; cases hq
    have e1 : ∀ j, j ≠ i → Function.update y.arm i m.receive j = y.arm j :=
      fun j hj => Function.update_of_ne hj _ _
    have e2 : ∀ j, j ≠ i → Function.update y.toArm i rest j = y.toArm j :=
      fun j hj => Function.update_of_ne hj _ _
    have keepIdle : ∀ j, Spec.Idle y j → Spec.Idle { y with
        arm := Function.update y.arm i m.receive
        toArm := Function.update y.toArm i rest } j := by
      intro j hj
      have hji : j ≠ i := fun h => idle_no (h ▸ hj)
      unfold Spec.Idle at hj ⊢
      dsimp only
      rw [e1 j hji, e2 j hji]
      exact hj
    have keepBusy : ∀ j, Spec.Busy M batches y j → Spec.Busy M batches { y with
        arm := Function.update y.arm i m.receive
        toArm := Function.update y.toArm i rest } j := by
      intro j hj
      by_cases hji : j = i
      · subst hji
        rcases hj with ⟨q1, q2, q3⟩ | ⟨q1, q2, q3⟩ | ⟨q1, q2, q3⟩
        · rw [q2] at hq
          cases hq
          refine Or.inr (Or.inl ⟨?_, ?_, q3⟩)
          · exact Function.update_self ..
          · exact Function.update_self ..
        · rw [q2] at hq; cases hq
        · rw [q2] at hq; cases hq
      · unfold Spec.Busy at hj ⊢
        dsimp only
        rw [e1 j hji, e2 j hji]
        exact hj
    have keepOff : ∀ j, Spec.Off y j → Spec.Off { y with
        arm := Function.update y.arm i m.receive
        toArm := Function.update y.toArm i rest } j := by
      intro j hj
      by_cases hji : j = i
      · subst hji
        rcases hj with ⟨q1, q2, q3⟩ | ⟨q1, q2, q3⟩
        · rw [q2] at hq
          cases hq
          refine Or.inr ⟨?_, ?_, q3⟩
          · exact Function.update_self ..
          · exact Function.update_self ..
        · rw [q2] at hq; cases hq
      · unfold Spec.Off at hj ⊢
        dsimp only
        rw [e1 j hji, e2 j hji]
        exact hj
    refine ⟨hs, ?_⟩
    cases hp : y.phase with
    | send c =>
      rw [hp] at hy
      obtain ⟨h1, h2, h3, h4⟩ := hy
      exact ⟨h1, h2, h3, fun j a c => ⟨fun h => keepBusy j ((h4 j a c).1 h),
        fun h => keepIdle j ((h4 j a c).2 h)⟩⟩
    | recv d acc =>
      rw [hp] at hy
      obtain ⟨h1, h2, h3, hacc, h4⟩ := hy
      exact ⟨h1, h2, h3, hacc, fun j a c => ⟨fun h => keepIdle j ((h4 j a c).1 h),
        fun h => keepBusy j ((h4 j a c).2 h)⟩⟩
    | stop c =>
      rw [hp] at hy
      obtain ⟨h1, h2, h3, h4⟩ := hy
      exact ⟨h1, h2, h3, fun j a c => ⟨fun h => keepOff j ((h4 j a c).1 h),
        fun h => keepIdle j ((h4 j a c).2 h)⟩⟩
    | done =>
      rw [hp] at hy
      exact ⟨hy.1, fun j a c => keepOff j (hy.2 j a c)⟩
  | reply _ i x params idx seed hi ha hr =>
    have idle_no : ¬ Spec.Idle y i := fun h => by rw [h.1] at ha; cases ha
    have e1 : ∀ j, j ≠ i → Function.update y.arm i .idle j = y.arm j :=
      fun j hj => Function.update_of_ne hj _ _
    have e2 : ∀ j, j ≠ i → Function.update y.fromArm i (y.fromArm i ++ [x]) j = y.fromArm j :=
      fun j hj => Function.update_of_ne hj _ _
    have keepIdle : ∀ j, Spec.Idle y j → Spec.Idle { y with
        arm := Function.update y.arm i .idle
        fromArm := Function.update y.fromArm i (y.fromArm i ++ [x]) } j := by
      intro j hj
      have hji : j ≠ i := fun h => idle_no (h ▸ hj)
      unfold Spec.Idle at hj ⊢
      dsimp only
      rw [e1 j hji, e2 j hji]
      exact hj
    have keepBusy : ∀ j, Spec.Busy M batches y j → Spec.Busy M batches { y with
        arm := Function.update y.arm i .idle
        fromArm := Function.update y.fromArm i (y.fromArm i ++ [x]) } j := by
      intro j hj
      by_cases hji : j = i
      · subst hji
        rcases hj with ⟨q1, q2, q3⟩ | ⟨q1, q2, q3⟩ | ⟨q1, q2, q3⟩
        · rw [q1] at ha; cases ha
        · rw [q1] at ha
          cases ha
          rw [armResult_part hM hb] at hr
          cases hr
          refine Or.inr (Or.inr ⟨?_, q2, ?_⟩)
          · exact Function.update_self ..
          · show Function.update y.fromArm j _ j = _
            rw [Function.update_self, q3]
            rfl
        · rw [q1] at ha; cases ha
      · unfold Spec.Busy at hj ⊢
        dsimp only
        rw [e1 j hji, e2 j hji]
        exact hj
    have keepOff : ∀ j, Spec.Off y j → Spec.Off { y with
        arm := Function.update y.arm i .idle
        fromArm := Function.update y.fromArm i (y.fromArm i ++ [x]) } j := by
      intro j hj
      by_cases hji : j = i
      · subst hji
        rcases hj with ⟨q1, q2, q3⟩ | ⟨q1, q2, q3⟩
        · rw [q1] at ha; cases ha
        · rw [q1] at ha; cases ha
      · unfold Spec.Off at hj ⊢
        dsimp only
        rw [e1 j hji, e2 j hji]
        exact hj
    refine ⟨hs, ?_⟩
    cases hp : y.phase with
    | send c =>
      rw [hp] at hy
      obtain ⟨h1, h2, h3, h4⟩ := hy
      exact ⟨h1, h2, h3, fun j a c => ⟨fun h => keepBusy j ((h4 j a c).1 h),
        fun h => keepIdle j ((h4 j a c).2 h)⟩⟩
    | recv d acc =>
      rw [hp] at hy
      obtain ⟨h1, h2, h3, hacc, h4⟩ := hy
      exact ⟨h1, h2, h3, hacc, fun j a c => ⟨fun h => keepIdle j ((h4 j a c).1 h),
        fun h => keepBusy j ((h4 j a c).2 h)⟩⟩
    | stop c =>
      rw [hp] at hy
      obtain ⟨h1, h2, h3, h4⟩ := hy
      exact ⟨h1, h2, h3, fun j a c => ⟨fun h => keepOff j ((h4 j a c).1 h),
        fun h => keepIdle j ((h4 j a c).2 h)⟩⟩
    | done =>
      rw [hp] at hy
      exact ⟨hy.1, fun j a c => keepOff j (hy.2 j a c)⟩

theorem reach_inv (hM : ∀ s, M.pop ≤ (M.params s).length)
    (hb : batches.flatten = List.range M.pop) (hl : batches.length = W) {s₀ : S}
    {y : Sys S P F} (h : Reach M batches W s₀ y) : Spec.Inv M batches W s₀ y := by
  induction h with
  | refl => exact top_inv _ .start rfl fun _ _ _ => ⟨rfl, rfl, rfl⟩
  | tail _ h ih =>
    obtain ⟨b, h⟩ := h
    exact inv_step hM hb hl h ih

/-! ## C44 -/

/-- C44: whatever the order in which the processes run, the root has gathered exactly the fitness
lists of the serial program, generation by generation, and is in the state the serial program is
in. -/
theorem parallel_eq_serial (M : Mantle S P F) (hM : ∀ s, M.pop ≤ (M.params s).length)
    (workers : Nat) (batches : List (List Nat))
    (hb : split M.pop workers = .ok batches) (s₀ : S) (y : Sys S P F)
    (h : Reach M batches (workers - 1) s₀ y) : Spec.Serial M s₀ y.hist y.state := by
  have hw : 2 ≤ workers := by
    unfold split at hb
    split at hb
    · cases hb
    · omega
  obtain ⟨b, h1, h2, h3⟩ := split_correct M.pop workers hw
  rw [hb] at h1
  cases h1
  exact (reach_inv hM h3 h2 h).1

/-- C44: and when the root is done, so is the serial program, in the same state. -/
theorem parallel_done (M : Mantle S P F) (hM : ∀ s, M.pop ≤ (M.params s).length)
    (workers : Nat) (batches : List (List Nat))
    (hb : split M.pop workers = .ok batches) (s₀ : S) (y : Sys S P F)
    (h : Reach M batches (workers - 1) s₀ y) (hd : y.phase = .done) :
    Spec.Serial M s₀ y.hist y.state ∧ M.more y.state = false := by
  have hw : 2 ≤ workers := by
    unfold split at hb
    split at hb
    · cases hb
    · omega
  obtain ⟨b, h1, h2, h3⟩ := split_correct M.pop workers hw
  rw [hb] at h1
  cases h1
  obtain ⟨i1, i2⟩ := reach_inv hM h3 h2 h
  rw [hd] at i2
  exact ⟨i1, i2.1⟩

/-! ## C71 -/

/-- C71: no deadlock, even if MPI buffers no message at all: unless the root has returned and all
arms have stopped, some process can make a step that is not a buffered send. -/
theorem no_deadlock (M : Mantle S P F) (hM : ∀ s, M.pop ≤ (M.params s).length)
    (workers : Nat) (batches : List (List Nat))
    (hb : split M.pop workers = .ok batches) (s₀ : S) (y : Sys S P F)
    (h : Reach M batches (workers - 1) s₀ y) :
    (y.phase = .done ∧ ∀ i, 1 ≤ i → i ≤ workers - 1 → y.arm i = .stopped) ∨
      ∃ z, Step M batches (workers - 1) false y z := by
  have hw : 2 ≤ workers := by
    unfold split at hb
    split at hb
    · cases hb
    · omega
  obtain ⟨b, h1, h2, h3⟩ := split_correct M.pop workers hw
  rw [hb] at h1
  cases h1
  obtain ⟨_, hy⟩ := reach_inv hM h3 h2 h
  cases hp : y.phase with
  | send c =>
    rw [hp] at hy
    obtain ⟨_, k2, k3, k4⟩ := hy
    right
    rcases Nat.lt_or_ge (workers - 1) c with hc | hc
    · exact ⟨_, .sent y c hp hc⟩
    · obtain ⟨q1, q2, _⟩ := (k4 c k2 hc).2 (le_refl _)
      exact ⟨_, .sendNow y c hp hc q1 q2⟩
  | recv d acc =>
    rw [hp] at hy
    obtain ⟨_, k2, k3, _, k4⟩ := hy
    right
    rcases Nat.lt_or_ge (workers - 1) d with hc | hc
    · exact ⟨_, .generation y d acc hp hc⟩
    · rcases (k4 d k2 hc).2 (le_refl _) with ⟨q1, q2, _⟩ | ⟨q1, _, q3⟩ | ⟨_, _, q3⟩
      · exact ⟨_, .take y d _ _ ⟨k2, hc⟩ q1 q2⟩
      · exact ⟨_, .recvNow y d acc _ _ _ _ hp hc q3 q1 (armResult_part hM h3 _ _)⟩
      · exact ⟨_, .recv y d acc _ _ hp hc q3⟩
  | stop c =>
    rw [hp] at hy
    obtain ⟨_, k2, k3, k4⟩ := hy
    right
    rcases Nat.lt_or_ge (workers - 1) c with hc | hc
    · exact ⟨_, .finish y c hp hc⟩
    · obtain ⟨q1, q2, _⟩ := (k4 c k2 hc).2 (le_refl _)
      exact ⟨_, .stopNow y c hp hc q1 q2⟩
  | done =>
    rw [hp] at hy
    by_cases hall : ∀ i, 1 ≤ i → i ≤ workers - 1 → y.arm i = .stopped
    · exact Or.inl ⟨rfl, hall⟩
    · right
      push Not at hall
      obtain ⟨i, i1, i2, i3⟩ := hall
      rcases hy.2 i i1 i2 with ⟨q1, q2, _⟩ | ⟨q1, _⟩
      · exact ⟨_, .take y i _ _ ⟨i1, i2⟩ q1 q2⟩
      · exact absurd q1 i3

theorem serial_unique {s₀ : S} {h₁ h₂ : List (List F)} {s₁ s₂ : S}
    (a : Spec.Serial M s₀ h₁ s₁) (b : Spec.Serial M s₀ h₂ s₂) (hl : h₁.length = h₂.length) :
    h₁ = h₂ ∧ s₁ = s₂ := by
  induction a generalizing h₂ s₂ with
  | start =>
    cases b with
    | start => exact ⟨rfl, rfl⟩
    | step _ _ => simp at hl
  | step a ha ih =>
    cases b with
    | start => simp at hl
    | step b hb =>
      obtain ⟨rfl, rfl⟩ := ih b (by simpa using hl)
      exact ⟨rfl, rfl⟩

theorem serial_le {s₀ : S} {h₁ h₂ : List (List F)} {s₁ s₂ : S}
    (a : Spec.Serial M s₀ h₁ s₁) (b : Spec.Serial M s₀ h₂ s₂) (hb : M.more s₂ = false) :
    h₁.length ≤ h₂.length := by
  induction a with
  | start => exact Nat.zero_le _
  | step a ha ih =>
    rcases Nat.lt_or_ge (List.length _) h₂.length with hlt | hge
    · rw [List.length_append, List.length_singleton]
      exact hlt
    · obtain ⟨_, rfl⟩ := serial_unique a b (le_antisymm ih hge)
      rw [hb] at ha
      cases ha

/-- The work an arm and its channels still hold. -/
def Sys.load (y : Sys S P F) (i : Nat) : Nat :=
  3 * (y.toArm i).length + (match y.arm i with | .working _ _ _ => 2 | _ => 0) +
    (y.fromArm i).length

/-- The work the root still has to do if this is the last generation. -/
def Phase.cost (W : Nat) : Phase F → Nat
  | .send c => 4 * (W + 1 - c) + 2 + (4 * W + 1)
  | .recv _ _ => 1 + (4 * W + 1)
  | .stop c => 4 * (W + 1 - c) + 1
  | .done => 0

/-- All the work that is left when `N` generations will be needed. -/
def Sys.work (W N : Nat) (y : Sys S P F) : Nat :=
  (N - y.hist.length) * (4 * W + 2) + y.phase.cost W + ∑ i ∈ Finset.range (W + 1), y.load i

theorem sum_load (W : Nat) (y z : Sys S P F) (i : Nat) (hi : i ≤ W)
    (h : ∀ j, j ≠ i → z.load j = y.load j) :
    ∑ j ∈ Finset.range (W + 1), z.load j + y.load i =
      ∑ j ∈ Finset.range (W + 1), y.load j + z.load i := by
  have hm : i ∈ Finset.range (W + 1) := Finset.mem_range.2 (by omega)
  rw [← Finset.add_sum_erase _ _ hm, ← Finset.add_sum_erase _ (fun j => y.load j) hm,
    Finset.sum_congr rfl fun j hj => h j (Finset.ne_of_mem_erase hj)]
  generalize ∑ x ∈ (Finset.range (W + 1)).erase i, y.load x = t
  omega

/-- Every step uses up work. -/
theorem work_step (hM : ∀ s, M.pop ≤ (M.params s).length)
    (hb : batches.flatten = List.range M.pop) (hl : batches.length = W) {s₀ : S} {b : Bool}
    {y z : Sys S P F} (h : Step M batches W b y z) (hy : Spec.Inv M batches W s₀ y)
    {hN : List (List F)} {sN : S} (hser : Spec.Serial M s₀ hN sN) (hend : M.more sN = false) :
    z.work W hN.length < y.work W hN.length := by
  have hz := inv_step hM hb hl h hy
  have hle := serial_le hz.1 hser hend
  cases h with
  | sendBuf _ c hp hc =>
    have := sum_load W y { y with
        phase := .send (c + 1)
        toArm := Function.update y.toArm c (y.toArm c ++ [M.job batches y.state c]) } c hc (by
      intro j hj
      simp [Sys.load, Function.update_of_ne hj])
    simp only [Sys.load, Function.update_self, List.length_append, List.length_singleton] at this
    simp only [Sys.work, Sys.load, hp, Phase.cost]
    omega
  | sendNow _ c hp hc ha he =>
    have := sum_load W y { y with
        phase := .send (c + 1)
        arm := Function.update y.arm c (M.job batches y.state c).receive } c hc (by
      intro j hj
      simp [Sys.load, Function.update_of_ne hj])
    simp only [Sys.load, Function.update_self, ha, he, Mantle.job, Msg.receive] at this
    simp only [Sys.work, Sys.load, hp, Phase.cost, Mantle.job, Msg.receive]
    omega
  | sent _ c hp hc =>
    simp only [Sys.work, hp, Phase.cost]
    show _ + _ + ∑ j ∈ Finset.range (W + 1), y.load j < _
    omega
  | recv _ d acc x rest hp hd hq =>
    have := sum_load W y { y with
        phase := .recv (d + 1) (acc ++ x)
        fromArm := Function.update y.fromArm d rest } d hd (by
      intro j hj
      simp [Sys.load, Function.update_of_ne hj])
    simp only [Sys.load, Function.update_self, hq, List.length_cons] at this
    simp only [Sys.work, Sys.load, hp, Phase.cost]
    omega
  | recvNow _ d acc x params idx seed hp hd hq ha hr =>
    have := sum_load W y { y with
        phase := .recv (d + 1) (acc ++ x)
        arm := Function.update y.arm d .idle } d hd (by
      intro j hj
      simp [Sys.load, Function.update_of_ne hj])
    simp only [Sys.load, Function.update_self, ha] at this
    simp only [Sys.work, Sys.load, hp, Phase.cost]
    omega
  | generation _ d acc hp hd =>
    simp only [List.length_append, List.length_singleton] at hle
    have e : hN.length - y.hist.length = (hN.length - (y.hist.length + 1)) + 1 := by omega
    have ht : (M.top (M.upd y.state acc)).cost W ≤ 4 * W + 2 + (4 * W + 1) := by
      unfold Mantle.top
      split <;> simp only [Phase.cost] <;> omega
    have hc : y.phase.cost W = 1 + (4 * W + 1) := by rw [hp]; rfl
    unfold Sys.work
    dsimp only
    rw [List.length_append, List.length_singleton, e, Nat.add_mul, hc]
    show _ + _ + ∑ j ∈ Finset.range (W + 1), y.load j < _
    omega
  | stopBuf _ c hp hc =>
    have := sum_load W y { y with
        phase := .stop (c + 1)
        toArm := Function.update y.toArm c (y.toArm c ++ [.shutdown]) } c hc (by
      intro j hj
      simp [Sys.load, Function.update_of_ne hj])
    simp only [Sys.load, Function.update_self, List.length_append, List.length_singleton] at this
    simp only [Sys.work, Sys.load, hp, Phase.cost]
    omega
  | stopNow _ c hp hc ha he =>
    have := sum_load W y { y with
        phase := .stop (c + 1)
        arm := Function.update y.arm c .stopped } c hc (by
      intro j hj
      simp [Sys.load, Function.update_of_ne hj])
    simp only [Sys.load, Function.update_self, ha] at this
    simp only [Sys.work, Sys.load, hp, Phase.cost]
    omega
  | finish _ c hp hc =>
    simp only [Sys.work, hp, Phase.cost]
    show _ + _ + ∑ j ∈ Finset.range (W + 1), y.load j < _
    omega
  | take _ i m rest hi ha hq =>
    have := sum_load W y { y with
        arm := Function.update y.arm i m.receive
        toArm := Function.update y.toArm i rest } i hi.2 (by
      intro j hj
      simp [Sys.load, Function.update_of_ne hj])
    simp only [Sys.load, Function.update_self, ha, hq, List.length_cons] at this
    have h2 : (match m.receive with | .working _ _ _ => 2 | _ => 0) ≤ 2 := by
      cases m <;> simp [Msg.receive]
    simp only [Sys.work, Sys.load]
    omega
  | reply _ i x params idx seed hi ha hr =>
    have := sum_load W y { y with
        arm := Function.update y.arm i .idle
        fromArm := Function.update y.fromArm i (y.fromArm i ++ [x]) } i hi.2 (by
      intro j hj
      simp [Sys.load, Function.update_of_ne hj])
    simp only [Sys.load, Function.update_self, ha, List.length_append, List.length_singleton] at this
    simp only [Sys.work, Sys.load]
    omega

/-- `n` steps. -/
inductive Spec.Steps (M : Mantle S P F) (batches : List (List Nat)) (W : Nat) :
    Nat → Sys S P F → Sys S P F → Prop
  | zero (y : Sys S P F) : Spec.Steps M batches W 0 y y
  | succ {n : Nat} {y z w : Sys S P F} : Spec.Steps M batches W n y z → Step.any M batches W z w →
      Spec.Steps M batches W (n + 1) y w

/-- C71: if the serial program ends after `N` generations, every schedule of the parallel one
ends after at most `N (4 W + 2) + 4 W + 3 + 4 W` steps (and, by `no_deadlock`, it ends with the
root returned and every arm stopped). -/
theorem parallel_terminates (M : Mantle S P F) (hM : ∀ s, M.pop ≤ (M.params s).length)
    (workers : Nat) (batches : List (List Nat))
    (hb : split M.pop workers = .ok batches) (s₀ : S) (hN : List (List F)) (sN : S)
    (hser : Spec.Serial M s₀ hN sN) (hend : M.more sN = false) (n : Nat) (y : Sys S P F)
    (h : Spec.Steps M batches (workers - 1) n (Sys.start M s₀) y) :
    n ≤ hN.length * (4 * (workers - 1) + 2) + 4 * (workers - 1) + 2 + (4 * (workers - 1) + 1) := by
  have hw : 2 ≤ workers := by
    unfold split at hb
    split at hb
    · cases hb
    · omega
  obtain ⟨b, h1, h2, h3⟩ := split_correct M.pop workers hw
  rw [hb] at h1
  cases h1
  have key : ∀ n y, Spec.Steps M batches (workers - 1) n (Sys.start M s₀) y →
      Reach M batches (workers - 1) s₀ y ∧
      n + y.work (workers - 1) hN.length ≤ (Sys.start M s₀).work (workers - 1) hN.length := by
    intro n
    induction n with
    | zero => intro y h; cases h; exact ⟨.refl, by omega⟩
    | succ n ih =>
      intro y h
      cases h with
      | succ h1 h2 =>
        obtain ⟨k1, k2⟩ := ih _ h1
        refine ⟨k1.tail h2, ?_⟩
        obtain ⟨b, hst⟩ := h2
        have := work_step hM h3 (by assumption) hst (reach_inv hM h3 (by assumption) k1) hser hend
        omega
  have hk := (key n y h).2
  have h0 : (Sys.start M s₀).work (workers - 1) hN.length ≤
      hN.length * (4 * (workers - 1) + 2) + 4 * (workers - 1) + 2 + (4 * (workers - 1) + 1) := by
    have hz : ∑ i ∈ Finset.range (workers - 1 + 1), (Sys.start M s₀).load i = 0 :=
      Finset.sum_eq_zero fun i _ => rfl
    unfold Sys.work
    rw [hz]
    show (hN.length - 0) * _ + (M.top s₀).cost (workers - 1) + 0 ≤ _
    unfold Mantle.top
    split <;> simp only [Phase.cost, Nat.sub_zero] <;> omega
  omega

/-- Three generations of five agents on three processes: the hypotheses are met, and the whole
parallel run is not empty. -/
def countMantle : Mantle Nat Nat Nat :=
  { params := fun s => [s, s + 1, s + 2, s + 3, s + 4], seed := fun s => s
    more := fun s => decide (s < 3), upd := fun s _ => s + 1, fit := fun a b => a * b, pop := 5 }

example : (∀ s, countMantle.pop ≤ (countMantle.params s).length) ∧
    split countMantle.pop 3 = .ok [[0, 1, 2], [3, 4]] ∧
    Spec.Serial countMantle 0 [[0, 0, 0, 0, 0], [1, 2, 3, 4, 5], [4, 6, 8, 10, 12]] 3 ∧
    countMantle.more 3 = false ∧
    Step countMantle [[0, 1, 2], [3, 4]] 2 true (Sys.start countMantle 0)
      { Sys.start countMantle 0 with
        phase := .send 2
        toArm := Function.update (fun _ => []) 1 [.job [0, 1, 2, 3, 4] [0, 1, 2] 0] } := by
  refine ⟨fun s => le_refl 5, rfl, ?_, rfl, .sendBuf _ 1 rfl (by decide)⟩
  have h0 : Spec.Serial countMantle 0 [] 0 := .start
  have h1 := h0.step (by rfl)
  have h2 := h1.step (by rfl)
  exact h2.step (by rfl)

end Yuca
