import Verif.Props.Halting
import Verif.Props.Dynamics
import Verif.Props.Evaluate2
import Verif.Props.Analysis

/-!
# What `HaltingWrapper` measures: C95
-/

namespace Yuca

open Spec

variable {σ T G : Type} {C K N D : Nat}

/-! ## The network -/

/-- C95: every prediction lies strictly between 0 and 1, as `BCELoss` demands. -/
theorem prediction_range (L : Learner T G C K) (t : T) (training : Bool) (k : Nat) :
    ∀ (hh : Nat) (g : G) {D : Nat} (x : Univ ℝ N C D D) {pred : Fin N → Fin K → ℝ} {g' : G},
      0 < D → L.forward t training k hh g x = .ok (pred, g') → ∀ n j, 0 < pred n j ∧ pred n j < 1 := by
  induction k with
  | zero =>
    intro hh g D x pred g' hD h n j
    simp only [Learner.forward, Except.ok.injEq, Prod.mk.injEq] at h
    rw [← h.1]
    have hD' : (0 : ℝ) < D := by exact_mod_cast hD
    have : Nonempty (Fin D) := ⟨⟨0, hD⟩⟩
    refine ⟨div_pos (Finset.sum_pos (fun i _ => Finset.sum_pos (fun j _ => sigmoid_pos _)
      Finset.univ_nonempty) Finset.univ_nonempty) (mul_pos hD' hD'), ?_⟩
    rw [div_lt_one (mul_pos hD' hD')]
    calc _ < ∑ _i : Fin D, ∑ _j : Fin D, (1 : ℝ) :=
          Finset.sum_lt_sum_of_nonempty Finset.univ_nonempty fun i _ =>
            Finset.sum_lt_sum_of_nonempty Finset.univ_nonempty fun j _ => sigmoid_lt_one _
      _ = D * D := by simp
  | succ k ih =>
    intro hh g D x pred g' hD h n j
    simp only [Learner.forward] at h
    split at h
    · cases h
    · exact ih _ _ _ (by omega) h n j

/-- C95: the network accepts a grid exactly if halving its side `k` times, rounding down, leaves at
least one cell. -/
theorem forward_ok_iff (L : Learner T G C K) (t : T) (training : Bool) (k : Nat) :
    ∀ (hh : Nat) (g : G) {D : Nat} (x : Univ ℝ N C D D), 0 < D →
      ((∃ r, L.forward t training k hh g x = .ok r) ↔ 2 ^ k ≤ D) := by
  induction k with
  | zero =>
    intro hh g D x hD
    exact ⟨fun _ => by simpa using Nat.one_le_of_lt hD, fun _ => ⟨_, rfl⟩⟩
  | succ k ih =>
    intro hh g D x hD
    simp only [Learner.forward]
    have hp : 2 ^ (k + 1) = 2 * 2 ^ k := by ring
    have h1 : 1 ≤ 2 ^ k := Nat.one_le_two_pow
    by_cases h2 : D < 2
    · rw [if_pos h2]
      constructor
      · rintro ⟨r, h⟩; cases h
      · intro h; omega
    · rw [if_neg h2, ih _ _ _ (by omega), hp]
      omega

theorem forward_error (L : Learner T G C K) (t : T) (training : Bool) (k hh : Nat) (g : G) {D : Nat}
    (x : Univ ℝ N C D D) (hD : 0 < D) (h : D < 2 ^ k) :
    ∃ e, L.forward t training k hh g x = .error e := by
  rcases hf : L.forward t training k hh g x with e | r
  · exact ⟨e, rfl⟩
  · have := (forward_ok_iff L t training k hh g x hD).1 ⟨r, hf⟩
    omega

/-- `num_blocks=4` accepts grids from 16x16 on. -/
example (L : Learner T G 1 1) (t : T) (g : G) : ∃ r, L.forward t true 4 0 g
    (fun _ _ _ _ => 0 : Univ ℝ 8 1 128 128) = .ok r :=
  (forward_ok_iff L t true 4 0 g _ (by norm_num)).2 (by norm_num)

theorem sum_pairs (f : Nat → ℝ) (m : Nat) :
    ∑ i ∈ Finset.range m, (f (2 * i) + f (2 * i + 1)) = ∑ i ∈ Finset.range (2 * m), f i := by
  induction m with
  | zero => rfl
  | succ m ih =>
    rw [Finset.sum_range_succ, ih, show 2 * (m + 1) = 2 * m + 1 + 1 by ring, Finset.sum_range_succ,
      Finset.sum_range_succ]
    ring

/-- C95: pooling keeps the total of what it covers: four times the sum of the pooled cells is the sum
of the cells in the part of even side. -/
theorem avgPool_total (x : Univ ℝ N C D D) (n : Fin N) (c : Fin C) :
    4 * ∑ i, ∑ j, avgPool x n c i j =
      ∑ i : Fin D, ∑ j : Fin D, if i.val < 2 * (D / 2) ∧ j.val < 2 * (D / 2) then x n c i j else 0 := by
  let y : Nat → Nat → ℝ := fun i j => if h : i < D ∧ j < D then x n c ⟨i, h.1⟩ ⟨j, h.2⟩ else 0
  have hm : 2 * (D / 2) ≤ D := Nat.mul_div_le D 2
  have hp : ∀ i j : Fin (D / 2), 4 * avgPool x n c i j = (y (2 * i) (2 * j) + y (2 * i) (2 * j + 1)) +
      (y (2 * i + 1) (2 * j) + y (2 * i + 1) (2 * j + 1)) := by
    intro i j
    have h1 : 2 * i.val + 1 < D := by omega
    have h2 : 2 * j.val + 1 < D := by omega
    have h3 : 2 * i.val < D := by omega
    have h4 : 2 * j.val < D := by omega
    simp only [y, h1, h2, h3, h4, and_self, dif_pos, avgPool]
    ring
  have hr : ∀ i : Nat, ∑ j : Fin D, (if i < 2 * (D / 2) ∧ j.val < 2 * (D / 2) then y i j else 0) =
      if i < 2 * (D / 2) then ∑ j ∈ Finset.range (2 * (D / 2)), y i j else 0 := by
    intro i
    by_cases hi : i < 2 * (D / 2)
    · simp only [hi, true_and, if_true]
      rw [Fin.sum_univ_eq_sum_range (fun j => if j < 2 * (D / 2) then y i j else 0) D,
        ← Finset.sum_filter]
      refine Finset.sum_congr ?_ fun _ _ => rfl
      ext j
      simp only [Finset.mem_filter, Finset.mem_range]
      omega
    · simp [hi]
  calc 4 * ∑ i, ∑ j, avgPool x n c i j
      = ∑ i : Fin (D / 2), ∑ j : Fin (D / 2), ((y (2 * i) (2 * j) + y (2 * i) (2 * j + 1)) +
          (y (2 * i + 1) (2 * j) + y (2 * i + 1) (2 * j + 1))) := by
        rw [Finset.mul_sum]
        refine Finset.sum_congr rfl fun i _ => ?_
        rw [Finset.mul_sum]
        exact Finset.sum_congr rfl fun j _ => hp i j
    _ = ∑ i : Fin (D / 2), ((∑ j ∈ Finset.range (2 * (D / 2)), y (2 * i) j) +
          ∑ j ∈ Finset.range (2 * (D / 2)), y (2 * i + 1) j) := by
        refine Finset.sum_congr rfl fun i _ => ?_
        rw [Finset.sum_add_distrib, ← sum_pairs, ← sum_pairs,
          Fin.sum_univ_eq_sum_range (fun j => y (2 * i) (2 * j) + y (2 * i) (2 * j + 1)),
          Fin.sum_univ_eq_sum_range (fun j => y (2 * i + 1) (2 * j) + y (2 * i + 1) (2 * j + 1))]
    _ = ∑ i ∈ Finset.range (2 * (D / 2)), ∑ j ∈ Finset.range (2 * (D / 2)), y i j := by
        rw [← sum_pairs (fun i => ∑ j ∈ Finset.range (2 * (D / 2)), y i j),
          Fin.sum_univ_eq_sum_range (fun i => (∑ j ∈ Finset.range (2 * (D / 2)), y (2 * i) j) +
            ∑ j ∈ Finset.range (2 * (D / 2)), y (2 * i + 1) j)]
    _ = ∑ i : Fin D, ∑ j : Fin D, (if i.val < 2 * (D / 2) ∧ j.val < 2 * (D / 2) then y i j else 0) := by
        rw [Finset.sum_congr rfl fun (i : Fin D) _ => hr i.val,
          Fin.sum_univ_eq_sum_range (fun i => if i < 2 * (D / 2) then
            ∑ j ∈ Finset.range (2 * (D / 2)), y i j else 0) D, ← Finset.sum_filter]
        refine Finset.sum_congr ?_ fun _ _ => rfl
        ext i
        simp only [Finset.mem_filter, Finset.mem_range]
        omega
    _ = _ := by
        refine Finset.sum_congr rfl fun i _ => Finset.sum_congr rfl fun j _ => ?_
        simp [y]

/-- C95: pooling stays between bounds of the four cells it covers. -/
theorem avgPool_between (x : Univ ℝ N C D D) (lo hi : ℝ) (n : Fin N) (c : Fin C) (i j : Fin (D / 2))
    (h : ∀ a b : Fin D, a.val / 2 = i.val → b.val / 2 = j.val → lo ≤ x n c a b ∧ x n c a b ≤ hi) :
    lo ≤ avgPool x n c i j ∧ avgPool x n c i j ≤ hi := by
  have h1 := h ⟨2 * i, by omega⟩ ⟨2 * j, by omega⟩ (by simp) (by simp)
  have h2 := h ⟨2 * i, by omega⟩ ⟨2 * j + 1, by omega⟩ (by simp) (by simp only; omega)
  have h3 := h ⟨2 * i + 1, by omega⟩ ⟨2 * j, by omega⟩ (by simp only; omega) (by simp)
  have h4 := h ⟨2 * i + 1, by omega⟩ ⟨2 * j + 1, by omega⟩ (by simp only; omega) (by simp only; omega)
  unfold avgPool
  constructor <;> linarith [h1.1, h1.2, h2.1, h2.2, h3.1, h3.2, h4.1, h4.2]

/-- C95: the blocks are used one after the other, each once, in the given mode: if each notes its
number and its mode, the notes read 0, 1, ... -/
theorem forward_visits (L : Learner T (List (Nat × Bool)) C K) (t : T) (training : Bool)
    (hL : ∀ b hh g {N D : Nat} (x : Univ ℝ N C D D), (L.block t b hh g x).2 = g ++ [(hh, b)]) (k : Nat) :
    ∀ (hh : Nat) (g : List (Nat × Bool)) {D : Nat} (x : Univ ℝ N C D D) r,
      L.forward t training k hh g x = .ok r →
      r.2 = g ++ (List.range' hh k).map fun i => (i, training) := by
  induction k with
  | zero => intro hh g D x r h; cases h; simp
  | succ k ih =>
    intro hh g D x r h
    simp only [Learner.forward] at h
    split at h
    · cases h
    · rw [ih _ _ _ r h, hL]
      simp [List.range'_succ]

/-! ## Labels -/

/-- The event a column of the targets is about: cells left, or cells still changing. -/
def Spec.labelled (mode : Nat) {H W : Nat} (x y : Fin C → Grid ℝ H W) (k : Nat) : Prop :=
  if mode = 0 ∨ mode = 2 ∧ k = 0 then ∃ c i j, 0.00001 < x c i j
  else ∃ c i j, 0.00001 < |x c i j - y c i j|

theorem evalTarget_labelled {mode : Nat} (hm : mode ≤ 2) {H W : Nat} (x y : Fin C → Grid ℝ H W) (k : Nat) :
    evalTarget mode x y k = oneIf (labelled mode x y k) := by
  unfold evalTarget labelled evalLabel stepChange
  obtain h | h | h : mode = 0 ∨ mode = 1 ∨ mode = 2 := by omega
  · simp [h]
  · simp [h]
  · by_cases hk : k = 0
    · simp [h, hk]
    · simp [h, hk]

/-- C95 (and C60 for every mode): an event reported while training would also be reported when the
reward is computed. -/
theorem train_target_eval (mode : Nat) {H W : Nat} (x y : Fin C → Grid ℝ H W) (k : Nat)
    (h : trainTarget mode x y k = 1) : evalTarget mode x y k = 1 := by
  have h1 : ∀ {p : Prop}, oneIf p = 1 ↔ p := by
    intro p
    unfold oneIf
    by_cases hp : p <;> simp [hp]
  unfold trainTarget at h
  unfold evalTarget
  by_cases h0 : mode = 0
  · rw [if_pos h0] at h ⊢
    exact h1.2 (train_label_eval _ (h1.1 h))
  · rw [if_neg h0] at h ⊢
    by_cases h2 : mode = 1
    · rw [if_pos h2] at h ⊢
      exact h1.2 (train_label_eval _ (h1.1 h))
    · rw [if_neg h2] at h ⊢
      by_cases h3 : k = 0
      · rw [if_pos h3] at h ⊢
        exact h
      · rw [if_neg h3] at h ⊢
        exact h1.2 (train_label_eval _ (h1.1 h))

example : trainTarget 2 (fun _ _ _ => 1 : Fin 1 → Grid ℝ 2 2) (fun _ _ _ => 0) 1 = 1 := by
  have : trainLabel (stepChange (fun _ _ _ => 1 : Fin 1 → Grid ℝ 2 2) (fun _ _ _ => 0)) := by
    unfold trainLabel
    rw [sampleMean_real]
    norm_num [stepChange]
  unfold trainTarget oneIf
  simp [this]

/-- C95: a sample that has died out and stays dead is reported as vanished and static, in training
and in evaluation, whatever the mode. -/
theorem dead_labels (mode : Nat) {H W : Nat} (k : Nat) :
    trainTarget mode (fun _ _ _ => 0 : Fin C → Grid ℝ H W) (fun _ _ _ => 0) k = 0 ∧
      evalTarget mode (fun _ _ _ => 0 : Fin C → Grid ℝ H W) (fun _ _ _ => 0) k = 0 := by
  have hz : stepChange (fun _ _ _ => 0 : Fin C → Grid ℝ H W) (fun _ _ _ => 0) = fun _ _ _ => 0 := by
    funext c i j; simp [stepChange]
  have he : ¬ evalLabel (fun _ _ _ => 0 : Fin C → Grid ℝ H W) := by
    rintro ⟨c, i, j, h⟩; norm_num at h
  have ht : ¬ trainLabel (fun _ _ _ => 0 : Fin C → Grid ℝ H W) := fun h => he (train_label_eval _ h)
  unfold trainTarget evalTarget oneIf
  rw [hz]
  simp [he, ht]

/-! ## Stopping early -/

theorem bigBang_eq (f : σ → Univ ℝ N C D D → Except PyErr (Univ ℝ N C D D × σ)) (k : Nat) :
    ∀ (s : σ) (u : Univ ℝ N C D D), bigBang f k s u = iterate f k s u := by
  induction k with
  | zero => intro s u; rfl
  | succ k ih =>
    intro s u
    rw [bigBang, iterate]
    rcases f s u with e | ⟨u', s'⟩
    · rfl
    · exact ih s' u'

/-- C95: if the automaton produces non-negative grids and keeps the dead grid dead, the runs for
training and for the reward end in the grid of the full run although they stop early. -/
theorem halting_runs_lossless {f : σ → Univ ℝ N C D D → Except PyErr (Univ ℝ N C D D × σ)}
    {P : σ → Prop} (hP : ∀ s u r, P s → f s u = .ok r → P r.2)
    (hnn : ∀ s u r, P s → f s u = .ok r → ∀ n c i j, 0 ≤ r.1 n c i j)
    (hz : ∀ s r, P s → f s (fun _ _ _ _ => 0) = .ok r → r.1 = fun _ _ _ _ => 0) (k : Nat) (s : σ)
    (u : Univ ℝ N C D D) (hs : P s) (hu : ∀ n c i j, 0 ≤ u n c i j) (full : Univ ℝ N C D D × σ)
    (h : iterate f k s u = .ok full) :
    (∃ r, trainRun f k s u = .ok r ∧ r.1 = full.1) ∧ ∃ r, evalRun f k s u = .ok r ∧ r.1 = full.1 := by
  have dead : ∀ k (s : σ), P s → ∀ full, iterate f k s (fun _ _ _ _ => 0) = .ok full →
      full.1 = fun _ _ _ _ => 0 := by
    intro k
    induction k with
    | zero => intro s _ full h; cases h; rfl
    | succ k ih =>
      intro s hs full h
      obtain ⟨⟨u', s'⟩, h1, h2⟩ := bind_ok h
      have e := hz s _ hs h1
      simp only at e
      subst e
      exact ih s' (hP s _ _ hs h1) full h2
  constructor
  · induction k generalizing s u with
    | zero => cases h; exact ⟨_, rfl, rfl⟩
    | succ k ih =>
      unfold trainRun
      split
      · obtain ⟨⟨u', s'⟩, a1, a2⟩ := bind_ok h
        rw [a1]
        exact ih s' u' (hP s _ _ hs a1) (hnn s u _ hs a1) a2
      · rename_i hm
        have e := uMean_le_zero hu (not_lt.1 hm)
        exact ⟨_, rfl, by rw [e] at h ⊢; exact (dead _ s hs full h).symm⟩
  · induction k generalizing s u with
    | zero => cases h; exact ⟨_, rfl, rfl⟩
    | succ k ih =>
      obtain ⟨⟨u', s'⟩, a1, a2⟩ := bind_ok h
      unfold evalRun
      rw [a1]
      dsimp only
      split
      · rename_i hm
        have e : u' = fun _ _ _ _ => 0 := by
          funext n c i j
          exact le_antisymm (hm.1 n c i j) (hnn s u _ hs a1 n c i j)
        subst e
        exact ⟨_, rfl, (dead k s' (hP s _ _ hs a1) full a2).symm⟩
      · exact ih s' u' (hP s _ _ hs a1) (hnn s u _ hs a1) a2

/-- C95 for `CCA`: with non-negative weights and step size and no genesis function positive at
zero. -/
theorem cca_halting_runs_lossless {ext int : Nat} (ca : CCA ℝ ext int) (w : Fin ext → Fin int → ℝ)
    (hw : ca.weights = .functional w) (hw0 : ∀ e o, 0 ≤ w e o) (hdt : 0 ≤ ca.dt)
    (hg : ∀ g ∈ ca.genesis, g 0 ≤ 0) (k : Nat) (u : Univ ℝ N ext D D) (hu : ∀ n c i j, 0 ≤ u n c i j)
    (full : Univ ℝ N ext D D × CCA ℝ ext int) (h : iterate CCA.forward k ca u = .ok full) :
    (∃ r, trainRun CCA.forward k ca u = .ok r ∧ r.1 = full.1) ∧
      ∃ r, evalRun CCA.forward k ca u = .ok r ∧ r.1 = full.1 := by
  refine halting_runs_lossless (f := CCA.forward)
    (P := fun s => s.weights = .functional w ∧ 0 ≤ s.dt ∧ ∀ g ∈ s.genesis, g 0 ≤ 0)
    ?_ ?_ ?_ k ca u ⟨hw, hdt, hg⟩ hu full h
  · intro s u r hs h
    obtain ⟨_, _, _, _, _, _, e⟩ := CCA.forward_ok h
    rw [e]; exact hs
  · intro s u r _ h n c i j
    obtain ⟨_, _, _, _, _, _, e⟩ := CCA.forward_ok h
    rw [e]
    exact (clamp01_mem _).1
  · intro s r hs h
    have hi : iterate CCA.forward 1 s (dead N ext D D) = .ok r := by
      simp only [iterate]
      have : CCA.forward s (dead N ext D D) = .ok r := h
      rw [this]; rfl
    exact cca_dead_stays s w hs.1 hw0 hs.2.1 hs.2.2 1 r hi

/-! ## A step -/

/-- An automaton whose calls never fail. -/
def Spec.NeverFails (M : Automaton σ G C) (P : σ → Prop) (N D : Nat) : Prop :=
  ∀ s g (u : Univ ℝ N C D D), P s → ∃ u' s' g', M.call s g u = .ok (u', s', g') ∧ P s'

section

variable {M : Automaton σ G C} {P : σ → Prop} (hM : NeverFails M P N D)

include hM

theorem draw_total (p : σ × G) (u : Univ ℝ N C D D) (hp : P p.1) :
    ∃ r, M.draw p u = .ok r ∧ P r.2.1 := by
  obtain ⟨u', s', g', h, h'⟩ := hM p.1 p.2 u hp
  exact ⟨(u', s', g'), by simp only [Automaton.draw, h], h'⟩

theorem bigBang_total (k : Nat) : ∀ (p : σ × G) (u : Univ ℝ N C D D), P p.1 →
    ∃ r, bigBang M.draw k p u = .ok r ∧ P r.2.1 := by
  induction k with
  | zero => intro p u hp; exact ⟨_, rfl, hp⟩
  | succ k ih =>
    intro p u hp
    obtain ⟨r, h, hr⟩ := draw_total hM p u hp
    unfold bigBang
    rw [h]
    exact ih r.2 r.1 hr

theorem trainRun_total (k : Nat) : ∀ (p : σ × G) (u : Univ ℝ N C D D), P p.1 →
    ∃ r, trainRun M.draw k p u = .ok r ∧ P r.2.1 := by
  induction k with
  | zero => intro p u hp; exact ⟨_, rfl, hp⟩
  | succ k ih =>
    intro p u hp
    obtain ⟨r, h, hr⟩ := draw_total hM p u hp
    unfold trainRun
    rw [h]
    split
    · exact ih r.2 r.1 hr
    · exact ⟨_, rfl, hp⟩

theorem evalRun_total (k : Nat) : ∀ (p : σ × G) (u : Univ ℝ N C D D), P p.1 →
    ∃ r, evalRun M.draw k p u = .ok r ∧ P r.2.1 := by
  induction k with
  | zero => intro p u hp; exact ⟨_, rfl, hp⟩
  | succ k ih =>
    intro p u hp
    obtain ⟨r, h, hr⟩ := draw_total hM p u hp
    unfold evalRun
    rw [h]
    dsimp only
    split
    · exact ⟨_, rfl, hr⟩
    · exact ih r.2 r.1 hr

end

theorem label_columns (mode : Nat) : labelOutputs mode = labelColumns mode ↔ mode ≤ 2 := by
  unfold labelOutputs labelColumns
  split_ifs <;> omega

theorem trainOnce_fails (M : Automaton σ G C) (reset : σ → σ) (a : HaltingArgs)
    (L : Learner T G C (labelOutputs a.mode)) (rand : G → Univ ℝ N C D D × G) (hD : 0 < D)
    (h : D < 2 ^ a.numBlocks ∨ 2 < a.mode) (s : σ) (t : T) (g : G) :
    ∃ e, trainOnce M reset a L rand s t g = .error e := by
  unfold trainOnce
  rcases bigBang M.draw bigBangSteps (reset s, (rand g).2) (rand g).1 with e | ⟨u, s₁, g₁⟩
  · exact ⟨e, rfl⟩
  dsimp only
  rcases hf : L.forward t true a.numBlocks 0 g₁ u with e | ⟨pred, g₂⟩
  · exact ⟨e, rfl⟩
  dsimp only
  have h1 := (forward_ok_iff L t true a.numBlocks 0 g₁ u hD).1 ⟨_, hf⟩
  rcases trainRun M.draw a.caSteps (s₁, g₂) u with e | ⟨w, p⟩
  · exact ⟨e, rfl⟩
  dsimp only
  rcases M.draw p w with e | ⟨w', s₂, g₃⟩
  · exact ⟨e, rfl⟩
  dsimp only
  rw [if_neg]
  · exact ⟨_, rfl⟩
  · rw [label_columns]
    omega

/-- C95: with too many blocks for the grid, or a mode above 2, every evaluation raises. -/
theorem halting_step_fails (M : Automaton σ G C) (reset : σ → σ) (a : HaltingArgs)
    (L : Learner T G C (labelOutputs a.mode)) (rand : G → Univ ℝ N C D D × G) (hD : 0 < D)
    (h : D < 2 ^ a.numBlocks ∨ 2 < a.mode) (s : σ × T) (v : List ℝ) (g : G) :
    ∃ e, (haltingEnv M reset a L rand).step s v g = .error e := by
  simp only [haltingEnv]
  rcases M.setParams s.1 v with ⟨s', _ | e⟩
  · obtain ⟨e, he⟩ := trainOnce_fails M reset a L rand hD h s' s.2 g
    have : trainLoop M reset a L rand trainSteps s' s.2 g = .error e := by
      show trainLoop M reset a L rand (7 + 1) s' s.2 g = .error e
      rw [trainLoop, he]
    dsimp only
    rw [this]
    exact ⟨e, rfl⟩
  · exact ⟨e, rfl⟩

/-- The defaults on a grid of 8x8. -/
example : (8 : Nat) < 2 ^ (HaltingArgs.mk 4 1024 0).numBlocks ∨ 2 < (HaltingArgs.mk 4 1024 0).mode := by
  decide

/-- C95: otherwise an evaluation succeeds whenever the automaton does. -/
theorem halting_step_ok (M : Automaton σ G C) (reset : σ → σ) (a : HaltingArgs)
    (L : Learner T G C (labelOutputs a.mode)) (rand : G → Univ ℝ N C D D × G) {P : σ → Prop}
    (hM : NeverFails M P N D) (hr : ∀ s, P s → P (reset s)) (hD : 2 ^ a.numBlocks ≤ D) (hm : a.mode ≤ 2)
    (s : σ × T) (v : List ℝ) (hv : (M.setParams s.1 v).2 = none) (hs : P (M.setParams s.1 v).1) (g : G) :
    ∃ r, (haltingEnv M reset a L rand).step s v g = .ok r := by
  have hD0 : 0 < D := lt_of_lt_of_le (by positivity) hD
  have hcol := (label_columns a.mode).2 hm
  have once : ∀ s t g, P s → ∃ t' s' g', trainOnce M reset a L rand s t g = .ok (t', s', g') ∧ P s' := by
    intro s t g hs
    obtain ⟨⟨u, s₁, g₁⟩, h1, p1⟩ := bigBang_total hM bigBangSteps (reset s, (rand g).2) (rand g).1 (hr s hs)
    obtain ⟨⟨pred, g₂⟩, h2⟩ := (forward_ok_iff L t true a.numBlocks 0 g₁ u hD0).2 hD
    obtain ⟨⟨w, p⟩, h3, p3⟩ := trainRun_total hM a.caSteps (s₁, g₂) u p1
    obtain ⟨⟨w', s₂, g₃⟩, h4, p4⟩ := draw_total hM p w p3
    refine ⟨L.learn t g₁ u (fun n k => trainTarget a.mode (w n) (w' n) k), s₂, g₃, ?_, p4⟩
    unfold trainOnce
    simp only [h1, h2, h3, h4, if_pos hcol]
  have loop : ∀ k s t g, P s → ∃ t' s' g', trainLoop M reset a L rand k s t g = .ok (t', s', g') ∧ P s' := by
    intro k
    induction k with
    | zero => intro s t g hs; exact ⟨t, s, g, rfl, hs⟩
    | succ k ih =>
      intro s t g hs
      obtain ⟨t', s', g', h, hp⟩ := once s t g hs
      rw [trainLoop, h]
      exact ih s' t' g' hp
  simp only [haltingEnv]
  rcases hx : M.setParams s.1 v with ⟨s', _ | e⟩
  · rw [hx] at hs
    obtain ⟨t₁, s₁, g₁, h, p0⟩ := loop trainSteps s' s.2 g hs
    dsimp only
    rw [h]
    dsimp only
    obtain ⟨⟨u, s₂, g₂⟩, h1, p1⟩ := bigBang_total hM bigBangSteps (s₁, (rand g₁).2) (rand g₁).1 p0
    obtain ⟨⟨pred, g₃⟩, h2⟩ := (forward_ok_iff L t₁ false a.numBlocks 0 g₂ u hD0).2 hD
    obtain ⟨⟨w, p⟩, h3, p3⟩ := evalRun_total hM a.caSteps (s₂, g₃) u p1
    obtain ⟨⟨w', s₃, g₄⟩, h4, p4⟩ := draw_total hM p w p3
    unfold judge
    simp only [h1, h2, h3, h4, if_pos hcol]
    exact ⟨_, rfl⟩
  · rw [hx] at hv; cases hv

theorem trainLoop_succ (M : Automaton σ G C) (reset : σ → σ) (a : HaltingArgs)
    (L : Learner T G C (labelOutputs a.mode)) (rand : G → Univ ℝ N C D D × G) (k : Nat) {s s' : σ}
    {t t' : T} {g g' : G} (h : trainOnce M reset a L rand s t g = .ok (t', s', g')) :
    trainLoop M reset a L rand (k + 1) s t g = trainLoop M reset a L rand k s' t' g' := by
  rw [trainLoop, h]

/-! ## Training -/

/-- C95: a successful evaluation sets the rule, trains the network it finds exactly eight times and
then judges. -/
theorem halting_step_parts (M : Automaton σ G C) (reset : σ → σ) (a : HaltingArgs)
    (L : Learner T G C (labelOutputs a.mode)) (rand : G → Univ ℝ N C D D × G) (s : σ × T) (v : List ℝ)
    (g : G) (r : (ℝ × ℝ) × (σ × T) × G) (h : (haltingEnv M reset a L rand).step s v g = .ok r) :
    (M.setParams s.1 v).2 = none ∧ ∃ x : Nat → T × σ × G, x 0 = (s.2, (M.setParams s.1 v).1, g) ∧
      (∀ i < 8, trainOnce M reset a L rand (x i).2.1 (x i).1 (x i).2.2 = .ok (x (i + 1))) ∧
      judge M a L rand (x 8).2.1 (x 8).1 (x 8).2.2 = .ok r := by
  have loop : ∀ (k : Nat) (t t' : T) (s s' : σ) (g g' : G),
      trainLoop M reset a L rand k s t g = .ok (t', s', g') →
      ∃ x : Nat → T × σ × G, x 0 = (t, s, g) ∧
        (∀ i < k, trainOnce M reset a L rand (x i).2.1 (x i).1 (x i).2.2 = .ok (x (i + 1))) ∧
        x k = (t', s', g') := by
    intro k
    induction k with
    | zero =>
      intro t t' s s' g g' h
      cases h
      exact ⟨fun _ => (t, s, g), rfl, fun i hi => absurd hi (Nat.not_lt_zero i), rfl⟩
    | succ k ih =>
      intro t t' s s' g g' h
      rw [trainLoop] at h
      rcases hx : trainOnce M reset a L rand s t g with e | ⟨t₁, s₁, g₁⟩
      · rw [hx] at h; cases h
      · rw [hx] at h
        obtain ⟨x, h0, h1, h2⟩ := ih t₁ t' s₁ s' g₁ g' h
        refine ⟨fun i => if i = 0 then (t, s, g) else x (i - 1), rfl, ?_, ?_⟩
        · intro i hi
          rcases i with _ | i
          · simp only [if_true, zero_add, one_ne_zero, if_false, Nat.sub_self, h0]
            exact hx
          · simpa using h1 i (by omega)
        · simpa using h2
  simp only [haltingEnv] at h
  rcases hx : M.setParams s.1 v with ⟨s', _ | e⟩
  · rw [hx] at h
    dsimp only at h
    rcases hy : trainLoop M reset a L rand trainSteps s' s.2 g with e | ⟨t₁, s₁, g₁⟩
    · rw [hy] at h; cases h
    · rw [hy] at h
      obtain ⟨x, h0, h1, h2⟩ := loop trainSteps s.2 t₁ s' s₁ g g₁ hy
      refine ⟨rfl, x, h0, h1, ?_⟩
      have h2' : x 8 = (t₁, s₁, g₁) := h2
      rw [h2']
      exact h
  · rw [hx] at h; cases h

/-- The event a column of the training targets is about. -/
def Spec.trained (mode : Nat) {H W : Nat} (x y : Fin C → Grid ℝ H W) (k : Nat) : Prop :=
  if mode = 0 then 0.0001 < (∑ c, ∑ i, ∑ j, x c i j) / (C * H * W)
  else if mode = 2 ∧ k = 0 then ∃ c i j, 0.00001 < x c i j
  else 0.0001 < (∑ c, ∑ i, ∑ j, |x c i j - y c i j|) / (C * H * W)

theorem trainTarget_trained {mode : Nat} (hm : mode ≤ 2) {H W : Nat} (x y : Fin C → Grid ℝ H W) (k : Nat) :
    trainTarget mode x y k = oneIf (trained mode x y k) := by
  unfold trainTarget trained evalLabel trainLabel stepChange
  rw [sampleMean_real, sampleMean_real]
  obtain h | h | h : mode = 0 ∨ mode = 1 ∨ mode = 2 := by omega
  · simp [h]
  · simp [h]
  · by_cases hk : k = 0
    · simp [h, hk]
    · simp [h, hk]

/-- C95: a training step resets the automaton, shows the network a fresh random grid after eight
steps and teaches it the events at the end of the run. -/
theorem train_meaning (M : Automaton σ G C) (reset : σ → σ) (a : HaltingArgs) (hm : a.mode ≤ 2)
    (L : Learner T G C (labelOutputs a.mode)) (rand : G → Univ ℝ N C D D × G)
    (s s' : σ) (t t' : T) (g g' : G) (h : trainOnce M reset a L rand s t g = .ok (t', s', g')) :
    ∃ u s₁ g₁ pred g₂ w s₂ g₃ w', iterate M.draw 8 (reset s, (rand g).2) (rand g).1 = .ok (u, (s₁, g₁)) ∧
      L.forward t true a.numBlocks 0 g₁ u = .ok (pred, g₂) ∧
      trainRun M.draw a.caSteps (s₁, g₂) u = .ok (w, (s₂, g₃)) ∧
      M.draw (s₂, g₃) w = .ok (w', (s', g')) ∧
      t' = L.learn t g₁ u fun n k => oneIf (trained a.mode (w n) (w' n) k) := by
  unfold trainOnce at h
  rcases h1 : bigBang M.draw bigBangSteps (reset s, (rand g).2) (rand g).1 with e | ⟨u, s₁, g₁⟩
  · rw [h1] at h; cases h
  rw [h1] at h
  dsimp only at h
  rcases h2 : L.forward t true a.numBlocks 0 g₁ u with e | ⟨pred, g₂⟩
  · rw [h2] at h; cases h
  rw [h2] at h
  dsimp only at h
  rcases h3 : trainRun M.draw a.caSteps (s₁, g₂) u with e | ⟨w, s₂, g₃⟩
  · rw [h3] at h; cases h
  rw [h3] at h
  dsimp only at h
  rcases h4 : M.draw (s₂, g₃) w with e | ⟨w', s₃, g₄⟩
  · rw [h4] at h; cases h
  rw [h4] at h
  dsimp only at h
  rw [if_pos ((label_columns a.mode).2 hm)] at h
  simp only [Except.ok.injEq, Prod.mk.injEq] at h
  obtain ⟨ht, hs, hg⟩ := h
  subst hs hg
  refine ⟨u, s₁, g₁, pred, g₂, w, s₂, g₃, w', ?_, h2, h3, h4, ?_⟩
  · rw [← bigBang_eq]; exact h1
  · rw [← ht]
    simp only [trainTarget_trained hm]

/-- C95: a training run ends after `n` steps, or as soon as the mean is not positive. -/
theorem trainRun_stops (f : σ → Univ ℝ N C D D → Except PyErr (Univ ℝ N C D D × σ)) (n : Nat) :
    ∀ (s : σ) (u : Univ ℝ N C D D) (r : Univ ℝ N C D D × σ), trainRun f n s u = .ok r →
      ∃ k ≤ n, iterate f k s u = .ok r ∧ (k = n ∨ uMean r.1 ≤ 0) ∧
        ∀ j < k, ∃ q, iterate f j s u = .ok q ∧ 0 < uMean q.1 := by
  induction n with
  | zero =>
    intro s u r h
    exact ⟨0, le_refl 0, h, .inl rfl, fun j hj => absurd hj (Nat.not_lt_zero j)⟩
  | succ n ih =>
    intro s u r h
    unfold trainRun at h
    split at h
    · rename_i hm
      rcases hx : f s u with e | ⟨u', s'⟩
      · rw [hx] at h; cases h
      · rw [hx] at h
        obtain ⟨k, hk, h1, h2, h3⟩ := ih s' u' r h
        have hi : ∀ j, iterate f (j + 1) s u = iterate f j s' u' := by
          intro j; rw [iterate, hx]; rfl
        refine ⟨k + 1, by omega, by rw [hi]; exact h1, ?_, ?_⟩
        · rcases h2 with h2 | h2
          · exact .inl (by omega)
          · exact .inr h2
        · intro j hj
          rcases j with _ | j
          · exact ⟨(u, s), rfl, hm⟩
          · rw [hi]; exact h3 j (by omega)
    · rename_i hm
      cases h
      exact ⟨0, Nat.zero_le _, rfl, .inr (not_lt.1 hm), fun j hj => absurd hj (Nat.not_lt_zero j)⟩

/-- C95: a run for the reward ends after `n` steps, or at the first grid after the start that has
maximum 0. -/
theorem evalRun_stops (f : σ → Univ ℝ N C D D → Except PyErr (Univ ℝ N C D D × σ)) (n : Nat) :
    ∀ (s : σ) (u : Univ ℝ N C D D) (r : Univ ℝ N C D D × σ), evalRun f n s u = .ok r →
      ∃ k ≤ n, iterate f k s u = .ok r ∧ (k = n ∨ 0 < k ∧ IsGreatest {x | ∃ n c i j, r.1 n c i j = x} 0) ∧
        ∀ j < k, 0 < j → ∃ q, iterate f j s u = .ok q ∧
          ¬ IsGreatest {x | ∃ n c i j, q.1 n c i j = x} 0 := by
  have htop : ∀ u : Univ ℝ N C D D, topIsZero u ↔ IsGreatest {x | ∃ n c i j, u n c i j = x} 0 := by
    intro u
    constructor
    · rintro ⟨h1, h2⟩
      exact ⟨h2, by rintro x ⟨n, c, i, j, rfl⟩; exact h1 n c i j⟩
    · rintro ⟨h1, h2⟩
      exact ⟨fun n c i j => h2 ⟨n, c, i, j, rfl⟩, h1⟩
  induction n with
  | zero =>
    intro s u r h
    exact ⟨0, le_refl 0, h, .inl rfl, fun j hj => absurd hj (Nat.not_lt_zero j)⟩
  | succ n ih =>
    intro s u r h
    unfold evalRun at h
    rcases hx : f s u with e | ⟨u', s'⟩
    · rw [hx] at h; cases h
    · rw [hx] at h
      dsimp only at h
      have hi : ∀ j, iterate f (j + 1) s u = iterate f j s' u' := by
        intro j; rw [iterate, hx]; rfl
      split at h
      · rename_i hm
        cases h
        refine ⟨1, by omega, by rw [hi]; rfl, .inr ⟨Nat.one_pos, (htop u').1 hm⟩, ?_⟩
        intro j h1 h2
        omega
      · rename_i hm
        obtain ⟨k, hk, h1, h2, h3⟩ := ih s' u' r h
        refine ⟨k + 1, by omega, by rw [hi]; exact h1, ?_, ?_⟩
        · rcases h2 with h2 | ⟨_, h2⟩
          · exact .inl (by omega)
          · exact .inr ⟨by omega, h2⟩
        · intro j hj _
          rcases j with _ | _ | j
          · omega
          · exact ⟨(u', s'), by rw [hi]; rfl, fun hg => hm ((htop u').2 hg)⟩
          · rw [hi]; exact h3 (j + 1) (by omega) (by omega)

/-! ## Reward and active proportion -/

theorem card_rows (q : Fin N → Fin K → Prop) [∀ n k, Decidable (q n k)] :
    (Finset.univ.filter fun i : Fin (N * K) => q i.divNat i.modNat).card =
      (Finset.univ.filter fun x : Fin N × Fin K => q x.1 x.2).card := by
  refine Finset.card_equiv finProdFinEquiv.symm fun i => ?_
  simp [finProdFinEquiv]

open Classical in
/-- C95: the reward is minus the share of events the network foresaw, `active_grid` the share of
events that took place; the runs start from a fresh random grid, which the network sees after
`bigbang_steps` steps. -/
theorem judge_meaning (M : Automaton σ G C) (a : HaltingArgs) (hm : a.mode ≤ 2)
    (L : Learner T G C (labelOutputs a.mode)) (rand : G → Univ ℝ N C D D × G) (hD : 0 < D)
    (s : σ) (t : T) (g g' : G) (p : σ × T) (r act : ℝ)
    (h : judge M a L rand s t g = .ok ((r, act), p, g')) :
    ∃ u s₁ g₁ pred g₂ w s₂ g₃ w', iterate M.draw 8 (s, (rand g).2) (rand g).1 = .ok (u, (s₁, g₁)) ∧
      L.forward t false a.numBlocks 0 g₁ u = .ok (pred, g₂) ∧
      (∀ n k, 0 < pred n k ∧ pred n k < 1) ∧
      evalRun M.draw a.caSteps (s₁, g₂) u = .ok (w, (s₂, g₃)) ∧
      M.draw (s₂, g₃) w = .ok (w', (p.1, g')) ∧ p.2 = t ∧
      r = -((Finset.univ.filter fun x : Fin N × Fin (labelOutputs a.mode) =>
        (labelled a.mode (w x.1) (w' x.1) x.2 ↔ 1 / 2 < pred x.1 x.2)).card /
          (N * labelOutputs a.mode : Nat) : ℝ) ∧
      act = (Finset.univ.filter fun x : Fin N × Fin (labelOutputs a.mode) =>
        labelled a.mode (w x.1) (w' x.1) x.2).card / (N * labelOutputs a.mode : Nat) := by
  unfold judge at h
  rcases h1 : bigBang M.draw bigBangSteps (s, (rand g).2) (rand g).1 with e | ⟨u, s₁, g₁⟩
  · rw [h1] at h; cases h
  rw [h1] at h
  dsimp only at h
  rcases h2 : L.forward t false a.numBlocks 0 g₁ u with e | ⟨pred, g₂⟩
  · rw [h2] at h; cases h
  rw [h2] at h
  dsimp only at h
  rcases h3 : evalRun M.draw a.caSteps (s₁, g₂) u with e | ⟨w, s₂, g₃⟩
  · rw [h3] at h; cases h
  rw [h3] at h
  dsimp only at h
  rcases h4 : M.draw (s₂, g₃) w with e | ⟨w', s₃, g₄⟩
  · rw [h4] at h; cases h
  rw [h4] at h
  dsimp only at h
  rw [if_pos ((label_columns a.mode).2 hm)] at h
  simp only [Except.ok.injEq, Prod.mk.injEq] at h
  obtain ⟨⟨hr, ha⟩, hp, hg⟩ := h
  subst hp hg
  refine ⟨u, s₁, g₁, pred, g₂, w, s₂, g₃, w', ?_, h2, ?_, h3, h4, rfl, ?_, ?_⟩
  · rw [← bigBang_eq]; exact h1
  · exact prediction_range L t false a.numBlocks 0 g₁ u hD h2
  · rw [← hr]
    have e1 : (inOneRow fun n (k : Fin (labelOutputs a.mode)) => evalTarget a.mode (w n) (w' n) k) =
        fun i => if decide (labelled a.mode (w i.divNat) (w' i.divNat) (i.modNat : Fin _)) then (1 : ℝ)
          else 0 := by
      funext i
      simp only [inOneRow, evalTarget_labelled hm, oneIf, decide_eq_true_eq]
    rw [e1, predictor_reward, ← card_rows (fun n k => (labelled a.mode (w n) (w' n) k ↔ 1 / 2 < pred n k))]
    simp only [Right, decide_eq_true_eq, inOneRow]
  · rw [← ha, Finset.card_filter]
    push_cast
    rw [Fintype.sum_prod_type]
    congr 1
    refine Finset.sum_congr rfl fun n _ => Finset.sum_congr rfl fun k _ => ?_
    rw [evalTarget_labelled hm, oneIf]

/-- C95: hence the reward lies between -1 and 0 and `active_grid` between 0 and 1. -/
theorem judge_range (M : Automaton σ G C) (a : HaltingArgs) (hm : a.mode ≤ 2)
    (L : Learner T G C (labelOutputs a.mode)) (rand : G → Univ ℝ N C D D × G) (hD : 0 < D)
    (s : σ × T) (v : List ℝ) (reset : σ → σ) (g g' : G) (p : σ × T) (r act : ℝ)
    (h : (haltingEnv M reset a L rand).step s v g = .ok ((r, act), p, g')) :
    -1 ≤ r ∧ r ≤ 0 ∧ 0 ≤ act ∧ act ≤ 1 := by
  classical
  simp only [haltingEnv] at h
  rcases hx : M.setParams s.1 v with ⟨s', _ | e⟩
  · rw [hx] at h
    dsimp only at h
    rcases hy : trainLoop M reset a L rand trainSteps s' s.2 g with e | ⟨t₁, s₁, g₁⟩
    · rw [hy] at h; cases h
    · rw [hy] at h
      obtain ⟨_, _, _, pred, _, w, _, _, w', _, _, _, _, _, _, hr, ha⟩ :=
        judge_meaning M a hm L rand hD s₁ t₁ g₁ g' p r act h
      have key : ∀ S : Finset (Fin N × Fin (labelOutputs a.mode)),
          0 ≤ (S.card / (N * labelOutputs a.mode : Nat) : ℝ) ∧
          (S.card / (N * labelOutputs a.mode : Nat) : ℝ) ≤ 1 := by
        intro S
        refine ⟨by positivity, div_le_one_of_le₀ ?_ (by positivity)⟩
        have := Finset.card_le_univ S
        simp only [Fintype.card_prod, Fintype.card_fin] at this
        exact_mod_cast this
      rw [hr, ha]
      exact ⟨neg_le_neg (key _).2, neg_nonpos.2 (key _).1, (key _).1, (key _).2⟩
  · rw [hx] at h; cases h

/-! ## The automaton is not reset before the evaluation -/

/-- C95: for a `CCA` the missing reset makes no difference. -/
theorem cca_judge_reset (o : CCAObj) (a : HaltingArgs) (L : Learner T G C (labelOutputs a.mode))
    (rand : G → Univ ℝ N C D D × G) (t : T) (g : G) :
    visible (judge (ccaAutomaton G C) a L rand o t g) =
      visible (judge (ccaAutomaton G C) a L rand o.reset t g) := by
  refine alike_visible (judge_alike (R := fun o o' => o.dynamics = o'.dynamics) ?_ a L rand t g rfl)
  intro N D s s' g u h
  obtain ⟨hv, hs⟩ := (cca_forgets G C 0).call_same g u h
  rcases hx : (ccaAutomaton G C).call s g u with e | ⟨u₁, s₁, g₁⟩
  · simp only [Automaton.draw, hx, visible_error hv hx]
    exact .error e
  · obtain ⟨s₁', hy⟩ := visible_ok hv hx
    simp only [Automaton.draw, hx, hy]
    exact .ok u₁ g₁ (hs _ _ _ _ _ _ hx hy)

/-- C95: nor for a `RandomStepCA`. -/
theorem randomStep_judge_reset (s : RandomStepObj) (draw : G → ℝ × G) (a : HaltingArgs)
    (L : Learner T G C (labelOutputs a.mode)) (rand : G → Univ ℝ N C D D × G) (t : T) (g : G) :
    visible (judge (randomStepAutomaton draw C) a L rand s t g) =
      visible (judge (randomStepAutomaton draw C) a L rand s.reset t g) := by
  refine alike_visible (judge_alike (R := fun s s' =>
    { s.o.dynamics with dt := 0 } = { s'.o.dynamics with dt := 0 } ∧
        s.maxDt = s'.maxDt ∧ s.minDt = s'.minDt) ?_ a L rand t g ⟨rfl, rfl, rfl⟩)
  intro N D s s' g u h
  obtain ⟨hv, hs⟩ := (randomStep_forgets draw C 0).call_same g u h
  rcases hx : (randomStepAutomaton draw C).call s g u with e | ⟨u₁, s₁, g₁⟩
  · simp only [Automaton.draw, hx, visible_error hv hx]
    exact .error e
  · obtain ⟨s₁', hy⟩ := visible_ok hv hx
    simp only [Automaton.draw, hx, hy]
    exact .ok u₁ g₁ (hs _ _ _ _ _ _ hx hy)

/-- The momentum of one cell. -/
def Witness.momentumIs (m : Momentum ℝ 1) (x : ℝ) : Prop :=
  m = some ⟨(1, 1, 1), fun _ _ _ _ => x⟩ ∨ x = 0 ∧ m = none

/-- The cell after `k` steps in which the momentum falls by 1/4 each. -/
noncomputable def Witness.fall : Nat → ℝ → ℝ → ℝ
  | 0, _, y => y
  | k + 1, x, y => Witness.fall k (x - 1 / 4) (clip (y + 1 / 10 * (x - 1 / 4)))

/-- A `MetaCA` with constant growth -1 and momentum `m`. -/
noncomputable def Witness.falling (κ : AnyKernel) (m : Momentum ℝ 1) : MetaObj 1 :=
  ⟨Witness.constObj κ (-1) (-1) (1 / 10) 0, 1 / 4, m⟩

theorem falling_draw {κ : AnyKernel} (hκ : κ.1 = 1) {m : Momentum ℝ 1} {x : ℝ}
    (hm : Witness.momentumIs m x) (y : ℝ) (g : G) :
    ∃ m', Witness.momentumIs m' (x - 1 / 4) ∧
      (metaAutomaton G 1).draw (Witness.falling κ m, g) (fun _ _ _ _ => y : Univ ℝ 1 1 1 1) =
        .ok ((fun _ _ _ _ => clip (y + 1 / 10 * (x - 1 / 4))), (Witness.falling κ m', g)) := by
  obtain ⟨u', v', h1, h2, h3⟩ := constMeta_call hκ (-1) (-1) (1 / 10) 0 (1 / 4) m (le_refl 1)
    (fun _ _ _ _ => x) (fun _ _ _ _ => y)
    (by rcases hm with h | ⟨h, h'⟩
        · exact .inl h
        · exact .inr ⟨by rw [h], by rw [h']; intro w; simp⟩) g
  have hv : v' = fun _ _ _ _ => x - 1 / 4 := by
    funext n c i j; rw [h2]; ring
  subst hv
  have hu : u' = fun _ _ _ _ => clip (y + 1 / 10 * (x - 1 / 4)) := by
    funext n c i j; rw [h3]
  subst hu
  refine ⟨_, .inl rfl, ?_⟩
  unfold Automaton.draw Witness.falling
  rw [h1]

theorem falling_bigBang {κ : AnyKernel} (hκ : κ.1 = 1) (k : Nat) :
    ∀ {m : Momentum ℝ 1} {x : ℝ} (_ : Witness.momentumIs m x) (y : ℝ) (g : G),
    ∃ m', Witness.momentumIs m' (x - k / 4) ∧
      bigBang (metaAutomaton G 1).draw k (Witness.falling κ m, g) (fun _ _ _ _ => y : Univ ℝ 1 1 1 1) =
        .ok ((fun _ _ _ _ => Witness.fall k x y), (Witness.falling κ m', g)) := by
  induction k with
  | zero => intro m x hm y g; exact ⟨m, by simpa using hm, rfl⟩
  | succ k ih =>
    intro m x hm y g
    obtain ⟨m₁, h1, e1⟩ := falling_draw hκ hm y g
    obtain ⟨m₂, h2, e2⟩ := ih h1 (clip (y + 1 / 10 * (x - 1 / 4))) g
    refine ⟨m₂, ?_, ?_⟩
    · have : x - ((k + 1 : Nat) : ℝ) / 4 = x - 1 / 4 - k / 4 := by push_cast; ring
      rw [this]; exact h2
    · rw [bigBang, e1]
      exact e2

/-- The evaluation of the witness, for a momentum `x`. -/
theorem falling_judge {κ : AnyKernel} (hκ : κ.1 = 1) {m : Momentum ℝ 1} {x : ℝ}
    (hm : Witness.momentumIs m x) (L : Learner T G 1 1) (t : T) (g : G) :
    ∃ r p, judge (metaAutomaton G 1) ⟨0, 0, 0⟩ L
      (fun g => ((fun _ _ _ _ => 99 / 100 : Univ ℝ 1 1 1 1), g)) (Witness.falling κ m) t g =
        .ok ((r, oneIf (0.00001 < Witness.fall 8 x (99 / 100))), p) := by
  obtain ⟨m₁, h1, e1⟩ := falling_bigBang hκ 8 hm (99 / 100) g
  obtain ⟨m₂, h2, e2⟩ := falling_draw hκ h1 (Witness.fall 8 x (99 / 100)) g
  unfold judge
  dsimp only
  rw [show bigBangSteps = 8 from rfl, e1]
  dsimp only [Learner.forward, evalRun]
  rw [e2]
  have hl : evalLabel (fun _ _ _ => Witness.fall 8 x (99 / 100) : Fin 1 → Grid ℝ 1 1) ↔
      0.00001 < Witness.fall 8 x (99 / 100) :=
    ⟨fun ⟨_, _, _, h⟩ => h, fun h => ⟨0, 0, 0, h⟩⟩
  dsimp only
  rw [if_pos (by decide : labelOutputs 0 = labelColumns 0)]
  have ha : (∑ _n : Fin 1, ∑ k : Fin (labelOutputs 0), evalTarget 0
      (fun _ _ _ => Witness.fall 8 x (99 / 100) : Fin 1 → Grid ℝ 1 1)
      (fun _ _ _ => clip (Witness.fall 8 x (99 / 100) + 1 / 10 * (x - (8 : Nat) / 4 - 1 / 4))) k) /
        ((1 : Nat) * (labelOutputs 0 : Nat)) = oneIf (0.00001 < Witness.fall 8 x (99 / 100)) := by
    change (∑ _n : Fin 1, ∑ k : Fin 1, evalTarget 0
      (fun _ _ _ => Witness.fall 8 x (99 / 100) : Fin 1 → Grid ℝ 1 1) _ k) / ((1 : Nat) * (1 : Nat)) = _
    simp [evalTarget, hl]
  rw [ha]
  exact ⟨_, _, rfl⟩

/-- C95: for a `MetaCA` the missing reset decides: the momentum of the last training run makes every
sample vanish that survives when the automaton starts at rest. -/
theorem meta_judge_refuted (L : Learner T G 1 1) (t : T) (g : G) :
    ∃ (rand : G → Univ ℝ 1 1 1 1 × G) (s : MetaObj 1),
      (∀ g n c i j, 0 ≤ (rand g).1 n c i j ∧ (rand g).1 n c i j < 1) ∧
      ∃ t' s' g', trainLoop (metaAutomaton G 1) MetaObj.reset ⟨0, 0, 0⟩ L rand trainSteps s t g =
          .ok (t', s', g') ∧
        (∃ r p, judge (metaAutomaton G 1) ⟨0, 0, 0⟩ L rand s' t' g' = .ok ((r, 0), p)) ∧
        ∃ r p, judge (metaAutomaton G 1) ⟨0, 0, 0⟩ L rand s'.reset t' g' = .ok ((r, 1), p) := by
  obtain ⟨κ, hκ⟩ := (mixture_kernel_iff 1 [1 / 2, 3 / 20]).2 ⟨⟨by decide, by decide⟩, by decide⟩
  have hr := mixture_kernel_radius hκ
  have once : ∀ (m : Momentum ℝ 1) (t : T), ∃ t' m', Witness.momentumIs m' (-9 / 4) ∧
      trainOnce (metaAutomaton G 1) MetaObj.reset ⟨0, 0, 0⟩ L
        (fun g => ((fun _ _ _ _ => 99 / 100 : Univ ℝ 1 1 1 1), g)) (Witness.falling κ m) t g =
        .ok (t', Witness.falling κ m', g) := by
    intro m t
    obtain ⟨m₁, h1, e1⟩ := falling_bigBang hr 8 (m := none) (x := 0) (.inr ⟨rfl, rfl⟩) (99 / 100) g
    obtain ⟨m₂, h2, e2⟩ := falling_draw hr h1 (Witness.fall 8 0 (99 / 100)) g
    refine ⟨L.learn t g (fun _ _ _ _ => Witness.fall 8 0 (99 / 100) : Univ ℝ 1 1 1 1) (fun _ k =>
      trainTarget 0 (fun _ _ _ => Witness.fall 8 0 (99 / 100) : Fin 1 → Grid ℝ 1 1)
        (fun _ _ _ => clip (Witness.fall 8 0 (99 / 100) + 1 / 10 * (0 - (8 : Nat) / 4 - 1 / 4))) k),
      m₂, ?_, ?_⟩
    · convert h2 using 1; norm_num
    · unfold trainOnce
      dsimp only
      rw [show bigBangSteps = 8 from rfl, show (Witness.falling κ m).reset = Witness.falling κ none from rfl,
        e1]
      dsimp only [Learner.forward, trainRun]
      rw [e2]
      dsimp only
      rw [if_pos (by decide : labelOutputs 0 = labelColumns 0)]
      rfl
  have loop : ∀ (k : Nat) (m : Momentum ℝ 1) (t : T), ∃ t' m', Witness.momentumIs m' (-9 / 4) ∧
      trainLoop (metaAutomaton G 1) MetaObj.reset ⟨0, 0, 0⟩ L
        (fun g => ((fun _ _ _ _ => 99 / 100 : Univ ℝ 1 1 1 1), g)) (k + 1) (Witness.falling κ m) t g =
        .ok (t', Witness.falling κ m', g) := by
    intro k
    induction k with
    | zero =>
      intro m t
      obtain ⟨t', m', h, e⟩ := once m t
      exact ⟨t', m', h, trainLoop_succ _ _ _ _ _ 0 e⟩
    | succ k ih =>
      intro m t
      obtain ⟨t', m', h, e⟩ := once m t
      obtain ⟨t'', m'', h', e'⟩ := ih m' t'
      exact ⟨t'', m'', h', (trainLoop_succ _ _ _ _ _ _ e).trans e'⟩
  obtain ⟨t', m', h, e⟩ := loop 7 none t
  refine ⟨fun g => ((fun _ _ _ _ => 99 / 100 : Univ ℝ 1 1 1 1), g), Witness.falling κ none,
    fun _ _ _ _ _ => by norm_num, t', _, g, e, ?_, ?_⟩
  · obtain ⟨r, p, hj⟩ := falling_judge hr h L t' g
    have : oneIf (0.00001 < Witness.fall 8 (-9 / 4) (99 / 100)) = 0 := by
      unfold oneIf
      norm_num [Witness.fall, clip]
    rw [this] at hj
    exact ⟨r, p, hj⟩
  · obtain ⟨r, p, hj⟩ := falling_judge hr (m := none) (x := 0) (.inr ⟨rfl, rfl⟩) L t' g
    have : oneIf (0.00001 < Witness.fall 8 0 (99 / 100)) = 1 := by
      unfold oneIf
      norm_num [Witness.fall, clip]
    rw [this] at hj
    exact ⟨r, p, hj⟩

/-! ## The hypotheses are met -/

/-- A `MetaCA` with constant growth functions never fails. -/
theorem constMeta_total {κ : AnyKernel} (hκ : κ.1 = 1) (a b dt t ddt : ℝ) (N : Nat) {D : Nat} (hD : 1 ≤ D) :
    NeverFails (metaAutomaton G 1) (fun s => ∃ m, s = ⟨Witness.constObj κ a b dt t, ddt, m⟩) N D := by
  rintro s g u ⟨m, rfl⟩
  by_cases h : ∃ v, m = some ⟨(N, D, D), v⟩
  · obtain ⟨v, hv⟩ := h
    obtain ⟨u', v', h1, _, _⟩ := constMeta_call hκ a b dt t ddt m hD v u (.inl hv) g
    exact ⟨u', _, g, h1, _, rfl⟩
  · obtain ⟨u', v', h1, _, _⟩ := constMeta_call hκ a b dt t ddt m hD (fun _ _ _ _ => 0) u
      (.inr ⟨rfl, fun w hw => h ⟨w, hw⟩⟩) g
    exact ⟨u', _, g, h1, _, rfl⟩

/-- With the default network every evaluation of such an automaton succeeds, on the default grid and in
every mode. -/
example (mode : Nat) (hm : mode ≤ 2) (L : Learner T G 1 (labelOutputs mode))
    (rand : G → Univ ℝ 8 1 128 128 × G) (t : T) (g : G) :
    ∃ s r, (haltingEnv (metaAutomaton G 1) MetaObj.reset ⟨4, 1024, mode⟩ L rand).step (s, t)
      [-1 / 2, 0, 1 / 2, 3 / 20] g = .ok r := by
  obtain ⟨κ, hκ⟩ := (mixture_kernel_iff 1 [1 / 2, 3 / 20]).2 ⟨⟨by decide, by decide⟩, by decide⟩
  have hset : (metaAutomaton G 1).setParams ⟨Witness.constObj κ 0 0 (1 / 10) 0, 1 / 4, none⟩
      [-1 / 2, 0, 1 / 2, 3 / 20] = (⟨Witness.constObj κ (-1 / 2) 0 (1 / 10) 0, 1 / 4, none⟩, none) := by
    show (MetaObj.mk _ _ _, _) = _
    rw [constObj_setParams hκ]
  refine ⟨⟨Witness.constObj κ 0 0 (1 / 10) 0, 1 / 4, none⟩, ?_⟩
  exact halting_step_ok (metaAutomaton G 1) MetaObj.reset ⟨4, 1024, mode⟩ L rand
    (constMeta_total (mixture_kernel_radius hκ) (-1 / 2) 0 (1 / 10) 0 (1 / 4) 8 (by norm_num))
    (by rintro s ⟨m, rfl⟩; exact ⟨none, rfl⟩) (by norm_num) hm _ _ (by rw [hset]) (by rw [hset]; exact ⟨_, rfl⟩) g

example (κ : AnyKernel) (L : Learner T G 1 1) (rand : G → Univ ℝ 8 1 128 128 × G) (seedAll : Nat → G)
    (t : T) (g : G) :
    let E := haltingEnv (metaAutomaton G 1) MetaObj.reset ⟨4, 1024, 0⟩ L rand
    (E.evalAll seedAll 3 7 [[1, 0, 1 / 2, 3 / 20], [-1 / 2, 0, 1 / 2, 3 / 20]]
      (⟨Witness.constObj κ 0 0 (1 / 10) 0, 1 / 4, none⟩, t) g).map (·.1) =
      [[1, 0, 1 / 2, 3 / 20], [-1 / 2, 0, 1 / 2, 3 / 20]].mapM fun v =>
        (E.getFitness seedAll 1 3 7 (⟨Witness.constObj κ 0 0 (1 / 10) 0, 1 / 4, none⟩, t) v).map (·.1) :=
  unpredictable_history_free_meta ⟨Witness.constObj κ 0 0 (1 / 10) 0, 1 / 4, none⟩ [1 / 2, 3 / 20] rfl
    ⟨4, 1024, 0⟩ L rand seedAll 3 7 _ (by simp [Witness.constObj, readActs, readTensors, Act.tensors]) t t g

example (u : Univ ℝ 1 1 8 8) (hu : ∀ n c i j, 0 ≤ u n c i j) : ∃ full,
    iterate CCA.forward 1 realCA u = .ok full ∧
      ∃ r, evalRun CCA.forward 1 realCA u = .ok r ∧ r.1 = full.1 := by
  obtain ⟨full, h⟩ := realCA_runs u (by norm_num) (by norm_num)
  have h1 : iterate CCA.forward 1 realCA u = .ok full := by
    simp only [iterate]
    rw [h]; rfl
  exact ⟨full, h1, (cca_halting_runs_lossless realCA (fun _ _ => 1) rfl (fun _ _ => zero_le_one)
    (by norm_num [realCA]) realCA_dead_at_zero 1 u hu full h1).2⟩

end Yuca
