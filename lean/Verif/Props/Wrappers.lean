import Verif.Model.Wrappers
import Verif.Props.Dynamics

/-!
# C11, C48, C49, C59-C62: the reward wrappers
-/

namespace Yuca

open Arith Spec

variable {σ : Type} {N C H W D : Nat}

/-! ## Means over the reals -/

theorem sampleCells_mem {α : Type} (x : Fin C → Grid α H W) (v : α) :
    v ∈ sampleCells x ↔ ∃ c i j, x c i j = v := by
  simp [sampleCells]

theorem dot_ones (l : List ℝ) : dot (l.map fun x => (one, x)) = l.sum := by
  simp [Arith.dot, Arith.one, Function.comp_def]

/-- Over the reals `uMean` is the sum of all cells divided by their number. -/
theorem uMean_real (u : Univ ℝ N C H W) :
    uMean u = (∑ n, ∑ c, ∑ i, ∑ j, u n c i j) / (N * C * H * W) := by
  unfold uMean
  rw [dot_ones]
  simp only [sampleCells, Arith.div, Arith.lit]
  push_cast
  congr 1
  have hs : ∀ {β : Type} (n : Nat) (g : Fin n → List ℝ),
      ((List.finRange n).flatMap g).sum = ∑ k, (g k).sum := by
    intro β n g
    rw [List.flatMap, List.sum_flatten, List.map_map]
    simp [Finset.sum, Fin.univ_val_map, List.ofFn_eq_map, Function.comp_def]
  have hm : ∀ (n : Nat) (g : Fin n → ℝ), ((List.finRange n).map g).sum = ∑ k, g k := by
    intro n g
    simp [Finset.sum, Fin.univ_val_map, List.ofFn_eq_map]
  simp only [hs (β := ℝ), hm]

/-- The mean of all cells. -/
noncomputable def Spec.mean (u : Univ ℝ N C H W) : ℝ :=
  (∑ n, ∑ c, ∑ i, ∑ j, u n c i j) / (N * C * H * W)

theorem uMean_mean : (uMean : Univ ℝ N C H W → ℝ) = Spec.mean := funext uMean_real

theorem sampleMean_real (x : Fin C → Grid ℝ H W) :
    sampleMean x = (∑ c, ∑ i, ∑ j, x c i j) / (C * H * W) := by
  have := uMean_real (N := 1) (fun _ => x)
  have e : (List.finRange 1).flatMap (fun _ : Fin 1 => sampleCells x) = sampleCells x := by
    simp [List.finRange_succ]
  unfold uMean at this
  rw [e] at this
  simpa [sampleMean] using this

theorem uMean_zero : uMean (fun _ _ _ _ => 0 : Univ ℝ N C H W) = 0 := by
  rw [uMean_real]; simp

theorem sum4_eq_zero {u : Univ ℝ N C H W} (h : ∀ n c i j, 0 ≤ u n c i j)
    (hs : ∑ n, ∑ c, ∑ i, ∑ j, u n c i j = 0) : u = fun _ _ _ _ => 0 := by
  funext n c i j
  have h1 := (Finset.sum_eq_zero_iff_of_nonneg (fun n _ => Finset.sum_nonneg fun c _ =>
    Finset.sum_nonneg fun i _ => Finset.sum_nonneg fun j _ => h n c i j)).1 hs n (Finset.mem_univ _)
  have h2 := (Finset.sum_eq_zero_iff_of_nonneg (fun c _ =>
    Finset.sum_nonneg fun i _ => Finset.sum_nonneg fun j _ => h n c i j)).1 h1 c (Finset.mem_univ _)
  have h3 := (Finset.sum_eq_zero_iff_of_nonneg (fun i _ =>
    Finset.sum_nonneg fun j _ => h n c i j)).1 h2 i (Finset.mem_univ _)
  exact (Finset.sum_eq_zero_iff_of_nonneg (fun j _ => h n c i j)).1 h3 j (Finset.mem_univ _)

/-- A grid of non-negative cells with mean at most zero is dead. -/
theorem uMean_le_zero {u : Univ ℝ N C H W} (h : ∀ n c i j, 0 ≤ u n c i j) (hm : uMean u ≤ 0) :
    u = fun _ _ _ _ => 0 := by
  rw [uMean_real] at hm
  have h0 : 0 ≤ ∑ n, ∑ c, ∑ i, ∑ j, u n c i j :=
    Finset.sum_nonneg fun n _ => Finset.sum_nonneg fun c _ =>
      Finset.sum_nonneg fun i _ => Finset.sum_nonneg fun j _ => h n c i j
  by_cases hz : (N * C * H * W : ℝ) = 0
  · funext n c i j
    exfalso
    have e1 : (N : ℝ) ≠ 0 := by have := n.isLt; exact_mod_cast (by omega : N ≠ 0)
    have e2 : (C : ℝ) ≠ 0 := by have := c.isLt; exact_mod_cast (by omega : C ≠ 0)
    have e3 : (H : ℝ) ≠ 0 := by have := i.isLt; exact_mod_cast (by omega : H ≠ 0)
    have e4 : (W : ℝ) ≠ 0 := by have := j.isLt; exact_mod_cast (by omega : W ≠ 0)
    exact mul_ne_zero (mul_ne_zero (mul_ne_zero e1 e2) e3) e4 hz
  · have hp : (0 : ℝ) < N * C * H * W := lt_of_le_of_ne (by positivity) (Ne.symm hz)
    rw [div_le_iff₀ hp, zero_mul] at hm
    exact sum4_eq_zero h (le_antisymm hm h0)

/-! ## C11: early stopping is lossless -/

/-- C11: if `f` produces non-negative grids and keeps the dead grid dead, the rollout with early
stopping ends in exactly the grid of the full rollout. -/
theorem rollout_lossless {f : σ → Univ ℝ N C H W → Except PyErr (Univ ℝ N C H W × σ)}
    {P : σ → Prop} (hP : ∀ s u r, P s → f s u = .ok r → P r.2)
    (hnn : ∀ s u r, P s → f s u = .ok r → ∀ n c i j, 0 ≤ r.1 n c i j)
    (hz : ∀ s r, P s → f s (fun _ _ _ _ => 0) = .ok r → r.1 = fun _ _ _ _ => 0) (k : Nat) :
    ∀ (s : σ) (u : Univ ℝ N C H W), P s → ∀ full stopped,
      iterate f k s u = .ok full → haltingRollout f k s u = .ok stopped →
      stopped.1 = full.1 := by
  have dead : ∀ k (s : σ), P s → ∀ full, iterate f k s (fun _ _ _ _ => 0) = .ok full →
      full.1 = fun _ _ _ _ => 0 := by
    intro k
    induction k with
    | zero => intro s _ full h; cases h; rfl
    | succ k ih =>
      intro s hs full h
      obtain ⟨⟨u', s'⟩, h1, h2⟩ := bind_ok h
      have e := hz s _ hs h1
      simp only at e
      subst e
      exact ih s' (hP s _ _ hs h1) full h2
  induction k with
  | zero => intro s u _ full stopped h1 h2; cases h1; cases h2; rfl
  | succ k ih =>
    intro s u hs full stopped h1 h2
    obtain ⟨⟨u', s'⟩, a1, a2⟩ := bind_ok h1
    obtain ⟨⟨u'', s''⟩, b1, b2⟩ := bind_ok h2
    rw [a1] at b1
    cases b1
    simp only at a2 b2
    split at b2
    · rename_i hm
      cases b2
      have e := uMean_le_zero (hnn s u _ hs a1) (by simpa [Arith.le, Arith.zero] using hm)
      simp only at e
      subst e
      exact (dead k s' (hP s _ _ hs a1) full a2).symm
    · exact ih s' u' (hP s _ _ hs a1) full stopped a2 b2

/-- C11 for `CCA`: with non-negative weights and step size and no genesis function positive at
zero, the early stop does not change the final grid, hence neither `active_grid` nor reward. -/
theorem cca_rollout_lossless {ext int : Nat} (ca : CCA ℝ ext int) (w : Fin ext → Fin int → ℝ)
    (hw : ca.weights = .functional w) (hw0 : ∀ e o, 0 ≤ w e o) (hdt : 0 ≤ ca.dt)
    (hg : ∀ g ∈ ca.genesis, g 0 ≤ 0) (k : Nat) (u : Univ ℝ N ext H W)
    (full stopped : Univ ℝ N ext H W × CCA ℝ ext int)
    (h1 : iterate CCA.forward k ca u = .ok full)
    (h2 : haltingRollout CCA.forward k ca u = .ok stopped) :
    stopped.1 = full.1 ∧ activeGrid stopped.1 = activeGrid full.1 ∧
      haltingReward (activeGrid stopped.1) = haltingReward (activeGrid full.1) := by
  have : stopped.1 = full.1 := by
    refine rollout_lossless (f := CCA.forward)
      (P := fun s => s.weights = .functional w ∧ 0 ≤ s.dt ∧ ∀ g ∈ s.genesis, g 0 ≤ 0)
      ?_ ?_ ?_ k ca u ⟨hw, hdt, hg⟩ full stopped h1 h2
    · intro s u r hs h
      obtain ⟨_, _, _, _, _, _, e⟩ := CCA.forward_ok h
      rw [e]; exact hs
    · intro s u r _ h n c i j
      obtain ⟨_, _, _, _, _, _, e⟩ := CCA.forward_ok h
      rw [e]
      exact (clamp01_mem _).1
    · intro s r hs h
      have hi : iterate CCA.forward 1 s (dead N ext H W) = .ok r := by
        simp only [iterate]
        have : CCA.forward s (dead N ext H W) = .ok r := h
        rw [this]; rfl
      exact cca_dead_stays s w hs.1 hw0 hs.2.1 hs.2.2 1 r hi
  exact ⟨this, by rw [this], by rw [this]⟩

/-- A rational automaton that births only where the neighborhood is empty. -/
def Witness.reviver : CCA ℚ 1 1 where
  idL := Witness.idLayer 1 1
  nbL := Witness.mooreLayer 1 1
  genesis := [fun x => if x < 1/100 then 1 else -1]
  persistence := [fun _ => -1]
  weights := .functional fun _ _ => 1
  thr := 1/10
  dt := 1
  t := 0

/-- C11, the exception: for an automaton in which the dead grid revives, the early stop changes
`active_grid` from 1 to 0 (already with the start grid of the wrapper and two steps). -/
theorem rollout_lossless_refuted : ∃ (ca : CCA ℚ 1 1) (rnd : Univ ℚ 1 1 4 4) (full stopped : _),
    (∀ n c i j, 0 ≤ rnd n c i j ∧ rnd n c i j < 1) ∧
    iterate CCA.forward 2 ca (startGrid 4 rnd) = .ok full ∧
    haltingRollout CCA.forward 2 ca (startGrid 4 rnd) = .ok stopped ∧
    activeGrid full.1 = 1 ∧ activeGrid stopped.1 = 0 := by
  have e1 : ∃ full, iterate CCA.forward 2 Witness.reviver
      (startGrid 4 (fun _ _ _ _ => 1/2 : Univ ℚ 1 1 4 4)) = .ok full ∧ activeGrid full.1 = 1 :=
    ⟨_, rfl, by decide +kernel⟩
  have e2 : ∃ stopped : Univ ℚ 1 1 4 4 × CCA ℚ 1 1, haltingRollout CCA.forward 2 Witness.reviver
      (startGrid 4 (fun _ _ _ _ => 1/2 : Univ ℚ 1 1 4 4)) = .ok stopped ∧
      activeGrid stopped.1 = 0 := by
    have hstep : CCA.forward Witness.reviver (startGrid 4 (fun _ _ _ _ => 1/2 : Univ ℚ 1 1 4 4)) =
      .ok ((CCA.forward Witness.reviver
        (startGrid 4 (fun _ _ _ _ => 1/2 : Univ ℚ 1 1 4 4))).toOption.getD
          (fun _ _ _ _ => 0, Witness.reviver)) := rfl
    refine ⟨_, by
      rw [haltingRollout, hstep]
      simp only [bind, Except.bind]
      rw [if_pos (by decide +kernel)]
      rfl, by decide +kernel⟩
  obtain ⟨full, h1, h2⟩ := e1
  obtain ⟨stopped, h3, h4⟩ := e2
  exact ⟨Witness.reviver, _, full, stopped, by intros; norm_num, h1, h3, h2, h4⟩

/-- The hypotheses of `cca_rollout_lossless` for an Orbium-like automaton: genesis
`2·exp(…)-1` at zero is negative. -/
example : ∃ (ca : CCA ℝ 1 1) (w : Fin 1 → Fin 1 → ℝ), ca.weights = .functional w ∧
    (∀ e o, 0 ≤ w e o) ∧ 0 ≤ ca.dt ∧ (∀ g ∈ ca.genesis, g 0 ≤ 0) ∧
    ∀ u : Univ ℝ 2 1 8 8, ∃ r, CCA.forward ca u = .ok r := by
  refine ⟨⟨identityLayer 1 1 .circular, identityLayer 1 1 .circular, [fun x => 4 * x - 1],
    [fun x => 1 - x], .functional fun _ _ => 1, 0.1, 0.1, 0⟩, fun _ _ => 1, rfl, by norm_num,
    by norm_num, by simp, fun u => (cca_runs_iff _ u).2 ⟨⟨rfl, rfl, rfl⟩, ⟨rfl, rfl, rfl⟩, rfl, rfl⟩⟩

/-! ## C48: start grid and reward range -/

/-- C48: for `dim ≥ 4` the start grid is the random pattern on the rows and columns
`[dim//4, dim - dim//4)` and zero elsewhere; for `dim < 4` it is zero everywhere. -/
theorem startGrid_support (dim : Nat) (rnd : Univ ℝ N C dim dim) (n : Fin N) (c : Fin C)
    (i j : Fin dim) :
    startGrid dim rnd n c i j =
      if 4 ≤ dim ∧ (dim / 4 ≤ i.val ∧ i.val < dim - dim / 4) ∧
          (dim / 4 ≤ j.val ∧ j.val < dim - dim / 4) then rnd n c i j else 0 := by
  simp only [startGrid, inTailSlice, Arith.mul, Arith.zero, mul_zero]
  by_cases hd : 4 ≤ dim
  · have h4 : dim / 4 ≠ 0 := by omega
    simp only [h4, if_false, hd, true_and, decide_eq_true_eq]
    split_ifs <;> first | rfl | omega
  · have h4 : dim / 4 = 0 := by omega
    simp [h4, hd]

example : startGrid 8 (fun _ _ _ _ => (1/2 : ℝ) : Univ ℝ 1 1 8 8) 0 0 3 4 = 1/2 ∧
    startGrid 8 (fun _ _ _ _ => (1/2 : ℝ) : Univ ℝ 1 1 8 8) 0 0 1 4 = 0 := by
  rw [startGrid_support, startGrid_support]
  constructor <;> norm_num [Fin.val_ofNat]

/-- The proportion of active samples lies between 0 and 1. -/
theorem activeGrid_range (u : Univ ℝ N C H W) : 0 ≤ activeGrid u ∧ activeGrid u ≤ 1 := by
  have e : activeGrid u = (∑ n, if 0 < sampleMean (u n) then (1 : ℝ) else 0) / N := by
    unfold activeGrid
    have := dot_finRange (n := N) (fun _ => 1) (fun n => if 0 < sampleMean (u n) then (1 : ℝ) else 0)
    simp only [one_mul] at this
    rw [← this]
    simp [Arith.div, Arith.lit, Arith.lt, Arith.zero, Arith.one]
  rw [e]
  constructor
  · exact div_nonneg (Finset.sum_nonneg fun n _ => by split <;> norm_num) (by positivity)
  · refine div_le_one_of_le₀ ?_ (by positivity)
    calc _ ≤ ∑ _n : Fin N, (1 : ℝ) := Finset.sum_le_sum fun n _ => by split <;> norm_num
      _ = N := by simp

/-- C48: what `active_grid` is: the number of samples whose cells have a positive sum, divided by
the number of samples. -/
theorem activeGrid_count (u : Univ ℝ N (C + 1) (H + 1) (W + 1)) :
    activeGrid u =
      ((Finset.univ.filter fun n => 0 < ∑ c, ∑ i, ∑ j, u n c i j).card : ℝ) / N := by
  have hm : ∀ n, 0 < sampleMean (u n) ↔ 0 < ∑ c, ∑ i, ∑ j, u n c i j := fun n => by
    rw [sampleMean_real]
    exact div_pos_iff_of_pos_right (by push_cast; positivity)
  unfold activeGrid
  have := dot_finRange (n := N) (fun _ => 1) (fun n => if 0 < sampleMean (u n) then (1 : ℝ) else 0)
  simp only [one_mul, hm] at this
  rw [Finset.card_filter]
  push_cast
  rw [← this]
  simp [Arith.div, Arith.lit, Arith.lt, Arith.zero, Arith.one, hm]

/-- C48: the rollout stops at the first grid with mean at most zero and goes on otherwise. -/
theorem rollout_step {f : σ → Univ ℝ N C H W → Except PyErr (Univ ℝ N C H W × σ)} {s s' : σ}
    {u u' : Univ ℝ N C H W} (hf : f s u = .ok (u', s')) (k : Nat) :
    (Spec.mean u' ≤ 0 → haltingRollout f (k + 1) s u = .ok (u', s')) ∧
      (0 < Spec.mean u' → haltingRollout f (k + 1) s u = haltingRollout f k s' u') := by
  simp only [haltingRollout, hf, bind, Except.bind, pure, Except.pure, uMean_mean, Arith.le,
    Arith.zero, decide_eq_true_eq]
  exact ⟨fun h => by rw [if_pos h], fun h => by rw [if_neg (not_le.2 h)]⟩

/-- C48: the reward is minus the distance of `active_grid` from 0.5001, so it lies in
`[-0.5001, 0]`. -/
theorem halting_reward_range (u : Univ ℝ N C H W) :
    haltingReward (activeGrid u) = -|0.5001 - activeGrid u| ∧
      -0.5001 ≤ haltingReward (activeGrid u) ∧ haltingReward (activeGrid u) ≤ 0 := by
  obtain ⟨h0, h1⟩ := activeGrid_range u
  have e : haltingReward (activeGrid u) = -|0.5001 - activeGrid u| := by
    rw [haltingReward, Real.sqrt_sq_eq_abs]
  refine ⟨e, ?_, ?_⟩ <;> rw [e]
  · have : |0.5001 - activeGrid u| ≤ 0.5001 := by rw [abs_le]; constructor <;> linarith
    linarith
  · have := abs_nonneg (0.5001 - activeGrid u)
    linarith

/-- C48: the reward is largest (for an even number of samples) exactly when half the samples
are active: any other proportion `k/N` is farther from 0.5001. -/
theorem halting_reward_best (m k : Nat) (hm : 0 < m) (hk : k ≤ 2 * m) (hlarge : m ≤ 1000) :
    haltingReward ((k : ℝ) / (2 * m : Nat)) ≤ haltingReward (1 / 2) ∧
      (haltingReward ((k : ℝ) / (2 * m : Nat)) = haltingReward (1 / 2) → k = m) := by
  have hm' : (0 : ℝ) < m := by exact_mod_cast hm
  have hm2 : (m : ℝ) ≤ 1000 := by exact_mod_cast hlarge
  simp only [haltingReward, Real.sqrt_sq_eq_abs]
  have e2 : |(0.5001 : ℝ) - 1 / 2| = 0.0001 := by rw [abs_of_pos] <;> norm_num
  rw [e2]
  push_cast
  rcases lt_trichotomy k m with h | h | h
  · have hk1 : (k : ℝ) + 1 ≤ m := by exact_mod_cast h
    have : (k : ℝ) / (2 * m) ≤ 1 / 2 - 1 / (2 * m) := by
      rw [div_le_iff₀ (by positivity)]; field_simp; linarith
    have h2 : (1 : ℝ) / 2000 ≤ 1 / (2 * m) := one_div_le_one_div_of_le (by positivity) (by linarith)
    have h3 : (0.0001 : ℝ) < |0.5001 - (k : ℝ) / (2 * m)| := by
      rw [abs_of_pos] <;> norm_num at * <;> linarith
    exact ⟨by linarith, fun he => by linarith⟩
  · subst h
    have : (k : ℝ) / (2 * k) = 1 / 2 := by field_simp
    rw [this, e2]
    exact ⟨le_refl _, fun _ => rfl⟩
  · have hk1 : (m : ℝ) + 1 ≤ k := by exact_mod_cast h
    have : 1 / 2 + 1 / (2 * m) ≤ (k : ℝ) / (2 * m) := by
      rw [le_div_iff₀ (by positivity)]; field_simp; linarith
    have h2 : (1 : ℝ) / 2000 ≤ 1 / (2 * m) := one_div_le_one_div_of_le (by positivity) (by linarith)
    have h3 : (0.0001 : ℝ) < |0.5001 - (k : ℝ) / (2 * m)| := by
      rw [abs_of_neg] <;> norm_num at * <;> linarith
    exact ⟨by linarith, fun he => by linarith⟩

/-! ## C59, C60: HaltingWrapper -/

/-- A prediction is right for a 0/1 label when it is above one half exactly for
label 1. -/
def Spec.Right (label : Bool) (p : ℝ) : Prop := (label = true ↔ 1 / 2 < p)

theorem round_label (b : Bool) : clampInt (torchRound (if b then 1 else 0)) = if b then 1 else 0 := by
  cases b <;> simp [torchRound, clampInt]

theorem round_prediction (p : ℝ) : clampInt (torchRound p) = if 1 / 2 < p then 1 else 0 := by
  have hfl := Int.floor_le p
  have hfr : Int.fract p = p - ⌊p⌋ := rfl
  rcases lt_or_ge p 0 with hneg | h0
  · have hf : ⌊p⌋ ≤ -1 := by
      have : ⌊p⌋ < 0 := Int.floor_lt.2 (by simpa using hneg)
      omega
    have ht : torchRound p ≤ 0 := by unfold torchRound; split_ifs <;> omega
    rw [if_neg (by linarith)]
    unfold clampInt
    omega
  rcases lt_or_ge p 1 with h1 | h1
  · have hf : ⌊p⌋ = 0 := Int.floor_eq_iff.2 ⟨by simpa using h0, by simpa using h1⟩
    have hfr : Int.fract p = p := by rw [Int.fract, hf]; simp
    simp only [torchRound, hfr, hf]
    rcases lt_trichotomy p (1 / 2) with h | h | h
    · rw [if_pos h, if_neg (by linarith)]; rfl
    · rw [if_neg (by linarith), if_neg (by linarith), if_pos (by rfl), if_neg (by linarith)]; rfl
    · rw [if_neg (by linarith), if_pos h, if_pos h]; rfl
  · have hf : 1 ≤ ⌊p⌋ := Int.le_floor.2 (by simpa using h1)
    have ht : 1 ≤ torchRound p := by unfold torchRound; split_ifs <;> omega
    rw [if_pos (by linarith)]
    unfold clampInt
    omega

open Classical in
/-- C59: the reward of `HaltingWrapper` is minus the proportion of right predictions. -/
theorem predictor_reward {K : Nat} (p : Fin K → ℝ) (label : Fin K → Bool) :
    haltingPredictorReward p (fun i => if label i then 1 else 0) =
      -((Finset.univ.filter fun i => Right (label i) (p i)).card / K : ℝ) := by
  unfold haltingPredictorReward accuracy
  congr 2
  rw [Finset.card_filter]
  push_cast
  refine Finset.sum_congr rfl fun i _ => ?_
  rw [round_label, round_prediction]
  by_cases h : 1 / 2 < p i
  · simp only [Right, h]; cases label i <;> simp
  · simp only [Right, h]; cases label i <;> simp

/-- C59: a flawless predictor gets the worst possible reward, -1, one that is always wrong the
best, 0. -/
theorem predictor_reward_worst {K : Nat} (hK : 0 < K) (p : Fin K → ℝ)
    (label : Fin K → Bool) :
    (-1 ≤ haltingPredictorReward p (fun i => if label i then 1 else 0) ∧
      haltingPredictorReward p (fun i => if label i then 1 else 0) ≤ 0) ∧
    (haltingPredictorReward p (fun i => if label i then 1 else 0) = -1 ↔
      ∀ i, Right (label i) (p i)) ∧
    (haltingPredictorReward p (fun i => if label i then 1 else 0) = 0 ↔
      ∀ i, ¬ Right (label i) (p i)) := by
  classical
  rw [predictor_reward p label]
  set S := Finset.univ.filter fun i => Right (label i) (p i) with hS
  have hc : S.card ≤ K := by simpa using Finset.card_le_univ S
  have hK' : (0 : ℝ) < K := by exact_mod_cast hK
  have hc' : (S.card : ℝ) ≤ K := by exact_mod_cast hc
  refine ⟨⟨?_, ?_⟩, ?_, ?_⟩
  · have : (S.card : ℝ) / K ≤ 1 := (div_le_one hK').2 hc'
    linarith
  · have : 0 ≤ (S.card : ℝ) / K := by positivity
    linarith
  · rw [neg_inj, div_eq_one_iff_eq hK'.ne']
    constructor
    · intro h
      have : S.card = Fintype.card (Fin K) := by
        rw [Fintype.card_fin]; exact_mod_cast h
      have := (Finset.card_eq_iff_eq_univ S).1 this
      intro i
      have hi : i ∈ S := by rw [this]; exact Finset.mem_univ i
      exact (Finset.mem_filter.1 hi).2
    · intro h
      have : S = Finset.univ := by
        ext i; simp [hS, h i]
      rw [this]; simp
  · rw [neg_eq_zero, div_eq_zero_iff, or_iff_left hK'.ne', Nat.cast_eq_zero, Finset.card_eq_zero,
      Finset.filter_eq_empty_iff]
    simp

example : ∀ i : Fin 2, 0 ≤ (![0.2, 0.9] : Fin 2 → ℝ) i ∧ (![0.2, 0.9] : Fin 2 → ℝ) i ≤ 1 := by
  intro i; fin_cases i <;> norm_num

/-- C60: a sample labelled active while training (mean above 0.0001) is also labelled active
when the reward is computed (maximum above 0.00001). -/
theorem train_label_eval (x : Fin C → Grid ℝ H W) (h : trainLabel x) : evalLabel x := by
  by_contra hn
  unfold evalLabel at hn
  push Not at hn
  unfold trainLabel at h
  rw [sampleMean_real] at h
  have hs : ∑ c, ∑ i, ∑ j, x c i j ≤ (C * H * W : ℝ) * 0.00001 := by
    calc _ ≤ ∑ _c : Fin C, ∑ _i : Fin H, ∑ _j : Fin W, (0.00001 : ℝ) :=
          Finset.sum_le_sum fun c _ => Finset.sum_le_sum fun i _ => Finset.sum_le_sum fun j _ => hn c i j
      _ = _ := by simp; ring
  by_cases hz : (C * H * W : ℝ) = 0
  · rw [hz, div_zero] at h; norm_num at h
  · have hp : (0 : ℝ) < C * H * W := lt_of_le_of_ne (by positivity) (Ne.symm hz)
    rw [lt_div_iff₀ hp] at h
    linarith

example : trainLabel (fun _ _ _ => 1 : Fin 1 → Grid ℝ 2 2) := by
  unfold trainLabel
  rw [sampleMean_real]
  norm_num

/-- C60, the gap: on the default 128x128 grid a pattern of one full cell is labelled
"vanished" while training and "active" when the reward is computed. -/
theorem labels_differ_refuted : ∃ x : Fin 1 → Grid ℝ 128 128,
    (∀ c i j, 0 ≤ x c i j ∧ x c i j ≤ 1) ∧ evalLabel x ∧ ¬ trainLabel x := by
  refine ⟨fun _ i j => if i = 64 ∧ j = 64 then 1 else 0, ?_, ?_, ?_⟩
  · intro c i j; dsimp only; split <;> norm_num
  · exact ⟨0, 64, 64, by norm_num⟩
  · unfold trainLabel
    rw [sampleMean_real]
    have : ∑ _c : Fin 1, ∑ i : Fin 128, ∑ j : Fin 128,
        (if i = 64 ∧ j = 64 then (1 : ℝ) else 0) = 1 := by
      simp only [Finset.univ_unique, Finset.sum_const, Finset.card_singleton, one_smul, ite_and]
      rw [Finset.sum_eq_single 64]
      · simp
      · intro i _ hi; simp [hi]
      · simp
    rw [this]
    norm_num

/-! ## C49, C61, C62: GliderWrapper -/

section Glider

variable {f : σ → Univ ℝ (N + 1) C D D → Except PyErr (Univ ℝ (N + 1) C D D × σ)}

/-- Centre of mass of sample 0 along the columns, in kernel radii, with the weight of the whole
batch as total. -/
noncomputable def Spec.columnCentre (radius : ℝ) (u : Univ ℝ (N + 1) C D D) : ℝ :=
  (∑ c, ∑ i : Fin D, ∑ j : Fin D, u 0 c i j * (j / radius)) /
    (∑ n, ∑ c, ∑ i, ∑ j, u n c i j + 1 / 1000000)

/-- Largest column index, in kernel radii. -/
noncomputable def Spec.span (radius : ℝ) (D : Nat) : ℝ := ((D : ℝ) - 1) / radius

theorem centreOfMass_eq : (centreOfMass : ℝ → Univ ℝ (N + 1) C D D → ℝ) = columnCentre := by
  funext radius u
  unfold centreOfMass columnCentre
  congr 1
  · exact Finset.sum_congr rfl fun c _ => Finset.sum_congr rfl fun i _ =>
      Finset.sum_congr rfl fun j _ => mul_comm _ _
  · rw [add_comm]; norm_num

theorem kernelSpan_eq (radius : ℝ) (D : Nat) : kernelSpan radius D = span radius D := rfl

/-- The rollout ends after the step from `u` to `u'`: the new grid has mean zero or no cell
grew by more than 1e-5. -/
def Spec.GliderStops (u u' : Univ ℝ (N + 1) C D D) : Prop :=
  mean u' = 0 ∨ ∀ n c i j, u' n c i j - u n c i j ≤ 1e-5

/-- `gs` are the grids a rollout of at most `k` steps from `u` visits. -/
inductive Spec.GliderRun (f : σ → Univ ℝ (N + 1) C D D → Except PyErr (Univ ℝ (N + 1) C D D × σ)) :
    Nat → σ → Univ ℝ (N + 1) C D D → List (Univ ℝ (N + 1) C D D) → Prop where
  | over (s u) : GliderRun f 0 s u []
  | stop {k s u u' s'} : f s u = .ok (u', s') → GliderStops u u' → GliderRun f (k + 1) s u [u']
  | go {k s u u' s' gs} : f s u = .ok (u', s') → ¬ GliderStops u u' → GliderRun f k s' u' gs →
      GliderRun f (k + 1) s u (u' :: gs)

/-- Consecutive pairs. -/
def Spec.pairs {β : Type} : List β → List (β × β)
  | a :: b :: l => (a, b) :: Spec.pairs (b :: l)
  | _ => []

open Classical in
/-- How often the centre of mass jumps from the right edge to the left edge. -/
noncomputable def Spec.wraps (span : ℝ) (ys : List ℝ) : Nat :=
  (pairs ys).countP fun p => span - 2 < p.1 ∧ p.2 < 2

/-- Sum of the relative changes of the mean. -/
noncomputable def Spec.growthSum (ms : List ℝ) : ℝ :=
  ((pairs ms).map fun p => |1 - p.2 / (p.1 + 1e-6)|).sum

theorem growthSum_nonneg (ms : List ℝ) : 0 ≤ growthSum ms :=
  List.sum_nonneg (by simp only [List.mem_map]; rintro _ ⟨p, _, rfl⟩; exact abs_nonneg _)

theorem gliderBody_ok {radius : ℝ} {v : GliderVars σ N C D} {r : GliderVars σ N C D × Bool}
    (h : gliderBody f radius v = .ok r) :
    ∃ u' s', f v.s v.action = .ok (u', s') ∧ r.1.s = s' ∧ r.1.action = u' ∧ r.1.old = u' ∧
      r.1.mean0 = uMean u' ∧ r.1.y0 = centreOfMass radius u' ∧
      (∃ d g, r.1.last = some (d, g)) ∧
      (v.y0 = 0 → r.1.reward = v.reward - |1 - uMean u' / (v.mean0 + 1e-6)|) ∧
      (v.y0 ≠ 0 → r.1.reward = v.reward + (centreOfMass radius u' - v.y0) +
        kernelSpan radius D * wraps (kernelSpan radius D) [v.y0, centreOfMass radius u'] -
        |1 - uMean u' / (v.mean0 + 1e-6)|) ∧
      (r.2 = true ↔ mean u' = 0 ∨ ∀ n c i j, u' n c i j - v.old n c i j ≤ 1e-5) := by
  rw [← uMean_mean]
  obtain ⟨⟨u', s'⟩, h1, h2⟩ := bind_ok h
  cases h2
  refine ⟨u', s', h1, rfl, rfl, rfl, rfl, rfl, ⟨_, _, rfl⟩, ?_, ?_, ?_⟩
  · intro hy
    simp only [hy, ne_eq, not_true, if_false, growthPenalty]
    ring
  · intro hy
    simp only [hy, ne_eq, not_false_iff, if_true, growthPenalty, wraps, pairs, List.countP_cons,
      List.countP_nil]
    by_cases hw : kernelSpan radius D - 2 < v.y0 ∧ centreOfMass radius u' < 2
    · simp only [hw, if_true, decide_true, and_self]; push_cast; ring
    · simp only [hw, if_false, decide_false]; simp; ring
  · simp

theorem wraps_cons (span a b : ℝ) (l : List ℝ) :
    wraps span (a :: b :: l) = wraps span [a, b] + wraps span (b :: l) := by
  simp [wraps, pairs, List.countP_cons, add_comm]

theorem growthSum_cons (a b : ℝ) (l : List ℝ) :
    growthSum (a :: b :: l) = |1 - b / (a + 1e-6)| + growthSum (b :: l) := by
  simp [growthSum, pairs]

theorem gliderLoop_spec {radius : ℝ} (k : Nat) : ∀ (v v' : GliderVars σ N C D),
    v.old = v.action → gliderLoop f radius k v = .ok v' →
    ∃ gs, GliderRun f k v.s v.action gs ∧ (gs = [] → v' = v) ∧
      (gs ≠ [] → ∃ d g, v'.last = some (d, g)) ∧
      ((∀ y ∈ (v.y0 :: gs.map (centreOfMass radius)).dropLast, y ≠ 0) →
        v'.reward = v.reward +
          ((v.y0 :: gs.map (centreOfMass radius)).getLast (by simp) - v.y0) +
          kernelSpan radius D * wraps (kernelSpan radius D) (v.y0 :: gs.map (centreOfMass radius)) -
          growthSum (v.mean0 :: gs.map uMean)) := by
  induction k with
  | zero =>
    intro v v' _ h
    cases h
    exact ⟨[], .over _ _, fun _ => rfl, fun h => absurd rfl h,
      fun _ => by simp [wraps, growthSum, pairs]⟩
  | succ k ih =>
    intro v v' hold h
    obtain ⟨⟨v1, stop⟩, h1, h2⟩ := bind_ok h
    obtain ⟨u', s', hf, es, ea, eo, em, ey, hl, _, hr, hst⟩ := gliderBody_ok h1
    rw [hold] at hst
    simp only at es ea eo em ey hl hr hst h2
    cases stop with
    | true =>
      simp only [if_true] at h2
      cases h2
      refine ⟨[u'], .stop hf (hst.1 rfl), by simp, fun _ => hl, fun hy => ?_⟩
      rw [hr (hy _ (by simp))]
      simp [growthSum, pairs]
    | false =>
      simp only [Bool.false_eq_true, if_false] at h2
      have hns : ¬ GliderStops v.action u' := fun hs => by simpa using hst.2 hs
      obtain ⟨gs, a1, a2, a3, a4⟩ := ih v1 v' (by rw [eo, ea]) h2
      rw [es, ea] at a1
      refine ⟨u' :: gs, .go hf hns a1, by simp, fun _ => ?_, fun hy => ?_⟩
      · by_cases hg : gs = []
        · rw [a2 hg]; exact hl
        · exact a3 hg
      · rw [ey, em] at a4
        have hy0 : v.y0 ≠ 0 := hy _ (by simp)
        have := a4 (fun y hy' => hy y (by
          simp only [List.map_cons, List.dropLast_cons_cons, List.mem_cons]
          exact .inr hy'))
        rw [this, hr hy0]
        simp only [List.map_cons]
        have e := List.getLast_cons (a := v.y0)
          (l := centreOfMass radius u' :: gs.map (centreOfMass radius)) (by simp)
        rw [wraps_cons _ v.y0 _ (gs.map (centreOfMass radius)), growthSum_cons, e]
        push_cast
        ring

theorem glider_telescopes_aux (reset : σ → σ) (radius : ℝ) (caSteps : Nat) (s : σ)
    (a : Univ ℝ (N + 1) C D D) (out : ℝ × ℝ × ℝ)
    (h : gliderStep f reset radius caSteps s a = .ok out) :
    ∃ g gs, GliderRun f caSteps (reset s) a (g :: gs) ∧
      ((∀ y ∈ ((g :: gs).map (centreOfMass radius)).dropLast, y ≠ 0) →
        out.1 = (((g :: gs).map (centreOfMass radius)).getLast (by simp) - centreOfMass radius g) +
          kernelSpan radius D *
            wraps (kernelSpan radius D) ((g :: gs).map (centreOfMass radius)) -
          growthSum ((a :: g :: gs).map uMean)) := by
  obtain ⟨v, h1, h2⟩ := bind_ok h
  cases caSteps with
  | zero => cases h1; cases h2
  | succ k =>
    obtain ⟨⟨v1, stop⟩, b1, b2⟩ := bind_ok h1
    obtain ⟨u', s', hf, es, ea, eo, em, ey, ⟨d, g, hl⟩, hr, _, hst⟩ := gliderBody_ok b1
    simp only at es ea eo em ey hl hr hst b2 hf
    have hr := hr trivial
    cases stop with
    | true =>
      simp only [if_true] at b2
      cases b2
      rw [hl] at h2
      cases h2
      refine ⟨u', [], .stop hf (hst.1 rfl), fun _ => ?_⟩
      simp only at *
      rw [hr]
      simp [wraps, growthSum, pairs]
    | false =>
      simp only [Bool.false_eq_true, if_false] at b2
      have hns : ¬ GliderStops a u' := fun hs => by simpa using hst.2 hs
      obtain ⟨gs, a1, a2, a3, a4⟩ := gliderLoop_spec k v1 v (by rw [eo, ea]) b2
      rw [es, ea] at a1
      refine ⟨u', gs, .go hf hns a1, fun hy => ?_⟩
      rw [ey, em] at a4
      have hv : out.1 = v.reward := by
        cases hvl : v.last with
        | none => rw [hvl] at h2; cases h2
        | some p => rw [hvl] at h2; cases h2; rfl
      rw [hv, a4 hy, hr]
      simp only [List.map_cons]
      rw [growthSum_cons]
      ring

/-- C49: the reward of a `GliderWrapper` episode.  `g` is the grid after the first step, `gs`
the grids after it.  As long as the centre of mass is never exactly zero before the last step,
the reward is the net displacement of the centre of mass after the first step, plus one span
per wrap-around, minus the accumulated growth penalty. -/
theorem glider_telescopes (reset : σ → σ) (radius : ℝ) (caSteps : Nat) (s : σ)
    (a : Univ ℝ (N + 1) C D D) (out : ℝ × ℝ × ℝ)
    (h : gliderStep f reset radius caSteps s a = .ok out) :
    ∃ g gs, GliderRun f caSteps (reset s) a (g :: gs) ∧
      ((∀ y ∈ ((g :: gs).map (columnCentre radius)).dropLast, y ≠ 0) →
        out.1 = (((g :: gs).map (columnCentre radius)).getLast (by simp) - columnCentre radius g) +
          span radius D *
            wraps (span radius D) ((g :: gs).map (columnCentre radius)) -
          growthSum ((a :: g :: gs).map mean)) := by
  rw [← centreOfMass_eq, ← uMean_mean, ← kernelSpan_eq]
  exact glider_telescopes_aux reset radius caSteps s a out h

/-- C49: the growth penalty can only lower the reward. -/
theorem glider_reward_bound (reset : σ → σ) (radius : ℝ) (caSteps : Nat) (s : σ)
    (a : Univ ℝ (N + 1) C D D) (out : ℝ × ℝ × ℝ)
    (h : gliderStep f reset radius caSteps s a = .ok out) :
    ∃ g gs, GliderRun f caSteps (reset s) a (g :: gs) ∧
      ((∀ y ∈ ((g :: gs).map (columnCentre radius)).dropLast, y ≠ 0) →
        out.1 ≤ (((g :: gs).map (columnCentre radius)).getLast (by simp) - columnCentre radius g) +
          span radius D *
            wraps (span radius D) ((g :: gs).map (columnCentre radius))) := by
  obtain ⟨g, gs, h1, h2⟩ := glider_telescopes reset radius caSteps s a out h
  refine ⟨g, gs, h1, fun hy => ?_⟩
  rw [h2 hy]
  linarith [growthSum_nonneg ((a :: g :: gs).map mean)]

/-- C49: with `ca_steps = 0` the call raises. -/
theorem glider_zero_steps (reset : σ → σ) (radius : ℝ) (s : σ) (a : Univ ℝ (N + 1) C D D) :
    gliderStep f reset radius 0 s a = .error .unbound := rfl

/-- C61: if after the first step no cell has grown by more than 1e-5 (a shrinking pattern, however
much it changed), the episode is over: the automaton is not called again and the reward is minus
the growth penalty of that one step. -/
theorem glider_shrink_stops (reset : σ → σ) (radius : ℝ) (k : Nat) {s s' : σ}
    {u u' : Univ ℝ (N + 1) C D D} (hf : f (reset s) u = .ok (u', s'))
    (hle : ∀ n c i j, u' n c i j - u n c i j ≤ 1e-5) :
    gliderStep f reset radius (k + 1) s u =
      .ok (-|1 - mean u' / (mean u + 1e-6)|, 0, |1 - mean u' / (mean u + 1e-6)|) := by
  simp only [gliderStep, gliderLoop, gliderBody, hf, bind, Except.bind, pure, Except.pure]
  rw [if_pos (by simpa using Or.inr hle)]
  simp [growthPenalty, uMean_mean]

/-- C61: conversely, a live pattern of which some cell has grown by more than 1e-5 is stepped
again: if that call raises, so does the episode. -/
theorem glider_goes_on (reset : σ → σ) (radius : ℝ) (k : Nat) {s s' : σ}
    {u u' : Univ ℝ (N + 1) C D D} (hf : f (reset s) u = .ok (u', s')) (hm : mean u' ≠ 0)
    (hgt : ∃ n c i j, 1e-5 < u' n c i j - u n c i j) {e : PyErr} (he : f s' u' = .error e) :
    gliderStep f reset radius (k + 2) s u = .error e := by
  obtain ⟨n, c, i, j, hg⟩ := hgt
  simp only [gliderStep, gliderLoop, gliderBody, hf, bind, Except.bind, pure, Except.pure]
  rw [if_neg (by
    simp only [decide_eq_true_eq, uMean_mean]
    rintro (h | h)
    · exact hm h
    · exact absurd (h n c i j) (not_le.2 hg))]
  simp [he]

/-- C61, for every step of the episode: the grids of a run that goes on to the next one all have
a cell that grew by more than 1e-5, and the run is over at the first that has none. -/
theorem glider_run_stop {k : Nat} {s : σ} {u u' : Univ ℝ (N + 1) C D D} {s' : σ}
    (hf : f s u = .ok (u', s')) (hm : mean u' ≠ 0)
    {gs : List (Univ ℝ (N + 1) C D D)} (h : GliderRun f (k + 2) s u gs) :
    gs = [u'] ↔ ∀ n c i j, u' n c i j - u n c i j ≤ 1e-5 := by
  constructor
  · rintro rfl
    cases h with
    | stop h1 h2 =>
      rcases h2 with h2 | h2
      · exact absurd h2 hm
      · exact h2
    | go h1 h2 h3 => cases h3
  · intro hle
    cases h with
    | stop h1 _ => rw [hf] at h1; cases h1; rfl
    | go h1 h2 _ => rw [hf] at h1; cases h1; exact absurd (.inr hle) h2

/-- C61: halving every cell at each step keeps changing the grid for ever, but is stopped after
one step: the episode of any length has the reward of that step. -/
theorem glider_stop_not_static_refuted : ∃ (f : Unit → Univ ℝ 1 1 2 2 →
      Except PyErr (Univ ℝ 1 1 2 2 × Unit)) (u : Univ ℝ 1 1 2 2),
    (∀ k, gliderStep f id 1 (k + 1) () u = gliderStep f id 1 1 () u) ∧
    ∀ n, ∃ r r', iterate f n () u = .ok r ∧ iterate f (n + 1) () u = .ok r' ∧
      mean r'.1 ≠ 0 ∧ r'.1 ≠ r.1 := by
  have hit : ∀ n (u : Univ ℝ 1 1 2 2), iterate (fun (_ : Unit) (u : Univ ℝ 1 1 2 2) =>
      (.ok (fun n c i j => u n c i j / 2, ()) : Except PyErr (Univ ℝ 1 1 2 2 × Unit))) n () u =
        .ok (fun m c i j => u m c i j / 2 ^ n, ()) := by
    intro n
    induction n with
    | zero => intro u; simp [iterate]
    | succ n ih =>
      intro u
      simp only [iterate, bind, Except.bind, ih]
      congr 2
      funext m c i j
      rw [pow_succ]; field_simp
  refine ⟨fun _ u => .ok (fun n c i j => u n c i j / 2, ()), fun _ _ _ _ => 1, fun k => ?_, ?_⟩
  · rw [glider_shrink_stops id 1 k (u' := fun _ _ _ _ => 1 / 2) (s' := ()) rfl (by intros; norm_num),
      glider_shrink_stops id 1 0 (u' := fun _ _ _ _ => 1 / 2) (s' := ()) rfl (by intros; norm_num)]
  · intro n
    refine ⟨_, _, hit n _, hit (n + 1) _, ?_, fun h => ?_⟩
    · simp [Spec.mean]
    · have := congrFun (congrFun (congrFun (congrFun h 0) 0) 0) 0
      simp only at this
      rw [pow_succ] at this
      field_simp at this
      norm_num at this

example : ∃ u u' : Univ ℝ 1 1 4 4, mean u' ≠ 0 ∧ ∃ n c i j, 1e-5 < u' n c i j - u n c i j :=
  ⟨fun _ _ _ _ => 0, fun _ _ _ _ => 1, by simp [Spec.mean], 0, 0, 0, 0, by norm_num⟩

/-- C62: only sample 0 enters the numerator of the centre of mass but the whole batch the
denominator: `N+1` copies of one pattern divide its position by about `N+1`. -/
theorem com_batch_dilution (radius : ℝ) (x : Fin C → Grid ℝ D D) (hx : ∀ c i j, 0 ≤ x c i j) :
    centreOfMass radius (fun _ : Fin (N + 1) => x) * (1e-6 + (N + 1) * ∑ c, ∑ i, ∑ j, x c i j) =
      centreOfMass radius (fun _ : Fin 1 => x) * (1e-6 + ∑ c, ∑ i, ∑ j, x c i j) := by
  have hS : 0 ≤ ∑ c, ∑ i, ∑ j, x c i j :=
    Finset.sum_nonneg fun c _ => Finset.sum_nonneg fun i _ => Finset.sum_nonneg fun j _ => hx c i j
  have h1 : 1e-6 + (N + 1) * ∑ c, ∑ i, ∑ j, x c i j ≠ (0 : ℝ) := by positivity
  have h2 : 1e-6 + ∑ c, ∑ i, ∑ j, x c i j ≠ (0 : ℝ) := by positivity
  unfold centreOfMass
  simp only [Finset.sum_const, Finset.card_univ, Fintype.card_fin, nsmul_eq_mul]
  push_cast
  rw [div_mul_cancel₀ _ h1]
  rw [one_mul, div_mul_cancel₀ _ h2]

/-- C62: for a live pattern (non-negative cells) the shown displacement of a batch of `N+1`
copies is strictly smaller than that of a single copy whenever the latter is positive. -/
theorem com_batch_smaller (hN : 0 < N) (radius : ℝ) (x : Fin C → Grid ℝ D D)
    (hx : ∀ c i j, 0 ≤ x c i j) (hpos : 0 < centreOfMass radius (fun _ : Fin 1 => x)) :
    centreOfMass radius (fun _ : Fin (N + 1) => x) < centreOfMass radius (fun _ : Fin 1 => x) := by
  have hS : 0 ≤ ∑ c, ∑ i, ∑ j, x c i j :=
    Finset.sum_nonneg fun c _ => Finset.sum_nonneg fun i _ => Finset.sum_nonneg fun j _ => hx c i j
  have hN' : (1 : ℝ) ≤ N := by exact_mod_cast hN
  have hSpos : 0 < ∑ c, ∑ i, ∑ j, x c i j := by
    rcases eq_or_lt_of_le hS with h | h
    · exfalso
      have hz : (fun _ : Fin 1 => x) = fun _ _ _ _ => 0 :=
        sum4_eq_zero (fun _ c i j => hx c i j) (by simpa using h.symm)
      rw [hz] at hpos
      simp [centreOfMass] at hpos
    · exact h
  have h := com_batch_dilution (N := N) radius x hx
  set S := ∑ c, ∑ i, ∑ j, x c i j
  set A := centreOfMass radius (fun _ : Fin (N + 1) => x)
  set B := centreOfMass radius (fun _ : Fin 1 => x)
  have hd : (0 : ℝ) < 1e-6 + (N + 1) * S := by positivity
  by_contra hc
  push Not at hc
  have h3 : B * (1e-6 + (N + 1) * S) ≤ A * (1e-6 + (N + 1) * S) :=
    mul_le_mul_of_nonneg_right hc hd.le
  rw [h] at h3
  have h4 : 0 < B * (N * S) := mul_pos hpos (mul_pos (by linarith) hSpos)
  nlinarith

example : ∃ x : Fin 1 → Grid ℝ 4 4, (∀ c i j, 0 ≤ x c i j) ∧
    0 < centreOfMass 1 (fun _ : Fin 1 => x) := by
  refine ⟨fun _ _ _ => 1, by intros; norm_num, ?_⟩
  unfold centreOfMass
  norm_num [Fin.sum_univ_succ]

/-- The episode always returns when the automaton never raises and `ca_steps > 0`. -/
theorem glider_returns (hf : ∀ s u, ∃ r, f s u = .ok r) (reset : σ → σ) (radius : ℝ) (k : Nat)
    (s : σ) (a : Univ ℝ (N + 1) C D D) :
    ∃ out, gliderStep f reset radius (k + 1) s a = .ok out := by
  have body : ∀ v : GliderVars σ N C D, ∃ r, gliderBody f radius v = .ok r ∧ r.1.last ≠ none := by
    intro v
    obtain ⟨⟨u', s'⟩, h⟩ := hf v.s v.action
    unfold gliderBody
    rw [h]
    exact ⟨_, rfl, by simp⟩
  have loop : ∀ k (v : GliderVars σ N C D), v.last ≠ none →
      ∃ v', gliderLoop f radius k v = .ok v' ∧ v'.last ≠ none := by
    intro k
    induction k with
    | zero => intro v hv; exact ⟨v, rfl, hv⟩
    | succ k ih =>
      intro v _
      obtain ⟨⟨v1, stop⟩, h1, h2⟩ := body v
      rw [gliderLoop, h1]
      cases stop
      · exact ih v1 h2
      · exact ⟨v1, rfl, h2⟩
  have loop' : ∀ v : GliderVars σ N C D,
      ∃ v', gliderLoop f radius (k + 1) v = .ok v' ∧ v'.last ≠ none := by
    intro v
    obtain ⟨⟨v1, stop⟩, h1, h2⟩ := body v
    rw [gliderLoop, h1]
    cases stop
    · exact loop k v1 h2
    · exact ⟨v1, rfl, h2⟩
  unfold gliderStep
  obtain ⟨v', h1, h2⟩ := loop' _
  rw [h1]
  cases hl : v'.last with
  | none => exact absurd hl h2
  | some p =>
    refine ⟨(v'.reward, p.1, p.2), ?_⟩
    simp only [bind, Except.bind, hl]
    rfl

/-- A concrete episode: shift everything one column to the right each step. -/
example : ∃ out, gliderStep (σ := Unit) (N := 0) (C := 1) (D := 8)
    (fun _ u => .ok (fun n c i j => u n c i (j - 1), ())) id 1 5 ()
    (fun _ _ i j => if i = 2 ∧ j = 3 then 1 else 0) = .ok out :=
  glider_returns (fun _ _ => ⟨_, rfl⟩) id 1 4 () _

end Glider

end Yuca
