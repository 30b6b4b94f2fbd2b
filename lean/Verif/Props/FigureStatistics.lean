import Verif.Model.Figures
import Mathlib.Tactic.FieldSimp
import Mathlib.Tactic.Linarith
import Verif.Props.LeniaLife

/-!
# C135: the statistics of runs
-/

namespace Yuca

open Spec

/-! ## When the measurements are made -/

section Stat

variable {β E K : Type}

theorem statRounds_eq (step : β → β) (h : β → E) (mean : β → K) (steps every : Nat) (grid : β)
    (n : Nat) :
    (List.range n).foldl (statRound step h mean steps every) ⟨[], [], [], grid⟩ =
      { h := ((List.range n).filter fun k => k % every = 0 ∨ k = steps - 1).map
          fun k => h (step^[k] grid)
        at_ := (List.range n).filter fun k => k % every = 0 ∨ k = steps - 1
        means := (List.range n).map fun k => mean (step^[k + 1] grid)
        grid := step^[n] grid } := by
  induction n with
  | zero => rfl
  | succ n ih =>
    rw [List.range_succ, List.foldl_append, ih]
    simp only [List.foldl_cons, List.foldl_nil, statRound, List.filter_append, List.map_append,
      List.filter_cons, List.filter_nil, List.map_cons, List.map_nil,
      Function.iterate_succ_apply', Bool.or_eq_true, decide_eq_true_eq]
    split <;> simp

/-- C135: what a run of the statistics records: a measurement before the step at every multiple of
a tenth of the steps and at the last step, the mean after every step. -/
theorem stat_records (step : β → β) (h : β → E) (mean : β → K) (steps : Nat) (hs : 10 ≤ steps)
    (grid : β) :
    ∃ s, statLoop step h mean steps grid = .ok s ∧
      s.at_ = (List.range steps).filter (fun k => k % (steps / 10) = 0 ∨ k = steps - 1) ∧
      s.h = s.at_.map (fun k => h (step^[k] grid)) ∧
      s.means = (List.range steps).map (fun k => mean (step^[k + 1] grid)) ∧
      s.grid = step^[steps] grid ∧ statEnd step steps s = step^[2 * steps] grid := by
  refine ⟨⟨((List.range steps).filter fun k => k % (steps / 10) = 0 ∨ k = steps - 1).map
      fun k => h (step^[k] grid), (List.range steps).filter fun k =>
        k % (steps / 10) = 0 ∨ k = steps - 1, (List.range steps).map fun k =>
        mean (step^[k + 1] grid), step^[steps] grid⟩, ?_, rfl, rfl, rfl, rfl, ?_⟩
  · unfold statLoop
    rw [if_neg (by omega), statRounds_eq]
  · simp only [statEnd, ← Function.iterate_add_apply]
    rw [show steps + steps = 2 * steps by omega]

/-- Fewer than ten steps raise. -/
theorem stat_short (step : β → β) (h : β → E) (mean : β → K) (steps : Nat) (h0 : steps ≠ 0)
    (hs : steps < 10) (grid : β) : statLoop step h mean steps grid = .error .zeroDiv := by
  unfold statLoop
  rw [if_pos ⟨by omega, h0⟩]

theorem filter_multiples (e : Nat) (he : 0 < e) (n : Nat) :
    (List.range n).filter (fun k => decide (k % e = 0)) =
      (List.range ((n + e - 1) / e)).map (· * e) := by
  induction n with
  | zero =>
    rw [Nat.div_eq_of_lt (by omega)]
    rfl
  | succ n ih =>
    rw [List.range_succ, List.filter_append, ih]
    have hn := Nat.div_add_mod n e
    have hlt := Nat.mod_lt n he
    set q := n / e
    by_cases h : n % e = 0
    · have e1 : (n + e - 1) / e = q := by
        rw [show n + e - 1 = (e - 1) + e * q by omega, Nat.add_mul_div_left _ _ he,
          Nat.div_eq_of_lt (by omega)]
        omega
      have e2 : (n + 1 + e - 1) / e = q + 1 := by
        rw [show n + 1 + e - 1 = 0 + e * (q + 1) by rw [Nat.mul_add]; omega,
          Nat.add_mul_div_left _ _ he, Nat.zero_div]
        omega
      rw [e1, e2, List.range_succ, List.map_append]
      simp only [List.filter_cons, h, decide_true, if_true, List.filter_nil, List.map_cons,
        List.map_nil]
      rw [show n = q * e by rw [Nat.mul_comm]; omega]
    · have e1 : (n + e - 1) / e = q + 1 := by
        rw [show n + e - 1 = (n % e - 1) + e * (q + 1) by rw [Nat.mul_add]; omega,
          Nat.add_mul_div_left _ _ he, Nat.div_eq_of_lt (by omega)]
        omega
      have e2 : (n + 1 + e - 1) / e = q + 1 := by
        rw [show n + 1 + e - 1 = n % e + e * (q + 1) by rw [Nat.mul_add]; omega,
          Nat.add_mul_div_left _ _ he, Nat.div_eq_of_lt (by omega)]
        omega
      rw [e1, e2]
      simp [h]

theorem measured_eq (steps : Nat) (hs : 10 ≤ steps) :
    (List.range steps).filter (fun k => decide (k % (steps / 10) = 0 ∨ k = steps - 1)) =
      (List.range ((steps - 1 + steps / 10 - 1) / (steps / 10))).map (· * (steps / 10)) ++
        [steps - 1] := by
  obtain ⟨n, rfl⟩ : ∃ n, steps = n + 1 := ⟨steps - 1, by omega⟩
  rw [List.range_succ, List.filter_append]
  have he : 0 < (n + 1) / 10 := by omega
  congr 1
  · rw [Nat.add_sub_cancel, ← filter_multiples _ he]
    apply List.filter_congr
    intro k hk
    have := List.mem_range.1 hk
    simp only [decide_eq_decide]
    constructor
    · rintro (h | h)
      · exact h
      · omega
    · exact .inl
  · simp

/-- C135: the step written below measurement number `i` is the step it was made at, except for the
last one of every run, drawn at `steps` although it was made after `steps - 1`. -/
theorem plot_steps (step : β → β) (h : β → E) (mean : β → K) (steps : Nat) (hs : 10 ≤ steps)
    (grid : β) (s : Stats β E K) (hr : statLoop step h mean steps grid = .ok s) :
    plotSteps steps s.h.length 0 = s.at_.dropLast ++ [steps] ∧
      s.at_.getLast? = some (steps - 1) := by
  obtain ⟨s', h1, h2, h3, _⟩ := stat_records step h mean steps hs grid
  rw [hr] at h1
  cases h1
  rw [measured_eq steps hs] at h2
  rw [h3, List.length_map, h2]
  simp [plotSteps]

/-- C135: and the curve of run number `runs` has the points of all runs before it as well. -/
theorem plot_grows (steps n runs : Nat) (hn : 0 < n) :
    (plotSteps steps n runs).length = (runs + 1) * n ∧
      ∀ i < (runs + 1) * n, (plotSteps steps n runs)[i]? = (plotSteps steps n 0)[i % n]? := by
  have h0 : (plotSteps steps n 0).length = n := by simp [plotSteps]; omega
  induction runs with
  | zero =>
    refine ⟨by omega, fun i hi => ?_⟩
    rw [Nat.mod_eq_of_lt (by omega)]
  | succ runs ih =>
    obtain ⟨i1, i2⟩ := ih
    have hlen : (plotSteps steps n (runs + 1)).length = (runs + 1) * n + n := by
      show (plotSteps steps n runs ++ plotSteps steps n 0).length = _
      rw [List.length_append, i1, h0]
    refine ⟨by rw [hlen]; ring, fun i hi => ?_⟩
    show (plotSteps steps n runs ++ plotSteps steps n 0)[i]? = _
    by_cases hc : i < (runs + 1) * n
    · rw [List.getElem?_append_left (by rw [i1]; exact hc), i2 i hc]
    · have hi' : i < (runs + 1) * n + n := by
        calc i < (runs + 1 + 1) * n := hi
          _ = (runs + 1) * n + n := by ring
      rw [List.getElem?_append_right (by rw [i1]; omega), i1]
      congr 1
      have : i = (i - (runs + 1) * n) + n * (runs + 1) := by
        rw [Nat.mul_comm n]; omega
      conv_rhs => rw [this, Nat.add_mul_mod_self_left]
      rw [Nat.mod_eq_of_lt (by omega)]

/-- The 512 steps of the notebook: twelve measurements. -/
theorem stat_512 : (List.range 512).filter (fun k => decide (k % (512 / 10) = 0 ∨ k = 512 - 1)) =
    [0, 51, 102, 153, 204, 255, 306, 357, 408, 459, 510, 511] := by decide +kernel

/-- C135: the number in the message "over … runs of `2 steps` steps" is the measurement of the state
after `steps - 1` steps. -/
theorem message_value (step : β → β) (h : β → E) (mean : β → K) (steps : Nat) (hs : 10 ≤ steps)
    (grid : β) (s : Stats β E K) (hr : statLoop step h mean steps grid = .ok s) :
    messageValue s = .ok (h (step^[steps - 1] grid)) := by
  obtain ⟨s', h1, h2, h3, _⟩ := stat_records step h mean steps hs grid
  rw [hr] at h1
  cases h1
  rw [measured_eq steps hs] at h2
  unfold messageValue
  rw [h3, h2]
  simp

/-- C135, refuted for the message: it is not the measurement of the state after the steps it
announces. -/
theorem message_refuted (steps : Nat) (hs : 10 ≤ steps) :
    ∃ (step : ℕ → ℕ) (h : ℕ → ℕ) (grid : ℕ) (s : Stats ℕ ℕ ℕ),
      statLoop step h id steps grid = .ok s ∧
        messageValue s ≠ .ok (h (step^[messageSteps steps] grid)) := by
  obtain ⟨s, h1, _⟩ := stat_records (fun n => n + 1) (fun n : ℕ => n) (id : ℕ → ℕ) steps hs 0
  refine ⟨_, _, 0, s, h1, ?_⟩
  rw [message_value _ _ _ steps hs 0 s h1]
  have it : ∀ n : ℕ, (fun n => n + 1)^[n] 0 = n := by
    intro n
    induction n with
    | zero => rfl
    | succ n ih => rw [Function.iterate_succ_apply', ih]
  simp only [it, messageSteps, ne_eq, Except.ok.injEq]
  omega

variable [Field K]

/-- C135: the normalised means average to exactly 1, whatever the automaton does; a run whose
means sum to 0 has none. -/
theorem norm_means [DecidableEq K] [CharZero K] (l : List K) :
    (l.sum = 0 → normMeans l = none) ∧
      (l.sum ≠ 0 → ∃ r, normMeans l = some r ∧ r.length = l.length ∧ r.sum / r.length = 1) := by
  constructor
  · intro h
    unfold normMeans
    rw [h, zero_div, if_pos rfl]
  · intro h
    have hl : l ≠ [] := by rintro rfl; simp at h
    have hn : (l.length : K) ≠ 0 := by
      rw [Nat.cast_ne_zero]
      exact fun h0 => hl (List.length_eq_zero_iff.1 h0)
    have hm : l.sum / l.length ≠ 0 := div_ne_zero h hn
    unfold normMeans
    rw [if_neg hm]
    refine ⟨_, rfl, by simp, ?_⟩
    have : ∀ (c : K) (m : List K), (m.map (· / c)).sum = m.sum / c := by
      intro c m
      induction m with
      | nil => simp
      | cons a m ih => rw [List.map_cons, List.sum_cons, ih, List.sum_cons, add_div]
    rw [this, List.length_map]
    field_simp

example : ([1 / 4, 1 / 2] : List ℚ).sum ≠ 0 := by norm_num

/-- C135: every run's Γ is taken relative to the baseline of the first run. -/
theorem gamma_runs (b : K) (hs : List K) (rest : List (K × List K)) :
    gammaRuns [] ((b, hs) :: rest) =
      ((b, hs) :: rest).map fun r => r.2.map (· - b) := by
  have gen : ∀ (rest : List (K × List K)) (bs : List K),
      gammaRuns (b :: bs) rest = rest.map fun r => r.2.map (· - b) := by
    intro rest
    induction rest with
    | nil => intro bs; rfl
    | cons r rest ih =>
      intro bs
      show r.2.map (· - b) :: gammaRuns (b :: (bs ++ [r.1])) rest = _
      rw [ih]
      rfl
  show hs.map (· - b) :: gammaRuns [b] rest = _
  rw [gen]
  rfl

/-- C135, refuted for Γ: so it is a run's own Γ only if the baselines agree. -/
theorem gamma_own_iff (b b' : K) (hs hs' : List K) (hne : hs' ≠ []) :
    gammaRuns [] [(b, hs), (b', hs')] = [hs.map (· - b), hs'.map (· - b')] ↔ b' = b := by
  rw [gamma_runs]
  obtain ⟨a, l, rfl⟩ := List.exists_cons_of_ne_nil hne
  simp only [List.map_cons, List.map_nil, List.cons.injEq, true_and, and_true, sub_right_inj]
  constructor
  · intro h; exact h.1.symm
  · rintro rfl; simp

omit [Field K] in
/-- C135: the "random baseline" curve cycles through the baselines of all runs: with `runs` runs it
has `runs` times as many points as the curves it is drawn with. -/
theorem baseline_curve (baselines : List K) (n : Nat) :
    (baselineCurve baselines n).length = n * baselines.length ∧
      ∀ i < n * baselines.length, (baselineCurve baselines n)[i]? = baselines[i % baselines.length]? := by
  unfold baselineCurve
  induction n with
  | zero => simp
  | succ n ih =>
    obtain ⟨i1, i2⟩ := ih
    rw [List.replicate_succ, List.flatten_cons, List.length_append, i1]
    refine ⟨by ring, fun i hi => ?_⟩
    rw [Nat.add_mul] at hi
    by_cases hc : i < baselines.length
    · rw [List.getElem?_append_left hc, Nat.mod_eq_of_lt hc]
    · rw [List.getElem?_append_right (by omega), i2 _ (by omega)]
      rw [← Nat.mod_eq_sub_mod (by omega)]

end Stat

end Yuca
