import Verif.Model.DtKind
import Verif.Props.Structure
import Verif.Lemmas.Cell

/-!
# C24-C27: adaptive and random step sizes, momentum, `get_dt`
-/

namespace Yuca

open Arith Spec

variable {ext int N H W : Nat}

/-! ## C24: CODE -/

/-- A full step of size `d` and two half steps agree up to the relative error `thr` in every
cell that is alive after the half steps. -/
def Spec.MeetsThreshold (s : CODE ℝ ext int) (u : Univ ℝ N ext H W) (d : ℝ) : Prop :=
  ∃ full half two : Univ ℝ N ext H W, s.getNewGrid d u = .ok full ∧
    s.getNewGrid (d / 2) u = .ok half ∧ s.getNewGrid (d / 2) half = .ok two ∧
    ∀ n c i j, (if 0 < two n c i j then |full n c i j - two n c i j| / two n c i j else 0) <
      s.errThr

/-- The automaton can be stepped on grids of this size. -/
def Spec.Runnable (s : CODE ℝ ext int) (H W : Nat) : Prop :=
  Fits s.ca.idL H W ∧ Fits s.ca.nbL H W ∧ s.ca.genesis.length = int ∧
    s.ca.persistence.length = int

theorem getNewGrid_ok {s : CODE ℝ ext int} (h : Runnable s H W) (d : ℝ)
    (u : Univ ℝ N ext H W) : ∃ v, s.getNewGrid d u = .ok v := by
  obtain ⟨h1, h2, h3, h4⟩ := h
  obtain ⟨x, hx⟩ := (apply_ok_iff s.ca.idL (maskIf s.ca.thr u)).2 h1
  obtain ⟨y, hy⟩ := (apply_ok_iff s.ca.nbL (maskIf s.ca.thr u)).2 h2
  obtain ⟨g, hg⟩ := (perChannel_ok_iff s.ca.genesis y).2 h3
  obtain ⟨p, hp⟩ := (perChannel_ok_iff s.ca.persistence y).2 h4
  simp only [CODE.getNewGrid, hx, hy, CCA.updateUniverse, hg, hp, bind, Except.bind, pure,
    Except.pure]
  exact ⟨_, rfl⟩

theorem cellError_real (a b : ℝ) :
    CODE.cellError a b = if 0 < b then |a - b| / b else 0 := by
  unfold CODE.cellError
  simp only [Arith.mul, Arith.abs, Arith.sub, Arith.lt, Arith.zero, Arith.one, Arith.div,
    decide_eq_true_eq, one_mul]
  by_cases hb : 0 < b
  · simp only [hb, if_true, mul_one]
    split
    · rfl
    · rename_i h
      have : |a - b| = 0 := le_antisymm (not_lt.1 h) (abs_nonneg _)
      simp [this]
  · simp [hb]

theorem accept_iff {s : CODE ℝ ext int} (h : Runnable s H W) (u : Univ ℝ N ext H W) (d : ℝ) :
    ∃ b, s.accept u d = .ok b ∧ (b = true ↔ MeetsThreshold s u d) := by
  have hd : (mul d (lit (1 / 2)) : ℝ) = d / 2 := by
    simp only [Arith.mul, Arith.lit]; push_cast; ring
  obtain ⟨full, h1⟩ := getNewGrid_ok h d u
  obtain ⟨half, h2⟩ := getNewGrid_ok h (d / 2) u
  obtain ⟨two, h3⟩ := getNewGrid_ok h (d / 2) half
  simp only [CODE.accept, h1, hd, h2, h3, bind, Except.bind, pure, Except.pure]
  refine ⟨_, rfl, ?_⟩
  simp only [decide_eq_true_eq, cellError_real, Arith.lt]
  constructor
  · intro hh; exact ⟨full, half, two, h1, h2, h3, hh⟩
  · rintro ⟨full', half', two', e1, e2, e3, hh⟩
    rw [h1] at e1; cases e1
    rw [h2] at e2; cases e2
    rw [h3] at e3; cases e3
    exact hh

/-- What the loop of `adaptive_euler` computes: the first candidate `d·(3/4)^j` that is
accepted, provided it and all before it are at least `minDt`; otherwise it gives up after the
last candidate that is at least `minDt`. -/
theorem adaptLoop_spec {acc : ℝ → Except PyErr Bool} {P : ℝ → Prop}
    (hacc : ∀ d, ∃ b, acc d = .ok b ∧ (b = true ↔ P d)) {m : ℝ} (fuel : Nat) :
    ∀ (d : ℝ) (tested : Bool), d * (3 / 4) ^ fuel < m →
      (∃ j, m ≤ d * (3 / 4) ^ j ∧ P (d * (3 / 4) ^ j) ∧
        (∀ i < j, m ≤ d * (3 / 4) ^ i ∧ ¬ P (d * (3 / 4) ^ i)) ∧
        adaptLoop m acc (fuel + 1) d tested = .done true (d * (3 / 4) ^ j) true) ∨
      ((∃ j, d * (3 / 4) ^ j < m ∧ ∀ i < j, m ≤ d * (3 / 4) ^ i ∧ ¬ P (d * (3 / 4) ^ i)) ∧
        ∃ d', adaptLoop m acc (fuel + 1) d tested = .done false d' (tested || decide (m ≤ d))) := by
  induction fuel with
  | zero =>
    intro d tested hd
    rw [pow_zero, mul_one] at hd
    right
    refine ⟨⟨0, by simpa using hd, by intro i hi; omega⟩, d, ?_⟩
    simp [adaptLoop, Arith.le, not_le.2 hd]
  | succ fuel ih =>
    intro d tested hd
    by_cases hm : m ≤ d
    · obtain ⟨b, hb, hP⟩ := hacc d
      cases b with
      | true =>
        left
        refine ⟨0, by simpa using hm, by simpa using hP.1 rfl, by intro i hi; omega, ?_⟩
        rw [adaptLoop]; simp [Arith.le, hm, hb]
      | false =>
        have hn : ¬ P d := fun h => by simpa using hP.2 h
        have hstep : (mul d (lit (3 / 4)) : ℝ) = d * (3 / 4) := by
          simp only [Arith.mul, Arith.lit]; push_cast; ring
        have hrec : adaptLoop m acc (fuel + 1 + 1) d tested =
            adaptLoop m acc (fuel + 1) (d * (3 / 4)) true := by
          rw [adaptLoop]; simp only [Arith.le, hm, decide_true, if_true, hb, hstep]
        have hpow : ∀ i : ℕ, d * (3 / 4) * (3 / 4) ^ i = d * (3 / 4 : ℝ) ^ (i + 1) := by
          intro i; rw [pow_succ]; ring
        have hall : ∀ j, (∀ i < j, m ≤ d * (3 / 4) * (3 / 4) ^ i ∧ ¬ P (d * (3 / 4) * (3 / 4) ^ i)) →
            ∀ i < j + 1, m ≤ d * (3 / 4) ^ i ∧ ¬ P (d * (3 / 4) ^ i) := by
          intro j h i hi
          cases i with
          | zero => simpa using ⟨hm, hn⟩
          | succ i => have := h i (by omega); rwa [hpow] at this
        rw [hrec]
        rcases ih (d * (3 / 4)) true (by rw [hpow]; exact hd) with ⟨j, h1, h2, h3, h4⟩ | ⟨⟨j, h1, h2⟩, d', h4⟩
        · left
          rw [hpow] at h1 h2 h4
          exact ⟨j + 1, h1, h2, hall j h3, h4⟩
        · right
          rw [hpow] at h1
          exact ⟨⟨j + 1, h1, hall j h2⟩, d', by rw [h4]; simp [hm]⟩
    · right
      push Not at hm
      refine ⟨⟨0, by simpa using hm, by intro i hi; omega⟩, d, ?_⟩
      rw [adaptLoop]; simp [Arith.le, not_le.2 hm]

theorem exists_fuel (d : ℝ) {m : ℝ} (hm : 0 < m) : ∃ F : ℕ, ∀ fuel ≥ F, d * (3 / 4) ^ fuel < m := by
  by_cases hd : d ≤ 0
  · exact ⟨0, fun fuel _ => lt_of_le_of_lt (mul_nonpos_of_nonpos_of_nonneg hd (by positivity)) hm⟩
  · push Not at hd
    obtain ⟨F, hF⟩ := exists_pow_lt_of_lt_one (div_pos hm hd) (by norm_num : (3 / 4 : ℝ) < 1)
    refine ⟨F, fun fuel hf => ?_⟩
    have h1 : (3 / 4 : ℝ) ^ fuel ≤ (3 / 4) ^ F :=
      pow_le_pow_of_le_one (by norm_num) (by norm_num) hf
    have h2 := lt_of_le_of_lt h1 hF
    rw [lt_div_iff₀ hd] at h2
    linarith

/-- The precondition of a step. -/
def Spec.StepReady (s : CODE ℝ ext int) : Prop :=
  0 < s.minDt ∧ s.minDt ≤ s.maxDt ∧ s.minDt ≤ 2 * s.prevDt

/-- What a step with step size `d` guarantees. -/
def Spec.GoodStep (s : CODE ℝ ext int) (u : Univ ℝ N ext H W) (d : ℝ) : Prop :=
  s.minDt ≤ d ∧ d ≤ s.maxDt ∧ d ≤ 2 * s.prevDt ∧
  -- the first acceptable candidate of the sequence, or `minDt` if none is acceptable
  ((∃ j, d = min (2 * s.prevDt) s.maxDt * (3 / 4) ^ j ∧ MeetsThreshold s u d ∧
      ∀ i < j, ¬ MeetsThreshold s u (min (2 * s.prevDt) s.maxDt * (3 / 4) ^ i)) ∨
   (d = s.minDt ∧ ∀ i, s.minDt ≤ min (2 * s.prevDt) s.maxDt * (3 / 4) ^ i →
      ¬ MeetsThreshold s u (min (2 * s.prevDt) s.maxDt * (3 / 4) ^ i)))

theorem firstStep_real (s : CODE ℝ ext int) : s.firstStep = min (2 * s.prevDt) s.maxDt := by
  unfold CODE.firstStep
  simp only [Arith.lt, Arith.mul, Arith.lit, decide_eq_true_eq, Rat.cast_ofNat]
  rw [mul_comm]
  split
  · rename_i h; rw [min_eq_right h.le]
  · rename_i h; rw [min_eq_left (not_lt.1 h)]

/-- C24: a ready CODE automaton finishes its step (with all sufficiently large loop budgets,
with one and the same result), the step size is as specified, simulated time advances by
exactly it, the grid is the Euler step of that size, and the automaton is ready again. -/
theorem code_step (s : CODE ℝ ext int) (hr : StepReady s) (hrun : Runnable s H W)
    (u : Univ ℝ N ext H W) :
    ∃ (d : ℝ) (v : Univ ℝ N ext H W) (F : ℕ), GoodStep s u d ∧ s.getNewGrid d u = .ok v ∧
      let s' : CODE ℝ ext int := { s with ca := { s.ca with dt := d, t := s.ca.t + d }, prevDt := d }
      StepReady s' ∧ ∀ fuel ≥ F, s.forward fuel u = some (.ok (v, s')) := by
  obtain ⟨h0, h1, h2⟩ := hr
  have hfs := firstStep_real s
  set c := min (2 * s.prevDt) s.maxDt with hc
  have hmc : s.minDt ≤ c := le_min h2 h1
  have hcpos : 0 < c := lt_of_lt_of_le h0 hmc
  obtain ⟨F, hF⟩ := exists_fuel c h0
  have anti : ∀ i j : ℕ, i ≤ j → c * (3 / 4 : ℝ) ^ j ≤ c * (3 / 4) ^ i := fun i j hij =>
    mul_le_mul_of_nonneg_left (pow_le_pow_of_le_one (by norm_num) (by norm_num) hij) hcpos.le
  have hle : ∀ j : ℕ, c * (3 / 4 : ℝ) ^ j ≤ c := fun j => by simpa using anti 0 j (Nat.zero_le j)
  by_cases hex : ∃ j, s.minDt ≤ c * (3 / 4 : ℝ) ^ j ∧ MeetsThreshold s u (c * (3 / 4) ^ j)
  · classical
    let j := Nat.find hex
    have hj := Nat.find_spec hex
    have hmin : ∀ i < j, ¬ MeetsThreshold s u (c * (3 / 4) ^ i) := fun i hi hm =>
      Nat.find_min hex hi ⟨hj.1.trans (anti i j hi.le), hm⟩
    obtain ⟨v, hv⟩ := getNewGrid_ok hrun (c * (3 / 4) ^ j) u
    refine ⟨c * (3 / 4) ^ j, v, F + 1, ⟨hj.1, (hle j).trans (min_le_right _ _),
      (hle j).trans (min_le_left _ _), .inl ⟨j, rfl, hj.2, hmin⟩⟩, hv, ⟨h0, h1, ?_⟩, ?_⟩
    · have : s.minDt ≤ c * (3 / 4) ^ j := hj.1
      show s.minDt ≤ 2 * (c * (3 / 4) ^ j)
      linarith
    · intro fuel hf
      obtain ⟨fuel, rfl⟩ : ∃ f, fuel = f + 1 := ⟨fuel - 1, by omega⟩
      rcases adaptLoop_spec (accept_iff hrun u) fuel c false (hF fuel (by omega)) with
        ⟨j', a1, a2, a3, a4⟩ | ⟨⟨j', a1, a2⟩, _, _⟩
      · have : j' = j := by
          rcases lt_trichotomy j' j with h | h | h
          · exact absurd a2 (hmin j' h)
          · exact h
          · exact absurd hj.2 (a3 j h).2
        subst this
        unfold CODE.forward
        rw [hfs, a4]
        simp only [if_true, hv, bind, Except.bind, pure, Except.pure]
        rfl
      · exfalso
        rcases lt_or_ge j j' with h | h
        · exact (a2 j h).2 hj.2
        · have := hj.1.trans (anti j' j h)
          linarith
  · push Not at hex
    obtain ⟨v, hv⟩ := getNewGrid_ok hrun s.minDt u
    refine ⟨s.minDt, v, F + 1, ⟨le_refl _, h1, h2, .inr ⟨rfl, hex⟩⟩, hv,
      ⟨h0, h1, by show s.minDt ≤ 2 * s.minDt; linarith⟩, ?_⟩
    intro fuel hf
    obtain ⟨fuel, rfl⟩ : ∃ f, fuel = f + 1 := ⟨fuel - 1, by omega⟩
    rcases adaptLoop_spec (accept_iff hrun u) fuel c false (hF fuel (by omega)) with
      ⟨j', a1, a2, _, _⟩ | ⟨_, d', a4⟩
    · exact absurd a2 (hex j' a1)
    · unfold CODE.forward
      rw [hfs, a4]
      simp only [hmc, decide_true, Bool.or_true, if_true, Bool.false_eq_true, if_false, hv, bind,
        Except.bind, pure, Except.pure]
      rfl

/-- C24: if the precondition on the first candidate fails, the call raises (`step_mse` is
unbound), whatever the grid. -/
theorem code_not_ready (s : CODE ℝ ext int) (h : min (2 * s.prevDt) s.maxDt < s.minDt)
    (u : Univ ℝ N ext H W) (fuel : ℕ) (hf : 0 < fuel) :
    s.forward fuel u = some (.error .unbound) := by
  obtain ⟨fuel, rfl⟩ : ∃ f, fuel = f + 1 := ⟨fuel - 1, by omega⟩
  unfold CODE.forward
  rw [firstStep_real, adaptLoop]
  simp [Arith.le, not_le.2 h]

/-- C24: with `min_dt ≤ 0` (and a positive first candidate) the call returns only if some
candidate is acceptable; with an unreachable threshold it never does. -/
theorem code_diverges (s : CODE ℝ ext int) (hrun : Runnable s H W) (hm : s.minDt ≤ 0)
    (hc : 0 ≤ min (2 * s.prevDt) s.maxDt) (u : Univ ℝ N ext H W)
    (hno : ∀ d, ¬ MeetsThreshold s u d) (fuel : ℕ) : s.forward fuel u = none := by
  have key : ∀ (fuel : ℕ) (d : ℝ) (tested : Bool), 0 ≤ d →
      adaptLoop s.minDt (s.accept u) fuel d tested = .outOfFuel := by
    intro fuel
    induction fuel with
    | zero => intros; rfl
    | succ fuel ih =>
      intro d tested hd
      obtain ⟨b, hb, hP⟩ := accept_iff hrun u d
      have hbf : b = false := by
        cases b
        · rfl
        · exact absurd (hP.1 rfl) (hno d)
      subst hbf
      have hle : (le s.minDt d : Bool) = true := by simpa [Arith.le] using hm.trans hd
      simp only [adaptLoop, hle, if_true, hb]
      exact ih _ _ (mul_nonneg hd (by simp only [Arith.lit]; norm_num))
  unfold CODE.forward
  rw [firstStep_real, key fuel _ false hc]

/-- A sequence of `n` completed steps. -/
inductive Spec.CodeSteps : Nat → CODE ℝ ext int → Univ ℝ N ext H W → CODE ℝ ext int →
    Univ ℝ N ext H W → Prop where
  | zero (s u) : CodeSteps 0 s u s u
  | succ {n s u s' u' s'' u''} (fuel : Nat) : s.forward fuel u = some (.ok (u', s')) →
      CodeSteps n s' u' s'' u'' → CodeSteps (n + 1) s u s'' u''

/-- C24: from a ready state every number of steps can be completed. -/
theorem code_runs_forever (n : Nat) : ∀ (s : CODE ℝ ext int), StepReady s → Runnable s H W →
    ∀ u : Univ ℝ N ext H W, ∃ s' u', CodeSteps n s u s' u' := by
  induction n with
  | zero => intro s _ _ u; exact ⟨s, u, .zero s u⟩
  | succ n ih =>
    intro s hr hrun u
    obtain ⟨d, v, F, _, _, hr', hf⟩ := code_step s hr hrun u
    obtain ⟨s', u', h⟩ := ih _ hr' hrun v
    exact ⟨s', u', .succ F (hf F le_rfl) h⟩

/-- C24: a forward call that returned did what `code_step` says. -/
theorem code_step_unique (s : CODE ℝ ext int) (hr : StepReady s) (hrun : Runnable s H W)
    (u : Univ ℝ N ext H W) {fuel : Nat} {r : Univ ℝ N ext H W × CODE ℝ ext int}
    (h : s.forward fuel u = some (.ok r)) :
    GoodStep s u r.2.ca.dt ∧ s.getNewGrid r.2.ca.dt u = .ok r.1 ∧ StepReady r.2 ∧
      r.2 = { s with ca := { s.ca with dt := r.2.ca.dt, t := s.ca.t + r.2.ca.dt },
                     prevDt := r.2.ca.dt } := by
  have mono : ∀ (m : ℝ) (acc : ℝ → Except PyErr Bool) (f : Nat) (d : ℝ) (t : Bool),
      adaptLoop m acc f d t ≠ .outOfFuel → adaptLoop m acc (f + 1) d t = adaptLoop m acc f d t := by
    intro m acc f
    induction f with
    | zero => intro d t h; exact absurd rfl h
    | succ f ih =>
      intro d t h
      rw [adaptLoop] at h
      rw [show adaptLoop m acc (f + 1 + 1) d t = (if le m d then
        match acc d with
        | .error e => LoopResult.raised e
        | .ok true => .done true d true
        | .ok false => adaptLoop m acc (f + 1) (mul d (lit (3/4))) true
        else .done false d t) from rfl, show adaptLoop m acc (f + 1) d t = (if le m d then
        match acc d with
        | .error e => LoopResult.raised e
        | .ok true => .done true d true
        | .ok false => adaptLoop m acc f (mul d (lit (3/4))) true
        else .done false d t) from rfl]
      by_cases hle : le m d = true
      · rw [if_pos hle] at h ⊢
        rw [if_pos hle]
        cases hacc : acc d with
        | error e => rfl
        | ok b =>
          cases b with
          | true => rfl
          | false => rw [hacc] at h; exact ih _ _ h
      · rw [if_neg hle, if_neg hle]
  have stable : ∀ k, s.forward (fuel + k) u = s.forward fuel u := by
    have hne : adaptLoop s.minDt (s.accept u) fuel s.firstStep false ≠ .outOfFuel := by
      intro hh
      simp [CODE.forward, hh] at h
    have : ∀ k, adaptLoop s.minDt (s.accept u) (fuel + k) s.firstStep false =
        adaptLoop s.minDt (s.accept u) fuel s.firstStep false := by
      intro k
      induction k with
      | zero => rfl
      | succ k ihk => rw [← add_assoc, mono _ _ _ _ _ (by rw [ihk]; exact hne), ihk]
    intro k
    simp only [CODE.forward, this k]
  obtain ⟨d, v, F, hg, hv, hr', hf⟩ := code_step s hr hrun u
  have h2 := hf (fuel + F) (by omega)
  rw [stable F, h] at h2
  cases h2
  exact ⟨hg, hv, hr', rfl⟩

/-- C24: after `n` steps simulated time has advanced by between `n·min_dt` and `n·max_dt`. -/
theorem code_time_bounds {n : Nat} {s s' : CODE ℝ ext int} {u u' : Univ ℝ N ext H W}
    (h : CodeSteps n s u s' u') (hr : StepReady s) (hrun : Runnable s H W) :
    s.ca.t + n * s.minDt ≤ s'.ca.t ∧ s'.ca.t ≤ s.ca.t + n * s.maxDt := by
  induction h with
  | zero s u => simp
  | @succ n s u s1 u1 s'' u'' fuel hf _ ih =>
    obtain ⟨hg, _, hr', heq⟩ := code_step_unique s hr hrun u hf
    simp only at hg hr' heq
    have hrun' : Runnable s1 H W := by rw [heq]; exact hrun
    obtain ⟨a, b⟩ := ih hr' hrun'
    have e1 : s1.minDt = s.minDt := by rw [heq]
    have e2 : s1.maxDt = s.maxDt := by rw [heq]
    have e3 : s1.ca.t = s.ca.t + s1.ca.dt := by conv_lhs => rw [heq]
    rw [e1, e3] at a
    rw [e2, e3] at b
    push_cast
    constructor
    · linarith [hg.1]
    · linarith [hg.2.1]

/-- A concrete CODE automaton, with the default step-size settings (yuca/code.py:48-51). -/
noncomputable def Witness.codeR (thr minDt : ℝ) : CODE ℝ 1 1 where
  ca := { idL := identityLayer 1 1 .circular, nbL := identityLayer 1 1 .circular,
          genesis := [fun x => x], persistence := [fun x => 1 - x],
          weights := .functional fun _ _ => 1, thr := 0.1, dt := 0.1, t := 0 }
  prevDt := 0.3
  maxDt := 0.5
  minDt := minDt
  errThr := thr

example : StepReady (Witness.codeR 0.001 0.01) ∧ Runnable (Witness.codeR 0.001 0.01) 8 8 := by
  refine ⟨?_, ⟨rfl, rfl, rfl⟩, ⟨rfl, rfl, rfl⟩, rfl, rfl⟩
  norm_num [StepReady, Witness.codeR]

/-- The hypotheses of `code_diverges` are met by `min_dt = 0` and `error_threshold = 0`. -/
example (u : Univ ℝ 1 1 8 8) (fuel : ℕ) : (Witness.codeR 0 0).forward fuel u = none := by
  refine code_diverges _ ⟨⟨rfl, rfl, rfl⟩, ⟨rfl, rfl, rfl⟩, rfl, rfl⟩ (le_refl _) ?_ u ?_ fuel
  · norm_num [Witness.codeR]
  · rintro d ⟨full, half, two, _, _, _, h⟩
    have := h 0 0 0 0
    have h2 : (Witness.codeR 0 0).errThr = 0 := rfl
    rw [h2] at this
    split at this
    · rename_i hp
      have : 0 ≤ |full 0 0 0 0 - two 0 0 0 0| / two 0 0 0 0 := by positivity
      linarith
    · linarith

/-- The hypothesis of `code_not_ready` is met by `min_dt = 1`. -/
example : min (2 * (Witness.codeR 0 1).prevDt) (Witness.codeR 0 1).maxDt <
    (Witness.codeR 0 1).minDt := by norm_num [Witness.codeR]

/-! ## C25: RandomStepCA -/

/-- Run a `RandomStepCA` on a sequence of draws. -/
noncomputable def Spec.randomRun (s : RandomStepCA ℝ ext int) (u : Univ ℝ N ext H W) :
    List ℝ → Except PyErr (Univ ℝ N ext H W × RandomStepCA ℝ ext int)
  | [] => .ok (u, s)
  | r :: rs => do
    let (u', s') ← s.forward r u
    randomRun s' u' rs

/-- C25: for a draw in `[0, 1)` the step size lies in `[min_dt, max_dt)`, is recorded as
`prev_dt`, and advances simulated time by exactly itself. -/
theorem randomStep_dt (s : RandomStepCA ℝ ext int) (hm : s.minDt < s.maxDt) {r : ℝ}
    (hr : 0 ≤ r ∧ r < 1) (u : Univ ℝ N ext H W)
    {o : Univ ℝ N ext H W × RandomStepCA ℝ ext int} (h : s.forward r u = .ok o) :
    s.minDt ≤ o.2.ca.dt ∧ o.2.ca.dt < s.maxDt ∧ o.2.prevDt = o.2.ca.dt ∧
      o.2.ca.t = s.ca.t + o.2.ca.dt ∧ o.2.minDt = s.minDt ∧ o.2.maxDt = s.maxDt := by
  obtain ⟨_, _, h⟩ := bind_ok h
  obtain ⟨_, _, h⟩ := bind_ok h
  obtain ⟨_, _, h⟩ := bind_ok h
  cases h
  simp only [Arith.add, Arith.mul, Arith.sub, Arith.one, one_mul]
  refine ⟨?_, ?_, trivial, trivial, trivial, trivial⟩
  · nlinarith [hr.1]
  · nlinarith [hr.2]

/-- C25: after `n` steps simulated time lies between `n·min_dt` and `n·max_dt`. -/
theorem randomStep_time_bounds (draws : List ℝ) : ∀ (s : RandomStepCA ℝ ext int),
    s.minDt < s.maxDt → (∀ r ∈ draws, 0 ≤ r ∧ r < 1) → ∀ (u : Univ ℝ N ext H W)
    (o : Univ ℝ N ext H W × RandomStepCA ℝ ext int), randomRun s u draws = .ok o →
    s.ca.t + draws.length * s.minDt ≤ o.2.ca.t ∧
      o.2.ca.t ≤ s.ca.t + draws.length * s.maxDt := by
  induction draws with
  | nil => intro s _ _ u o h; cases h; simp
  | cons r rs ih =>
    intro s hm hr u o h
    obtain ⟨⟨u', s'⟩, h1, h2⟩ := bind_ok h
    obtain ⟨a, b, _, c, d, e⟩ := randomStep_dt s hm (hr r List.mem_cons_self) u h1
    simp only at a b c d e h2
    obtain ⟨x, y⟩ := ih s' (by rw [d, e]; exact hm)
      (fun r hr' => hr r (List.mem_cons_of_mem _ hr')) u' o h2
    rw [c, d] at x
    rw [c, e] at y
    simp only [List.length_cons]
    push_cast
    constructor <;> linarith

/-- C25: the value drawn determines the step: different draws give different step sizes. -/
theorem randomStep_injective (s : RandomStepCA ℝ ext int) (hm : s.minDt < s.maxDt) {r r' : ℝ}
    (u : Univ ℝ N ext H W) {o o' : Univ ℝ N ext H W × RandomStepCA ℝ ext int}
    (h : s.forward r u = .ok o) (h' : s.forward r' u = .ok o') (he : o.2.ca.dt = o'.2.ca.dt) :
    r = r' := by
  obtain ⟨_, _, h⟩ := bind_ok h
  obtain ⟨_, _, h⟩ := bind_ok h
  obtain ⟨_, _, h⟩ := bind_ok h
  cases h
  obtain ⟨_, _, h⟩ := bind_ok h'
  obtain ⟨_, _, h⟩ := bind_ok h
  obtain ⟨_, _, h⟩ := bind_ok h
  cases h
  simp only [Arith.add, Arith.mul, Arith.sub] at he
  have : (r - r') * (s.maxDt - s.minDt) = 0 := by linarith
  rcases mul_eq_zero.1 this with h | h <;> linarith

/-- The default settings (yuca/random_step_ca.py:48-50) around a concrete automaton. -/
example : ∃ (s : RandomStepCA ℝ 1 1) (u : Univ ℝ 1 1 4 4) (o : _), s.minDt < s.maxDt ∧
    randomRun s u [0.5, 0.25] = .ok o := by
  refine ⟨⟨(Witness.codeR 0 0).ca, 0.3, 0.25, 0.05⟩, fun _ _ _ _ => 0.5, _, by norm_num, rfl⟩

/-! ## C26: MetaCA -/

section Meta

variable {α : Type} [Arith α]

/-- Calls on a `MetaCA`. -/
inductive Spec.MetaCall (α : Type) (ext : Nat) where
  | reset
  | forward (u : AnyUniv α ext)

/-- The object after a history of calls (a call that raises leaves the momentum of the shape it
was called with or the old one; only returning calls are considered). -/
def Spec.metaAfter (s : MetaCA α ext int) : List (Spec.MetaCall α ext) → Option (MetaCA α ext int)
  | [] => some s
  | .reset :: cs => metaAfter s.reset cs
  | .forward u :: cs =>
    match s.forward u.2 with
    | .ok (_, s') => metaAfter s' cs
    | .error _ => none

theorem metaAfter_fixed (cs : List (MetaCall α ext)) : ∀ {s s' : MetaCA α ext int},
    metaAfter s cs = some s' → s'.ca = s.ca ∧ s'.ddt = s.ddt := by
  induction cs with
  | nil => intro s s' h; cases h; exact ⟨rfl, rfl⟩
  | cons c cs ih =>
    intro s s' h
    cases c with
    | reset => exact ih (s := s.reset) h
    | forward u =>
      unfold metaAfter at h
      split at h
      · rename_i v s1 hf
        obtain ⟨_, _, _, _, _, _, d, _, hs⟩ := MetaCA.forward_ok hf
        cases hs
        have := ih h
        exact this
      · cases h

/-- C26: after `reset()` the whole trajectory depends only on the grid and the parameters, not
on anything simulated before. -/
theorem meta_reset_forgets (s s' : MetaCA α ext int) (cs : List (MetaCall α ext))
    (h : metaAfter s cs = some s') (n : Nat) (u : Univ α N ext H W) :
    iterate MetaCA.forward n s'.reset u = iterate MetaCA.forward n s.reset u := by
  obtain ⟨h1, h2⟩ := metaAfter_fixed cs h
  have : s'.reset = s.reset := by
    cases s; cases s'
    simp only [MetaCA.reset] at *
    simp [h1, h2]
  rw [this]

/-- C26: a grid of a new shape starts from zero momentum, as after a reset. -/
theorem meta_new_shape (s : MetaCA α ext int) (N' H' W' : Nat) (d : Univ α N' ext H' W')
    (hd : s.dgrid = some ⟨(N', H', W'), d⟩) (hne : (N', H', W') ≠ (N, H, W)) (n : Nat)
    (u : Univ α N ext H W) (hn : 0 < n) :
    iterate MetaCA.forward n s u = iterate MetaCA.forward n s.reset u := by
  obtain ⟨n, rfl⟩ : ∃ m, n = m + 1 := ⟨n - 1, by omega⟩
  have h0 : Momentum.forShape s.dgrid N H W = Momentum.forShape s.reset.dgrid N H W := by
    rw [hd]; simp [Momentum.forShape, MetaCA.reset, hne]
  have : s.forward u = s.reset.forward u := by
    unfold MetaCA.forward
    rw [h0]
    rfl
  simp only [iterate, this]

/-- C26: without a reset, a previous run on a grid of the same shape does matter. -/
theorem meta_history_matters_refuted : ∃ (s s' : MetaCA ℚ 1 1) (u v : Univ ℚ 1 1 3 3)
    (r r' : _), s.forward v = .ok (r', s') ∧ s.forward u = .ok r ∧
      ∃ q, s'.forward u = .ok q ∧ q.1 0 0 1 1 ≠ r.1 0 0 1 1 := by
  refine ⟨Witness.meta1, _, Witness.u3, Witness.u3, _, _, rfl, rfl, _, rfl, ?_⟩
  decide +kernel

example : ∃ s', metaAfter Witness.meta1 [.forward ⟨(1, 3, 3), Witness.u3⟩, .reset,
    .forward ⟨(1, 3, 3), Witness.u3⟩] = some s' := ⟨_, rfl⟩

end Meta

/-! ## C27: get_dt -/

section Kind

variable {α : Type} {σ β : Type}

/-- The step size the object shows after a history, as the clock model has it. -/
theorem kindedRun_obj (K : Clock α σ β) (rule : KindRule) (ops : List (Op α β)) :
    ∀ s : Kinded σ, (kindedRun K rule s ops).obj = (K.run s.obj ops).1 := by
  induction ops with
  | nil => intro s; rfl
  | cons o ops ih =>
    intro s
    show (kindedRun K rule (kindedCall K rule s o) ops).obj = _
    rw [ih]
    cases o with
    | reset => rfl
    | setDt d => rfl
    | forward b =>
      simp only [kindedCall, Clock.run]
      cases K.forward s.obj b <;> rfl
    | getFrame b => rfl

/-- C27: for `CCA`, `Lenia`, `NCA` and `RxnDfn` `get_dt` works after every history, and shows
the current step size. -/
theorem getDt_works (K : Clock α σ β) (s : Kinded σ) (hs : s.kind = .tensor)
    (ops : List (Op α β)) :
    getDt K (kindedRun K keepsKind s ops) = .ok (K.dt (K.run s.obj ops).1) := by
  have : ∀ (ops : List (Op α β)) (s : Kinded σ), s.kind = .tensor →
      (kindedRun K keepsKind s ops).kind = .tensor := by
    intro ops
    induction ops with
    | nil => intro s hs; exact hs
    | cons o ops ih =>
      intro s hs
      refine ih (kindedCall K keepsKind s o) ?_
      cases o with
      | reset => exact hs
      | setDt d => rfl
      | forward b =>
        simp only [kindedCall]
        cases K.forward s.obj b <;> exact hs
      | getFrame b => exact hs
  rw [← kindedRun_obj K keepsKind ops s]
  simp only [getDt, this ops s hs]

/-- Has `forward` been called since the last `set_dt`? (`called` is the answer so far.) -/
def Spec.steppedSinceSetDt (called : Bool) : List (Op α β) → Bool
  | [] => called
  | .setDt _ :: r => steppedSinceSetDt false r
  | .forward _ :: r => steppedSinceSetDt true r
  | _ :: r => steppedSinceSetDt called r

/-- C27, the exception: for `CODE`, `get_dt` raises exactly when `forward` has been called since
the last `set_dt`. -/
theorem code_getDt (K : Clock α σ β) (ops : List (Op α β)) : ∀ (s : Kinded σ) (called : Bool),
    s.kind = (if called then .pyFloat else .tensor) →
    getDt K (kindedRun K codeKind s ops) =
      if steppedSinceSetDt called ops then .error .attribute
      else .ok (K.dt (K.run s.obj ops).1) := by
  have key : ∀ (ops : List (Op α β)) (s : Kinded σ) (called : Bool),
      s.kind = (if called then .pyFloat else .tensor) →
      (kindedRun K codeKind s ops).kind =
        if steppedSinceSetDt called ops then .pyFloat else .tensor := by
    intro ops
    induction ops with
    | nil => intro s c hs; exact hs
    | cons o ops ih =>
      intro s c hs
      cases o with
      | reset => exact ih (kindedCall K codeKind s .reset) c hs
      | setDt d => exact ih (kindedCall K codeKind s (.setDt d)) false rfl
      | forward b =>
        refine ih (kindedCall K codeKind s (.forward b)) true ?_
        simp only [kindedCall]
        cases K.forward s.obj b <;> rfl
      | getFrame b => exact ih s c hs
  intro s called hs
  rw [← kindedRun_obj K codeKind ops s]
  unfold getDt
  rw [key ops s called hs]
  split <;> simp_all

/-- C27, the exception: for `RandomStepCA`, a call of `forward` that returned makes `get_dt`
raise until the next `set_dt`. -/
theorem randomStep_getDt (K : Clock α σ β) (s : Kinded σ) (b : β) (o : σ)
    (hf : K.forward s.obj b = some o) (ops : List (Op α β))
    (hno : ∀ x ∈ ops, ∀ d, x ≠ .setDt d) :
    getDt K (kindedRun K randomStepKind s (.forward b :: ops)) = .error .attribute := by
  have key : ∀ (ops : List (Op α β)) (s : Kinded σ), (∀ x ∈ ops, ∀ d, x ≠ .setDt d) →
      s.kind = .pyFloat → (kindedRun K randomStepKind s ops).kind = .pyFloat := by
    intro ops
    induction ops with
    | nil => intro s _ hs; exact hs
    | cons x ops ih =>
      intro s hno hs
      refine ih (kindedCall K randomStepKind s x) (fun y hy => hno y (List.mem_cons_of_mem _ hy)) ?_
      cases x with
      | reset => exact hs
      | setDt d => exact absurd rfl (hno _ List.mem_cons_self d)
      | forward b =>
        simp only [kindedCall]
        cases K.forward s.obj b <;> simp [randomStepKind, hs]
      | getFrame b => exact hs
  have h1 : kindedRun K randomStepKind s (.forward b :: ops) =
      kindedRun K randomStepKind ⟨o, .pyFloat⟩ ops := by
    show kindedRun K randomStepKind (kindedCall K randomStepKind s (.forward b)) ops = _
    simp [kindedCall, hf, randomStepKind]
  rw [h1]
  unfold getDt
  rw [key ops _ hno rfl]

/-- C27 for the four classes whose `forward` leaves `dt` alone. -/
theorem classes_getDt [Arith α] [Transc α] {hid : Nat} :
    (∀ (s : CCA α ext int) ops, getDt (CCA.clock ext int)
      (kindedRun (CCA.clock ext int) keepsKind ⟨s, .tensor⟩ ops) =
        .ok (((CCA.clock ext int).run s ops).1.dt)) ∧
    (∀ (s : CCA α ext int) ops, getDt (CCA.leniaClock ext int)
      (kindedRun (CCA.leniaClock ext int) keepsKind ⟨s, .tensor⟩ ops) =
        .ok (((CCA.leniaClock ext int).run s ops).1.dt)) ∧
    (∀ (s : NCA α ext int hid) ops, getDt (NCA.clock ext int hid)
      (kindedRun (NCA.clock ext int hid) keepsKind ⟨s, .tensor⟩ ops) =
        .ok (((NCA.clock ext int hid).run s ops).1.dt)) ∧
    (∀ (s : RxnDfn α) ops, getDt RxnDfn.clock
      (kindedRun RxnDfn.clock keepsKind ⟨s, .tensor⟩ ops) = .ok ((RxnDfn.clock.run s ops).1.dt)) :=
  ⟨fun s ops => getDt_works _ ⟨s, .tensor⟩ rfl ops, fun s ops => getDt_works _ ⟨s, .tensor⟩ rfl ops,
   fun s ops => getDt_works _ ⟨s, .tensor⟩ rfl ops, fun s ops => getDt_works _ ⟨s, .tensor⟩ rfl ops⟩

/-- Concrete histories: one CODE step and one RandomStepCA step. -/
example : (CODE.clock 1 1).forward Witness.code1 (100, ⟨(1, 3, 3), Witness.u3⟩) ≠ none ∧
    (RandomStepCA.clock 1 1).forward Witness.rnd1 (1/2, ⟨(1, 3, 3), Witness.u3⟩) ≠ none := by
  decide +kernel

end Kind

end Yuca
