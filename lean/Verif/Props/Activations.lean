import Verif.Props.Structure
import Verif.Model.Kernels

/-!
# C19 activation ranges, C20 growth mode, C21 mixture parameter vectors
-/

namespace Yuca

open Arith Spec

/-! ## C19 -/

theorem bump_pos (mu sigma x : ℝ) : 0 < bump mu sigma x := Real.exp_pos _

theorem bump_le_one (mu sigma x : ℝ) : bump mu sigma x ≤ 1 := by
  unfold bump
  rw [Real.exp_le_one_iff]
  have := sq_nonneg ((x - mu) / (eps9 + sigma))
  linarith

/-- C19: `Gaussian` takes values in `(0,1]`, in growth mode in `(-1,1]`, and reaches the top
at `mu`. -/
theorem gaussian_range (mu sigma : ℝ) (_hs : eps9 + sigma ≠ 0) (x : ℝ) :
    (0 < (Act.gaussian mu sigma false).eval x ∧ (Act.gaussian mu sigma false).eval x ≤ 1) ∧
    (-1 < (Act.gaussian mu sigma true).eval x ∧ (Act.gaussian mu sigma true).eval x ≤ 1) ∧
    (Act.gaussian mu sigma true).eval mu = 1 := by
  have h1 := bump_pos mu sigma x
  have h2 := bump_le_one mu sigma x
  refine ⟨⟨h1, h2⟩, ⟨?_, ?_⟩, ?_⟩
  · simp only [Act.eval, gaussianFn, if_true]; linarith
  · simp only [Act.eval, gaussianFn, if_true]; linarith
  · simp [Act.eval, gaussianFn, bump]; norm_num

theorem clampR_range {lo hi : ℝ} (h : lo ≤ hi) (x : ℝ) : lo ≤ clampR lo hi x ∧ clampR lo hi x ≤ hi := by
  unfold clampR
  exact ⟨le_min (le_max_right _ _) h, min_le_right _ _⟩

/-- C19: `GaussianMixture` takes values in `[0,1]`, in growth mode in `[-1,1]`, for any
amplitudes, also negative ones. -/
theorem mixture_range (cs : List (ℝ × ℝ × ℝ)) (_hne : cs ≠ [])
    (_hs : ∀ c ∈ cs, eps9 + c.2.2 ≠ 0) (x : ℝ) :
    (0 ≤ (Act.mixture cs false).eval x ∧ (Act.mixture cs false).eval x ≤ 1) ∧
    (-1 ≤ (Act.mixture cs true).eval x ∧ (Act.mixture cs true).eval x ≤ 1) :=
  ⟨by simpa [Act.eval, mixtureFn] using clampR_range (by norm_num) _,
   by simpa [Act.eval, mixtureFn] using clampR_range (by norm_num) _⟩

/-- C19: likewise `DoubleGaussian`. -/
theorem doubleGaussian_range (m₀ m₁ s₀ s₁ : ℝ) (_h₀ : eps9 + s₀ ≠ 0) (_h₁ : eps9 + s₁ ≠ 0)
    (x : ℝ) :
    (0 ≤ (Act.doubleGaussian m₀ m₁ s₀ s₁ false).eval x ∧
      (Act.doubleGaussian m₀ m₁ s₀ s₁ false).eval x ≤ 1) ∧
    (-1 ≤ (Act.doubleGaussian m₀ m₁ s₀ s₁ true).eval x ∧
      (Act.doubleGaussian m₀ m₁ s₀ s₁ true).eval x ≤ 1) :=
  ⟨by simpa [Act.eval, doubleGaussianFn] using clampR_range (by norm_num) _,
   by simpa [Act.eval, doubleGaussianFn] using clampR_range (by norm_num) _⟩

theorem sigmoid1_pos (mu alpha x : ℝ) : 0 < sigmoid1 mu alpha x := by
  unfold sigmoid1
  have := Real.exp_pos (-4 * (x - mu) / alpha)
  positivity

theorem sigmoid1_lt_one (mu alpha x : ℝ) : sigmoid1 mu alpha x < 1 := by
  unfold sigmoid1
  have := Real.exp_pos (-4 * (x - mu) / alpha)
  rw [div_lt_one (by linarith)]; linarith

/-- C19: a `SmoothIntervals` growth function with `n ≥ 1` intervals lies strictly between
`-1` and `2n - 1`. -/
theorem smoothIntervals_range (ints : List (ℝ × ℝ)) (hne : ints ≠ []) (alpha : ℝ)
    (_ha : alpha ≠ 0) (x : ℝ) :
    -1 < (Act.smoothIntervals ints alpha true).eval x ∧
      (Act.smoothIntervals ints alpha true).eval x < 2 * ints.length - 1 := by
  have key : ∀ l : List (ℝ × ℝ), l ≠ [] →
      0 < (l.map fun b => sigmoid1 b.1 alpha x * (1 - sigmoid1 b.2 alpha x)).sum ∧
      (l.map fun b => sigmoid1 b.1 alpha x * (1 - sigmoid1 b.2 alpha x)).sum < l.length := by
    intro l hl
    induction l with
    | nil => exact absurd rfl hl
    | cons b l ih =>
      have h1 := sigmoid1_pos b.1 alpha x
      have h2 := sigmoid1_lt_one b.1 alpha x
      have h3 := sigmoid1_pos b.2 alpha x
      have h4 := sigmoid1_lt_one b.2 alpha x
      have hp : 0 < sigmoid1 b.1 alpha x * (1 - sigmoid1 b.2 alpha x) := by
        apply mul_pos h1; linarith
      have hq : sigmoid1 b.1 alpha x * (1 - sigmoid1 b.2 alpha x) < 1 := by nlinarith
      by_cases hl' : l = []
      · subst hl'; simp only [List.map_cons, List.map_nil, List.sum_cons, List.sum_nil,
          List.length_cons, List.length_nil, add_zero]; push_cast
        exact ⟨hp, by linarith⟩
      · obtain ⟨i1, i2⟩ := ih hl'
        simp only [List.map_cons, List.sum_cons, List.length_cons]
        push_cast
        constructor <;> linarith
  obtain ⟨h1, h2⟩ := key ints hne
  simp only [Act.eval, smoothIntervalsFn, if_true]
  constructor <;> linarith

/-- C19: with no intervals it is constantly `-1`. -/
theorem smoothIntervals_empty (alpha x : ℝ) :
    (Act.smoothIntervals [] alpha true).eval x = -1 := by
  simp [Act.eval, smoothIntervalsFn]

example : eps9 + (0.015 : ℝ) ≠ 0 ∧ ([(0.3125, 0.4375)] : List (ℝ × ℝ)) ≠ [] ∧
    (0.0125 : ℝ) ≠ 0 := by
  refine ⟨by unfold eps9; norm_num, by simp, by norm_num⟩

/-! ## C20 -/

/-- C20: in growth mode `Gaussian`, `SmoothIntervals`, `Polynomial`, `GaussianMixture` and
`DoubleGaussian` are `2 f - 1` of their plain mode. -/
theorem growth_mode_affine (x : ℝ) :
    (∀ mu s, (Act.gaussian mu s true).eval x = 2 * (Act.gaussian mu s false).eval x - 1) ∧
    (∀ is a, (Act.smoothIntervals is a true).eval x =
      2 * (Act.smoothIntervals is a false).eval x - 1) ∧
    (∀ cs, (Act.polynomial cs true).eval x = 2 * (Act.polynomial cs false).eval x - 1) ∧
    (∀ cs, (Act.mixture cs true).eval x = 2 * (Act.mixture cs false).eval x - 1) ∧
    (∀ m₀ m₁ s₀ s₁, (Act.doubleGaussian m₀ m₁ s₀ s₁ true).eval x =
      2 * (Act.doubleGaussian m₀ m₁ s₀ s₁ false).eval x - 1) := by
  have hc : ∀ r : ℝ, clampR (-1) 1 (2 * r - 1) = 2 * clampR 0 1 r - 1 := by
    intro r
    unfold clampR
    rcases le_total r 0 with h | h
    · rw [max_eq_right (by linarith), max_eq_right h, min_eq_left (by norm_num),
        min_eq_left (by norm_num)]; ring
    · rw [max_eq_left (by linarith), max_eq_left h]
      rcases le_total r 1 with h' | h'
      · rw [min_eq_left (by linarith), min_eq_left h']
      · rw [min_eq_right (by linarith), min_eq_right h']; norm_num
  refine ⟨?_, ?_, ?_, ?_, ?_⟩ <;> intros <;>
    simp [Act.eval, gaussianFn, smoothIntervalsFn, polynomialFn, mixtureFn, doubleGaussianFn, hc,
      mul_comm]

/-- C20 fails for `DoGaussian`: its growth mode is always negative, while `2 f - 1` of the
plain mode is not (for suitable parameters it is positive). -/
theorem doGaussian_negative (mu sigma dx : ℝ) (_hs : eps9 + sigma ≠ 0) (x : ℝ) :
    (Act.doGaussian mu sigma dx true).eval x < 0 := by
  have h1 := bump_le_one mu sigma (x + dx)
  have h2 := bump_pos mu sigma (x - dx)
  simp only [Act.eval, doGaussianFn, if_true]; linarith

theorem doGaussian_affine_refuted : ∃ mu sigma dx x : ℝ, eps9 + sigma ≠ 0 ∧
    (Act.doGaussian mu sigma dx true).eval x ≠
      2 * (Act.doGaussian mu sigma dx false).eval x - 1 := by
  refine ⟨0, 1, 0, 0, by unfold eps9; norm_num, ?_⟩
  simp [Act.eval, doGaussianFn, bump]

/-! ## C21 -/

theorem pairs_eq {K : Type} (one : K) (l : List (K × K)) :
    mixtureComponents.pairs one (l.flatMap fun p => [p.1, p.2]) =
      .ok (l.map fun p => (one, p.1, p.2)) := by
  induction l with
  | nil => rfl
  | cons p l ih =>
    simp only [List.flatMap_cons, List.cons_append, List.nil_append, mixtureComponents.pairs,
      ih, List.map_cons]
    rfl

theorem triples_eq {K : Type} (l : List (K × K × K)) :
    mixtureComponents.triples (l.flatMap fun p => [p.1, p.2.1, p.2.2]) = .ok l := by
  induction l with
  | nil => rfl
  | cons p l ih =>
    simp only [List.flatMap_cons, List.cons_append, List.nil_append, mixtureComponents.triples, ih]
    rfl

theorem length_flatMap_pairs {K : Type} (l : List (K × K)) :
    (l.flatMap fun p => [p.1, p.2]).length = 2 * l.length := by
  induction l with
  | nil => rfl
  | cons p l ih => simp only [List.flatMap_cons, List.length_append, ih, List.length_cons,
      List.length_nil]; omega

theorem length_flatMap_triples {K : Type} (l : List (K × K × K)) :
    (l.flatMap fun p => [p.1, p.2.1, p.2.2]).length = 3 * l.length := by
  induction l with
  | nil => rfl
  | cons p l ih => simp only [List.flatMap_cons, List.length_append, ih, List.length_cons,
      List.length_nil]; omega

/-- C21: `n` (mu, sigma) pairs are read as `n` components of amplitude one, provided `2n` is
not a multiple of 3. -/
theorem mixture_reads_pairs {K : Type} (one : K) (l : List (K × K)) (h : (2 * l.length) % 3 ≠ 0) :
    mixtureComponents one (l.flatMap fun p => [p.1, p.2]) = .ok (l.map fun p => (one, p.1, p.2)) := by
  unfold mixtureComponents
  rw [length_flatMap_pairs, if_neg h, pairs_eq]

/-- C21: (amplitude, mu, sigma) triples are always read as such. -/
theorem mixture_reads_triples {K : Type} (one : K) (l : List (K × K × K)) :
    mixtureComponents one (l.flatMap fun p => [p.1, p.2.1, p.2.2]) = .ok l := by
  unfold mixtureComponents
  rw [length_flatMap_triples, if_pos (by omega), triples_eq]

/-- C21: any number of pairs divisible by three is silently read as triples: each block of
three pairs becomes two components, the first with amplitude `mu₀`, the second with amplitude
`sigma₁`. -/
theorem mixture_misreads_pairs {K : Type} (one : K) (bs : List ((K × K) × (K × K) × (K × K))) :
    mixtureComponents one
        ((bs.flatMap fun b => [b.1, b.2.1, b.2.2]).flatMap fun p => [p.1, p.2]) =
      .ok (bs.flatMap fun b =>
        [(b.1.1, b.1.2, b.2.1.1), (b.2.1.2, b.2.2.1, b.2.2.2)]) := by
  have : ((bs.flatMap fun b => [b.1, b.2.1, b.2.2]).flatMap fun p => [p.1, p.2]) =
      (bs.flatMap fun b => [(b.1.1, b.1.2, b.2.1.1), (b.2.1.2, b.2.2.1, b.2.2.2)]).flatMap
        fun p => [p.1, p.2.1, p.2.2] := by
    induction bs with
    | nil => rfl
    | cons b bs ih => simp only [List.flatMap_cons, List.flatMap_append, ih]; rfl
  rw [this, mixture_reads_triples]

/-- C21: the vector is accepted exactly when its length is even or a multiple of three; any
other length raises IndexError. -/
theorem mixture_length (K : Type) (one : K) (ps : List K) :
    (ps.length % 3 = 0 ∨ ps.length % 2 = 0 → ∃ cs, mixtureComponents one ps = .ok cs) ∧
    (ps.length % 3 ≠ 0 → ps.length % 2 = 1 → mixtureComponents one ps = .error .index) := by
  have ht : ∀ n (ps : List K), ps.length = n → ps.length % 3 = 0 →
      ∃ cs, mixtureComponents.triples ps = .ok cs := by
    intro n
    induction n using Nat.strong_induction_on with
    | _ n ih =>
      intro ps hn h
      match ps, hn, h with
      | [], _, _ => exact ⟨[], rfl⟩
      | a :: m :: s :: rest, hn, h =>
        simp only [List.length_cons] at hn h
        obtain ⟨cs, hcs⟩ := ih rest.length (by omega) rest rfl (by omega)
        exact ⟨(a, m, s) :: cs, by simp only [mixtureComponents.triples, hcs]; rfl⟩
      | [a], _, h => simp at h
      | [a, b], _, h => simp at h
  have hp : ∀ n (ps : List K), ps.length = n → ps.length % 2 = 0 →
      ∃ cs, mixtureComponents.pairs one ps = .ok cs := by
    intro n
    induction n using Nat.strong_induction_on with
    | _ n ih =>
      intro ps hn h
      match ps, hn, h with
      | [], _, _ => exact ⟨[], rfl⟩
      | m :: s :: rest, hn, h =>
        simp only [List.length_cons] at hn h
        obtain ⟨cs, hcs⟩ := ih rest.length (by omega) rest rfl (by omega)
        exact ⟨(one, m, s) :: cs, by simp only [mixtureComponents.pairs, hcs]; rfl⟩
      | [a], _, h => simp at h
  have he : ∀ n (ps : List K), ps.length = n → ps.length % 2 = 1 →
      mixtureComponents.pairs one ps = .error .index := by
    intro n
    induction n using Nat.strong_induction_on with
    | _ n ih =>
      intro ps hn h
      match ps, hn, h with
      | [], _, h => simp at h
      | m :: s :: rest, hn, h =>
        simp only [List.length_cons] at hn h
        have := ih rest.length (by omega) rest rfl (by omega)
        simp only [mixtureComponents.pairs, this]; rfl
      | [a], _, _ => rfl
  unfold mixtureComponents
  constructor
  · intro h
    split
    · exact ht _ ps rfl ‹_›
    · exact hp _ ps rfl (by omega)
  · intro h1 h2
    rw [if_neg h1]
    exact he _ ps rfl h2

example : (2 * [((0.15 : ℚ), (0.015 : ℚ))].length) % 3 ≠ 0 ∧
    [(1 : ℚ), 2, 3, 4, 5].length % 3 ≠ 0 ∧ [(1 : ℚ), 2, 3, 4, 5].length % 2 = 1 := by decide

end Yuca
