import Verif.Props.GrayScott
import Verif.Props.Rules
import Verif.Props.Analysis
import Mathlib.Analysis.Complex.ExponentialBounds

/-!
# C103: what a Gray-Scott universe gains, and below which level its pattern dies out

Exact real arithmetic, on the torus.
-/

namespace Yuca

open Arith

variable {N H W : Nat}

namespace Spec

/-- A kernel that only exchanges: what a cell loses goes to the cells around it.  The entries off
the centre are not negative and all entries sum to zero. -/
def Exchanges {r : Nat} (κ : Fin (2 * r + 1) → Fin (2 * r + 1) → ℝ) : Prop :=
  (∀ a b, ¬ (a.val = r ∧ b.val = r) → 0 ≤ κ a b) ∧ ∑ a, ∑ b, κ a b = 0

/-- The share of its content a cell gives away, in kernel units. -/
noncomputable def given {r : Nat} (κ : Fin (2 * r + 1) → Fin (2 * r + 1) → ℝ) : ℝ :=
  -κ ⟨r, by omega⟩ ⟨r, by omega⟩

/-- A Gray-Scott automaton on the torus whose step size is small enough for the explicit Euler
scheme: in one step no cell gives away more of a species than it holds. -/
structure Resolved {r : Nat} (ca : RxnDfn ℝ)
    (κ : Fin (2 * r + 1) → Fin (2 * r + 1) → ℝ) : Prop where
  idL : ca.idL = identityLayer 2 2 .circular
  nbL : ca.nbL = .ofKernel 2 2 .circular (2 * r + 1) κ
  exchanges : Exchanges κ
  diffU : 0 ≤ ca.diffU
  diffV : 0 ≤ ca.diffV
  dx : ca.dx ≠ 0
  dt : 0 < ca.dt
  f : 0 < ca.f
  k : 0 ≤ ca.k
  stepU : ca.dt * (ca.diffU * given κ / ca.dx ^ 2 + ca.f) ≤ 1
  stepV : ca.dt * (ca.diffV * given κ / ca.dx ^ 2 + (ca.f + ca.k)) ≤ 1

/-- Everything in one channel of one universe. -/
noncomputable def held (x : Univ ℝ N 2 H W) (n : Fin N) (c : Fin 2) : ℝ := ∑ i, ∑ j, x n c i j

end Spec

open Spec

/-- The universe can be placed on a torus at least as large as the radius of the kernel. -/
def Spec.Room (r H W : Nat) : Prop := (1 ≤ H ∧ r ≤ H) ∧ (1 ≤ W ∧ r ≤ W)

theorem roll_nothing {n : Nat} (i : Fin n) : rollIdx i 0 = i := by
  rw [rollIdx_eq_cyc, neg_zero, cyc_zero]

/-- What an exchanging kernel gathers lies between the lowest and the highest level around. -/
theorem gathered_between {r : Nat} {κ : Fin (2 * r + 1) → Fin (2 * r + 1) → ℝ}
    (hκ : Exchanges κ) (x : Grid ℝ H W) {lo hi : ℝ} (hx : ∀ i j, lo ≤ x i j ∧ x i j ≤ hi)
    (i : Fin H) (j : Fin W) :
    given κ * (lo - x i j) ≤ gathered κ x i j ∧ gathered κ x i j ≤ given κ * (hi - x i j) := by
  obtain ⟨hoff, hsum⟩ := hκ
  set c : Fin (2 * r + 1) := ⟨r, by omega⟩ with hc
  let κ' : Fin (2 * r + 1) → Fin (2 * r + 1) → ℝ :=
    fun a b => κ a b + if a = c ∧ b = c then given κ else 0
  have hk0 : ∀ a b, 0 ≤ κ' a b := by
    intro a b
    by_cases h : a = c ∧ b = c
    · obtain ⟨rfl, rfl⟩ := h
      simp [κ', given, hc]
    · have : ¬ (a.val = r ∧ b.val = r) := fun h' => h ⟨Fin.ext h'.1, Fin.ext h'.2⟩
      simpa [κ', h] using hoff a b this
  have hpt : ∑ a, ∑ b, (if a = c ∧ b = c then given κ else 0) = given κ := by
    rw [Finset.sum_eq_single c, Finset.sum_eq_single c] <;> simp +contextual
  have hks : ∑ a, ∑ b, κ' a b = given κ := by
    simp only [κ', Finset.sum_add_distrib]
    rw [hsum, hpt, zero_add]
  let y : Fin (2 * r + 1) → Fin (2 * r + 1) → ℝ :=
    fun a b => x (rollIdx i ((r : Int) - a.val)) (rollIdx j ((r : Int) - b.val))
  have hyc : y c c = x i j := by
    simp only [y, hc, sub_self, roll_nothing]
  have hg : gathered κ x i j = ∑ a, ∑ b, κ' a b * (y a b - x i j) := by
    have h1 : ∀ a b, κ' a b * (y a b - x i j) = κ a b * y a b - κ a b * x i j := by
      intro a b
      by_cases h : a = c ∧ b = c
      · obtain ⟨rfl, rfl⟩ := h
        rw [hyc]; ring
      · simp only [κ', if_neg h]; ring
    simp only [h1, Finset.sum_sub_distrib, ← Finset.sum_mul]
    rw [hsum, zero_mul, sub_zero]
    rfl
  rw [hg, ← hks]
  simp only [Finset.sum_mul]
  constructor
  · refine Finset.sum_le_sum fun a _ => Finset.sum_le_sum fun b _ => ?_
    exact mul_le_mul_of_nonneg_left (by linarith [(hx (rollIdx i ((r : Int) - a.val))
      (rollIdx j ((r : Int) - b.val))).1]) (hk0 a b)
  · refine Finset.sum_le_sum fun a _ => Finset.sum_le_sum fun b _ => ?_
    exact mul_le_mul_of_nonneg_left (by linarith [(hx (rollIdx i ((r : Int) - a.val))
      (rollIdx j ((r : Int) - b.val))).2]) (hk0 a b)

theorem given_nonneg {r : Nat} {κ : Fin (2 * r + 1) → Fin (2 * r + 1) → ℝ} (hκ : Exchanges κ) :
    0 ≤ given κ := by
  have h := (gathered_between (H := 1) (W := 1) hκ (fun _ _ => 0) (lo := -1) (hi := 0)
    (fun _ _ => by norm_num) 0 0).1.trans
    (gathered_between (H := 1) (W := 1) hκ (fun _ _ => 0) (lo := -1) (hi := 0)
    (fun _ _ => by norm_num) 0 0).2
  linarith

/-- What a kernel of sum zero gathers over the whole torus is nothing. -/
theorem gathered_total {r : Nat} {κ : Fin (2 * r + 1) → Fin (2 * r + 1) → ℝ}
    (hκ : ∑ a, ∑ b, κ a b = 0) (x : Grid ℝ H W) : ∑ i, ∑ j, gathered κ x i j = 0 := by
  have hroll : ∀ d e : ℤ, ∑ i, ∑ j, x (rollIdx i d) (rollIdx j e) = ∑ i, ∑ j, x i j := by
    intro d e
    refine (Equiv.sum_comp (rollEquiv H d) fun i => ∑ j, x i (rollIdx j e)).trans ?_
    refine Finset.sum_congr rfl fun i _ => ?_
    exact Equiv.sum_comp (rollEquiv W e) fun j => x i j
  calc ∑ i, ∑ j, gathered κ x i j
      = ∑ a, ∑ b, κ a b * ∑ i, ∑ j, x (rollIdx i ((r : Int) - a.val)) (rollIdx j ((r : Int) - b.val)) := by
        simp only [gathered, Finset.mul_sum]
        rw [Finset.sum_congr rfl fun i _ => Finset.sum_comm, Finset.sum_comm]
        refine Finset.sum_congr rfl fun a _ => ?_
        rw [Finset.sum_congr rfl fun i _ => Finset.sum_comm, Finset.sum_comm]
    _ = (∑ a, ∑ b, κ a b) * ∑ i, ∑ j, x i j := by
        simp only [hroll, Finset.sum_mul]
    _ = 0 := by rw [hκ, zero_mul]

theorem clip_inside {y : ℝ} (h0 : 0 < clip y) (h1 : clip y < 1) : clip y = y := by
  unfold clip at *
  have hy0 : 0 ≤ y := by
    by_contra hc
    rw [min_eq_right (by linarith), max_eq_left (by linarith)] at h0
    exact lt_irrefl _ h0
  have hy1 : y ≤ 1 := by
    by_contra hc
    rw [min_eq_left (by linarith), max_eq_right (by norm_num)] at h1
    exact lt_irrefl _ h1
  rw [min_eq_right hy1, max_eq_right hy0]

/-- C103: diffusion moves the two species around but makes none.  In a step that clamps no cell,
the first species gains `f` times what is missing to 1 and loses `u v²`, the second gains `u v²`
and loses `(f + k) v`; for every kernel of sum zero, all diffusion rates and step sizes. -/
theorem rxn_mass {r : Nat} (ca : RxnDfn ℝ) (κ : Fin (2 * r + 1) → Fin (2 * r + 1) → ℝ)
    (hid : ca.idL = identityLayer 2 2 .circular)
    (hnb : ca.nbL = .ofKernel 2 2 .circular (2 * r + 1) κ) (hκ : ∑ a, ∑ b, κ a b = 0)
    (hroom : Room r H W) (x : Univ ℝ N 2 H W) {s : Univ ℝ N 2 H W × RxnDfn ℝ}
    (h : ca.forward x = .ok s) (n : Fin N)
    (hin : ∀ c i j, 0 < s.1 n c i j ∧ s.1 n c i j < 1) :
    held s.1 n 0 = held x n 0 + ca.dt *
        (ca.f * (H * W - held x n 0) - ∑ i, ∑ j, x n 0 i j * x n 1 i j ^ 2) ∧
      held s.1 n 1 = held x n 1 + ca.dt *
        (∑ i, ∑ j, x n 0 i j * x n 1 i j ^ 2 - (ca.f + ca.k) * held x n 1) := by
  obtain ⟨x', h1, h2⟩ := rxn_rule ca κ hid hnb x hroom.1 hroom.2
  rw [h1] at h
  cases h
  have e0 : ∀ i j, x' n 0 i j = x n 0 i j + ca.dt * (ca.diffU * (gathered κ (x n 0) i j / ca.dx ^ 2)
      - x n 0 i j * x n 1 i j ^ 2 + ca.f * (1 - x n 0 i j)) := by
    intro i j
    have := hin 0 i j
    have e := (h2 n i j).1
    simp only at e this
    rw [e] at this ⊢
    exact clip_inside this.1 this.2
  have e1 : ∀ i j, x' n 1 i j = x n 1 i j + ca.dt * (ca.diffV * (gathered κ (x n 1) i j / ca.dx ^ 2)
      + x n 0 i j * x n 1 i j ^ 2 - (ca.f + ca.k) * x n 1 i j) := by
    intro i j
    have := hin 1 i j
    have e := (h2 n i j).2
    simp only at e this
    rw [e] at this ⊢
    exact clip_inside this.1 this.2
  have g0 := gathered_total hκ (x n 0)
  have g1 := gathered_total hκ (x n 1)
  constructor
  · simp only [held, e0, Finset.sum_add_distrib, Finset.sum_sub_distrib, ← Finset.mul_sum,
      ← Finset.sum_div, g0, Finset.sum_const, Finset.card_univ, Fintype.card_fin, nsmul_eq_mul]
    ring
  · simp only [held, e1, Finset.sum_add_distrib, Finset.sum_sub_distrib, ← Finset.mul_sum,
      ← Finset.sum_div, g1]
    ring

/-- One step below the threshold. -/
theorem decay_step {r : Nat} {ca : RxnDfn ℝ} {κ : Fin (2 * r + 1) → Fin (2 * r + 1) → ℝ}
    (hca : Resolved ca κ) (hroom : Room r H W) (x : Univ ℝ N 2 H W) {δ V Y : ℝ}
    (hV0 : 0 ≤ V) (hV : V ≤ δ) (hY : 0 ≤ Y)
    (hu : ∀ n i j, 0 ≤ x n 0 i j ∧ 1 - Y ≤ x n 0 i j ∧ x n 0 i j ≤ 1)
    (hv : ∀ n i j, 0 ≤ x n 1 i j ∧ x n 1 i j ≤ V)
    {s : Univ ℝ N 2 H W × RxnDfn ℝ} (h : ca.forward x = .ok s) :
    s.2 = { ca with t := ca.t + ca.dt } ∧
    (∀ n i j, 0 ≤ s.1 n 0 i j ∧
      1 - ((1 - ca.dt * ca.f) * Y + ca.dt * V ^ 2) ≤ s.1 n 0 i j ∧ s.1 n 0 i j ≤ 1) ∧
    ∀ n i j, 0 ≤ s.1 n 1 i j ∧ s.1 n 1 i j ≤ (1 - ca.dt * (ca.f + ca.k - δ)) * V := by
  obtain ⟨x', h1, h2⟩ := rxn_rule ca κ hca.idL hca.nbL x hroom.1 hroom.2
  rw [h1] at h
  cases h
  have hdt := hca.dt
  have hf := hca.f
  have hw := given_nonneg hca.exchanges
  have hdx : 0 < ca.dx ^ 2 := by have := hca.dx; positivity
  have hau : 0 ≤ ca.diffU * given κ / ca.dx ^ 2 := by have := hca.diffU; positivity
  have hav : 0 ≤ ca.diffV * given κ / ca.dx ^ 2 := by have := hca.diffV; positivity
  have hsu := hca.stepU
  have hsv := hca.stepV
  set au := ca.diffU * given κ / ca.dx ^ 2 with hauE
  set av := ca.diffV * given κ / ca.dx ^ 2 with havE
  refine ⟨rfl, fun n i j => ?_, fun n i j => ?_⟩
  · obtain ⟨u0, uY, u1⟩ := hu n i j
    obtain ⟨v0, vV⟩ := hv n i j
    have hg := (gathered_between hca.exchanges (x n 0) (lo := 1 - Y) (hi := 1)
      (fun i j => (hu n i j).2) i j).1
    simp only [(h2 n i j).1]
    have hG : -(au * (Y - (1 - x n 0 i j))) ≤ ca.diffU * (gathered κ (x n 0) i j / ca.dx ^ 2) := by
      have : ca.diffU * ((given κ * (1 - Y - x n 0 i j)) / ca.dx ^ 2) ≤
          ca.diffU * (gathered κ (x n 0) i j / ca.dx ^ 2) :=
        mul_le_mul_of_nonneg_left (div_le_div_of_nonneg_right hg hdx.le) hca.diffU
      refine le_trans (le_of_eq ?_) this
      rw [hauE]; ring
    have hr : x n 0 i j * x n 1 i j ^ 2 ≤ V ^ 2 := by
      have a1 : x n 1 i j ^ 2 ≤ V ^ 2 := pow_le_pow_left₀ v0 vV 2
      have a2 : x n 0 i j * x n 1 i j ^ 2 ≤ 1 * x n 1 i j ^ 2 :=
        mul_le_mul_of_nonneg_right u1 (sq_nonneg _)
      linarith
    have hp : 0 ≤ 1 - ca.dt * (au + ca.f) := by linarith
    have hlow : 1 - ((1 - ca.dt * ca.f) * Y + ca.dt * V ^ 2) ≤ x n 0 i j + ca.dt *
        (ca.diffU * (gathered κ (x n 0) i j / ca.dx ^ 2) - x n 0 i j * x n 1 i j ^ 2 +
          ca.f * (1 - x n 0 i j)) := by
      have a1 : ca.dt * (-(au * (Y - (1 - x n 0 i j))) - V ^ 2 + ca.f * (1 - x n 0 i j)) ≤ ca.dt *
        (ca.diffU * (gathered κ (x n 0) i j / ca.dx ^ 2) - x n 0 i j * x n 1 i j ^ 2 +
          ca.f * (1 - x n 0 i j)) := mul_le_mul_of_nonneg_left (by linarith) hdt.le
      have a2 : (1 - ca.dt * (au + ca.f)) * (1 - x n 0 i j) ≤ (1 - ca.dt * (au + ca.f)) * Y :=
        mul_le_mul_of_nonneg_left (by linarith) hp
      nlinarith
    have hz : 0 ≤ (1 - ca.dt * ca.f) * Y + ca.dt * V ^ 2 := by
      have : 0 ≤ ca.dt * au := by positivity
      have a1 : 0 ≤ 1 - ca.dt * ca.f := by linarith
      positivity
    unfold clip
    exact ⟨le_max_left _ _, le_max_of_le_right (le_min (by linarith) hlow),
      max_le zero_le_one (min_le_left _ _)⟩
  · obtain ⟨u0, uY, u1⟩ := hu n i j
    obtain ⟨v0, vV⟩ := hv n i j
    have hg := (gathered_between hca.exchanges (x n 1) (lo := 0) (hi := V)
      (fun i j => hv n i j) i j).2
    simp only [(h2 n i j).2]
    have hG : ca.diffV * (gathered κ (x n 1) i j / ca.dx ^ 2) ≤ av * (V - x n 1 i j) := by
      have : ca.diffV * (gathered κ (x n 1) i j / ca.dx ^ 2) ≤
          ca.diffV * ((given κ * (V - x n 1 i j)) / ca.dx ^ 2) :=
        mul_le_mul_of_nonneg_left (div_le_div_of_nonneg_right hg hdx.le) hca.diffV
      refine this.trans (le_of_eq ?_)
      rw [havE]; ring
    have hr : x n 0 i j * x n 1 i j ^ 2 ≤ δ * x n 1 i j := by
      have a1 : x n 0 i j * x n 1 i j ≤ 1 * x n 1 i j := mul_le_mul_of_nonneg_right u1 v0
      have a2 : (x n 0 i j * x n 1 i j) * x n 1 i j ≤ δ * x n 1 i j :=
        mul_le_mul_of_nonneg_right (by linarith) v0
      calc _ = (x n 0 i j * x n 1 i j) * x n 1 i j := by ring
        _ ≤ _ := a2
    have hδ0 : 0 ≤ δ := hV0.trans hV
    have hq : 0 ≤ 1 - ca.dt * (av + (ca.f + ca.k - δ)) := by
      have : 0 ≤ ca.dt * δ := by positivity
      linarith
    have hup : x n 1 i j + ca.dt * (ca.diffV * (gathered κ (x n 1) i j / ca.dx ^ 2) +
        x n 0 i j * x n 1 i j ^ 2 - (ca.f + ca.k) * x n 1 i j) ≤
        (1 - ca.dt * (ca.f + ca.k - δ)) * V := by
      have a1 : ca.dt * (ca.diffV * (gathered κ (x n 1) i j / ca.dx ^ 2) +
        x n 0 i j * x n 1 i j ^ 2 - (ca.f + ca.k) * x n 1 i j) ≤ ca.dt * (av * (V - x n 1 i j) +
          δ * x n 1 i j - (ca.f + ca.k) * x n 1 i j) :=
        mul_le_mul_of_nonneg_left (by linarith) hdt.le
      have a2 : (1 - ca.dt * (av + (ca.f + ca.k - δ))) * x n 1 i j ≤
          (1 - ca.dt * (av + (ca.f + ca.k - δ))) * V := mul_le_mul_of_nonneg_left vV hq
      nlinarith
    have hz : 0 ≤ (1 - ca.dt * (ca.f + ca.k - δ)) * V := by
      have : 0 ≤ ca.dt * av := by positivity
      have a1 : 0 ≤ 1 - ca.dt * (ca.f + ca.k - δ) := by linarith
      positivity
    unfold clip
    exact ⟨le_max_left _ _, max_le hz ((min_le_right _ _).trans hup)⟩

theorem resolved_later {r : Nat} {ca : RxnDfn ℝ} {κ : Fin (2 * r + 1) → Fin (2 * r + 1) → ℝ}
    (hca : Resolved ca κ) (t : ℝ) : Resolved { ca with t := t } κ :=
  ⟨hca.idL, hca.nbL, hca.exchanges, hca.diffU, hca.diffV, hca.dx, hca.dt, hca.f, hca.k, hca.stepU,
    hca.stepV⟩

/-- C103: if the second species nowhere exceeds `δ < f + k`, it never recovers: after `n` steps it
nowhere exceeds `δ (1 - dt (f + k - δ))ⁿ`, and the first species is nowhere below `1 - A qⁿ`, with
constants that depend neither on the universe nor on its size. -/
theorem rxn_extinction {r : Nat} (ca : RxnDfn ℝ) (κ : Fin (2 * r + 1) → Fin (2 * r + 1) → ℝ)
    (hca : Resolved ca κ) {δ : ℝ} (hδ0 : 0 ≤ δ) (hδ : δ < ca.f + ca.k) :
    ∃ A q : ℝ, 0 ≤ A ∧ 0 ≤ q ∧ q < 1 ∧ 1 - ca.dt * (ca.f + ca.k - δ) ≤ q ∧
      ∀ {N H W : Nat} (_ : Room r H W) (x : Univ ℝ N 2 H W)
        (_ : ∀ n i j, 0 ≤ x n 0 i j ∧ x n 0 i j ≤ 1) (_ : ∀ n i j, 0 ≤ x n 1 i j ∧ x n 1 i j ≤ δ)
        (m : Nat) (s : Univ ℝ N 2 H W × RxnDfn ℝ), iterate RxnDfn.forward m ca x = .ok s →
        ∀ n i j, (1 - A * q ^ m ≤ s.1 n 0 i j ∧ s.1 n 0 i j ≤ 1) ∧
          (0 ≤ s.1 n 1 i j ∧ s.1 n 1 i j ≤ δ * (1 - ca.dt * (ca.f + ca.k - δ)) ^ m) := by
  have hdt := hca.dt
  have hf := hca.f
  have hw := given_nonneg hca.exchanges
  have hdx : 0 < ca.dx ^ 2 := by have := hca.dx; positivity
  have hau : 0 ≤ ca.dt * (ca.diffU * given κ / ca.dx ^ 2) := by have := hca.diffU; positivity
  have hav : 0 ≤ ca.dt * (ca.diffV * given κ / ca.dx ^ 2) := by have := hca.diffV; positivity
  have hsu := hca.stepU
  have hsv := hca.stepV
  have hdδ : 0 ≤ ca.dt * δ := by positivity
  have hp0 : 0 ≤ 1 - ca.dt * ca.f := by linarith
  have hp1 : 1 - ca.dt * ca.f < 1 := by have : 0 < ca.dt * ca.f := by positivity
                                        linarith
  have hg0 : 0 ≤ 1 - ca.dt * (ca.f + ca.k - δ) := by linarith
  have hg1 : 1 - ca.dt * (ca.f + ca.k - δ) < 1 := by
    have : 0 < ca.dt * (ca.f + ca.k - δ) := mul_pos hdt (by linarith)
    linarith
  set p := 1 - ca.dt * ca.f with hp
  set g := 1 - ca.dt * (ca.f + ca.k - δ) with hg
  set q := max g ((1 + p) / 2) with hq
  have hq1 : q < 1 := max_lt hg1 (by linarith)
  have hqg : g ≤ q := le_max_left _ _
  have hqp : 0 < q - p := by
    have : (1 + p) / 2 ≤ q := le_max_right _ _
    linarith
  have hq0 : 0 ≤ q := hg0.trans hqg
  set A := 1 + ca.dt * δ ^ 2 / (q - p) with hA
  have hA0 : 0 ≤ A := by positivity
  refine ⟨A, q, hA0, hq0, hq1, hqg, ?_⟩
  intro N H W hroom x hu hv m s hs
  have key : ∀ (m : Nat) (l : Nat) (ca' : RxnDfn ℝ), (∃ t, ca' = { ca with t := t }) →
      ∀ (x : Univ ℝ N 2 H W),
      (∀ n i j, 0 ≤ x n 0 i j ∧ 1 - A * q ^ l ≤ x n 0 i j ∧ x n 0 i j ≤ 1) →
      (∀ n i j, 0 ≤ x n 1 i j ∧ x n 1 i j ≤ δ * g ^ l) → ∀ s, iterate RxnDfn.forward m ca' x = .ok s →
      (∀ n i j, 0 ≤ s.1 n 0 i j ∧ 1 - A * q ^ (l + m) ≤ s.1 n 0 i j ∧ s.1 n 0 i j ≤ 1) ∧
      (∀ n i j, 0 ≤ s.1 n 1 i j ∧ s.1 n 1 i j ≤ δ * g ^ (l + m)) := by
    intro m
    induction m with
    | zero => intro l ca' _ x hu hv s h; cases h; exact ⟨hu, hv⟩
    | succ m ih =>
      intro l ca' ⟨t, ht⟩ x hu hv s h
      obtain ⟨⟨x1, s1⟩, h1, h2⟩ := bind_ok h
      have hgl : g ^ l ≤ 1 := pow_le_one₀ hg0 hg1.le
      have hgl0 : 0 ≤ g ^ l := pow_nonneg hg0 l
      have hql0 : 0 ≤ q ^ l := pow_nonneg hq0 l
      subst ht
      obtain ⟨b1, b2, b3⟩ := decay_step (resolved_later hca t) hroom x (δ := δ) (V := δ * g ^ l)
        (Y := A * q ^ l) (by positivity) (mul_le_of_le_one_right hδ0 hgl) (by positivity)
        hu hv h1
      simp only at b1 b2 b3
      have hb : p * (A * q ^ l) + ca.dt * (δ * g ^ l) ^ 2 ≤ A * q ^ (l + 1) := by
        have c1 : (g ^ l) ^ 2 ≤ q ^ l := by
          calc (g ^ l) ^ 2 = g ^ l * g ^ l := by ring
            _ ≤ g ^ l * 1 := mul_le_mul_of_nonneg_left hgl hgl0
            _ = g ^ l := mul_one _
            _ ≤ q ^ l := pow_le_pow_left₀ hg0 hqg l
        have c2 : ca.dt * δ ^ 2 * (g ^ l) ^ 2 ≤ ca.dt * δ ^ 2 * q ^ l :=
          mul_le_mul_of_nonneg_left c1 (by positivity)
        have c3 : ca.dt * δ ^ 2 ≤ A * (q - p) := by
          rw [hA, add_mul, div_mul_cancel₀ _ hqp.ne']
          linarith
        have c4 : ca.dt * δ ^ 2 * q ^ l ≤ A * (q - p) * q ^ l := mul_le_mul_of_nonneg_right c3 hql0
        calc p * (A * q ^ l) + ca.dt * (δ * g ^ l) ^ 2
            = p * A * q ^ l + ca.dt * δ ^ 2 * (g ^ l) ^ 2 := by ring
          _ ≤ p * A * q ^ l + A * (q - p) * q ^ l := by linarith
          _ = A * q ^ (l + 1) := by ring
      have := ih (l + 1) s1 ⟨_, b1⟩ x1
        (fun n i j => ⟨(b2 n i j).1, le_trans (by linarith) (b2 n i j).2.1, (b2 n i j).2.2⟩)
        (fun n i j => ⟨(b3 n i j).1, (b3 n i j).2.trans (le_of_eq (by rw [pow_succ]; ring))⟩) s h2
      rw [show l + (m + 1) = l + 1 + m by omega]
      exact this
  have hA1 : 1 ≤ A := by
    have : 0 ≤ ca.dt * δ ^ 2 / (q - p) := by positivity
    linarith
  obtain ⟨k1, k2⟩ := key m 0 ca ⟨ca.t, rfl⟩ x
    (fun n i j => ⟨(hu n i j).1, by rw [pow_zero]; linarith [(hu n i j).1], (hu n i j).2⟩)
    (fun n i j => by rw [pow_zero, mul_one]; exact hv n i j) s hs
  rw [Nat.zero_add] at k1 k2
  exact fun n i j => ⟨(k1 n i j).2, k2 n i j⟩

/-- C103: so it comes to rest at `u = 1`, `v = 0`: from some step on it is as close as you like, at
the same step for all such universes of all sizes. -/
theorem rxn_comes_to_rest {r : Nat} (ca : RxnDfn ℝ) (κ : Fin (2 * r + 1) → Fin (2 * r + 1) → ℝ)
    (hca : Resolved ca κ) {δ : ℝ} (hδ0 : 0 ≤ δ) (hδ : δ < ca.f + ca.k) {ε : ℝ} (hε : 0 < ε) :
    ∃ m₀ : Nat, ∀ m ≥ m₀, ∀ {N H W : Nat} (_ : Room r H W) (x : Univ ℝ N 2 H W)
      (_ : ∀ n i j, 0 ≤ x n 0 i j ∧ x n 0 i j ≤ 1) (_ : ∀ n i j, 0 ≤ x n 1 i j ∧ x n 1 i j ≤ δ)
      (s : Univ ℝ N 2 H W × RxnDfn ℝ), iterate RxnDfn.forward m ca x = .ok s →
      ∀ n i j, |s.1 n 0 i j - 1| < ε ∧ |s.1 n 1 i j - 0| < ε := by
  obtain ⟨A, q, hA, hq0, hq1, hgq, h⟩ := rxn_extinction ca κ hca hδ0 hδ
  have ht : Filter.Tendsto (fun m : Nat => (A + δ) * q ^ m) Filter.atTop (nhds ((A + δ) * 0)) :=
    (tendsto_pow_atTop_nhds_zero_of_lt_one hq0 hq1).const_mul _
  rw [mul_zero] at ht
  obtain ⟨m₀, hm₀⟩ := Filter.eventually_atTop.1 (ht.eventually (gt_mem_nhds hε))
  refine ⟨m₀, fun m hm N H W hroom x hu hv s hs n i j => ?_⟩
  obtain ⟨⟨a1, a2⟩, a3, a4⟩ := h hroom x hu hv m s hs n i j
  have hm' := hm₀ m hm
  have hqm : 0 ≤ q ^ m := pow_nonneg hq0 m
  have hg0 : 0 ≤ 1 - ca.dt * (ca.f + ca.k - δ) := by
    have := hca.stepV
    have h1 : 0 ≤ ca.dt * (ca.diffV * given κ / ca.dx ^ 2) := by
      have := hca.diffV
      have := given_nonneg hca.exchanges
      have := hca.dt.le
      positivity
    have h2 : 0 ≤ ca.dt * δ := mul_nonneg hca.dt.le hδ0
    linarith
  have a5 : δ * (1 - ca.dt * (ca.f + ca.k - δ)) ^ m ≤ δ * q ^ m :=
    mul_le_mul_of_nonneg_left (pow_le_pow_left₀ hg0 hgq m) hδ0
  have a6 : 0 ≤ δ * q ^ m := by positivity
  have a7 : 0 ≤ A * q ^ m := by positivity
  rw [add_mul] at hm'
  rw [abs_lt, abs_lt]
  exact ⟨⟨by linarith, by linarith⟩, by linarith, by linarith⟩

/-- C103: the level `f + k` cannot be raised: next to an untouched first species every higher level
of the second grows in the first step, in every cell. -/
theorem rxn_threshold {ca : RxnDfn ℝ} (hl : Laplacian ca) (hdt : 0 < ca.dt) {δ : ℝ} (h0 : 0 < δ)
    (hδ : ca.f + ca.k < δ) (h1 : δ < 1) {s : Univ ℝ N 2 H W × RxnDfn ℝ}
    (h : ca.forward (constUV 1 δ) = .ok s) (n : Fin N) (i : Fin H) (j : Fin W) :
    δ < s.1 n 1 i j := by
  obtain ⟨e, _⟩ := rxn_const_step hl 1 δ h
  rw [e]
  simp only [constUV, one_ne_zero, if_false, clamp01_real]
  have : 0 < ca.dt * (1 * δ ^ 2 - (ca.f + ca.k) * δ) := by
    apply mul_pos hdt
    have : (ca.f + ca.k) * δ < δ * δ := mul_lt_mul_of_pos_right hδ h0
    nlinarith
  exact lt_max_of_lt_right (lt_min h1 (by linarith))

/-! ## The default automaton -/

/-- The kernel of the default automaton only exchanges, and gives away one half. -/
theorem default_exchanges : Exchanges (r := 1) (logKernel 0.5 (radialGrid 1)) ∧
    given (r := 1) (logKernel 0.5 (radialGrid 1)) = 1 / 2 := by
  have hx : ∀ a b, radialGrid 1 a b ^ 2 = ((b.val : ℝ) - 1) ^ 2 + ((a.val : ℝ) - 1) ^ 2 := by
    intro a b
    unfold radialGrid
    rw [Nat.cast_one, div_one, Real.sq_sqrt (by positivity)]
  have hsum := log_sum (r := 1) 0.5 (radialGrid 1)
  have sum3 : ∀ g : Fin (2 * 1 + 1) → Fin (2 * 1 + 1) → ℝ, ∑ a, ∑ b, g a b =
      (g 0 0 + g 0 1 + g 0 2) + (g 1 0 + g 1 1 + g 1 2) + (g 2 0 + g 2 1 + g 2 2) := by
    intro g
    refine (Fin.sum_univ_three fun a : Fin 3 => ∑ b : Fin 3, g a b).trans ?_
    rw [Fin.sum_univ_three, Fin.sum_univ_three, Fin.sum_univ_three]
  have v0 : (((0 : Fin (2 * 1 + 1)).val : ℕ) : ℝ) = 0 := by norm_num
  have v1 : (((1 : Fin (2 * 1 + 1)).val : ℕ) : ℝ) = 1 := by norm_num
  have v2 : (((2 : Fin (2 * 1 + 1)).val : ℕ) : ℝ) = 2 := by norm_num
  have hc0 : 0 < 1 / (Real.pi * 0.5 ^ 4) := by have := Real.pi_pos; positivity
  have e2 := Real.exp_pos (-2)
  have e4 := Real.exp_pos (-4)
  have he : 4 * Real.exp (-2) + 12 * Real.exp (-4) ≤ 1 := by
    have hd : Real.exp (-1) < 0.37 := by have := Real.exp_neg_one_lt_d9; linarith
    have h2 : Real.exp (-2) = Real.exp (-1) ^ 2 := by rw [← Real.exp_nat_mul]; norm_num
    have h4 : Real.exp (-4) = Real.exp (-1) ^ 4 := by rw [← Real.exp_nat_mul]; norm_num
    have b2 : Real.exp (-1) ^ 2 ≤ 0.37 ^ 2 := pow_le_pow_left₀ (Real.exp_pos _).le hd.le 2
    have b4 : Real.exp (-1) ^ 4 ≤ 0.37 ^ 4 := pow_le_pow_left₀ (Real.exp_pos _).le hd.le 4
    rw [h2, h4]
    norm_num at b2 b4
    linarith
  obtain ⟨l, m, hκ, hm, hc, ho⟩ : ∃ (l : Fin (2 * 1 + 1) → Fin (2 * 1 + 1) → ℝ) (m : ℝ),
      (logKernel (r := 1) 0.5 (radialGrid 1) =
        fun a b => (l a b - m) / ∑ a, ∑ b, |l a b - m|) ∧
      m ≤ 0 ∧ l 1 1 < m ∧ ∀ a b, ¬ (a.val = 1 ∧ b.val = 1) → 0 ≤ l a b := by
    refine ⟨_, _, rfl, ?_, ?_, ?_⟩
    · refine div_nonpos_of_nonpos_of_nonneg ?_ (by positivity)
      simp only [hx, sum3, v0, v1, v2]
      have := mul_le_mul_of_nonneg_left he hc0.le
      norm_num at this ⊢
      linarith
    · rw [lt_div_iff₀ (by positivity)]
      simp only [hx, sum3, v0, v1, v2]
      have := mul_pos hc0 e2
      have := mul_pos hc0 e4
      norm_num at *
      have := inv_pos.2 hc0
      linarith
    · intro a b hab
      simp only [hx]
      have key : ∀ z e : ℝ, 1 ≤ z → 0 < e →
          0 ≤ -(1 / (Real.pi * 0.5 ^ 4)) * (1 - z / (2 * 0.5 ^ 2)) * e := by
        intro z e hz he
        refine mul_nonneg (mul_nonneg_of_nonpos_of_nonpos (by linarith) ?_) he.le
        norm_num
        linarith
      refine key _ _ ?_ (Real.exp_pos _)
      have : ∀ n : Fin 3, n.val ≠ 1 → 1 ≤ ((n.val : ℝ) - 1) ^ 2 := by
        intro n hn
        fin_cases n <;> simp at hn ⊢ ; norm_num
      by_cases ha : a.val = 1
      · have := this b fun h => hab ⟨ha, h⟩
        nlinarith [sq_nonneg ((a.val : ℝ) - 1)]
      · have := this a ha
        nlinarith [sq_nonneg ((b.val : ℝ) - 1)]
  have hn : ∀ a b, ¬ (a.val = 1 ∧ b.val = 1) → 0 ≤ l a b - m :=
    fun a b h => by linarith [ho a b h]
  have hS : ∑ a, ∑ b, (l a b - m) = 0 := by
    have := hsum
    rw [hκ] at this
    simp only [← Finset.sum_div, div_eq_zero_iff] at this
    refine this.resolve_right (ne_of_gt ?_)
    refine Finset.sum_pos' (fun a _ => Finset.sum_nonneg fun b _ => abs_nonneg _) ⟨1, Finset.mem_univ _, ?_⟩
    exact Finset.sum_pos' (fun b _ => abs_nonneg _) ⟨1, Finset.mem_univ _,
      abs_pos.2 (by linarith)⟩
  have hA : ∑ a, ∑ b, |l a b - m| = 2 * (m - l 1 1) := by
    have h1 : |l 1 1 - m| = m - l 1 1 := by rw [abs_of_neg (by linarith)]; ring
    rw [sum3] at hS ⊢
    rw [abs_of_nonneg (hn 0 0 (by decide)), abs_of_nonneg (hn 0 1 (by decide)),
      abs_of_nonneg (hn 0 2 (by decide)), abs_of_nonneg (hn 1 0 (by decide)), h1,
      abs_of_nonneg (hn 1 2 (by decide)), abs_of_nonneg (hn 2 0 (by decide)),
      abs_of_nonneg (hn 2 1 (by decide)), abs_of_nonneg (hn 2 2 (by decide))]
    linarith
  rw [hκ, hA]
  refine ⟨⟨fun a b h => div_nonneg (hn a b h) (by linarith), ?_⟩, ?_⟩
  · simp only [← Finset.sum_div]
    rw [hS, zero_div]
  · have : m - l 1 1 ≠ 0 := by linarith
    unfold given
    show -((l 1 1 - m) / (2 * (m - l 1 1))) = 1 / 2
    field_simp
    ring

/-- C103: the default automaton is resolved. -/
theorem rxn_default_resolved : Resolved (r := 1) RxnDfn.default (logKernel 0.5 (radialGrid 1)) := by
  refine ⟨rfl, rfl, default_exchanges.1, ?_, ?_, ?_, ?_, ?_, ?_, ?_, ?_⟩
  all_goals (try rw [default_exchanges.2])
  all_goals norm_num [RxnDfn.default]

/-- C103: with the default parameters a universe whose second species is nowhere above 0.12 ends
up empty, from the same step on for all of them. -/
theorem rxn_default_extinction {ε : ℝ} (hε : 0 < ε) :
    ∃ m₀ : Nat, ∀ m ≥ m₀, ∀ {N H W : Nat} (_ : 1 ≤ H) (_ : 1 ≤ W) (x : Univ ℝ N 2 H W)
      (_ : ∀ n i j, 0 ≤ x n 0 i j ∧ x n 0 i j ≤ 1) (_ : ∀ n i j, 0 ≤ x n 1 i j ∧ x n 1 i j ≤ 0.12),
      ∃ s, iterate RxnDfn.forward m RxnDfn.default x = .ok s ∧
        ∀ n i j, |s.1 n 0 i j - 1| < ε ∧ |s.1 n 1 i j - 0| < ε := by
  obtain ⟨m₀, h⟩ := rxn_comes_to_rest (r := 1) RxnDfn.default _ rxn_default_resolved (δ := 0.12)
    (by norm_num) (by norm_num [RxnDfn.default]) hε
  refine ⟨m₀, fun m hm N H W hH hW x hu hv => ?_⟩
  obtain ⟨s, hs⟩ := rxn_runs m RxnDfn.default ⟨rfl, decide_eq_true hH, decide_eq_true hW⟩
    ⟨rfl, decide_eq_true hH, decide_eq_true hW⟩ x
  exact ⟨s, hs, h m hm ⟨⟨hH, hH⟩, hW, hW⟩ x hu hv s hs⟩

/-- A 5 by 7 universe with a faint ring of the second species meets the hypotheses. -/
example : ∃ x : Univ ℝ 1 2 5 7, (∃ i j, x 0 1 i j ≠ 0) ∧
    (∀ n i j, 0 ≤ x n 0 i j ∧ x n 0 i j ≤ 1) ∧ ∀ n i j, 0 ≤ x n 1 i j ∧ x n 1 i j ≤ 0.12 := by
  refine ⟨fun _ c i j => if c = 0 then 1 / 2 else if i.val + j.val = 4 then 0.1 else 0,
    ⟨2, 2, by norm_num⟩, fun n i j => by norm_num, fun n i j => ?_⟩
  simp only [one_ne_zero, if_false]
  split <;> norm_num

/-- The hypotheses of `rxn_mass` can be met by the default automaton. -/
example : ∃ s, RxnDfn.default.forward (constUV (1 / 2) (1 / 2) : Univ ℝ 1 2 5 7) = .ok s ∧
    ∀ c i j, 0 < s.1 0 c i j ∧ s.1 0 c i j < 1 := by
  obtain ⟨s, h, _⟩ := rxn_rule (r := 1) RxnDfn.default _ rfl rfl
    (constUV (1 / 2) (1 / 2) : Univ ℝ 1 2 5 7) (by decide) (by decide)
  refine ⟨_, h, fun c i j => ?_⟩
  have e := (rxn_const_step rxn_default_laplacian.1 _ _ h).1
  simp only at e
  simp only [e, constUV, clamp01_real]
  split <;> norm_num [RxnDfn.default]

/-- The hypotheses of `rxn_threshold` can be met by the default automaton. -/
example : 0 < RxnDfn.default.dt ∧ RxnDfn.default.f + RxnDfn.default.k < (0.13 : ℝ) := by
  norm_num [RxnDfn.default]

end Yuca
