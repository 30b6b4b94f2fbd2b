import Verif.Props.SmallSteps
import Verif.Props.GrayScottDecay
import Verif.Props.Faint

/-!
# C106: Gray-Scott and neural automata follow one trajectory in continuous time

Over exact reals, on the torus, without alive mask (Gray-Scott automata have none, neural ones
none with fewer than four channels).
-/

namespace Yuca

open Arith Spec

variable {N H W : Nat}

namespace Spec

/-- The sum of the sizes of the entries of a kernel. -/
def weight {r : Nat} (κ : Fin (2 * r + 1) → Fin (2 * r + 1) → ℝ) : ℝ := ∑ a, ∑ b, |κ a b|

/-- The right-hand side of the Gray-Scott equations, with the kernel divided by `dx²` for the
Laplacian. -/
noncomputable def grayScott {r : Nat} (ca : RxnDfn ℝ) (κ : Fin (2 * r + 1) → Fin (2 * r + 1) → ℝ)
    (x : Univ ℝ N 2 H W) : Univ ℝ N 2 H W := fun n c i j =>
  let u := x n 0 i j
  let v := x n 1 i j
  if c = 0 then ca.diffU * (gathered κ (x n 0) i j / ca.dx ^ 2) - u * v ^ 2 + ca.f * (1 - u)
  else ca.diffV * (gathered κ (x n 1) i j / ca.dx ^ 2) + u * v ^ 2 - (ca.f + ca.k) * v

/-- A bound of the right-hand side of the Gray-Scott equations on universes between 0 and 1. -/
noncomputable def grayScottMax {r : Nat} (ca : RxnDfn ℝ)
    (κ : Fin (2 * r + 1) → Fin (2 * r + 1) → ℝ) : ℝ :=
  (|ca.diffU| + |ca.diffV|) * weight κ / ca.dx ^ 2 + 1 + |ca.f| + |ca.f + ca.k|

/-- What a neural automaton adds to a cell per unit of time. -/
noncomputable def network {ext hid r : Nat} (ca : NCA ℝ ext ext hid)
    (κ : Fin (2 * r + 1) → Fin (2 * r + 1) → ℝ) (x : Univ ℝ N ext H W) : Univ ℝ N ext H W :=
  fun n e i j =>
    let first (p : Fin hid) : ℝ := ca.act₁ (∑ c : Fin ext, ca.w₁ p (Fin.castAdd ext c) * x n c i j +
      ∑ c : Fin ext, ca.w₁ p (Fin.natAdd ext c) * gathered κ (x n c) i j)
    let second (q : Fin hid) : ℝ := ca.act₂ (∑ p, ca.w₂ q p * first p)
    Real.tanh (∑ q, ca.w₃ e q * second q)

/-- The sum of the sizes of the entries of a weight matrix. -/
def entries {a b : Nat} (w : Fin b → Fin a → ℝ) : ℝ := ∑ p, ∑ q, |w p q|

/-- The slope of a function. -/
def SlopeAt (A : ℝ) (f : ℝ → ℝ) : Prop := 0 ≤ A ∧ ∀ x y, |f x - f y| ≤ A * |x - y|

end Spec

/-! ## Bounds -/

theorem weight_nonneg {r : Nat} (κ : Fin (2 * r + 1) → Fin (2 * r + 1) → ℝ) : 0 ≤ weight κ :=
  Finset.sum_nonneg fun _ _ => Finset.sum_nonneg fun _ _ => abs_nonneg _

theorem gathered_weight {r : Nat} (κ : Fin (2 * r + 1) → Fin (2 * r + 1) → ℝ) {x : Grid ℝ H W}
    {ε : ℝ} (hx : ∀ i j, |x i j| ≤ ε) (i : Fin H) (j : Fin W) :
    |gathered κ x i j| ≤ weight κ * ε := by
  unfold gathered weight
  rw [Finset.sum_mul]
  refine (Finset.abs_sum_le_sum_abs _ _).trans (Finset.sum_le_sum fun a _ => ?_)
  rw [Finset.sum_mul]
  refine (Finset.abs_sum_le_sum_abs _ _).trans (Finset.sum_le_sum fun b _ => ?_)
  rw [abs_mul]
  exact mul_le_mul_of_nonneg_left (hx _ _) (abs_nonneg _)

theorem gathered_weight_near {r C : Nat} (κ : Fin (2 * r + 1) → Fin (2 * r + 1) → ℝ)
    {u v : Univ ℝ N C H W} {ε : ℝ} (hn : CloseBy ε u v) (n : Fin N) (e : Fin C) (i : Fin H)
    (j : Fin W) : |gathered κ (u n e) i j - gathered κ (v n e) i j| ≤ weight κ * ε := by
  rw [gathered_sub]
  exact gathered_weight κ (fun i j => hn n e i j) i j

theorem within_abs {C : Nat} {u : Univ ℝ N C H W} (hu : Within01 u) (n : Fin N) (e : Fin C)
    (i : Fin H) (j : Fin W) : |u n e i j| ≤ 1 :=
  abs_le.2 ⟨by linarith [(hu n e i j).1], (hu n e i j).2⟩

theorem uvv_mem {u v : ℝ} (hu : 0 ≤ u ∧ u ≤ 1) (hv : 0 ≤ v ∧ v ≤ 1) :
    0 ≤ u * v ^ 2 ∧ u * v ^ 2 ≤ 1 := by
  obtain ⟨a, b⟩ := hu
  obtain ⟨c, d⟩ := hv
  have h1 : v ^ 2 ≤ 1 := pow_le_one₀ c d
  exact ⟨by positivity, mul_le_one₀ b (by positivity) h1⟩

theorem uvv_near {u v u' v' ε : ℝ} (hv : 0 ≤ v ∧ v ≤ 1)
    (hu' : 0 ≤ u' ∧ u' ≤ 1) (hv' : 0 ≤ v' ∧ v' ≤ 1) (h1 : |u - u'| ≤ ε) (h2 : |v - v'| ≤ ε) :
    |u * v ^ 2 - u' * v' ^ 2| ≤ 3 * ε := by
  have e : u * v ^ 2 - u' * v' ^ 2 = (u - u') * v ^ 2 + u' * (v + v') * (v - v') := by ring
  rw [e]
  refine (abs_add_le _ _).trans ?_
  rw [abs_mul, abs_mul]
  have hv2 : |v ^ 2| ≤ 1 := by rw [abs_of_nonneg (by positivity)]; exact pow_le_one₀ hv.1 hv.2
  have hs : |u' * (v + v')| ≤ 2 := by
    rw [abs_of_nonneg (mul_nonneg hu'.1 (by linarith [hv.1, hv'.1]))]
    nlinarith [hu'.1, hu'.2, hv.1, hv.2, hv'.1, hv'.2]
  have a1 : |u - u'| * |v ^ 2| ≤ ε * 1 := mul_le_mul h1 hv2 (abs_nonneg _) ((abs_nonneg _).trans h1)
  have a2 : |u' * (v + v')| * |v - v'| ≤ 2 * ε := mul_le_mul hs h2 (abs_nonneg _) (by norm_num)
  linarith

theorem diffused_le {D g w e dx : ℝ} (hg : |g| ≤ w * e) : |D * (g / dx ^ 2)| ≤ |D| * w / dx ^ 2 * e := by
  rw [abs_mul, abs_div, abs_of_nonneg (sq_nonneg dx)]
  have : |g| / dx ^ 2 ≤ w * e / dx ^ 2 := div_le_div_of_nonneg_right hg (sq_nonneg dx)
  calc |D| * (|g| / dx ^ 2) ≤ |D| * (w * e / dx ^ 2) := mul_le_mul_of_nonneg_left this (abs_nonneg _)
    _ = |D| * w / dx ^ 2 * e := by ring

/-- The right-hand side of the Gray-Scott equations is bounded and Lipschitz. -/
theorem grayScott_tame {r : Nat} (ca : RxnDfn ℝ) (κ : Fin (2 * r + 1) → Fin (2 * r + 1) → ℝ) :
    Tame (grayScott (N := N) (H := H) (W := W) ca κ) (grayScottMax ca κ)
      (grayScottMax ca κ + 2) := by
  have hw := weight_nonneg κ
  have hM : 0 ≤ grayScottMax ca κ := by unfold grayScottMax; positivity
  have eM : grayScottMax ca κ = |ca.diffU| * weight κ / ca.dx ^ 2 +
      |ca.diffV| * weight κ / ca.dx ^ 2 + 1 + |ca.f| + |ca.f + ca.k| := by
    unfold grayScottMax; ring
  have pU : 0 ≤ |ca.diffU| * weight κ / ca.dx ^ 2 := by positivity
  have pV : 0 ≤ |ca.diffV| * weight κ / ca.dx ^ 2 := by positivity
  have pf := abs_nonneg ca.f
  have pk := abs_nonneg (ca.f + ca.k)
  refine ⟨⟨hM, by linarith⟩, ?_, ?_⟩
  · intro x hx n c i j
    have hu := hx n 0 i j
    have hv := hx n 1 i j
    have huv := uvv_mem hu hv
    have gU := diffused_le (D := ca.diffU) (dx := ca.dx)
      (gathered_weight κ (x := x n 0) (fun i j => within_abs hx n 0 i j) i j)
    have gV := diffused_le (D := ca.diffV) (dx := ca.dx)
      (gathered_weight κ (x := x n 1) (fun i j => within_abs hx n 1 i j) i j)
    have fU : |ca.f * (1 - x n 0 i j)| ≤ |ca.f| := by
      rw [abs_mul]
      exact mul_le_of_le_one_right (abs_nonneg _) (abs_le.2 ⟨by linarith [hu.2], by linarith [hu.1]⟩)
    have fV : |(ca.f + ca.k) * x n 1 i j| ≤ |ca.f + ca.k| := by
      rw [abs_mul]
      exact mul_le_of_le_one_right (abs_nonneg _) (within_abs hx n 1 i j)
    rw [abs_le] at gU gV fU fV
    unfold grayScott
    simp only
    split <;> rw [abs_le, eM] <;> constructor <;> linarith [gU.1, gU.2, gV.1, gV.2, fU.1, fU.2, fV.1, fV.2]
  · intro ε x y hx hy hn n c i j
    have hε : 0 ≤ ε := (abs_nonneg _).trans (hn n c i j)
    have huv := uvv_near (hx n 1 i j) (hy n 0 i j) (hy n 1 i j) (hn n 0 i j)
      (hn n 1 i j)
    have gU := diffused_le (D := ca.diffU) (dx := ca.dx) (gathered_weight_near κ hn n 0 i j)
    have gV := diffused_le (D := ca.diffV) (dx := ca.dx) (gathered_weight_near κ hn n 1 i j)
    have fU : |ca.f * (x n 0 i j - y n 0 i j)| ≤ |ca.f| * ε := by
      rw [abs_mul]; exact mul_le_mul_of_nonneg_left (hn n 0 i j) (abs_nonneg _)
    have fV : |(ca.f + ca.k) * (x n 1 i j - y n 1 i j)| ≤ |ca.f + ca.k| * ε := by
      rw [abs_mul]; exact mul_le_mul_of_nonneg_left (hn n 1 i j) (abs_nonneg _)
    have mU := mul_nonneg pU hε
    have mV := mul_nonneg pV hε
    have mf := mul_nonneg pf hε
    have mk := mul_nonneg pk hε
    rw [sub_div, mul_sub, abs_le] at gU gV
    rw [abs_le, mul_sub] at fU fV
    rw [abs_le] at huv
    unfold grayScott
    simp only
    split <;> rw [abs_le, eM] <;> constructor <;>
      linarith [gU.1, gU.2, gV.1, gV.2, fU.1, fU.2, fV.1, fV.2, huv.1, huv.2]

theorem entries_row {a b : Nat} (w : Fin b → Fin a → ℝ) (p : Fin b) :
    ∑ q, |w p q| ≤ entries w :=
  Finset.single_le_sum (f := fun p => ∑ q, |w p q|)
    (fun _ _ => Finset.sum_nonneg fun _ _ => abs_nonneg _) (Finset.mem_univ p)

theorem entries_nonneg {a b : Nat} (w : Fin b → Fin a → ℝ) : 0 ≤ entries w :=
  Finset.sum_nonneg fun _ _ => Finset.sum_nonneg fun _ _ => abs_nonneg _

theorem layer_near {a b : Nat} (w : Fin b → Fin a → ℝ) (p : Fin b) {x y : Fin a → ℝ} {ε : ℝ}
    (hε : 0 ≤ ε) (h : ∀ q, |x q - y q| ≤ ε) :
    |∑ q, w p q * x q - ∑ q, w p q * y q| ≤ entries w * ε := by
  rw [← Finset.sum_sub_distrib]
  refine (Finset.abs_sum_le_sum_abs _ _).trans ?_
  refine (Finset.sum_le_sum fun q _ => ?_).trans
    ((Finset.sum_mul _ _ _).symm.le.trans (mul_le_mul_of_nonneg_right (entries_row w p) hε))
  rw [← mul_sub, abs_mul]
  exact mul_le_mul_of_nonneg_left (h q) (abs_nonneg _)

theorem tanh_lip : SlopeAt 1 Real.tanh := by
  refine ⟨zero_le_one, fun x y => ?_⟩
  refine lip_of_deriv (f := Real.tanh) (f' := fun x => 1 / Real.cosh x ^ 2) (fun x => ?_)
    (fun x => ?_) x y
  · have h := (Real.hasDerivAt_sinh x).div (Real.hasDerivAt_cosh x) (Real.cosh_pos x).ne'
    have e : Real.sinh / Real.cosh = Real.tanh := by
      funext z; rw [Real.tanh_eq_sinh_div_cosh, Pi.div_apply]
    have h' : HasDerivAt Real.tanh _ x := e ▸ h
    refine h'.congr_deriv ?_
    have := Real.cosh_sq x
    congr 1
    nlinarith
  · have h1 := Real.one_le_cosh x
    rw [abs_of_nonneg (by positivity), div_le_one (by positivity)]
    nlinarith

/-- A neural automaton adds at most 1 per unit of time, and what it adds is Lipschitz. -/
theorem network_tame {ext hid r : Nat} (ca : NCA ℝ ext ext hid)
    (κ : Fin (2 * r + 1) → Fin (2 * r + 1) → ℝ) {A₁ A₂ : ℝ}
    (hA₁ : SlopeAt A₁ ca.act₁) (hA₂ : SlopeAt A₂ ca.act₂) :
    Tame (network (N := N) (H := H) (W := W) ca κ) 1
      (A₁ * A₂ * (entries ca.w₁ * entries ca.w₂ * entries ca.w₃ * (1 + weight κ))) := by
  obtain ⟨hA0, hA₁⟩ := hA₁
  obtain ⟨hA0', hA₂⟩ := hA₂
  have h1 := entries_nonneg ca.w₁
  have h2 := entries_nonneg ca.w₂
  have h3 := entries_nonneg ca.w₃
  have hw := weight_nonneg κ
  refine ⟨⟨zero_le_one, by positivity⟩, ?_, ?_⟩
  · intro x _ n e i j
    exact (Real.abs_tanh_lt_one _).le
  · intro ε x y _ _ hn n e i j
    have hε : 0 ≤ ε := (abs_nonneg _).trans (hn n e i j)
    have hin : ∀ q : Fin (ext + ext),
        |Fin.addCases (motive := fun _ => ℝ) (fun c => x n c i j) (fun c => gathered κ (x n c) i j) q -
          Fin.addCases (motive := fun _ => ℝ) (fun c => y n c i j) (fun c => gathered κ (y n c) i j) q|
          ≤ (1 + weight κ) * ε := by
      intro q
      refine Fin.addCases (fun c => ?_) (fun c => ?_) q
      · simp only [Fin.addCases_left]
        nlinarith [hn n c i j, mul_nonneg hw hε]
      · simp only [Fin.addCases_right]
        nlinarith [gathered_weight_near κ hn n c i j, mul_nonneg hw hε]
    have hfirst : ∀ p : Fin hid,
        |ca.act₁ (∑ c : Fin ext, ca.w₁ p (Fin.castAdd ext c) * x n c i j +
            ∑ c : Fin ext, ca.w₁ p (Fin.natAdd ext c) * gathered κ (x n c) i j) -
          ca.act₁ (∑ c : Fin ext, ca.w₁ p (Fin.castAdd ext c) * y n c i j +
            ∑ c : Fin ext, ca.w₁ p (Fin.natAdd ext c) * gathered κ (y n c) i j)| ≤
        A₁ * (entries ca.w₁ * ((1 + weight κ) * ε)) := by
      intro p
      have := layer_near ca.w₁ p (by positivity) hin
      simp only [Fin.sum_univ_add, Fin.addCases_left, Fin.addCases_right] at this
      exact (hA₁ _ _).trans (mul_le_mul_of_nonneg_left this hA0)
    have hsecond := fun q => (hA₂ _ _).trans (mul_le_mul_of_nonneg_left
      (layer_near ca.w₂ q (by positivity) hfirst) hA0')
    have hthird := (tanh_lip.2 _ _).trans (mul_le_mul_of_nonneg_left
      (layer_near ca.w₃ e (by positivity) hsecond) zero_le_one)
    refine le_trans hthird (le_of_eq ?_)
    ring

/-! ## Steps -/

/-- C106: `n` equal steps of any growth that is bounded and Lipschitz come as close to its
trajectory as you like, and to nothing else. -/
theorem euler_limit {C : Nat} {F : Univ ℝ N C H W → Univ ℝ N C H W} {M c : ℝ} (hF : Tame F M c)
    {T : ℝ} (hT : 0 < T) {u : Univ ℝ N C H W} (hu : Within01 u) (φ : Univ ℝ N C H W) :
    (∀ ε > 0, ∃ n₀, ∀ n ≥ n₀, CloseBy ε (eulerRun F (List.replicate n (T / n)) u) φ) ↔
      φ = flow F T u := by
  have hfol : ∀ n : ℕ, 0 < n →
      CloseBy (cost M c T * (T / n)) (eulerRun F (List.replicate n (T / n)) u) (flow F T u) := by
    intro n hn
    have hn' : (0 : ℝ) < n := by exact_mod_cast hn
    have hsum : (List.replicate n (T / n)).sum = T := by
      rw [List.sum_replicate, nsmul_eq_mul]; field_simp
    have := run_follows hF (P := List.replicate n (T / n)) (h := T / n)
      (fun x hx => by rw [List.eq_of_mem_replicate hx]; exact ⟨by positivity, le_refl _⟩)
      (by rw [hsum]; exact hT) hu
    rwa [hsum] at this
  have hB0 : 0 ≤ cost M c T := by
    obtain ⟨hM, hc⟩ := hF.nonneg
    unfold cost; positivity
  have hsmall : ∀ ε > 0, ∃ n₀ : ℕ, 0 < n₀ ∧ ∀ n ≥ n₀, cost M c T * (T / n) ≤ ε := by
    intro ε hε
    obtain ⟨n₀, h₀⟩ := exists_nat_gt (cost M c T * T / ε)
    refine ⟨n₀ + 1, Nat.succ_pos _, fun n hn => ?_⟩
    have h1 : (n₀ : ℝ) + 1 ≤ n := by exact_mod_cast hn
    have hn' : (0 : ℝ) < n := by have : (0 : ℝ) ≤ n₀ := Nat.cast_nonneg _; linarith
    rw [div_lt_iff₀ hε] at h₀
    rw [← mul_div_assoc, div_le_iff₀ hn']
    nlinarith
  constructor
  · intro h
    funext n e i j
    by_contra hne
    have hpos : 0 < |φ n e i j - flow F T u n e i j| := abs_pos.2 (sub_ne_zero.2 hne)
    obtain ⟨n₁, h1⟩ := h (|φ n e i j - flow F T u n e i j| / 3) (by linarith)
    obtain ⟨n₂, h2, h3⟩ := hsmall (|φ n e i j - flow F T u n e i j| / 3) (by linarith)
    have c1 := h1 (max n₁ n₂) (le_max_left _ _) n e i j
    have c2 := (hfol (max n₁ n₂) (lt_of_lt_of_le h2 (le_max_right _ _)) n e i j).trans
      (h3 (max n₁ n₂) (le_max_right _ _))
    have := abs_sub_le (φ n e i j)
      (eulerRun F (List.replicate (max n₁ n₂) (T / (max n₁ n₂ : ℕ))) u n e i j)
      (flow F T u n e i j)
    rw [abs_sub_comm] at c1
    linarith
  · rintro rfl ε hε
    obtain ⟨n₀, h0, h1⟩ := hsmall ε hε
    exact ⟨n₀, fun n hn => near_mono (hfol n (lt_of_lt_of_le h0 hn)) (h1 n hn)⟩

section GrayScott

variable {r : Nat} {ca : RxnDfn ℝ} {κ : Fin (2 * r + 1) → Fin (2 * r + 1) → ℝ}

theorem rxn_euler (hid : ca.idL = identityLayer 2 2 .circular)
    (hnb : ca.nbL = .ofKernel 2 2 .circular (2 * r + 1) κ) (hroom : Room r H W) (n : Nat) :
    ∀ (t : ℝ) (x : Univ ℝ N 2 H W), iterate RxnDfn.forward n { ca with t := t } x =
      .ok (eulerRun (grayScott ca κ) (List.replicate n ca.dt) x,
        { ca with t := t + n * ca.dt }) := by
  induction n with
  | zero => intro t x; simp [iterate, eulerRun]
  | succ n ih =>
    intro t x
    obtain ⟨x', h1, h2⟩ := rxn_rule { ca with t := t } κ hid hnb x hroom.1 hroom.2
    have hx : x' = eulerStep (grayScott ca κ) ca.dt x := by
      funext n c i j
      obtain ⟨a, b⟩ := h2 n i j
      rcases Fin.exists_fin_two.mp ⟨c, rfl⟩ with h | h
      · subst h; exact a
      · subst h; exact b
    show (do
      let (b', s') ← ({ ca with t := t } : RxnDfn ℝ).forward x
      iterate RxnDfn.forward n s' b') = _
    rw [h1]
    show iterate RxnDfn.forward n { ca with t := t + ca.dt } x' = _
    rw [ih, hx, show t + ca.dt + n * ca.dt = t + ((n + 1 : ℕ) : ℝ) * ca.dt by push_cast; ring]
    rfl

/-- C106: `n` steps of a Gray-Scott automaton, of whatever size, end within a constant times the
step size of one trajectory, which does not depend on the step size. -/
theorem rxn_follows (hid : ca.idL = identityLayer 2 2 .circular)
    (hnb : ca.nbL = .ofKernel 2 2 .circular (2 * r + 1) κ) (hdt : 0 < ca.dt) (hroom : Room r H W)
    (n : Nat) (hn : 0 < n) (x : Univ ℝ N 2 H W) (hx : Within01 x) :
    ∃ x' s, iterate RxnDfn.forward n ca x = .ok (x', s) ∧ s.t = ca.t + n * ca.dt ∧
      CloseBy (cost (grayScottMax ca κ) (grayScottMax ca κ + 2) (n * ca.dt) * ca.dt) x'
        (flow (grayScott ca κ) (n * ca.dt) x) := by
  refine ⟨_, _, rxn_euler hid hnb hroom n ca.t x, rfl, ?_⟩
  have hsum : (List.replicate n ca.dt).sum = n * ca.dt := by simp
  have := run_follows (grayScott_tame (N := N) (H := H) (W := W) ca κ)
    (P := List.replicate n ca.dt) (h := ca.dt)
    (fun y hy => by rw [List.eq_of_mem_replicate hy]; exact ⟨hdt, le_refl _⟩)
    (by rw [hsum]; positivity) hx
  rwa [hsum] at this

/-- C106: that trajectory is the limit of ever more steps, and no other universe is. -/
theorem rxn_limit (hid : ca.idL = identityLayer 2 2 .circular)
    (hnb : ca.nbL = .ofKernel 2 2 .circular (2 * r + 1) κ) (hroom : Room r H W) {T : ℝ}
    (hT : 0 < T) (x : Univ ℝ N 2 H W) (hx : Within01 x) (φ : Univ ℝ N 2 H W) :
    (∀ ε > 0, ∃ n₀, ∀ n ≥ n₀, ∃ x' s,
      iterate RxnDfn.forward n { ca with dt := T / (n : ℕ) } x = .ok (x', s) ∧ CloseBy ε x' φ) ↔
      φ = flow (grayScott ca κ) T x := by
  rw [← euler_limit (grayScott_tame (N := N) (H := H) (W := W) ca κ) hT hx φ]
  have key : ∀ n : Nat, iterate RxnDfn.forward n { ca with dt := T / n } x = .ok
      (eulerRun (grayScott ca κ) (List.replicate n (T / n)) x,
        { ca with dt := T / n, t := ca.t + n * (T / n) }) := fun n =>
    rxn_euler (ca := { ca with dt := T / n }) hid hnb hroom n ca.t x
  constructor
  · intro h ε hε
    obtain ⟨n₀, h0⟩ := h ε hε
    refine ⟨n₀, fun n hn => ?_⟩
    obtain ⟨x', s, a, b⟩ := h0 n hn
    rw [key n] at a
    cases a
    exact b
  · intro h ε hε
    obtain ⟨n₀, h0⟩ := h ε hε
    exact ⟨n₀, fun n hn => ⟨_, _, key n, h0 n hn⟩⟩

/-- C106: the trajectory solves the Gray-Scott equations wherever it is strictly between 0 and 1;
it stays between 0 and 1, can be interrupted and taken up again, and depends continuously on the
start. -/
theorem rxn_trajectory (ca : RxnDfn ℝ) (κ : Fin (2 * r + 1) → Fin (2 * r + 1) → ℝ)
    (x y : Univ ℝ N 2 H W) (hx : Within01 x) (hy : Within01 y) {s t : ℝ} (hs : 0 < s) (ht : 0 < t) :
    Within01 (flow (grayScott ca κ) t x) ∧
    flow (grayScott ca κ) (s + t) x = flow (grayScott ca κ) t (flow (grayScott ca κ) s x) ∧
    (∀ ε ≥ 0, CloseBy ε x y → CloseBy (Real.exp ((grayScottMax ca κ + 2) * t) * ε)
      (flow (grayScott ca κ) t x) (flow (grayScott ca κ) t y)) ∧
    ∀ n c i j, 0 < flow (grayScott ca κ) t x n c i j → flow (grayScott ca κ) t x n c i j < 1 →
      HasDerivAt (fun s => flow (grayScott ca κ) s x n c i j)
        (grayScott ca κ (flow (grayScott ca κ) t x) n c i j) t := by
  have hF := grayScott_tame (N := N) (H := H) (W := W) ca κ
  exact ⟨flow_unit hF ht hx, flow_add hF hs ht hx, fun ε hε hn => flow_stable hF ht hε hx hy hn,
    fun n c i j h0 h1 => flow_deriv hF hx ht n c i j h0 h1⟩

theorem resolved_finer (hca : Resolved ca κ) {h : ℝ} (h0 : 0 < h) (h1 : h ≤ ca.dt) :
    Resolved { ca with dt := h } κ := by
  have hw := given_nonneg hca.exchanges
  have hdx : 0 < ca.dx ^ 2 := by have := hca.dx; positivity
  have hf := hca.f
  have hk := hca.k
  have hu := hca.diffU
  have hv := hca.diffV
  refine ⟨hca.idL, hca.nbL, hca.exchanges, hu, hv, hca.dx, h0, hf, hk, ?_, ?_⟩
  · exact (mul_le_mul_of_nonneg_right h1 (by positivity)).trans hca.stepU
  · exact (mul_le_mul_of_nonneg_right h1 (by positivity)).trans hca.stepV

/-- C106: in continuous time a Gray-Scott pattern whose second species is nowhere above `δ < f + k`
dies out exponentially. -/
theorem rxn_flow_extinction (hca : Resolved ca κ) (hroom : Room r H W) {δ : ℝ} (hδ0 : 0 ≤ δ)
    (hδ : δ < ca.f + ca.k) (x : Univ ℝ N 2 H W) (hx : Within01 x) (hv : ∀ n i j, x n 1 i j ≤ δ)
    {T : ℝ} (hT : 0 < T) (n : Fin N) (i : Fin H) (j : Fin W) :
    flow (grayScott ca κ) T x n 1 i j ≤ δ * Real.exp (-((ca.f + ca.k - δ) * T)) := by
  have hF := grayScott_tame (N := N) (H := H) (W := W) ca κ
  obtain ⟨m₀, hm₀⟩ := exists_nat_gt (T / ca.dt)
  refine le_of_tendsto (flow_tendsto hF hT hx n 1 i j) ?_
  filter_upwards [Filter.eventually_ge_atTop m₀] with m hm
  have hm1 : (0 : ℝ) < (m : ℝ) + 1 := by positivity
  have hh0 : 0 < T / ((m : ℝ) + 1) := by positivity
  have hh1 : T / ((m : ℝ) + 1) ≤ ca.dt := by
    have hmm : (m₀ : ℝ) ≤ m := by exact_mod_cast hm
    have h3 : T < m₀ * ca.dt := by rwa [div_lt_iff₀ hca.dt] at hm₀
    rw [div_le_iff₀ hm1]
    have := mul_le_mul_of_nonneg_right hmm hca.dt.le
    nlinarith [hca.dt]
  obtain ⟨_, _, _, _, _, _, hall⟩ := rxn_extinction { ca with dt := T / ((m : ℝ) + 1) } κ
    (resolved_finer hca hh0 hh1) hδ0 hδ
  have hrun := rxn_euler (ca := { ca with dt := T / ((m : ℝ) + 1) }) (N := N) hca.idL hca.nbL hroom
    (m + 1) ca.t x
  have := (hall hroom x (fun n i j => hx n 0 i j) (fun n i j => ⟨(hx n 1 i j).1, hv n i j⟩) (m + 1) _
    hrun n i j).2.2
  refine le_trans this (mul_le_mul_of_nonneg_left ?_ hδ0)
  have hq : 0 ≤ 1 - T / ((m : ℝ) + 1) * (ca.f + ca.k - δ) := by
    have h1 := (resolved_finer hca hh0 hh1).stepV
    have hw := given_nonneg hca.exchanges
    have hdx : 0 < ca.dx ^ 2 := by have := hca.dx; positivity
    have hp : 0 ≤ T / ((m : ℝ) + 1) * (ca.diffV * given κ / ca.dx ^ 2) := by
      have := hca.diffV; positivity
    have hp2 := mul_nonneg hh0.le hδ0
    have h1' : T / ((m : ℝ) + 1) * (ca.diffV * given κ / ca.dx ^ 2 + (ca.f + ca.k)) ≤ 1 := h1
    nlinarith
  have he : 1 - T / ((m : ℝ) + 1) * (ca.f + ca.k - δ) ≤
      Real.exp (-(T / ((m : ℝ) + 1) * (ca.f + ca.k - δ))) := by
    have := Real.add_one_le_exp (-(T / ((m : ℝ) + 1) * (ca.f + ca.k - δ)))
    linarith
  calc _ ≤ Real.exp (-(T / ((m : ℝ) + 1) * (ca.f + ca.k - δ))) ^ (m + 1) := pow_le_pow_left₀ hq he _
    _ = Real.exp (-((ca.f + ca.k - δ) * T)) := by
      rw [← Real.exp_nat_mul]
      congr 1
      push_cast
      field_simp

end GrayScott

section Neural

variable {ext hid r : Nat} {ca : NCA ℝ ext ext hid} {κ : Fin (2 * r + 1) → Fin (2 * r + 1) → ℝ}

theorem nca_euler (hid' : ca.idL = identityLayer ext ext .circular)
    (hnb : ca.nbL = .ofKernel ext ext .circular (2 * r + 1) κ) (hext : 0 < ext) (hfew : ext < 4)
    (hroom : Room r H W) (n : Nat) :
    ∀ (t : ℝ) (x : Univ ℝ N ext H W),
      iterate (fun (s : NCA ℝ ext ext hid) b => s.forward none b) n { ca with t := t } x =
      .ok (eulerRun (network ca κ) (List.replicate n ca.dt) x, { ca with t := t + n * ca.dt }) := by
  induction n with
  | zero => intro t x; simp [iterate, eulerRun]
  | succ n ih =>
    intro t x
    obtain ⟨x', h1, h2⟩ := nca_rule { ca with t := t } κ hid' hnb hext x hroom.1 hroom.2
    have hx : x' = eulerStep (network ca κ) ca.dt x := by
      funext n c i j
      have := h2 n c i j
      simp only [alive_few hfew] at this
      exact this
    show (do
      let (b', s') ← ({ ca with t := t } : NCA ℝ ext ext hid).forward none x
      iterate (fun (s : NCA ℝ ext ext hid) b => s.forward none b) n s' b') = _
    rw [h1]
    show iterate (fun (s : NCA ℝ ext ext hid) b => s.forward none b) n
      { ca with t := t + ca.dt } x' = _
    rw [ih, hx, show t + ca.dt + n * ca.dt = t + ((n + 1 : ℕ) : ℝ) * ca.dt by push_cast; ring]
    rfl

/-- C106: the same for neural automata in evaluation mode, for every weight matrix and every
activation of bounded slope. -/
theorem nca_follows (hid' : ca.idL = identityLayer ext ext .circular)
    (hnb : ca.nbL = .ofKernel ext ext .circular (2 * r + 1) κ) (hext : 0 < ext) (hfew : ext < 4)
    {A₁ A₂ : ℝ} (hA₁ : SlopeAt A₁ ca.act₁) (hA₂ : SlopeAt A₂ ca.act₂) (hdt : 0 < ca.dt) (hroom : Room r H W) (n : Nat) (hn : 0 < n)
    (x : Univ ℝ N ext H W) (hx : Within01 x) :
    ∃ x' s, iterate (fun (s : NCA ℝ ext ext hid) b => s.forward none b) n ca x = .ok (x', s) ∧
      s.t = ca.t + n * ca.dt ∧
      CloseBy (cost 1 (A₁ * A₂ * (entries ca.w₁ * entries ca.w₂ * entries ca.w₃ * (1 + weight κ)))
        (n * ca.dt) * ca.dt) x' (flow (network ca κ) (n * ca.dt) x) := by
  refine ⟨_, _, nca_euler hid' hnb hext hfew hroom n ca.t x, rfl, ?_⟩
  have hsum : (List.replicate n ca.dt).sum = n * ca.dt := by simp
  have := run_follows (network_tame (N := N) (H := H) (W := W) ca κ hA₁ hA₂)
    (P := List.replicate n ca.dt) (h := ca.dt)
    (fun y hy => by rw [List.eq_of_mem_replicate hy]; exact ⟨hdt, le_refl _⟩)
    (by rw [hsum]; positivity) hx
  rwa [hsum] at this

/-- C106: that trajectory is the limit of ever more steps, and no other universe is. -/
theorem nca_limit (hid' : ca.idL = identityLayer ext ext .circular)
    (hnb : ca.nbL = .ofKernel ext ext .circular (2 * r + 1) κ) (hext : 0 < ext) (hfew : ext < 4)
    {A₁ A₂ : ℝ} (hA₁ : SlopeAt A₁ ca.act₁) (hA₂ : SlopeAt A₂ ca.act₂) (hroom : Room r H W) {T : ℝ} (hT : 0 < T)
    (x : Univ ℝ N ext H W) (hx : Within01 x) (φ : Univ ℝ N ext H W) :
    (∀ ε > 0, ∃ n₀, ∀ n ≥ n₀, ∃ x' s,
      iterate (fun (s : NCA ℝ ext ext hid) b => s.forward none b) n
        { ca with dt := T / (n : ℕ) } x = .ok (x', s) ∧ CloseBy ε x' φ) ↔
      φ = flow (network ca κ) T x := by
  rw [← euler_limit (network_tame (N := N) (H := H) (W := W) ca κ hA₁ hA₂) hT hx φ]
  have key : ∀ n : Nat, iterate (fun (s : NCA ℝ ext ext hid) b => s.forward none b) n
      { ca with dt := T / n } x = .ok
      (eulerRun (network ca κ) (List.replicate n (T / n)) x,
        { ca with dt := T / n, t := ca.t + n * (T / n) }) := fun n =>
    nca_euler (ca := { ca with dt := T / n }) hid' hnb hext hfew hroom n ca.t x
  constructor
  · intro h ε hε
    obtain ⟨n₀, h0⟩ := h ε hε
    refine ⟨n₀, fun n hn => ?_⟩
    obtain ⟨x', s, a, b⟩ := h0 n hn
    rw [key n] at a
    cases a
    exact b
  · intro h ε hε
    obtain ⟨n₀, h0⟩ := h ε hε
    exact ⟨n₀, fun n hn => ⟨_, _, key n, h0 n hn⟩⟩

/-- C106: the trajectory of a neural automaton moves at the rate its network gives. -/
theorem nca_trajectory (ca : NCA ℝ ext ext hid) (κ : Fin (2 * r + 1) → Fin (2 * r + 1) → ℝ)
    {A₁ A₂ : ℝ} (hA₁ : SlopeAt A₁ ca.act₁) (hA₂ : SlopeAt A₂ ca.act₂) (x y : Univ ℝ N ext H W) (hx : Within01 x) (hy : Within01 y) {s t : ℝ}
    (hs : 0 < s) (ht : 0 < t) :
    Within01 (flow (network ca κ) t x) ∧
    flow (network ca κ) (s + t) x = flow (network ca κ) t (flow (network ca κ) s x) ∧
    CloseBy t (flow (network ca κ) t x) x ∧
    (∀ ε ≥ 0, CloseBy ε x y → CloseBy (Real.exp
      (A₁ * A₂ * (entries ca.w₁ * entries ca.w₂ * entries ca.w₃ * (1 + weight κ)) * t) * ε)
      (flow (network ca κ) t x) (flow (network ca κ) t y)) ∧
    ∀ n c i j, 0 < flow (network ca κ) t x n c i j → flow (network ca κ) t x n c i j < 1 →
      HasDerivAt (fun s => flow (network ca κ) s x n c i j)
        (network ca κ (flow (network ca κ) t x) n c i j) t := by
  have hF := network_tame (N := N) (H := H) (W := W) ca κ hA₁ hA₂
  exact ⟨flow_unit hF ht hx, flow_add hF hs ht hx, by simpa using flow_move hF ht hx,
    fun ε hε hn => flow_stable hF ht hε hx hy hn,
    fun n c i j h0 h1 => flow_deriv hF hx ht n c i j h0 h1⟩

end Neural

/-! ## Activations of bounded slope -/

/-- The activations of the library that a neural automaton can have. -/
theorem activations_slope :
    SlopeAt 1 Real.tanh ∧ SlopeAt 1 (fun x : ℝ => max x 0) ∧ SlopeAt 1 (fun x : ℝ => x) ∧
    ∀ mu sigma : ℝ, SlopeAt (1 / |eps9 + sigma|) (bump mu sigma) :=
  ⟨tanh_lip, ⟨zero_le_one, relu_lip⟩, ⟨zero_le_one, fun x y => by simp⟩,
    fun mu sigma => ⟨by positivity, bump_lip mu sigma⟩⟩

/-! ## Faint universes in continuous time -/

/-- C106: in continuous time, too, a faint universe loses at least `c` per unit of time and channel
and is empty from time `m ext / c` on. -/
theorem cca_flow_dies {d : CCADyn} {M L m c : ℝ} (p : Plain d) (hm : Mild d M L)
    (w : Withers d (d.genesis ++ d.persistence) m c) (u : Univ ℝ N d.ext H W) (hu : Faint m u)
    (hH : 1 ≤ H ∧ d.nbLayer.1 ≤ H) (hW : 1 ≤ W ∧ d.nbLayer.1 ≤ W) {T : ℝ} (hT : 0 < T) :
    Faint (max 0 (m - T * (c / d.ext))) (flow (growthOf p) T u) := by
  have hF := growth_tame (N := N) (H := H) (W := W) p hm
  have hu1 : Within01 u := fun n e i j => ⟨(hu n e i j).1, (hu n e i j).2.trans w.range.2⟩
  intro n e i j
  refine ⟨(flow_unit hF hT hu1 n e i j).1, le_of_tendsto' (flow_tendsto hF hT hu1 n e i j) fun k => ?_⟩
  have hk : (0 : ℝ) < (k : ℝ) + 1 := by positivity
  obtain ⟨u', s, h1, h2⟩ := cca_dies (d := { d with dt := T / ((k : ℝ) + 1) }) (plain_dt p _)
    ⟨w.channels, w.kernel, w.acts, w.range, w.loss⟩ (by positivity) (k + 1) 0 u hu hH hW
  have h3 := cca_steps (plain_dt p (T / ((k : ℝ) + 1))) hm.channels (k + 1) 0 u hH hW
  rw [h3] at h1
  cases h1
  have h4 := (h2 n e i j).2
  have e1 : ((k + 1 : ℕ) : ℝ) * (T / ((k : ℝ) + 1)) = T := by push_cast; field_simp
  simp only [e1] at h4
  exact h4

/-- The default Gray-Scott automaton meets the hypotheses, and a pattern of at most 0.12 of its
second species falls below a millionth within time 5000. -/
example (x : Univ ℝ 1 2 5 7) (hx : Within01 x) (hv : ∀ n i j, x n 1 i j ≤ 0.12) (n : Fin 1)
    (i : Fin 5) (j : Fin 7) :
    flow (grayScott (r := 1) RxnDfn.default (logKernel 0.5 (radialGrid 1))) 5000 x n 1 i j ≤
      0.12 * Real.exp (-((0.062 + 0.0609 - 0.12) * 5000)) := by
  have h := rxn_flow_extinction rxn_default_resolved (by unfold Room; decide : Room 1 5 7) (δ := 0.12)
    (by norm_num) (by norm_num [RxnDfn.default]) x hx hv (T := 5000) (by norm_num) n i j
  norm_num [RxnDfn.default] at h ⊢
  exact h

example : ∃ x : Univ ℝ 1 2 5 7, (∃ i j, x 0 1 i j ≠ 0) ∧ Within01 x ∧
    ∀ n i j, x n 1 i j ≤ 0.12 := by
  refine ⟨fun _ c i j => if c = 0 then 1 / 2 else if i.val + j.val = 4 then 0.1 else 0,
    ⟨2, 2, by norm_num⟩, fun n c i j => ?_, fun n i j => ?_⟩
  · simp only
    split
    · norm_num
    · split <;> norm_num
  · simp only [one_ne_zero, if_false]
    split <;> norm_num

/-- A trajectory of the default Gray-Scott automaton that is strictly between 0 and 1. -/
example : ∃ x : Univ ℝ 1 2 5 7, ∃ t : ℝ, 0 < t ∧ Within01 x ∧
    0 < flow (grayScott (r := 1) RxnDfn.default (logKernel 0.5 (radialGrid 1))) t x 0 0 0 0 ∧
    flow (grayScott (r := 1) RxnDfn.default (logKernel 0.5 (radialGrid 1))) t x 0 0 0 0 < 1 := by
  set M := grayScottMax (r := 1) RxnDfn.default (logKernel 0.5 (radialGrid 1)) with hM
  have hF := grayScott_tame (N := 1) (H := 5) (W := 7) (r := 1) RxnDfn.default
    (logKernel 0.5 (radialGrid 1))
  have hM0 : 0 ≤ M := hF.nonneg.1
  have hu : Within01 (fun _ _ _ _ => 1 / 2 : Univ ℝ 1 2 5 7) := by intro n e i j; norm_num
  have ht : 0 < 1 / (4 * (M + 1)) := by positivity
  refine ⟨_, 1 / (4 * (M + 1)), ht, hu, ?_⟩
  have h := flow_move hF ht hu 0 0 0 0
  have hle : 1 / (4 * (M + 1)) * M ≤ 1 / 4 := by
    rw [div_mul_eq_mul_div, one_mul, div_le_iff₀ (by positivity)]
    linarith
  have := abs_le.1 (h.trans hle)
  constructor <;> linarith [this.1, this.2]

/-- A neural automaton with two channels meets the hypotheses. -/
example (u : Univ ℝ 1 2 8 8) (hu : Within01 u) (w₁ : Fin 7 → Fin 4 → ℝ) (w₂ : Fin 7 → Fin 7 → ℝ)
    (w₃ : Fin 2 → Fin 7 → ℝ) : ∃ r, iterate (fun (s : NCA ℝ 2 2 7) b => s.forward none b) 10
      (NCA.mk (identityLayer 2 2 .circular) (.ofKernel 2 2 .circular 3 laplacian9) w₁ Real.tanh w₂ Real.tanh w₃
        0.1 0.5 0) u = .ok r :=
  let ⟨_, _, h, _⟩ := nca_follows (r := 1) (κ := laplacian9) rfl rfl (by decide) (by decide) tanh_lip tanh_lip
    (by norm_num) (by unfold Room; decide) 10 (by decide) u hu
  ⟨_, h⟩

/-- An automaton that meets the hypotheses of `cca_flow_dies`. -/
example : ∃ (d : CCADyn) (M L : ℝ), d.ext = 1 ∧ Plain d ∧ Mild d M L ∧
    Withers d (d.genesis ++ d.persistence) 0.13 0.1 := by
  have hw : Averages (r := 1) (normaliseKernel fun a b => bump 0.5 0.15 (radialGrid 1 a b)) :=
    profile_averages (normalise_profile _)
  obtain ⟨M, L, h0, h0', h1⟩ := acts_mild [.mixture [(1, 0.15, 0.015)] true,
    .mixture [(1, 0.15, 0.015)] true] (by
      intro a ha
      have : a = .mixture [(1, 0.15, 0.015)] true := by simpa using ha
      subst this
      intro c hc
      have : c = (1, 0.15, 0.015) := by simpa using hc
      subst this
      norm_num [eps9])
  refine ⟨⟨1, 1, .circular, ⟨1, identityKernel⟩,
    ⟨1, normaliseKernel fun a b => bump 0.5 0.15 (radialGrid 1 a b)⟩,
    [.mixture [(1, 0.15, 0.015)] true], [.mixture [(1, 0.15, 0.015)] true], none, 0.1, 0.1⟩, M, L, rfl,
    ⟨rfl, rfl, rfl, by decide, by decide, rfl, rfl⟩, ⟨⟨h0, h0'⟩, ?_, h1, by decide⟩,
    ⟨by decide, hw, ?_, by norm_num, by norm_num⟩⟩
  · refine le_trans (le_of_eq ?_) hw.2
    exact Finset.sum_congr rfl fun a _ => Finset.sum_congr rfl fun b _ => abs_of_nonneg (hw.1 a b)
  · intro a ha
    have : a = .mixture [(1, 0.15, 0.015)] true := by simpa using ha
    subst this
    intro x h0 h1
    rw [mixture_pair_growth]
    have := lenia_takes_away (mu := 0.15) (w := 0.015 + 1e-9) (m := 0.13) (by norm_num)
      (by norm_num) x h0 h1
    linarith [orbium_below]

end Yuca
