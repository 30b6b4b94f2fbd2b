import Verif.Props.GrayScott
import Verif.Lemmas.Planar

/-!
# C126: the homogeneous universes at which a Gray-Scott automaton stands still, and which of them
attract

Exact real arithmetic, on the torus.
-/

namespace Yuca

open Arith

variable {N H W : Nat}

/-- The concentrations a homogeneous universe has after one step of size `dt`. -/
noncomputable def Spec.uvStep (f k dt : ℝ) (p : ℝ × ℝ) : ℝ × ℝ :=
  (max 0 (min 1 (p.1 + dt * (f * (1 - p.1) - p.1 * p.2 ^ 2))),
    max 0 (min 1 (p.2 + dt * (p.1 * p.2 ^ 2 - (f + k) * p.2))))

/-- The concentrations of the rest point `initialize_grid` does not choose. -/
noncomputable def Spec.lowRest (f k : ℝ) : ℝ × ℝ :=
  ((1 + Real.sqrt (1 - 4 * (f + k) ^ 2 / f)) / 2,
    f * (1 - Real.sqrt (1 - 4 * (f + k) ^ 2 / f)) / (2 * (f + k)))

/-- The concentrations of the rest point with more of the second species. -/
noncomputable def Spec.highRest (f k : ℝ) : ℝ × ℝ :=
  ((1 - Real.sqrt (1 - 4 * (f + k) ^ 2 / f)) / 2,
    f * (1 + Real.sqrt (1 - 4 * (f + k) ^ 2 / f)) / (2 * (f + k)))

/-- The levels of two homogeneous universes differ by at most `ε`. -/
def Spec.LevelsWithin (ε : ℝ) (p q : ℝ × ℝ) : Prop := |p.1 - q.1| ≤ ε ∧ |p.2 - q.2| ≤ ε

/-- A universe near `z` approaches it geometrically. -/
def Spec.Attracts (g : ℝ × ℝ → ℝ × ℝ) (z : ℝ × ℝ) : Prop :=
  ∃ ρ > 0, ∃ C Θ : ℝ, 0 ≤ Θ ∧ Θ < 1 ∧ ∀ ε ≤ ρ, ∀ p, LevelsWithin ε p z →
    ∀ n : Nat, LevelsWithin (C * Θ ^ n * ε) (g^[n] p) z

/-- Every universe other than `z` leaves a neighbourhood of `z`. -/
def Spec.Expels (g : ℝ × ℝ → ℝ × ℝ) (z : ℝ × ℝ) : Prop :=
  ∃ ρ > 0, ∀ p, p ≠ z → ∃ n : Nat, ¬ LevelsWithin ρ (g^[n] p) z

/-- As near to `z` as one likes are universes that leave a neighbourhood of `z`. -/
def Spec.Unstable (g : ℝ × ℝ → ℝ × ℝ) (z : ℝ × ℝ) : Prop :=
  ∃ ρ > 0, ∀ ε > 0, ∃ p : ℝ × ℝ, LevelsWithin ε p z ∧ (0 ≤ p.1 ∧ p.1 ≤ 1) ∧ (0 ≤ p.2 ∧ p.2 ≤ 1) ∧
    ∃ n : Nat, ¬ LevelsWithin ρ (g^[n] p) z

open Spec

/-- C126: a homogeneous universe stays homogeneous, and its two concentrations follow the
reaction alone. -/
theorem rxn_uniform_run (n : Nat) : ∀ {ca : RxnDfn ℝ} (_ : Laplacian ca) (_ : Fits ca.idL H W)
    (_ : Fits ca.nbL H W) (p : ℝ × ℝ), ∃ ca', iterate RxnDfn.forward n ca
      (constUV p.1 p.2 : Univ ℝ N 2 H W) =
      .ok (constUV ((uvStep ca.f ca.k ca.dt)^[n] p).1 ((uvStep ca.f ca.k ca.dt)^[n] p).2, ca') := by
  induction n with
  | zero => intro ca _ _ _ p; exact ⟨ca, rfl⟩
  | succ n ih =>
    intro ca hl h1 h2 p
    obtain ⟨r, hr⟩ := rxn_runs (N := N) 1 ca h1 h2 (constUV p.1 p.2)
    obtain ⟨⟨u, s⟩, hf, _⟩ := bind_ok hr
    obtain ⟨h3, h4⟩ := rxn_const_step hl p.1 p.2 hf
    simp only [clamp01_real] at h3 h4
    obtain ⟨ca', h5⟩ := ih (ca := { ca with t := ca.t + ca.dt }) hl h1 h2 (uvStep ca.f ca.k ca.dt p)
    refine ⟨ca', ?_⟩
    rw [Function.iterate_succ_apply]
    simp only [iterate, hf, bind, Except.bind, h3, h4]
    exact h5

/-- A number that clamping leaves strictly between 0 and 1 was not clamped. -/
theorem unclamped {x y : ℝ} (h : max 0 (min 1 x) = y) (h0 : 0 < y) (h1 : y < 1) : x = y := by
  rcases max_cases 0 (min 1 x) with ⟨h2, _⟩ | ⟨h2, _⟩ <;>
    rcases min_cases 1 x with ⟨h3, _⟩ | ⟨h3, _⟩ <;> linarith

/-- Clamping leaves a number of `[0, 1]` where it is exactly if the change is 0 or points
outwards. -/
theorem clamped_rest {x c : ℝ} (h0 : 0 ≤ x) (h1 : x ≤ 1) :
    max 0 (min 1 (x + c)) = x ↔ c = 0 ∨ (x = 0 ∧ c ≤ 0) ∨ (x = 1 ∧ 0 ≤ c) := by
  constructor
  · intro h
    rcases lt_or_eq_of_le h0 with a | a
    · rcases lt_or_eq_of_le h1 with b | b
      · left; linarith [unclamped h a b]
      · right; right
        refine ⟨b, ?_⟩
        rcases max_cases 0 (min 1 (x + c)) with ⟨h2, _⟩ | ⟨h2, _⟩ <;>
        rcases min_cases 1 (x + c) with ⟨h3, _⟩ | ⟨h3, _⟩ <;> linarith
    · right; left
      refine ⟨a.symm, ?_⟩
      rcases max_cases 0 (min 1 (x + c)) with ⟨h2, _⟩ | ⟨h2, _⟩ <;>
        rcases min_cases 1 (x + c) with ⟨h3, _⟩ | ⟨h3, _⟩ <;> linarith
  · rintro (h | ⟨h, h'⟩ | ⟨h, h'⟩)
    · rw [h, add_zero, min_eq_right h1, max_eq_right h0]
    · rw [h, zero_add, max_eq_left ((min_le_right _ _).trans h')]
    · rw [h, min_eq_left (by linarith), max_eq_right zero_le_one]

/-- C126: a homogeneous universe stands still exactly if the reaction does: at none of the bounds
0 and 1 does the clamping make a further one. -/
theorem uniform_still_iff {f k dt a b : ℝ} (hf : 0 < f) (hk : 0 ≤ k) (hdt : 0 < dt)
    (ha : 0 ≤ a ∧ a ≤ 1) (hb : 0 ≤ b ∧ b ≤ 1) :
    uvStep f k dt (a, b) = (a, b) ↔ ReactionRest f k a b := by
  have sg : ∀ c : ℝ, (dt * c = 0 ↔ c = 0) ∧ (dt * c ≤ 0 ↔ c ≤ 0) ∧ (0 ≤ dt * c ↔ 0 ≤ c) :=
    fun c => ⟨by simp [hdt.ne'], ⟨fun h => by by_contra hc; push Not at hc; nlinarith [mul_pos hdt hc], fun h => by nlinarith⟩, mul_nonneg_iff_of_pos_left hdt⟩
  unfold uvStep ReactionRest
  simp only [Prod.mk.injEq]
  rw [clamped_rest ha.1 ha.2, clamped_rest hb.1 hb.2, (sg _).1, (sg _).2.1, (sg _).2.2, (sg _).1,
    (sg _).2.1, (sg _).2.2]
  constructor
  · rintro ⟨h1, h2⟩
    have e1 : a * b ^ 2 = f * (1 - a) := by
      rcases h1 with h1 | ⟨h1, h1'⟩ | ⟨h1, h1'⟩
      · linarith
      · subst h1; linarith
      · subst h1
        nlinarith [sq_nonneg b]
    refine ⟨e1, ?_⟩
    rcases h2 with h2 | ⟨h2, h2'⟩ | ⟨h2, h2'⟩
    · linarith
    · subst h2; ring
    · subst h2
      exfalso
      have : a * (1 + f) = f := by linarith
      have h3 : f + k ≤ a := by linarith
      nlinarith
  · rintro ⟨h1, h2⟩
    exact ⟨.inl (by linarith), .inl (by linarith)⟩

/-- C126: the rest points of the reaction in `[0, 1]`: the empty one, and two more exactly if
`4 (f + k)² ≤ f`. -/
theorem rest_levels {f k : ℝ} (hf : 0 < f) (hk : 0 ≤ k) (a b : ℝ) :
    ReactionRest f k a b ↔ (a, b) = (1, 0) ∨
      (4 * (f + k) ^ 2 ≤ f ∧ ((a, b) = lowRest f k ∨ (a, b) = highRest f k)) := by
  have hs : 0 < f + k := by linarith
  obtain ⟨s, hs'⟩ : ∃ s, s = f + k := ⟨_, rfl⟩
  unfold ReactionRest lowRest highRest
  rw [← hs'] at hs ⊢
  simp only [Prod.mk.injEq]
  have hdiv : 4 * s ^ 2 / f * f = 4 * s ^ 2 := by field_simp
  constructor
  · rintro ⟨h1, h2⟩
    by_cases hb : b = 0
    · left
      subst hb
      refine ⟨?_, rfl⟩
      have : f * (1 - a) = 0 := by rw [← h1]; ring
      rcases mul_eq_zero.1 this with h | h <;> linarith
    · right
      have e1 : a * b = s := by
        have : b * (a * b - s) = 0 := by linarith
        rcases mul_eq_zero.1 this with h | h
        · exact absurd h hb
        · linarith
      have e2 : f * (1 - a) = s * b := by linarith
      have e3 : f * (1 - a) * a = s ^ 2 := by rw [e2, mul_assoc, mul_comm b a, e1]; ring
      have e4 : (2 * a - 1) ^ 2 = 1 - 4 * s ^ 2 / f := by
        field_simp
        linarith
      have h4 : 4 * s ^ 2 ≤ f := by nlinarith [sq_nonneg (2 * a - 1)]
      refine ⟨h4, ?_⟩
      have eb : b = f * (1 - a) / s := by rw [e2]; field_simp
      rcases le_total 0 (2 * a - 1) with h | h
      · left
        have : Real.sqrt (1 - 4 * s ^ 2 / f) = 2 * a - 1 := by rw [← e4, Real.sqrt_sq h]
        rw [this]
        refine ⟨by ring, ?_⟩
        rw [eb]; field_simp; ring
      · right
        have : Real.sqrt (1 - 4 * s ^ 2 / f) = 1 - 2 * a := by
          rw [← e4, Real.sqrt_sq_eq_abs, abs_of_nonpos h]; ring
        rw [this]
        refine ⟨by ring, ?_⟩
        rw [eb]; field_simp; ring
  · rintro (⟨rfl, rfl⟩ | ⟨h4, h⟩)
    · constructor <;> ring
    · have hD : 0 ≤ 1 - 4 * s ^ 2 / f := by
        rw [sub_nonneg, div_le_one hf]; exact h4
      have hr := Real.sq_sqrt hD
      obtain ⟨r, hr'⟩ : ∃ r, r = Real.sqrt (1 - 4 * s ^ 2 / f) := ⟨_, rfl⟩
      rw [← hr'] at hr h
      have hr2 : f * (1 - r ^ 2) = 4 * s ^ 2 := by rw [hr]; linarith
      rcases h with ⟨rfl, rfl⟩ | ⟨rfl, rfl⟩
      · have e1 : (1 + r) / 2 * (f * (1 - r) / (2 * s)) = s := by
          field_simp; linarith
        constructor
        · rw [pow_two, ← mul_assoc, e1]; field_simp; ring
        · rw [pow_two, ← mul_assoc, e1]
      · have e1 : (1 - r) / 2 * (f * (1 + r) / (2 * s)) = s := by
          field_simp; linarith
        constructor
        · rw [pow_two, ← mul_assoc, e1]; field_simp; ring
        · rw [pow_two, ← mul_assoc, e1]

/-- C126: what `initialize_grid` fills in is the one with more of the second species. -/
theorem background_high (ca : RxnDfn ℝ) (hf : 0 < ca.f) (hk : 0 ≤ ca.k) :
    ca.background = highRest ca.f ca.k := by
  have hs : 0 < ca.f + ca.k := by linarith
  obtain ⟨q, hq⟩ : ∃ q, q = Real.sqrt ca.f := ⟨_, rfl⟩
  have hq0 : 0 < q := hq ▸ Real.sqrt_pos.2 hf
  have hq2 : ca.f = q ^ 2 := by rw [hq, Real.sq_sqrt hf.le]
  obtain ⟨s, hs'⟩ : ∃ s, s = ca.f + ca.k := ⟨_, rfl⟩
  unfold highRest
  simp only [RxnDfn.background, Arith.div, Arith.sub, Arith.add, Arith.mul, Arith.lit, Transc.sqrt,
    Rat.cast_ofNat]
  rw [← hq, ← hs', hq2]
  rw [← hs'] at hs
  have e : q / s * (q / s) - 4 = (q / s) ^ 2 * (1 - 4 * s ^ 2 / q ^ 2) := by field_simp
  rw [e, Real.sqrt_mul (by positivity), Real.sqrt_sq (by positivity)]
  refine Prod.ext ?_ ?_
  · simp only; field_simp
  · simp only; field_simp

/-- C126: of the two, one has `v² ≤ f` and the other `f ≤ v²`, with equality exactly if they are
the same. -/
theorem rest_levels_order {f k : ℝ} (hf : 0 < f) (hk : 0 ≤ k) (h : 4 * (f + k) ^ 2 ≤ f) :
    0 < (lowRest f k).2 ∧ (lowRest f k).2 ^ 2 ≤ f ∧ f ≤ (highRest f k).2 ^ 2 ∧
      ((lowRest f k).2 ^ 2 = f ↔ 4 * (f + k) ^ 2 = f) ∧
      ((highRest f k).2 ^ 2 = f ↔ 4 * (f + k) ^ 2 = f) ∧
      (lowRest f k = highRest f k ↔ 4 * (f + k) ^ 2 = f) := by
  have hs : 0 < f + k := by linarith
  obtain ⟨s, hs'⟩ : ∃ s, s = f + k := ⟨_, rfl⟩
  unfold lowRest highRest
  rw [← hs'] at hs h ⊢
  have hD : 0 ≤ 1 - 4 * s ^ 2 / f := by
    rw [sub_nonneg, div_le_one hf]; exact h
  have hr := Real.sq_sqrt hD
  have hr0 := Real.sqrt_nonneg (1 - 4 * s ^ 2 / f)
  obtain ⟨r, hr'⟩ : ∃ r, r = Real.sqrt (1 - 4 * s ^ 2 / f) := ⟨_, rfl⟩
  rw [← hr'] at hr hr0 ⊢
  have hdiv : 4 * s ^ 2 / f * f = 4 * s ^ 2 := by field_simp
  have hr2 : 4 * s ^ 2 = f * (1 - r ^ 2) := by rw [hr]; linarith
  have hr1 : r < 1 := by
    have : 0 < f * (1 - r ^ 2) := by rw [← hr2]; positivity
    have : 0 < 1 - r ^ 2 := by
      by_contra hc
      push Not at hc
      nlinarith
    nlinarith
  have e1 : (f * (1 - r) / (2 * s)) ^ 2 = f * ((1 - r) / (1 + r)) := by
    rw [div_pow, mul_pow, mul_pow, show (2 : ℝ) ^ 2 * s ^ 2 = 4 * s ^ 2 by ring, hr2]
    have : 0 < 1 - r := by linarith
    have : 0 < 1 + r := by linarith
    rw [show f * (1 - r ^ 2) = f * ((1 - r) * (1 + r)) by ring]
    field_simp
  have e2 : (f * (1 + r) / (2 * s)) ^ 2 = f * ((1 + r) / (1 - r)) := by
    rw [div_pow, mul_pow, mul_pow, show (2 : ℝ) ^ 2 * s ^ 2 = 4 * s ^ 2 by ring, hr2]
    have : 0 < 1 - r := by linarith
    have : 0 < 1 + r := by linarith
    rw [show f * (1 - r ^ 2) = f * ((1 - r) * (1 + r)) by ring]
    field_simp
  have iff0 : 4 * s ^ 2 = f ↔ r = 0 := by
    rw [hr2]
    constructor
    · intro h
      have : f * r ^ 2 = 0 := by linarith
      rcases mul_eq_zero.1 this with h | h
      · linarith
      · exact pow_eq_zero_iff (two_ne_zero) |>.1 h
    · rintro rfl; ring
  have p1 : 0 < 1 - r := by linarith
  have p2 : 0 < 1 + r := by linarith
  simp only [e1, e2, iff0]
  refine ⟨by positivity, ?_, ?_, ⟨?_, ?_⟩, ⟨?_, ?_⟩, ⟨?_, ?_⟩⟩
  · have : (1 - r) / (1 + r) ≤ 1 := by rw [div_le_one p2]; linarith
    nlinarith
  · have : 1 ≤ (1 + r) / (1 - r) := by rw [le_div_iff₀ p1]; linarith
    nlinarith
  · intro h
    have : (1 - r) / (1 + r) = 1 := mul_left_cancel₀ hf.ne' (by rw [h, mul_one])
    rw [div_eq_one_iff_eq p2.ne'] at this; linarith
  · rintro rfl; norm_num
  · intro h
    have : (1 + r) / (1 - r) = 1 := mul_left_cancel₀ hf.ne' (by rw [h, mul_one])
    rw [div_eq_one_iff_eq p1.ne'] at this; linarith
  · rintro rfl; norm_num
  · intro h
    have := congrArg Prod.fst h
    simp only at this
    linarith
  · rintro rfl; norm_num

/-- A rest point with some of the second species lies inside. -/
theorem rest_inside {f k a b : ℝ} (hf : 0 < f) (hk : 0 ≤ k) (h : ReactionRest f k a b) (hb : 0 < b) :
    a * b = f + k ∧ 0 < a ∧ a < 1 ∧ b < 1 := by
  obtain ⟨h1, h2⟩ := h
  have e1 : a * b = f + k := by
    have : b * (a * b - (f + k)) = 0 := by linarith
    rcases mul_eq_zero.1 this with h | h <;> linarith
  have ha : 0 < a := by
    by_contra hc
    push Not at hc
    nlinarith
  have e2 : f * (1 - a) = (f + k) * b := by linarith
  have ha1 : a < 1 := by
    by_contra hc
    push Not at hc
    have : 0 < (f + k) * b := by positivity
    nlinarith
  refine ⟨e1, ha, ha1, ?_⟩
  by_contra hc
  push Not at hc
  have : f + k ≤ (f + k) * b := le_mul_of_one_le_right (by linarith) hc
  nlinarith

/-! ## Near a rest point -/

/-- One step without clamping near a rest point, in the coordinates of `planar_attracts`. -/
theorem local_form {f k dt a b : ℝ} (h1 : a * b ^ 2 = f * (1 - a)) (h2 : a * b = f + k) (x y : ℝ) :
    let p := y
    let q := dt * b ^ 2 * x + (1 + dt * (f + k)) * y
    let R := 2 * b * x * y + a * y ^ 2 + x * y ^ 2
    let x' := a + x + dt * (f * (1 - (a + x)) - (a + x) * (b + y) ^ 2) - a
    let y' := b + y + dt * ((a + x) * (b + y) ^ 2 - (f + k) * (b + y)) - b
    y' = q + dt * R ∧
    dt * b ^ 2 * x' + (1 + dt * (f + k)) * y' = (2 + dt * (k - b ^ 2)) * q -
      (1 + dt * (k - b ^ 2) + dt ^ 2 * ((f + k) * (b ^ 2 - f))) * p +
      dt * (1 + dt * (f + k) - dt * b ^ 2) * R := by
  intro p q R x' y'
  constructor
  · simp only [q, R, y']
    linear_combination dt * (2 * y + b) * h2
  · simp only [p, q, R, x', y']
    linear_combination (1 + dt * (f + k)) * dt * (2 * y + b) * h2 - dt ^ 2 * b ^ 2 * h1 - 2 * dt ^ 2 * b ^ 2 * y * h2

/-- The coordinates and the distances measure the same. -/
theorem coords_bound {c d : ℝ} (hc : 0 < c) : ∃ D > 0, ∀ x y : ℝ,
    x ^ 2 ≤ D * (y ^ 2 + (c * x + d * y) ^ 2) ∧ y ^ 2 ≤ D * (y ^ 2 + (c * x + d * y) ^ 2) ∧
    y ^ 2 + (c * x + d * y) ^ 2 ≤ D * (x ^ 2 + y ^ 2) := by
  refine ⟨2 * (1 + d ^ 2) / c ^ 2 + 1 + 2 * c ^ 2 + 2 * d ^ 2, by positivity, fun x y => ?_⟩
  have hA : 0 ≤ y ^ 2 + (c * x + d * y) ^ 2 := by positivity
  have hB : 0 ≤ x ^ 2 + y ^ 2 := by positivity
  have h1 : c ^ 2 * x ^ 2 ≤ 2 * (1 + d ^ 2) * (y ^ 2 + (c * x + d * y) ^ 2) := by
    have e : c * x = (c * x + d * y) - d * y := by ring
    rw [← mul_pow, e]
    nlinarith [sq_nonneg ((c * x + d * y) + d * y), sq_nonneg y, sq_nonneg (c * x + d * y),
      mul_nonneg (sq_nonneg d) (sq_nonneg (c * x + d * y))]
  have h2 : x ^ 2 ≤ 2 * (1 + d ^ 2) / c ^ 2 * (y ^ 2 + (c * x + d * y) ^ 2) := by
    rw [div_mul_eq_mul_div, le_div_iff₀ (by positivity)]
    linarith
  have h3 : 0 ≤ 2 * (1 + d ^ 2) / c ^ 2 := by positivity
  refine ⟨?_, ?_, ?_⟩
  · nlinarith [mul_nonneg (sq_nonneg c) hA, mul_nonneg (sq_nonneg d) hA]
  · nlinarith [mul_nonneg (sq_nonneg c) hA, mul_nonneg (sq_nonneg d) hA, mul_nonneg h3 hA,
      sq_nonneg (c * x + d * y)]
  · nlinarith [sq_nonneg (c * x - d * y), mul_nonneg h3 hB, mul_nonneg (sq_nonneg c) (sq_nonneg y),
      mul_nonneg (sq_nonneg d) (sq_nonneg x), sq_nonneg x]

/-- The terms of second and third order are small. -/
theorem remainder_bound {a b D : ℝ} (ha : 0 < a) (hb : 0 < b) (hD : 0 < D) (e : ℝ) :
    ∃ K > 0, ∀ x y n : ℝ, n ≤ 1 → x ^ 2 ≤ D * n → y ^ 2 ≤ D * n →
      |e * (2 * b * x * y + a * y ^ 2 + x * y ^ 2)| ≤ K * n := by
  refine ⟨(|e| + 1) * ((2 * b + a + (1 + D)) * D), by positivity, fun x y n hn hx hy => ?_⟩
  have hn0 : 0 ≤ n := by nlinarith [sq_nonneg x]
  have hX : |x| ≤ 1 + D := by
    have h1 : |x| ^ 2 ≤ D := by rw [sq_abs]; nlinarith
    nlinarith [abs_nonneg x]
  have h1 : |2 * b * x * y + a * y ^ 2 + x * y ^ 2| ≤ (2 * b + a + (1 + D)) * (D * n) := by
    have e1 : |2 * b * x * y| ≤ 2 * b * (D * n) := by
      rw [show 2 * b * x * y = 2 * b * (x * y) by ring, abs_mul, abs_of_pos (by positivity)]
      apply mul_le_mul_of_nonneg_left _ (by positivity)
      rw [abs_mul]
      nlinarith [sq_nonneg (|x| - |y|), sq_abs x, sq_abs y]
    have e2 : |a * y ^ 2| ≤ a * (D * n) := by
      rw [abs_mul, abs_of_pos ha, abs_of_nonneg (sq_nonneg y)]
      exact mul_le_mul_of_nonneg_left hy ha.le
    have e3 : |x * y ^ 2| ≤ (1 + D) * (D * n) := by
      rw [abs_mul, abs_of_nonneg (sq_nonneg y)]
      exact mul_le_mul hX hy (sq_nonneg y) (by linarith)
    have := abs_add_three (2 * b * x * y) (a * y ^ 2) (x * y ^ 2)
    linarith
  rw [abs_mul]
  have h2 := mul_le_mul_of_nonneg_left h1 (abs_nonneg e)
  have h3 : 0 ≤ (2 * b + a + (1 + D)) * (D * n) := by positivity
  nlinarith

/-- All that is needed about one step near a rest point. -/
theorem near_rest {f k dt a b : ℝ} (hf : 0 < f) (hk : 0 ≤ k) (hdt : 0 < dt)
    (h : ReactionRest f k a b) (hb : 0 < b) :
    ∃ D > 0, ∃ K > 0, (∀ x y : ℝ,
      x ^ 2 ≤ D * (y ^ 2 + (dt * b ^ 2 * x + (1 + dt * (f + k)) * y) ^ 2) ∧
      y ^ 2 ≤ D * (y ^ 2 + (dt * b ^ 2 * x + (1 + dt * (f + k)) * y) ^ 2) ∧
      y ^ 2 + (dt * b ^ 2 * x + (1 + dt * (f + k)) * y) ^ 2 ≤ D * (x ^ 2 + y ^ 2)) ∧
    ∀ x y : ℝ, ∃ r s : ℝ,
      b + y + dt * ((a + x) * (b + y) ^ 2 - (f + k) * (b + y)) - b =
        dt * b ^ 2 * x + (1 + dt * (f + k)) * y + r ∧
      dt * b ^ 2 * (a + x + dt * (f * (1 - (a + x)) - (a + x) * (b + y) ^ 2) - a) +
        (1 + dt * (f + k)) * (b + y + dt * ((a + x) * (b + y) ^ 2 - (f + k) * (b + y)) - b) =
        (2 + dt * (k - b ^ 2)) * (dt * b ^ 2 * x + (1 + dt * (f + k)) * y) -
        (1 + dt * (k - b ^ 2) + dt ^ 2 * ((f + k) * (b ^ 2 - f))) * y + s ∧
      (y ^ 2 + (dt * b ^ 2 * x + (1 + dt * (f + k)) * y) ^ 2 ≤ 1 →
        |r| ≤ K * (y ^ 2 + (dt * b ^ 2 * x + (1 + dt * (f + k)) * y) ^ 2) ∧
        |s| ≤ K * (y ^ 2 + (dt * b ^ 2 * x + (1 + dt * (f + k)) * y) ^ 2)) := by
  obtain ⟨h2, ha, _, _⟩ := rest_inside hf hk h hb
  obtain ⟨D, hD, hco⟩ := coords_bound (c := dt * b ^ 2) (d := 1 + dt * (f + k)) (by positivity)
  obtain ⟨K₁, hK₁, hr₁⟩ := remainder_bound ha hb hD dt
  obtain ⟨K₂, hK₂, hr₂⟩ := remainder_bound ha hb hD (dt * (1 + dt * (f + k) - dt * b ^ 2))
  refine ⟨D, hD, max K₁ K₂, lt_max_of_lt_left hK₁, hco, fun x y => ?_⟩
  obtain ⟨e1, e2⟩ := local_form (dt := dt) h.1 h2 x y
  refine ⟨_, _, e1, e2, fun hn => ?_⟩
  obtain ⟨c1, c2, _⟩ := hco x y
  have hn0 : 0 ≤ y ^ 2 + (dt * b ^ 2 * x + (1 + dt * (f + k)) * y) ^ 2 := by positivity
  exact ⟨(hr₁ x y _ hn c1 c2).trans (mul_le_mul_of_nonneg_right (le_max_left _ _) hn0),
    (hr₂ x y _ hn c1 c2).trans (mul_le_mul_of_nonneg_right (le_max_right _ _) hn0)⟩

/-- Points near a rest point are inside. -/
theorem inside_margin {a x ρ : ℝ} (hρ : ρ < min a (1 - a))
    (hx : |x - a| ≤ ρ) : 0 < x ∧ x < 1 := by
  obtain ⟨h2, h3⟩ := abs_le.1 hx
  obtain ⟨h4, h5⟩ := lt_min_iff.1 hρ
  constructor <;> linarith

/-- C126: at a rest point with `v² > f` the homogeneous universes nearby approach it if
`dt (f + k)(v² - f) < v² - k`. -/
theorem rest_attracts {f k dt a b : ℝ} (hf : 0 < f) (hk : 0 ≤ k) (hdt : 0 < dt) (hdt2 : dt ≤ 2)
    (h : ReactionRest f k a b) (hb : 0 < b) (hbf : f < b ^ 2)
    (hst : dt * ((f + k) * (b ^ 2 - f)) < b ^ 2 - k) : Attracts (uvStep f k dt) (a, b) := by
  obtain ⟨h2, ha, ha1, hb1⟩ := rest_inside hf hk h hb
  obtain ⟨D, hD, K, hK, hco, hst'⟩ := near_rest (dt := dt) hf hk hdt h hb
  have hs : 0 < f + k := by linarith
  have hdet : 0 < (f + k) * (b ^ 2 - f) := mul_pos hs (by linarith)
  have hjury : |2 + dt * (k - b ^ 2)| <
      1 + (1 + dt * (k - b ^ 2) + dt ^ 2 * ((f + k) * (b ^ 2 - f))) := by
    have h3 : 0 < dt ^ 2 * ((f + k) * (b ^ 2 - f)) := by positivity
    rw [abs_lt]
    have hb2 : b ^ 2 < 1 := by nlinarith
    constructor <;> nlinarith
  have hdel : 1 + dt * (k - b ^ 2) + dt ^ 2 * ((f + k) * (b ^ 2 - f)) < 1 := by nlinarith
  obtain ⟨V, m, hm, M, hM, Θ, hΘ0, hΘ1, v, hv, hV, hstep⟩ :=
    planar_attracts hjury hdel (K := K ^ 2) (by positivity)
  obtain ⟨c, hc⟩ : ∃ c, c = dt * b ^ 2 := ⟨_, rfl⟩
  obtain ⟨d, hd⟩ : ∃ d, d = 1 + dt * (f + k) := ⟨_, rfl⟩
  rw [← hc, ← hd] at hco
  obtain ⟨ρ₀, hρ₀⟩ : ∃ ρ, ρ = min (min a (1 - a)) (min b (1 - b)) / 2 := ⟨_, rfl⟩
  have hmin : 0 < min (min a (1 - a)) (min b (1 - b)) :=
    lt_min (lt_min ha (by linarith)) (lt_min hb (by linarith))
  have hρpos : 0 < ρ₀ := by rw [hρ₀]; linarith
  have hρa : ρ₀ < min a (1 - a) := by
    have := min_le_left (min a (1 - a)) (min b (1 - b)); rw [hρ₀]; linarith
  have hρb : ρ₀ < min b (1 - b) := by
    have := min_le_right (min a (1 - a)) (min b (1 - b)); rw [hρ₀]; linarith
  obtain ⟨w, hw⟩ : ∃ w, w = m * min (min v 1) (ρ₀ ^ 2 / D) := ⟨_, rfl⟩
  have hw0 : 0 < w := by
    rw [hw]; exact mul_pos hm (lt_min (lt_min hv one_pos) (by positivity))
  -- what a value of the form at most `w` gives
  have small : ∀ p q, V p q ≤ w → p ^ 2 + q ^ 2 ≤ v ∧ p ^ 2 + q ^ 2 ≤ 1 ∧
      D * (p ^ 2 + q ^ 2) ≤ ρ₀ ^ 2 := by
    intro p q hpq
    have h3 : p ^ 2 + q ^ 2 ≤ min (min v 1) (ρ₀ ^ 2 / D) := by
      have := (hV p q).1.trans hpq
      rw [hw] at this
      exact le_of_mul_le_mul_left this hm
    obtain ⟨h4, h5⟩ := le_min_iff.1 h3
    obtain ⟨h6, h7⟩ := le_min_iff.1 h4
    refine ⟨h6, h7, ?_⟩
    rw [le_div_iff₀ hD] at h5
    linarith
  have step : ∀ x y, V y (c * x + d * y) ≤ w → ∃ x' y',
      uvStep f k dt (a + x, b + y) = (a + x', b + y') ∧
      V y' (c * x' + d * y') ≤ Θ * V y (c * x + d * y) := by
    intro x y hxy
    obtain ⟨s1, s2, _⟩ := small _ _ hxy
    obtain ⟨r, s, e1, e2, e3⟩ := hst' x y
    rw [← hc, ← hd] at e1 e2 e3
    obtain ⟨x', hx'⟩ : ∃ x', x' = a + x + dt * (f * (1 - (a + x)) - (a + x) * (b + y) ^ 2) - a :=
      ⟨_, rfl⟩
    obtain ⟨y', hy'⟩ : ∃ y', y' = b + y + dt * ((a + x) * (b + y) ^ 2 - (f + k) * (b + y)) - b :=
      ⟨_, rfl⟩
    rw [← hy'] at e1
    rw [← hx', ← hy'] at e2
    obtain ⟨r1, r2⟩ := e3 s2
    have sq : ∀ z n : ℝ, |z| ≤ K * n → z ^ 2 ≤ K ^ 2 * n ^ 2 := by
      intro z n hz
      rw [← mul_pow, ← sq_abs]
      exact pow_le_pow_left₀ (abs_nonneg _) hz 2
    have hle := hstep y (c * x + d * y) r s s1 (sq _ _ r1) (sq _ _ r2)
    rw [← e1, ← e2] at hle
    have hV0 : 0 ≤ V y (c * x + d * y) := le_trans (by positivity) (hV _ _).1
    have hle' : V y' (c * x' + d * y') ≤ w :=
      hle.trans ((mul_le_of_le_one_left hV0 hΘ1.le).trans hxy)
    obtain ⟨_, _, s3⟩ := small _ _ hle'
    obtain ⟨c1, c2, _⟩ := hco x' y'
    refine ⟨x', y', ?_, hle⟩
    have i1 := inside_margin (x := a + x') hρa (by
      rw [add_sub_cancel_left]; exact abs_le_of_sq_le_sq (c1.trans s3) hρpos.le)
    have i2 := inside_margin (x := b + y') hρb (by
      rw [add_sub_cancel_left]; exact abs_le_of_sq_le_sq (c2.trans s3) hρpos.le)
    have j1 : a + x + dt * (f * (1 - (a + x)) - (a + x) * (b + y) ^ 2) = a + x' := by
      rw [hx']; ring
    have j2 : b + y + dt * ((a + x) * (b + y) ^ 2 - (f + k) * (b + y)) = b + y' := by
      rw [hy']; ring
    unfold uvStep
    simp only [j1, j2]
    rw [min_eq_right i1.2.le, max_eq_right i1.1.le, min_eq_right i2.2.le, max_eq_right i2.1.le]
  have run : ∀ n x y, V y (c * x + d * y) ≤ w → ∃ x' y',
      (uvStep f k dt)^[n] (a + x, b + y) = (a + x', b + y') ∧
      V y' (c * x' + d * y') ≤ Θ ^ n * V y (c * x + d * y) := by
    intro n
    induction n with
    | zero => intro x y _; exact ⟨x, y, rfl, by simp⟩
    | succ n ih =>
      intro x y hxy
      obtain ⟨x₁, y₁, e1, l1⟩ := step x y hxy
      have hV0 : 0 ≤ V y (c * x + d * y) := le_trans (by positivity) (hV _ _).1
      obtain ⟨x₂, y₂, e2, l2⟩ := ih x₁ y₁ (l1.trans ((mul_le_of_le_one_left hV0 hΘ1.le).trans hxy))
      refine ⟨x₂, y₂, by rw [Function.iterate_succ_apply, e1, e2], l2.trans ?_⟩
      rw [pow_succ, mul_assoc]
      exact mul_le_mul_of_nonneg_left l1 (by positivity)
  refine ⟨Real.sqrt (w / (2 * M * D)), by positivity, Real.sqrt (2 * M * D ^ 2 / m), Real.sqrt Θ,
    Real.sqrt_nonneg _, by rw [Real.sqrt_lt' one_pos]; linarith, fun ε hε p hp n => ?_⟩
  obtain ⟨p1, p2⟩ := hp
  simp only at p1 p2
  have hε0 : 0 ≤ ε := (abs_nonneg _).trans p1
  have q1 : (p.1 - a) ^ 2 ≤ ε ^ 2 := by rw [← sq_abs]; exact pow_le_pow_left₀ (abs_nonneg _) p1 2
  have q2 : (p.2 - b) ^ 2 ≤ ε ^ 2 := by rw [← sq_abs]; exact pow_le_pow_left₀ (abs_nonneg _) p2 2
  have hε2 : ε ^ 2 ≤ w / (2 * M * D) := by
    have := pow_le_pow_left₀ hε0 hε 2
    rwa [Real.sq_sqrt (by positivity)] at this
  obtain ⟨x, hx⟩ : ∃ x, x = p.1 - a := ⟨_, rfl⟩
  obtain ⟨y, hy⟩ : ∃ y, y = p.2 - b := ⟨_, rfl⟩
  rw [← hx] at q1
  rw [← hy] at q2
  have hV1 : V y (c * x + d * y) ≤ 2 * M * D * ε ^ 2 := by
    have h3 := (hV y (c * x + d * y)).2
    have h4 := (hco x y).2.2
    have h5 : M * (y ^ 2 + (c * x + d * y) ^ 2) ≤ M * (D * (2 * ε ^ 2)) :=
      mul_le_mul_of_nonneg_left (h4.trans (mul_le_mul_of_nonneg_left (by linarith) hD.le)) hM.le
    linarith
  have hVw : V y (c * x + d * y) ≤ w := by
    rw [le_div_iff₀ (by positivity)] at hε2
    linarith
  obtain ⟨x', y', e, l⟩ := run n x y hVw
  have hp' : p = (a + x, b + y) := by rw [hx, hy]; ext <;> simp
  rw [hp', e]
  have l2 : Θ ^ n * V y (c * x + d * y) ≤ Θ ^ n * (2 * M * D * ε ^ 2) :=
    mul_le_mul_of_nonneg_left hV1 (by positivity)
  have l3 : y' ^ 2 + (c * x' + d * y') ^ 2 ≤ Θ ^ n * (2 * M * D * ε ^ 2) / m := by
    rw [le_div_iff₀ hm]
    linarith [(hV y' (c * x' + d * y')).1]
  have l4 : D * (y' ^ 2 + (c * x' + d * y') ^ 2) ≤
      (Real.sqrt (2 * M * D ^ 2 / m) * Real.sqrt Θ ^ n * ε) ^ 2 := by
    rw [mul_pow, mul_pow, Real.sq_sqrt (by positivity), ← pow_mul, mul_comm n 2, pow_mul,
      Real.sq_sqrt hΘ0.le]
    refine (mul_le_mul_of_nonneg_left l3 hD.le).trans (le_of_eq ?_)
    field_simp
  have hpos : 0 ≤ Real.sqrt (2 * M * D ^ 2 / m) * Real.sqrt Θ ^ n * ε := by positivity
  obtain ⟨c1, c2, _⟩ := hco x' y'
  constructor
  · simp only [add_sub_cancel_left]
    exact abs_le_of_sq_le_sq (c1.trans l4) hpos
  · simp only [add_sub_cancel_left]
    exact abs_le_of_sq_le_sq (c2.trans l4) hpos

/-- The displacements of an orbit that stays near a rest point follow the unclamped map. -/
theorem orbit_near {f k dt a b ρ : ℝ} (hρa : ρ < min a (1 - a)) (hρb : ρ < min b (1 - b))
    (p : ℝ × ℝ) (hin : ∀ n : ℕ, LevelsWithin ρ ((uvStep f k dt)^[n] p) (a, b)) (n : ℕ) :
    let x := ((uvStep f k dt)^[n] p).1 - a
    let y := ((uvStep f k dt)^[n] p).2 - b
    ((uvStep f k dt)^[n + 1] p).1 - a =
      a + x + dt * (f * (1 - (a + x)) - (a + x) * (b + y) ^ 2) - a ∧
    ((uvStep f k dt)^[n + 1] p).2 - b =
      b + y + dt * ((a + x) * (b + y) ^ 2 - (f + k) * (b + y)) - b := by
  intro x y
  have h := hin (n + 1)
  obtain ⟨z, hz⟩ : ∃ z, z = (uvStep f k dt)^[n] p := ⟨_, rfl⟩
  rw [Function.iterate_succ_apply', ← hz] at h ⊢
  have i1 := inside_margin hρa h.1
  have i2 := inside_margin hρb h.2
  have e1 := unclamped (y := (uvStep f k dt z).1) rfl i1.1 i1.2
  have e2 := unclamped (y := (uvStep f k dt z).2) rfl i2.1 i2.2
  simp only [x, y, ← hz]
  rw [← e1, ← e2]
  constructor <;> ring

/-- C126: at a rest point with `v² > f` every other homogeneous universe nearby goes away if
`dt (f + k)(v² - f) > v² - k`. -/
theorem rest_expels {f k dt a b : ℝ} (hf : 0 < f) (hk : 0 ≤ k) (hdt : 0 < dt) (hdt2 : dt ≤ 2)
    (h : ReactionRest f k a b) (hb : 0 < b) (hbf : f < b ^ 2)
    (hst : b ^ 2 - k < dt * ((f + k) * (b ^ 2 - f))) : Expels (uvStep f k dt) (a, b) := by
  obtain ⟨h2, ha, ha1, hb1⟩ := rest_inside hf hk h hb
  obtain ⟨D, hD, K, hK, hco, hst'⟩ := near_rest (dt := dt) hf hk hdt h hb
  have hs : 0 < f + k := by linarith
  have hdet : 0 < (f + k) * (b ^ 2 - f) := mul_pos hs (by linarith)
  have hjury : |2 + dt * (k - b ^ 2)| <
      1 + (1 + dt * (k - b ^ 2) + dt ^ 2 * ((f + k) * (b ^ 2 - f))) := by
    have h3 : 0 < dt ^ 2 * ((f + k) * (b ^ 2 - f)) := by positivity
    rw [abs_lt]
    have hb2 : b ^ 2 < 1 := by nlinarith
    constructor <;> nlinarith
  have hdel : 1 < 1 + dt * (k - b ^ 2) + dt ^ 2 * ((f + k) * (b ^ 2 - f)) := by nlinarith
  obtain ⟨V, m, hm, M, hM, Θ, hΘ1, v, hv, hV, hstep⟩ :=
    planar_repels hjury hdel (K := K ^ 2) (by positivity)
  obtain ⟨c, hc⟩ : ∃ c, c = dt * b ^ 2 := ⟨_, rfl⟩
  obtain ⟨d, hd⟩ : ∃ d, d = 1 + dt * (f + k) := ⟨_, rfl⟩
  rw [← hc, ← hd] at hco
  -- a neighbourhood inside the square and inside the range of `hstep`
  obtain ⟨ρ, hρ⟩ : ∃ ρ, ρ = min (min (min a (1 - a)) (min b (1 - b)) / 2)
      (Real.sqrt (min v 1 / (2 * D))) := ⟨_, rfl⟩
  have hmin : 0 < min (min a (1 - a)) (min b (1 - b)) :=
    lt_min (lt_min ha (by linarith)) (lt_min hb (by linarith))
  have hv1 : 0 < min v 1 := lt_min hv one_pos
  have hρpos : 0 < ρ := by rw [hρ]; exact lt_min (by linarith) (by positivity)
  have hρh : ρ ≤ min (min a (1 - a)) (min b (1 - b)) / 2 := hρ ▸ min_le_left _ _
  have hρs : ρ ≤ Real.sqrt (min v 1 / (2 * D)) := hρ ▸ min_le_right _ _
  have hρa : ρ < min a (1 - a) := by
    have := min_le_left (min a (1 - a)) (min b (1 - b)); linarith
  have hρb : ρ < min b (1 - b) := by
    have := min_le_right (min a (1 - a)) (min b (1 - b)); linarith
  have hρ2 : D * (2 * ρ ^ 2) ≤ min v 1 := by
    have := pow_le_pow_left₀ hρpos.le hρs 2
    rw [Real.sq_sqrt (by positivity), le_div_iff₀ (by positivity)] at this
    linarith
  refine ⟨ρ, hρpos, fun p hp => ?_⟩
  by_contra hcon
  push Not at hcon
  obtain ⟨X, hX⟩ : ∃ X : ℕ → ℝ, X = fun n => ((uvStep f k dt)^[n] p).1 - a := ⟨_, rfl⟩
  obtain ⟨Y, hY⟩ : ∃ Y : ℕ → ℝ, Y = fun n => ((uvStep f k dt)^[n] p).2 - b := ⟨_, rfl⟩
  have near : ∀ n, Y n ^ 2 + (c * X n + d * Y n) ^ 2 ≤ min v 1 := by
    intro n
    refine ((hco (X n) (Y n)).2.2).trans (le_trans ?_ hρ2)
    apply mul_le_mul_of_nonneg_left _ hD.le
    have a1 : X n ^ 2 ≤ ρ ^ 2 := by
      rw [hX, ← sq_abs]; exact pow_le_pow_left₀ (abs_nonneg _) (hcon n).1 2
    have a2 : Y n ^ 2 ≤ ρ ^ 2 := by
      rw [hY, ← sq_abs]; exact pow_le_pow_left₀ (abs_nonneg _) (hcon n).2 2
    linarith
  have grow : ∀ n, Θ * V (Y n) (c * X n + d * Y n) ≤ V (Y (n + 1)) (c * X (n + 1) + d * Y (n + 1)) := by
    intro n
    obtain ⟨o1, o2⟩ := orbit_near hρa hρb p hcon n
    obtain ⟨r, s, e1, e2, e3⟩ := hst' (X n) (Y n)
    have n1 : X (n + 1) = a + X n + dt * (f * (1 - (a + X n)) - (a + X n) * (b + Y n) ^ 2) - a := by
      rw [hX, hY]; exact o1
    have n2 : Y (n + 1) = b + Y n + dt * ((a + X n) * (b + Y n) ^ 2 - (f + k) * (b + Y n)) - b := by
      rw [hX, hY]; exact o2
    rw [← hc, ← hd] at e1 e2 e3
    rw [← n2] at e1
    rw [← n1, ← n2] at e2
    obtain ⟨m1, m2⟩ := le_min_iff.1 (near n)
    obtain ⟨r1, r2⟩ := e3 m2
    have sq : ∀ z n : ℝ, |z| ≤ K * n → z ^ 2 ≤ K ^ 2 * n ^ 2 := by
      intro z n hz
      rw [← mul_pow, ← sq_abs]
      exact pow_le_pow_left₀ (abs_nonneg _) hz 2
    have := hstep (Y n) (c * X n + d * Y n) r s m1 (sq _ _ r1) (sq _ _ r2)
    rwa [← e1, ← e2] at this
  have all : ∀ n, Θ ^ n * V (Y 0) (c * X 0 + d * Y 0) ≤ V (Y n) (c * X n + d * Y n) := by
    intro n
    induction n with
    | zero => simp
    | succ n ih =>
      refine le_trans ?_ (grow n)
      rw [pow_succ, mul_comm (Θ ^ n) Θ, mul_assoc]
      exact mul_le_mul_of_nonneg_left ih (by linarith)
  have hV0 : 0 < V (Y 0) (c * X 0 + d * Y 0) := by
    refine lt_of_lt_of_le ?_ (hV _ _).1
    apply mul_pos hm
    by_contra hc0
    push Not at hc0
    obtain ⟨c1, c2, _⟩ := hco (X 0) (Y 0)
    have z0 : D * (Y 0 ^ 2 + (c * X 0 + d * Y 0) ^ 2) ≤ 0 := mul_nonpos_of_nonneg_of_nonpos hD.le hc0
    have z1 : X 0 = 0 := pow_eq_zero_iff two_ne_zero |>.1 (le_antisymm (c1.trans z0) (sq_nonneg _))
    have z2 : Y 0 = 0 := pow_eq_zero_iff two_ne_zero |>.1 (le_antisymm (c2.trans z0) (sq_nonneg _))
    apply hp
    rw [hX] at z1
    rw [hY] at z2
    simp only [Function.iterate_zero, id] at z1 z2
    ext
    · simp only; linarith
    · simp only; linarith
  obtain ⟨n, hn⟩ := pow_unbounded_of_one_lt (M * min v 1 / V (Y 0) (c * X 0 + d * Y 0)) hΘ1
  rw [div_lt_iff₀ hV0] at hn
  have := (hV (Y n) (c * X n + d * Y n)).2
  have := mul_le_mul_of_nonneg_left (near n) hM.le
  linarith [all n]

/-- C126: a rest point with `v² < f` is a saddle: whatever the step size there are homogeneous
universes as near as one likes that go away. -/
theorem rest_unstable {f k dt a b : ℝ} (hf : 0 < f) (hk : 0 ≤ k) (hdt : 0 < dt) (hdt2 : dt ≤ 2)
    (h : ReactionRest f k a b) (hb : 0 < b) (hbf : b ^ 2 < f) : Unstable (uvStep f k dt) (a, b) := by
  obtain ⟨h2, ha, ha1, hb1⟩ := rest_inside hf hk h hb
  obtain ⟨D, hD, K, hK, hco, hst'⟩ := near_rest (dt := dt) hf hk hdt h hb
  have hs : 0 < f + k := by linarith
  have hb2 : b ^ 2 < 1 := by nlinarith
  have hdet : 0 < dt ^ 2 * ((f + k) * (f - b ^ 2)) :=
    mul_pos (by positivity) (mul_pos hs (by linarith))
  obtain ⟨l, μ, hsum, hprod, hl, hμ⟩ := saddle_roots
    (τ := 2 + dt * (k - b ^ 2)) (δ := 1 + dt * (k - b ^ 2) + dt ^ 2 * ((f + k) * (b ^ 2 - f)))
    (by nlinarith) (by nlinarith)
  obtain ⟨v, hv, hsad⟩ := planar_saddle hl hμ hK
  obtain ⟨c, hc⟩ : ∃ c, c = dt * b ^ 2 := ⟨_, rfl⟩
  obtain ⟨d, hd⟩ : ∃ d, d = 1 + dt * (f + k) := ⟨_, rfl⟩
  have hc0 : 0 < c := by rw [hc]; positivity
  rw [← hc, ← hd] at hco
  obtain ⟨ρ, hρ⟩ : ∃ ρ, ρ = min (min (min a (1 - a)) (min b (1 - b)) / 2)
      (Real.sqrt (min v 1 / (2 * D))) := ⟨_, rfl⟩
  have hmin : 0 < min (min a (1 - a)) (min b (1 - b)) :=
    lt_min (lt_min ha (by linarith)) (lt_min hb (by linarith))
  have hv1 : 0 < min v 1 := lt_min hv one_pos
  have hρpos : 0 < ρ := by rw [hρ]; exact lt_min (by linarith) (by positivity)
  have hρh : ρ ≤ min (min a (1 - a)) (min b (1 - b)) / 2 := hρ ▸ min_le_left _ _
  have hρs : ρ ≤ Real.sqrt (min v 1 / (2 * D)) := hρ ▸ min_le_right _ _
  have hρa : ρ < min a (1 - a) := by
    have := min_le_left (min a (1 - a)) (min b (1 - b)); linarith
  have hρb : ρ < min b (1 - b) := by
    have := min_le_right (min a (1 - a)) (min b (1 - b)); linarith
  have hρ2 : D * (2 * ρ ^ 2) ≤ min v 1 := by
    have := pow_le_pow_left₀ hρpos.le hρs 2
    rw [Real.sq_sqrt (by positivity), le_div_iff₀ (by positivity)] at this
    linarith
  refine ⟨ρ, hρpos, fun ε hε => ?_⟩
  -- a start on the expanding line
  obtain ⟨e, he⟩ : ∃ e, e = (l - d) / c := ⟨_, rfl⟩
  obtain ⟨t, ht⟩ : ∃ t, t = min ε ρ / (1 + |e|) := ⟨_, rfl⟩
  have hερ : 0 < min ε ρ := lt_min hε hρpos
  have he0 := abs_nonneg e
  have ht0 : 0 < t := by rw [ht]; positivity
  have ht1 : t ≤ min ε ρ := by rw [ht]; exact div_le_self hερ.le (by linarith)
  have ht2 : |e| * t ≤ min ε ρ := by
    have : t * (1 + |e|) = min ε ρ := by rw [ht]; field_simp
    nlinarith
  have d1 : |a + e * t - a| ≤ min ε ρ := by
    rw [add_sub_cancel_left, abs_mul, abs_of_pos ht0]; exact ht2
  have d2 : |b + t - b| ≤ min ε ρ := by
    rw [add_sub_cancel_left, abs_of_pos ht0]; exact ht1
  have i1 := inside_margin hρa (d1.trans (min_le_right _ _))
  have i2 := inside_margin hρb (d2.trans (min_le_right _ _))
  refine ⟨(a + e * t, b + t), ⟨d1.trans (min_le_left _ _), d2.trans (min_le_left _ _)⟩,
    ⟨i1.1.le, i1.2.le⟩, ⟨i2.1.le, i2.2.le⟩, ?_⟩
  by_contra hcon
  push Not at hcon
  obtain ⟨p, hp⟩ : ∃ p : ℝ × ℝ, p = (a + e * t, b + t) := ⟨_, rfl⟩
  rw [← hp] at hcon
  obtain ⟨X, hX⟩ : ∃ X : ℕ → ℝ, X = fun n => ((uvStep f k dt)^[n] p).1 - a := ⟨_, rfl⟩
  obtain ⟨Y, hY⟩ : ∃ Y : ℕ → ℝ, Y = fun n => ((uvStep f k dt)^[n] p).2 - b := ⟨_, rfl⟩
  have near : ∀ n, Y n ^ 2 + (c * X n + d * Y n) ^ 2 ≤ min v 1 := by
    intro n
    refine ((hco (X n) (Y n)).2.2).trans (le_trans ?_ hρ2)
    apply mul_le_mul_of_nonneg_left _ hD.le
    have a1 : X n ^ 2 ≤ ρ ^ 2 := by
      rw [hX, ← sq_abs]; exact pow_le_pow_left₀ (abs_nonneg _) (hcon n).1 2
    have a2 : Y n ^ 2 ≤ ρ ^ 2 := by
      rw [hY, ← sq_abs]; exact pow_le_pow_left₀ (abs_nonneg _) (hcon n).2 2
    linarith
  have hch : ∀ n, ∃ rs : ℝ × ℝ, Y (n + 1) = c * X n + d * Y n + rs.1 ∧
      c * X (n + 1) + d * Y (n + 1) = (l + μ) * (c * X n + d * Y n) - l * μ * Y n + rs.2 ∧
      |rs.1| ≤ K * (Y n ^ 2 + (c * X n + d * Y n) ^ 2) ∧
      |rs.2| ≤ K * (Y n ^ 2 + (c * X n + d * Y n) ^ 2) := by
    intro n
    obtain ⟨o1, o2⟩ := orbit_near hρa hρb p hcon n
    obtain ⟨r, s, e1, e2, e3⟩ := hst' (X n) (Y n)
    have n1 : X (n + 1) = a + X n + dt * (f * (1 - (a + X n)) - (a + X n) * (b + Y n) ^ 2) - a := by
      rw [hX, hY]; exact o1
    have n2 : Y (n + 1) = b + Y n + dt * ((a + X n) * (b + Y n) ^ 2 - (f + k) * (b + Y n)) - b := by
      rw [hX, hY]; exact o2
    rw [← hc, ← hd] at e1 e2 e3
    rw [← n2] at e1
    rw [← n1, ← n2, ← hsum, ← hprod] at e2
    obtain ⟨r1, r2⟩ := e3 ((near n).trans (min_le_right _ _))
    exact ⟨(r, s), e1, e2, r1, r2⟩
  choose rs hrs using hch
  obtain ⟨n, hn⟩ := hsad Y (fun n => c * X n + d * Y n) (fun n => (rs n).1) (fun n => (rs n).2)
    (by rw [hY]; simp only [Function.iterate_zero, id, hp, add_sub_cancel_left]; exact ht0.ne')
    (by
      rw [hX, hY]
      simp only [Function.iterate_zero, id, hp, add_sub_cancel_left]
      rw [he]; field_simp; ring)
    (fun n => (hrs n).1) (fun n => (hrs n).2.1) (fun n _ => ⟨(hrs n).2.2.1, (hrs n).2.2.2⟩)
  linarith [(near n).trans (min_le_left _ _)]

/-! ## The automaton -/

/-- C126: the homogeneous universes an automaton leaves unchanged: the empty one, and two more
exactly if `4 (f + k)² ≤ f`. -/
theorem rxn_uniform_still {ca : RxnDfn ℝ} (hl : Laplacian ca) (h1 : Fits ca.idL H W)
    (h2 : Fits ca.nbL H W) (hN : 0 < N) (hH : 0 < H) (hW : 0 < W) (hf : 0 < ca.f) (hk : 0 ≤ ca.k)
    (hdt : 0 < ca.dt) {a b : ℝ} (ha : 0 ≤ a ∧ a ≤ 1) (hb : 0 ≤ b ∧ b ≤ 1) :
    (∃ ca', ca.forward (constUV a b : Univ ℝ N 2 H W) = .ok (constUV a b, ca')) ↔
      (a, b) = (1, 0) ∨ (4 * (ca.f + ca.k) ^ 2 ≤ ca.f ∧
        ((a, b) = lowRest ca.f ca.k ∨ (a, b) = highRest ca.f ca.k)) := by
  rw [← rest_levels hf hk, ← uniform_still_iff hf hk hdt ha hb]
  constructor
  · rintro ⟨ca', h⟩
    obtain ⟨h3, _⟩ := rxn_const_step hl a b h
    simp only [clamp01_real] at h3
    have a0 := congrFun (congrFun (congrFun (congrFun h3 ⟨0, hN⟩) 0) ⟨0, hH⟩) ⟨0, hW⟩
    have a1 := congrFun (congrFun (congrFun (congrFun h3 ⟨0, hN⟩) 1) ⟨0, hH⟩) ⟨0, hW⟩
    simp only [constUV, if_true, one_ne_zero, if_false] at a0 a1
    exact Prod.ext a0.symm a1.symm
  · intro h
    obtain ⟨ca', h3⟩ := rxn_uniform_run (N := N) 1 hl h1 h2 (a, b)
    rw [Function.iterate_one, h] at h3
    obtain ⟨⟨u, s⟩, hfw, h4⟩ := bind_ok h3
    cases h4
    exact ⟨_, hfw⟩

/-- C126: runs from homogeneous universes near an attracting level end there. -/
theorem rxn_uniform_attracts {ca : RxnDfn ℝ} (hl : Laplacian ca) {z : ℝ × ℝ}
    (h : Attracts (uvStep ca.f ca.k ca.dt) z) :
    ∃ ρ > 0, ∃ C Θ : ℝ, 0 ≤ Θ ∧ Θ < 1 ∧ ∀ {N H W : Nat}, Fits ca.idL H W → Fits ca.nbL H W →
      ∀ ε ≤ ρ, ∀ p, LevelsWithin ε p z → ∀ n : Nat, ∃ q ca', iterate RxnDfn.forward n ca
        (constUV p.1 p.2 : Univ ℝ N 2 H W) = .ok (constUV q.1 q.2, ca') ∧
        LevelsWithin (C * Θ ^ n * ε) q z := by
  obtain ⟨ρ, hρ, C, Θ, h0, h1, h⟩ := h
  refine ⟨ρ, hρ, C, Θ, h0, h1, fun hi hn ε hε p hp n => ?_⟩
  obtain ⟨ca', hr⟩ := rxn_uniform_run n hl hi hn p
  exact ⟨_, ca', hr, h ε hε p hp n⟩

/-- C126: and those near an unstable level leave it. -/
theorem rxn_uniform_unstable {ca : RxnDfn ℝ} (hl : Laplacian ca) {z : ℝ × ℝ}
    (h : Unstable (uvStep ca.f ca.k ca.dt) z) :
    ∃ ρ > 0, ∀ ε > 0, ∃ p : ℝ × ℝ, LevelsWithin ε p z ∧ (0 ≤ p.1 ∧ p.1 ≤ 1) ∧ (0 ≤ p.2 ∧ p.2 ≤ 1) ∧
      ∃ n : Nat, ∀ {N H W : Nat}, Fits ca.idL H W → Fits ca.nbL H W →
        ∃ q ca', iterate RxnDfn.forward n ca (constUV p.1 p.2 : Univ ℝ N 2 H W) =
          .ok (constUV q.1 q.2, ca') ∧ ¬ LevelsWithin ρ q z := by
  obtain ⟨ρ, hρ, h⟩ := h
  refine ⟨ρ, hρ, fun ε hε => ?_⟩
  obtain ⟨p, h1, h2, h3, n, h4⟩ := h ε hε
  refine ⟨p, h1, h2, h3, n, fun hi hn => ?_⟩
  obtain ⟨ca', hr⟩ := rxn_uniform_run n hl hi hn p
  exact ⟨_, ca', hr, h4⟩

/-- C126: the default automaton has three homogeneous universes that stand still.  The one
`initialize_grid` makes attracts the homogeneous universes nearby, and the third one is
unstable. -/
theorem rxn_default_levels :
    4 * (RxnDfn.default.f + RxnDfn.default.k) ^ 2 < RxnDfn.default.f ∧
    Attracts (uvStep RxnDfn.default.f RxnDfn.default.k RxnDfn.default.dt)
      RxnDfn.default.background ∧
    Unstable (uvStep RxnDfn.default.f RxnDfn.default.k RxnDfn.default.dt)
      (lowRest RxnDfn.default.f RxnDfn.default.k) := by
  have hf : 0 < RxnDfn.default.f := by norm_num [RxnDfn.default]
  have hk : 0 ≤ RxnDfn.default.k := by norm_num [RxnDfn.default]
  have h4 : 4 * (RxnDfn.default.f + RxnDfn.default.k) ^ 2 < RxnDfn.default.f := by
    norm_num [RxnDfn.default]
  have hdt : 0 < RxnDfn.default.dt ∧ RxnDfn.default.dt ≤ 2 := by norm_num [RxnDfn.default]
  obtain ⟨o1, o2, o3, o4, o5, _⟩ := rest_levels_order hf hk h4.le
  have hlow : (lowRest RxnDfn.default.f RxnDfn.default.k).2 ^ 2 < RxnDfn.default.f :=
    lt_of_le_of_ne o2 fun h => h4.ne (o4.1 h)
  have hhigh : RxnDfn.default.f < (highRest RxnDfn.default.f RxnDfn.default.k).2 ^ 2 :=
    lt_of_le_of_ne o3 fun h => h4.ne (o5.1 h.symm)
  refine ⟨h4, ?_, ?_⟩
  · rw [background_high _ hf hk]
    have hb : 0.29 ≤ (highRest RxnDfn.default.f RxnDfn.default.k).2 := by
      have hr : 0.15 ≤ Real.sqrt (1 - 4 * ((0.0620 : ℝ) + 0.0609) ^ 2 / 0.0620) :=
        Real.le_sqrt_of_sq_le (by norm_num)
      simp only [highRest, RxnDfn.default]
      rw [le_div_iff₀ (by norm_num)]
      nlinarith
    have hb2 : 0.0841 ≤ (highRest RxnDfn.default.f RxnDfn.default.k).2 ^ 2 := by nlinarith
    refine rest_attracts (a := (highRest RxnDfn.default.f RxnDfn.default.k).1)
      (b := (highRest RxnDfn.default.f RxnDfn.default.k).2) hf hk hdt.1 hdt.2
      ((rest_levels hf hk _ _).2 (.inr ⟨h4.le, .inr rfl⟩)) (by linarith) hhigh ?_
    have e1 : RxnDfn.default.f = 0.0620 := rfl
    have e2 : RxnDfn.default.k = 0.0609 := rfl
    have e3 : RxnDfn.default.dt = 0.5 := rfl
    obtain ⟨b, hb'⟩ : ∃ b, b = (highRest RxnDfn.default.f RxnDfn.default.k).2 := ⟨_, rfl⟩
    rw [← hb'] at hb2 ⊢
    rw [e1, e2, e3]
    linarith
  · exact rest_unstable hf hk hdt.1 hdt.2
      ((rest_levels hf hk _ _).2 (.inr ⟨h4.le, .inl rfl⟩)) o1 hlow

/-- C126: with other parameters the universe `initialize_grid` makes is at rest but expels all
other homogeneous universes nearby, whatever the step size up to 2. -/
theorem background_expels_refuted : ∃ f k : ℝ, 0 < f ∧ 0 ≤ k ∧ 4 * (f + k) ^ 2 < f ∧
    ∀ dt, 0 < dt → dt ≤ 2 → Expels (uvStep f k dt) (highRest f k) := by
  have h4 : 4 * ((0.005 : ℝ) + 0.03) ^ 2 < 0.005 := by norm_num
  refine ⟨0.005, 0.03, by norm_num, by norm_num, h4, fun dt h0 h2 => ?_⟩
  obtain ⟨o1, o2, o3, o4, o5, _⟩ := rest_levels_order (f := 0.005) (k := 0.03) (by norm_num)
    (by norm_num) h4.le
  have hhigh : (0.005 : ℝ) < (highRest 0.005 0.03).2 ^ 2 :=
    lt_of_le_of_ne o3 fun h => h4.ne (o5.1 h.symm)
  have hr1 : Real.sqrt (1 - 4 * ((0.005 : ℝ) + 0.03) ^ 2 / 0.005) ≤ 0.2 :=
    Real.sqrt_le_iff.2 ⟨by norm_num, by norm_num⟩
  have hr0 := Real.sqrt_nonneg (1 - 4 * ((0.005 : ℝ) + 0.03) ^ 2 / 0.005)
  have hb : (highRest 0.005 0.03).2 ≤ 0.1 := by
    simp only [highRest]
    rw [div_le_iff₀ (by norm_num)]
    nlinarith
  have hb0 : 0 < (highRest 0.005 0.03).2 := by
    simp only [highRest]
    positivity
  refine rest_expels (a := (highRest 0.005 0.03).1) (b := (highRest 0.005 0.03).2) (by norm_num)
    (by norm_num) h0 h2
    ((rest_levels (by norm_num) (by norm_num) _ _).2 (.inr ⟨h4.le, .inr rfl⟩)) hb0 hhigh ?_
  have : 0 ≤ dt * ((0.005 + 0.03) * ((highRest 0.005 0.03).2 ^ 2 - 0.005)) := by
    apply mul_nonneg h0.le; apply mul_nonneg (by norm_num); linarith
  nlinarith

/-- The default automaton meets the hypotheses of `rxn_uniform_still` on a 5 by 7 torus, and of
`rxn_uniform_attracts` and `rxn_uniform_unstable`. -/
example : Laplacian RxnDfn.default ∧ Fits RxnDfn.default.idL 5 7 ∧ Fits RxnDfn.default.nbL 5 7 ∧
    0 < RxnDfn.default.f ∧ 0 ≤ RxnDfn.default.k ∧ 0 < RxnDfn.default.dt :=
  ⟨rxn_default_laplacian.1, ⟨rfl, rfl, rfl⟩, ⟨rfl, rfl, rfl⟩, by norm_num [RxnDfn.default],
    by norm_num [RxnDfn.default], by norm_num [RxnDfn.default]⟩

end Yuca
