import Verif.Model.GrayScott
import Verif.Props.Kernels
import Verif.Lemmas.Cell

/-!
# C23: homogeneous equilibria of the Gray-Scott automaton

Exact real arithmetic.
-/

namespace Yuca

open Arith

variable {N H W : Nat}

/-- The constant universe with concentrations `u` and `v`. -/
def Spec.constUV (u v : ℝ) : Univ ℝ N 2 H W := fun _ c _ _ => if c = 0 then u else v

/-- The concentrations at which the Gray-Scott reaction
`du/dt = f(1-u) - uv²`, `dv/dt = uv² - (f+k)v` stands still. -/
def Spec.ReactionRest (f k u v : ℝ) : Prop := u * v ^ 2 = f * (1 - u) ∧ u * v ^ 2 = (f + k) * v

open Spec

/-- A Gray-Scott automaton on the torus with the default identity kernel and some neighborhood
kernel whose weights sum to zero. -/
def Spec.Laplacian (ca : RxnDfn ℝ) : Prop :=
  ca.idL = identityLayer 2 2 .circular ∧
  ∃ k κ, ca.nbL = .ofKernel 2 2 .circular k κ ∧ ∑ a, ∑ b, κ a b = 0

/-- One step on a constant universe is one Euler step of the reaction alone. -/
theorem rxn_const_step {ca : RxnDfn ℝ} (hl : Laplacian ca) (u v : ℝ)
    {r : Univ ℝ N 2 H W × RxnDfn ℝ} (h : ca.forward (constUV u v) = .ok r) :
    r.1 = constUV (clamp01 (u + ca.dt * (ca.f * (1 - u) - u * v ^ 2)))
        (clamp01 (v + ca.dt * (u * v ^ 2 - (ca.f + ca.k) * v))) ∧
      r.2 = { ca with t := ca.t + ca.dt } := by
  obtain ⟨hid, k, κ, hnb, hs⟩ := hl
  obtain ⟨idn, h1, h⟩ := bind_ok h
  obtain ⟨nb, h2, h⟩ := bind_ok h
  cases h
  rw [hid] at h1
  rw [hnb] at h2
  have hz := zero_sum_response k κ hs _ (fun n e i j i' j' => rfl) nb h2
  obtain ⟨_, rfl⟩ := apply_ok h1
  refine ⟨?_, rfl⟩
  funext n c i j
  have e0 : ∀ c : Fin 2, srcChan two_pos (dvd_refl 2) c = c := by decide
  simp only [eulerClamp, RxnDfn.updateUniverse, hz, Arith.div, Arith.mul, Arith.add, Arith.sub,
    zero_div, mul_zero, zero_add, identity_taps_dvd two_pos (dvd_refl 2), e0, Arith.one]
  by_cases hc : c = 0
  · subst hc
    simp only [constUV, if_true]
    rw [if_neg (by decide)]
    congr 2
    ring
  · simp only [constUV, hc, if_false, if_true]
    rw [if_neg (by decide)]
    congr 2
    ring

/-- C23: at rest concentrations in `[0, 1]` nothing ever changes, whatever the step size and the
diffusion rates. -/
theorem rxn_rest_forever {u v : ℝ} (hu : 0 ≤ u ∧ u ≤ 1) (hv : 0 ≤ v ∧ v ≤ 1) (n : Nat) :
    ∀ (ca : RxnDfn ℝ) (_ : Laplacian ca) (_ : ReactionRest ca.f ca.k u v)
      (r : Univ ℝ N 2 H W × RxnDfn ℝ),
      iterate RxnDfn.forward n ca (constUV u v) = .ok r → r.1 = constUV u v := by
  induction n with
  | zero => intro ca _ _ r h; cases h; rfl
  | succ n ih =>
    intro ca hl hr r h
    obtain ⟨⟨u', s'⟩, h1, h2⟩ := bind_ok h
    obtain ⟨h3, h4⟩ := rxn_const_step hl u v h1
    simp only at h3 h4
    obtain ⟨q1, q2⟩ := hr
    have e1 : u + ca.dt * (ca.f * (1 - u) - u * v ^ 2) = u := by rw [q1]; ring
    have e2 : v + ca.dt * (u * v ^ 2 - (ca.f + ca.k) * v) = v := by rw [q2]; ring
    rw [e1, e2, clamp01_of_mem hu.1 hu.2, clamp01_of_mem hv.1 hv.2] at h3
    subst h3 h4
    exact ih { ca with t := ca.t + ca.dt } hl ⟨q1, q2⟩ r h2

/-- C23: conversely, a constant universe strictly inside `(0, 1)` that one step with a non-zero
step size does not change is at rest. -/
theorem rxn_fixed_rest {ca : RxnDfn ℝ} (hl : Laplacian ca) (hdt : ca.dt ≠ 0) {u v : ℝ}
    (hN : 0 < N) (hH : 0 < H) (hW : 0 < W) (hu : 0 < u ∧ u < 1) (hv : 0 < v ∧ v < 1)
    {r : Univ ℝ N 2 H W × RxnDfn ℝ} (h : ca.forward (constUV u v) = .ok r)
    (hf : r.1 = constUV u v) : ReactionRest ca.f ca.k u v := by
  obtain ⟨h3, _⟩ := rxn_const_step hl u v h
  rw [hf] at h3
  have inner : ∀ x c : ℝ, 0 < x ∧ x < 1 → x = clamp01 (x + c) → c = 0 := by
    intro x c hx he
    rw [clamp01_real] at he
    rcases max_cases 0 (min 1 (x + c)) with ⟨h2, _⟩ | ⟨h2, _⟩ <;> rw [h2] at he <;>
    rcases min_cases 1 (x + c) with ⟨h3, _⟩ | ⟨h3, _⟩ <;> (try rw [h3] at he) <;> linarith [hx.1, hx.2]
  have a0 := congrFun (congrFun (congrFun (congrFun h3 ⟨0, hN⟩) 0) ⟨0, hH⟩) ⟨0, hW⟩
  have a1 := congrFun (congrFun (congrFun (congrFun h3 ⟨0, hN⟩) 1) ⟨0, hH⟩) ⟨0, hW⟩
  simp only [constUV, if_true, one_ne_zero, if_false] at a0 a1
  have b0 := inner _ _ hu a0
  have b1 := inner _ _ hv a1
  rw [mul_eq_zero, or_iff_right hdt] at b0 b1
  exact ⟨by linarith, by linarith⟩

/-- C23: what `initialize_grid` fills in is a rest point of the reaction, and inside the
range: `0 ≤ u ≤ 1/2`, `0 ≤ v ≤ 1`. -/
theorem background_rest (ca : RxnDfn ℝ) (hf : 0 < ca.f) (hk : 0 ≤ ca.k)
    (hA : 4 ≤ (Real.sqrt ca.f / (ca.f + ca.k)) ^ 2) :
    ReactionRest ca.f ca.k ca.background.1 ca.background.2 ∧
      (0 ≤ ca.background.1 ∧ ca.background.1 ≤ 1 / 2) ∧
      (0 ≤ ca.background.2 ∧ ca.background.2 ≤ 1) := by
  have hq : 0 < Real.sqrt ca.f := Real.sqrt_pos.2 hf
  have hq2 : Real.sqrt ca.f ^ 2 = ca.f := Real.sq_sqrt hf.le
  simp only [RxnDfn.background, Arith.div, Arith.sub, Arith.add, Arith.mul, Arith.lit, Transc.sqrt,
    Rat.cast_ofNat]
  set q := Real.sqrt ca.f
  set s := ca.f + ca.k with hs
  have hs0 : 0 < s := by positivity
  have hA0 : 0 < q / s := by positivity
  have hqs : q = q / s * s := by field_simp
  set A := q / s
  have hS0 := Real.sqrt_nonneg (A * A - 4)
  have hS2 : Real.sqrt (A * A - 4) ^ 2 = A * A - 4 := Real.sq_sqrt (by nlinarith)
  set S := Real.sqrt (A * A - 4)
  have hSA : S ≤ A := abs_le_of_sq_le_sq' (by nlinarith) hA0.le |>.2
  have uv : (A - S) / (2 * A) * (q * (A + S) / 2) = s := by
    rw [hqs]; field_simp; nlinarith
  have hv0 : 0 ≤ q * (A + S) / 2 := by positivity
  refine ⟨⟨?_, ?_⟩, ⟨?_, ?_⟩, hv0, ?_⟩
  · rw [pow_two, ← mul_assoc, uv, ← hq2]
    have : q * (A + S) / 2 * s = q ^ 2 * ((A + S) / (2 * A)) := by
      rw [hqs]; field_simp
    rw [mul_comm, this]
    field_simp; ring
  · rw [pow_two, ← mul_assoc, uv]
  · exact div_nonneg (by linarith) (by linarith)
  · rw [div_le_iff₀ (by linarith)]; linarith
  · have h1 : q * (A + S) / 2 ≤ q * A := by nlinarith
    have h2 : q * A * s = ca.f := by rw [← hq2]; nlinarith [hqs]
    have h3 : q * A ≤ 1 := by
      by_contra hc
      push Not at hc
      nlinarith
    linarith

/-- C23: the universe `initialize_grid` returns is a fixed point for every number of steps,
every step size and all diffusion rates. -/
theorem rxn_initial_equilibrium (ca : RxnDfn ℝ) (hl : Laplacian ca) (hf : 0 < ca.f)
    (hk : 0 ≤ ca.k) (hA : 4 ≤ (Real.sqrt ca.f / (ca.f + ca.k)) ^ 2) (n : Nat)
    (r : Univ ℝ N 2 H W × RxnDfn ℝ)
    (h : iterate RxnDfn.forward n ca (ca.initializeGrid N H W) = .ok r) :
    r.1 = ca.initializeGrid N H W := by
  obtain ⟨h1, h2, h3⟩ := background_rest ca hf hk hA
  exact rxn_rest_forever ⟨h2.1, by linarith [h2.2]⟩ h3 n ca hl h1 r h

/-- C23: `u = 1`, `v = 0` is a fixed point as well, for all parameters. -/
theorem rxn_trivial_equilibrium (ca : RxnDfn ℝ) (hl : Laplacian ca) (n : Nat)
    (r : Univ ℝ N 2 H W × RxnDfn ℝ)
    (h : iterate RxnDfn.forward n ca (constUV 1 0) = .ok r) : r.1 = constUV 1 0 :=
  rxn_rest_forever (by norm_num) (by norm_num) n ca hl ⟨by ring, by ring⟩ r h

/-- C23, C18: the default automaton meets all the hypotheses. -/
theorem rxn_default_laplacian : Laplacian RxnDfn.default ∧ 0 < RxnDfn.default.f ∧
    0 ≤ RxnDfn.default.k ∧
    4 ≤ (Real.sqrt RxnDfn.default.f / (RxnDfn.default.f + RxnDfn.default.k)) ^ 2 := by
  refine ⟨⟨rfl, 3, _, rfl, log_sum (r := 1) 0.5 (radialGrid 1)⟩, ?_, ?_, ?_⟩
  · norm_num [RxnDfn.default]
  · norm_num [RxnDfn.default]
  · rw [div_pow, Real.sq_sqrt (by norm_num [RxnDfn.default])]
    norm_num [RxnDfn.default]

/-- A Gray-Scott automaton whose layers fit the grid runs for every number of steps. -/
theorem rxn_runs (n : Nat) : ∀ (ca : RxnDfn ℝ), Fits ca.idL H W → Fits ca.nbL H W →
    ∀ u : Univ ℝ N 2 H W, ∃ r, iterate RxnDfn.forward n ca u = .ok r := by
  induction n with
  | zero => intro ca _ _ u; exact ⟨_, rfl⟩
  | succ n ih =>
    intro ca h1 h2 u
    obtain ⟨x, hx⟩ : ∃ x, ca.idL.apply u = .ok x := ⟨_, if_pos h1⟩
    obtain ⟨y, hy⟩ : ∃ x, ca.nbL.apply u = .ok x := ⟨_, if_pos h2⟩
    obtain ⟨r, hr⟩ := ih { ca with t := add ca.t ca.dt } h1 h2
      (eulerClamp ca.dt u (ca.updateUniverse x y))
    refine ⟨r, ?_⟩
    simp only [iterate, RxnDfn.forward, hx, hy, bind, Except.bind, pure, Except.pure]
    exact hr

example : ∃ r, iterate RxnDfn.forward 1000 RxnDfn.default
    (RxnDfn.default.initializeGrid 2 64 64) = .ok r :=
  rxn_runs 1000 _ ⟨rfl, rfl, rfl⟩ ⟨rfl, rfl, rfl⟩ _

end Yuca
