import Verif.Props.Rounding
import Verif.Props.SmallSteps

/-!
# Computed runs stay near the exact run (C130)

Every step of a computed run is off by a little; over `n` steps the errors add up and grow by a
factor per step.  On the torus, with fewer than four channels (with more, the alive mask jumps).
-/

namespace Yuca

open Arith Spec

variable {N H W : Nat}

namespace Spec

/-- A machine arithmetic of precision `η`: some of the machine numbers stand for real numbers
(`Num`; the others are NaN and the infinities), 0, 1 and comparisons are exact, and on numbers of
absolute value at most 4 sums, differences and products are off by at most `η`; so are inner
products of at most `ℓ` terms, in whatever order they are computed. -/
structure Precise (α : Type) [Arith α] (η : ℝ) (ℓ : Nat) where
  Num : α → Prop
  val : α → ℝ
  zero : Num zero ∧ val zero = 0
  one : Num one ∧ val one = 1
  lt : ∀ x y, Num x → Num y → (lt x y = true ↔ val x < val y)
  add : ∀ x y, Num x → Num y → |val x| ≤ 4 → |val y| ≤ 4 →
    Num (add x y) ∧ |val (add x y) - (val x + val y)| ≤ η
  sub : ∀ x y, Num x → Num y → |val x| ≤ 4 → |val y| ≤ 4 →
    Num (sub x y) ∧ |val (sub x y) - (val x - val y)| ≤ η
  mul : ∀ x y, Num x → Num y → |val x| ≤ 4 → |val y| ≤ 4 →
    Num (mul x y) ∧ |val (mul x y) - val x * val y| ≤ η
  dot : ∀ l : List (α × α), l.length ≤ ℓ → (∀ p ∈ l, Num p.1 ∧ Num p.2) →
    (l.map fun p => |val p.1 * val p.2|).sum ≤ 4 →
    Num (dot l) ∧ |val (dot l) - (l.map fun p => val p.1 * val p.2).sum| ≤ η

/-- `f` computes the growth function `a` to within `θ` on `[-2, 2]`. -/
def Precise.Computes {α : Type} [Arith α] {η : ℝ} {ℓ : Nat} (P : Precise α η ℓ) (θ : ℝ)
    (f : α → α) (a : Act ℝ) : Prop :=
  ∀ x, P.Num x → |P.val x| ≤ 2 → P.Num (f x) ∧ |P.val (f x) - a.eval (P.val x)| ≤ θ

/-- The automaton `d` as it is on a machine: kernel, weights, step size and growth functions are
only correct to within `θ`. -/
structure Precise.Represents {α : Type} [Arith α] {η : ℝ} {ℓ : Nat} (P : Precise α η ℓ) (θ : ℝ)
    (d : CCADyn) (ca : CCA α d.ext d.int) where
  κ : Fin (2 * d.nbLayer.1 + 1) → Fin (2 * d.nbLayer.1 + 1) → α
  w : Fin d.ext → Fin d.int → α
  idL : ca.idL = identityLayer d.ext d.int .circular
  nbL : ca.nbL = .ofKernel d.ext d.int .circular (2 * d.nbLayer.1 + 1) κ
  weights : ca.weights = .functional w
  kernel : (∀ a b, P.Num (κ a b)) ∧ ∑ a, ∑ b, |P.val (κ a b) - d.nbLayer.2 a b| ≤ θ
  weight : (∀ e o, P.Num (w e o)) ∧ ∀ e, ∑ o, |P.val (w e o) - 1 / (d.ext * d.int)| ≤ θ
  genesis : List.Forall₂ (P.Computes θ) ca.genesis d.genesis
  persistence : List.Forall₂ (P.Computes θ) ca.persistence d.persistence
  dt : P.Num ca.dt ∧ |P.val ca.dt - d.dt| ≤ θ

/-- On `[-2, 2]` the function has values in `[-1, 1]` and slope at most `L`. -/
def Gentle (L : ℝ) (f : ℝ → ℝ) : Prop :=
  ∀ x y, |x| ≤ 2 → |y| ≤ 2 → |f x| ≤ 1 ∧ |f x - f y| ≤ L * |x - y|

/-- Gentle growth functions, a kernel whose weights sum to at most 1 in absolute value, fewer than
four channels, a step size in `[0, 1]`; and an accuracy that is not too bad for it. -/
structure Tolerates (d : CCADyn) (L η θ : ℝ) (ℓ : Nat) : Prop where
  kernel : ∑ a, ∑ b, |d.nbLayer.2 a b| ≤ 1
  acts : ∀ a ∈ d.genesis ++ d.persistence, Gentle L a.eval
  channels : d.ext < 4
  dt : 0 ≤ d.dt ∧ d.dt ≤ 1
  slope : 0 ≤ L
  errors : 0 ≤ η ∧ 0 ≤ θ ∧ (10 + L) * η + (4 + L) * θ ≤ 1
  terms : 9 ≤ ℓ ∧ (2 * d.nbLayer.1 + 1) * (2 * d.nbLayer.1 + 1) ≤ ℓ ∧ d.int ≤ ℓ

/-- All cells of a machine universe are numbers in `[0, 1]`. -/
def Precise.Sane {α : Type} [Arith α] {η : ℝ} {ℓ C : Nat} (P : Precise α η ℓ)
    (u : Univ α N C H W) : Prop :=
  ∀ n e i j, P.Num (u n e i j) ∧ 0 ≤ P.val (u n e i j) ∧ P.val (u n e i j) ≤ 1

/-- The real universe a machine universe stands for. -/
def Precise.real {α : Type} [Arith α] {η : ℝ} {ℓ C : Nat} (P : Precise α η ℓ)
    (u : Univ α N C H W) : Univ ℝ N C H W := fun n e i j => P.val (u n e i j)

/-- What one step of a `CCA` can be off by. -/
noncomputable def ccaSlip (η θ L dt : ℝ) : ℝ := 2 * (η + θ) + dt * ((10 + L) * η + (3 + L) * θ)

/-- What one step of a `Lenia` can be off by. -/
noncomputable def leniaSlip (η θ L dt : ℝ) : ℝ := 2 * (η + θ) + dt * ((1 + L) * η + (3 + L) * θ)

end Spec

/-! ## Real estimates -/

theorem gathered_abs_le {r : Nat} (κ : Fin (2 * r + 1) → Fin (2 * r + 1) → ℝ) {x : Grid ℝ H W}
    {B : ℝ} (hx : ∀ i j, |x i j| ≤ B) (i : Fin H) (j : Fin W) :
    |gathered κ x i j| ≤ (∑ a, ∑ b, |κ a b|) * B := by
  unfold gathered
  refine (Finset.abs_sum_le_sum_abs _ _).trans ?_
  rw [Finset.sum_mul]
  refine Finset.sum_le_sum fun a _ => (Finset.abs_sum_le_sum_abs _ _).trans ?_
  rw [Finset.sum_mul]
  refine Finset.sum_le_sum fun b _ => ?_
  rw [abs_mul]
  exact mul_le_mul_of_nonneg_left (hx _ _) (abs_nonneg _)

theorem gathered_kernel_sub {r : Nat} (κ κ' : Fin (2 * r + 1) → Fin (2 * r + 1) → ℝ)
    (x : Grid ℝ H W) (i : Fin H) (j : Fin W) :
    gathered κ x i j - gathered κ' x i j = gathered (fun a b => κ a b - κ' a b) x i j := by
  unfold gathered
  simp only [← Finset.sum_sub_distrib, sub_mul]

theorem gathered_identity {ext int : Nat} (hext : 0 < ext) (hd : ext ∣ int)
    (x : Fin ext → Grid ℝ H W) (o : Fin int) (i : Fin H) (j : Fin W) :
    gathered (r := 1) identityKernel (x (source hext hd o)) i j = x (source hext hd o) i j := by
  rw [← gathered_taps (r := 1) hext hd]
  exact identity_taps_dvd hext hd .circular x o i j

/-- A product of approximate numbers. -/
theorem prod_off {s s' g g' a c : ℝ} (hs : |s - s'| ≤ a) (hg : |g - g'| ≤ c) (hg1 : |g'| ≤ 1) :
    |s * g - s' * g'| ≤ |s| * c + a := by
  rw [show s * g - s' * g' = s * (g - g') + (s - s') * g' by ring]
  refine (abs_add_le _ _).trans ?_
  rw [abs_mul, abs_mul]
  have h1 := mul_le_mul_of_nonneg_left hg (abs_nonneg s)
  have h2 : |s - s'| * |g'| ≤ a * 1 := mul_le_mul hs hg1 (abs_nonneg _) ((abs_nonneg _).trans hs)
  linarith

theorem abs_off {x y ε b : ℝ} (h : |x - y| ≤ ε) (hy : |y| ≤ b) : |x| ≤ b + ε := abs_le_of_near h hy

theorem off_trans {x y z a b : ℝ} (h : |x - y| ≤ a) (h' : |y - z| ≤ b) : |x - z| ≤ a + b :=
  (abs_sub_le _ y _).trans (add_le_add h h')

/-! ## One step on a machine -/

section

variable {α : Type} [Arith α] {η : ℝ} {ℓ : Nat}

theorem kernelTaps_map {ext int k : Nat} (val : α → ℝ) (h0 : val zero = 0) (m : PadMode)
    (κ : Fin k → Fin k → α) (x : Fin ext → Grid α H W) (o : Fin int) (i : Fin H) (j : Fin W) :
    (((ConvLayer.ofKernel ext int m k κ).taps x o i j).map fun p => val p.1 * val p.2).sum =
      dot ((ConvLayer.ofKernel ext int m k fun a b => val (κ a b)).taps
        (fun c i j => val (x c i j)) o i j) := by
  simp only [ConvLayer.taps, Arith.dot, List.map_flatMap, List.map_map, Function.comp_def,
    padRead_map val h0]
  rfl

theorem kernelTaps_mem {ext int k : Nat} {m : PadMode} {κ : Fin k → Fin k → α}
    {x : Fin ext → Grid α H W} {o : Fin int} {i : Fin H} {j : Fin W} {p : α × α}
    (hp : p ∈ (ConvLayer.ofKernel ext int m k κ).taps x o i j) :
    (∃ a b, p.1 = κ a b) ∧ (p.2 = zero ∨ ∃ c i j, p.2 = x c i j) := by
  simp only [ConvLayer.taps, List.mem_flatMap, List.mem_map, List.mem_finRange, true_and] at hp
  obtain ⟨c, a, b, rfl⟩ := hp
  refine ⟨⟨a, b, rfl⟩, ?_⟩
  simp only
  unfold padRead
  split
  · exact .inr ⟨_, _, _, rfl⟩
  · exact .inl rfl

theorem kernelTaps_length {ext int k : Nat} (hext : 0 < ext) (hd : ext ∣ int) (m : PadMode)
    (κ : Fin k → Fin k → α) (x : Fin ext → Grid α H W) (o : Fin int) (i : Fin H) (j : Fin W) :
    ((ConvLayer.ofKernel ext int m k κ).taps x o i j).length = k * k := by
  have hg : groups ext int = ext := by simp [groups, Nat.mod_eq_zero_of_dvd hd]
  have h1 : ext / groups ext int = 1 := by rw [hg, Nat.div_self hext]
  simp [ConvLayer.taps, ConvLayer.ofKernel, List.length_flatMap, h1]

/-- A computed convolution. -/
theorem precise_conv (P : Precise α η ℓ) {ext int r : Nat} (hext : 0 < ext) (hd : ext ∣ int)
    {κ : Fin (2 * r + 1) → Fin (2 * r + 1) → α} (hκ : ∀ a b, P.Num (κ a b))
    (hs : ∑ a, ∑ b, |P.val (κ a b)| ≤ 4) (hℓ : (2 * r + 1) * (2 * r + 1) ≤ ℓ)
    {x : Fin ext → Grid α H W} (hx : ∀ c i j, P.Num (x c i j) ∧ |P.val (x c i j)| ≤ 1)
    (o : Fin int) (i : Fin H) (j : Fin W) :
    P.Num (dot ((ConvLayer.ofKernel ext int .circular (2 * r + 1) κ).taps x o i j)) ∧
      |P.val (dot ((ConvLayer.ofKernel ext int .circular (2 * r + 1) κ).taps x o i j)) -
        gathered (fun a b => P.val (κ a b)) (fun i j => P.val (x (source hext hd o) i j)) i j| ≤
          η := by
  have hnum : ∀ p ∈ (ConvLayer.ofKernel ext int .circular (2 * r + 1) κ).taps x o i j,
      P.Num p.1 ∧ P.Num p.2 := by
    intro p hp
    obtain ⟨⟨a, b, h1⟩, h2 | ⟨c, i', j', h2⟩⟩ := kernelTaps_mem hp
    · rw [h1, h2]; exact ⟨hκ _ _, P.zero.1⟩
    · rw [h1, h2]; exact ⟨hκ _ _, (hx _ _ _).1⟩
  have hsum := kernelTaps_map (ext := ext) (int := int) (fun y => |P.val y|)
    (by rw [P.zero.2, abs_zero]) .circular κ x o i j
  simp only [← abs_mul] at hsum
  have := P.dot _ ((kernelTaps_length hext hd .circular κ x o i j).le.trans hℓ) hnum (by
    rw [hsum, gathered_taps hext hd]
    refine (le_abs_self _).trans ((gathered_abs_le _ (B := 1) (fun i j => ?_) i j).trans ?_)
    · rw [abs_abs]; exact (hx _ _ _).2
    · simpa using hs)
  rwa [kernelTaps_map _ P.zero.2, gathered_taps hext hd] at this

theorem precise_clamp (P : Precise α η ℓ) {x : α} (h : P.Num x) :
    P.Num (clamp01 x) ∧ P.val (clamp01 x) = clip (P.val x) := by
  unfold clip
  rw [← clamp01_real]
  unfold clamp01
  have h1 := P.lt x zero h P.zero.1
  have h2 := P.lt one x P.one.1 h
  rw [P.zero.2] at h1
  rw [P.one.2] at h2
  simp only [h1, h2]
  simp only [Arith.lt, Arith.zero, Arith.one, decide_eq_true_eq]
  split
  · exact P.zero
  · split
    · exact P.one
    · exact ⟨h, rfl⟩

/-- One cell of one `CCA` step, in any arithmetic. -/
theorem cca_any_cell {ext int : Nat} {ca : CCA α ext int} {w : Fin ext → Fin int → α}
    (hch : ext < 4) (hw : ca.weights = .functional w) {u : Univ α N ext H W}
    {r : Univ α N ext H W × CCA α ext int} (h : ca.forward u = .ok r) :
    ∃ (hg : ca.genesis.length = int) (hp : ca.persistence.length = int),
      r.2 = { ca with t := add ca.t ca.dt } ∧
      ∀ n e i j, r.1 n e i j = clamp01 (add (u n e i j) (mul ca.dt
        (dot ((List.finRange int).map fun o => (w e o,
          add (mul (sub one (dot (ca.idL.taps (u n) o i j)))
              (ca.genesis.get (Fin.cast hg.symm o) (dot (ca.nbL.taps (u n) o i j))))
            (mul (dot (ca.idL.taps (u n) o i j))
              (ca.persistence.get (Fin.cast hp.symm o) (dot (ca.nbL.taps (u n) o i j))))))))) := by
  obtain ⟨idn, nb, upd, h1, h2, h3, rfl⟩ := CCA.forward_ok h
  obtain ⟨_, rfl⟩ := apply_ok h1
  obtain ⟨_, rfl⟩ := apply_ok h2
  unfold CCA.updateUniverse at h3
  obtain ⟨G, h4, h3⟩ := bind_ok h3
  obtain ⟨P, h5, h3⟩ := bind_ok h3
  cases h3
  have hg := (perChannel_ok_iff _ _).1 ⟨_, h4⟩
  have hp := (perChannel_ok_iff _ _).1 ⟨_, h5⟩
  unfold perChannel at h4 h5
  rw [dif_pos hg] at h4
  rw [dif_pos hp] at h5
  cases h4
  cases h5
  refine ⟨hg, hp, rfl, fun n e i j => ?_⟩
  simp only [eulerClamp, hw, Weights.apply, conv1x1, maskIf_small hch]

/-- One cell of one `Lenia` step, in any arithmetic. -/
theorem lenia_any_cell {ext int : Nat} {ca : CCA α ext int} {w : Fin ext → Fin int → α}
    (hch : ext < 4) (hw : ca.weights = .functional w) {u : Univ α N ext H W}
    {r : Univ α N ext H W × CCA α ext int} (h : ca.leniaForward u = .ok r) :
    ∃ hg : ca.genesis.length = int,
      r.2 = { ca with t := add ca.t ca.dt } ∧
      ∀ n e i j, r.1 n e i j = clamp01 (add (u n e i j) (mul ca.dt
        (dot ((List.finRange int).map fun o => (w e o,
          ca.genesis.get (Fin.cast hg.symm o) (dot (ca.nbL.taps (u n) o i j))))))) := by
  unfold CCA.leniaForward at h
  obtain ⟨idn, h1, h⟩ := bind_ok h
  obtain ⟨nb, h2, h⟩ := bind_ok h
  obtain ⟨upd, h3, h⟩ := bind_ok h
  cases h
  obtain ⟨_, rfl⟩ := apply_ok h2
  unfold CCA.leniaUpdateUniverse at h3
  obtain ⟨G, h4, h3⟩ := bind_ok h3
  cases h3
  have hg := (perChannel_ok_iff _ _).1 ⟨_, h4⟩
  unfold perChannel at h4
  rw [dif_pos hg] at h4
  cases h4
  refine ⟨hg, rfl, fun n e i j => ?_⟩
  simp only [eulerClamp, hw, Weights.apply, conv1x1, maskIf_small hch]

variable {d : CCADyn} {ca : CCA α d.ext d.int} {P : Precise α η ℓ} {θ L : ℝ}

/-- The last part of a step: weighing the growths, the Euler step and the clamp. -/
theorem settle (p : Plain d) (R : P.Represents θ d ca) (T : Tolerates d L η θ ℓ) {x : α}
    (hx : P.Num x ∧ 0 ≤ P.val x ∧ P.val x ≤ 1) {a : Fin d.int → α} {A : Fin d.int → ℝ} {τ : ℝ}
    (hτ : 0 ≤ τ ∧ η + 2 * θ + τ ≤ 1)
    (ha : ∀ o, P.Num (a o) ∧ |P.val (a o) - A o| ≤ τ) (hA : ∀ o, |A o| ≤ 1) (e : Fin d.ext) :
    let y := clamp01 (add x (mul ca.dt (dot ((List.finRange d.int).map fun o => (R.w e o, a o)))))
    P.Num y ∧ 0 ≤ P.val y ∧ P.val y ≤ 1 ∧
      |P.val y - clip (P.val x + d.dt * (1 / (d.ext * d.int) * ∑ o, A o))| ≤
        2 * (η + θ) + d.dt * (η + 2 * θ + τ) := by
  intro y
  obtain ⟨hη, hθ, hsmall⟩ := T.errors
  have hL := T.slope
  have hθ4 : θ ≤ 1 / 4 := by nlinarith
  have hη10 : η ≤ 1 / 10 := by nlinarith
  have he1 : (1 : ℝ) ≤ d.ext := by exact_mod_cast p.ext_pos
  have ha2 : ∀ o, |P.val (a o)| ≤ 2 := fun o => by
    have := abs_off (ha o).2 (hA o); linarith
  -- the exact mean
  have hmean : |1 / ((d.ext : ℝ) * d.int) * ∑ o, A o| ≤ 1 := by
    refine (mean_le zero_le_one hA).trans ?_
    rw [div_le_one (by linarith)]; exact he1
  -- the computed mean
  have hterm : ∀ o, |P.val (R.w e o) * P.val (a o) - 1 / (d.ext * d.int) * A o| ≤
      |P.val (R.w e o) - 1 / (d.ext * d.int)| * 2 + 1 / (d.ext * d.int) * τ := fun o => by
    rw [show P.val (R.w e o) * P.val (a o) - 1 / (d.ext * d.int) * A o =
      (P.val (R.w e o) - 1 / (d.ext * d.int)) * P.val (a o) +
        1 / (d.ext * d.int) * (P.val (a o) - A o) by ring]
    refine (abs_add_le _ _).trans ?_
    rw [abs_mul, abs_mul, abs_of_nonneg (by positivity : (0 : ℝ) ≤ 1 / (d.ext * d.int))]
    exact add_le_add (mul_le_mul_of_nonneg_left (ha2 o) (abs_nonneg _))
      (mul_le_mul_of_nonneg_left (ha o).2 (by positivity))
  have hinv : ∑ _o : Fin d.int, 1 / ((d.ext : ℝ) * d.int) ≤ 1 := by
    have := mean_le (int := d.int) (ext := d.ext) (f := fun _ => 1) zero_le_one
      (fun _ => by simp)
    rw [Finset.mul_sum] at this
    simp only [mul_one] at this
    refine (le_abs_self _).trans (this.trans ?_)
    rw [div_le_one (by linarith)]; exact he1
  have hsumoff : |∑ o, P.val (R.w e o) * P.val (a o) - 1 / (d.ext * d.int) * ∑ o, A o| ≤
      2 * θ + τ := by
    rw [Finset.mul_sum, ← Finset.sum_sub_distrib]
    refine (Finset.abs_sum_le_sum_abs _ _).trans ((Finset.sum_le_sum fun o _ => hterm o).trans ?_)
    rw [Finset.sum_add_distrib, ← Finset.sum_mul, ← Finset.sum_mul]
    have h1 := R.weight.2 e
    have h2 := mul_le_mul_of_nonneg_right hinv hτ.1
    linarith
  have habs : ∑ o, |P.val (R.w e o) * P.val (a o)| ≤ 4 := by
    have h1 : ∀ o, |P.val (R.w e o) * P.val (a o)| ≤
        (|P.val (R.w e o) - 1 / (d.ext * d.int)| + 1 / (d.ext * d.int)) * 2 := fun o => by
      rw [abs_mul]
      refine mul_le_mul ?_ (ha2 o) (abs_nonneg _) (by positivity)
      have := abs_add_le (P.val (R.w e o) - 1 / (d.ext * d.int)) (1 / (d.ext * d.int))
      rwa [sub_add_cancel, abs_of_nonneg (by positivity : (0 : ℝ) ≤ 1 / (d.ext * d.int))] at this
    refine (Finset.sum_le_sum fun o _ => h1 o).trans ?_
    rw [← Finset.sum_mul, Finset.sum_add_distrib]
    have := R.weight.2 e
    linarith
  obtain ⟨b1, b2⟩ := P.dot ((List.finRange d.int).map fun o => (R.w e o, a o))
    (by simpa using T.terms.2.2)
    (by
      intro q hq
      obtain ⟨o, _, rfl⟩ := List.mem_map.1 hq
      exact ⟨R.weight.1 e o, (ha o).1⟩)
    (by
      rw [List.map_map]
      simp only [Function.comp_def]
      rw [← Fin.sum_univ_def]; exact habs)
  rw [List.map_map] at b2
  simp only [Function.comp_def] at b2
  rw [← Fin.sum_univ_def] at b2
  have b3 := off_trans b2 hsumoff
  obtain ⟨b, hb⟩ : ∃ b, b = dot ((List.finRange d.int).map fun o => (R.w e o, a o)) := ⟨_, rfl⟩
  rw [← hb] at b1 b3
  obtain ⟨m, hm⟩ : ∃ m : ℝ, m = 1 / (d.ext * d.int) * ∑ o, A o := ⟨_, rfl⟩
  rw [← hm] at b3 hmean ⊢
  have bA : |P.val b| ≤ 2 := by have := abs_off b3 hmean; linarith
  have dA : |P.val ca.dt| ≤ 5 / 4 := by
    have := abs_off R.dt.2 (abs_le.2 ⟨by linarith [T.dt.1], T.dt.2⟩ : |d.dt| ≤ 1)
    linarith
  obtain ⟨f1, f2⟩ := P.mul _ _ R.dt.1 b1 (by linarith) (by linarith)
  have f3 : |P.val ca.dt * P.val b - d.dt * m| ≤ 2 * θ + d.dt * (η + 2 * θ + τ) := by
    rw [show P.val ca.dt * P.val b - d.dt * m =
      (P.val ca.dt - d.dt) * P.val b + d.dt * (P.val b - m) by ring]
    refine (abs_add_le _ _).trans ?_
    rw [abs_mul, abs_mul, abs_of_nonneg T.dt.1]
    have h1 := mul_le_mul R.dt.2 bA (abs_nonneg _) hθ
    have h2 := mul_le_mul_of_nonneg_left b3 T.dt.1
    linarith
  have f4 := off_trans f2 f3
  have fA : |P.val (mul ca.dt b)| ≤ 4 := by
    have h1 : |d.dt * m| ≤ 1 := by
      rw [abs_mul, abs_of_nonneg T.dt.1]
      nlinarith [abs_nonneg m, T.dt.1, T.dt.2]
    have h2 := abs_off f4 h1
    have h3 : d.dt * (η + 2 * θ + τ) ≤ 1 := by nlinarith [T.dt.1, T.dt.2]
    linarith
  have xA : |P.val x| ≤ 1 := abs_le.2 ⟨by linarith [hx.2.1], hx.2.2⟩
  obtain ⟨v1, v2⟩ := P.add _ _ hx.1 f1 (by linarith) fA
  have v3 : |P.val (add x (mul ca.dt b)) - (P.val x + d.dt * m)| ≤
      2 * (η + θ) + d.dt * (η + 2 * θ + τ) := by
    have h1 : |P.val x + P.val (mul ca.dt b) - (P.val x + d.dt * m)| ≤
        η + (2 * θ + d.dt * (η + 2 * θ + τ)) := by
      rw [add_sub_add_left_eq_sub]; exact f4
    have := off_trans v2 h1
    linarith
  have hy : y = clamp01 (add x (mul ca.dt b)) := by rw [hb]
  obtain ⟨w1, w2⟩ := precise_clamp P v1
  rw [← hy] at w1 w2
  refine ⟨w1, ?_, ?_, ?_⟩
  · rw [w2]; exact (clip_mem _).1
  · rw [w2]; exact (clip_mem _).2
  · rw [w2]; exact (clip_sub_le _ _).trans v3

/-- A computed growth function of a computed neighbourhood. -/
theorem growth_off {f : α → α} {a : Act ℝ} (hf : P.Computes θ f a) (hg : Gentle L a.eval)
    (hL : 0 ≤ L) {z : α} {ν σ : ℝ} (hz : P.Num z) (hν : |ν| ≤ 1) (hσ : σ ≤ 1)
    (hoff : |P.val z - ν| ≤ σ) :
    P.Num (f z) ∧ |P.val (f z) - a.eval ν| ≤ θ + L * σ := by
  have hz2 : |P.val z| ≤ 2 := by have := abs_off hoff hν; linarith
  obtain ⟨h1, h2⟩ := hf z hz hz2
  have h3 := (hg (P.val z) ν hz2 (by linarith)).2
  have h4 := mul_le_mul_of_nonneg_left hoff hL
  exact ⟨h1, by have := off_trans h2 (h3.trans h4); linarith⟩

/-- Mixing the computed genesis and persistence of a channel. -/
theorem mix_off {c G Q : α} {x g q γ : ℝ} (hη : 0 ≤ η) (hγ : 0 ≤ γ ∧ 9 * η + γ ≤ 1)
    (hx : 0 ≤ x ∧ x ≤ 1) (c1 : P.Num c) (c2 : |P.val c - x| ≤ η) (g1 : P.Num G) (q1 : P.Num Q)
    (g2 : |P.val G - g| ≤ γ) (q2 : |P.val Q - q| ≤ γ) (gB : |g| ≤ 1) (qB : |q| ≤ 1) :
    P.Num (add (mul (sub one c) G) (mul c Q)) ∧
      |P.val (add (mul (sub one c) G) (mul c Q)) - ((1 - x) * g + x * q)| ≤ 9 * η + γ := by
  obtain ⟨x0, x1⟩ := hx
  obtain ⟨hγ0, hγ1⟩ := hγ
  have gC := abs_off g2 gB
  have qC := abs_off q2 qB
  have cA := abs_off c2 (abs_le.2 ⟨by linarith, x1⟩ : |x| ≤ 1)
  have cB : |P.val c| ≤ x + η := abs_off c2 (abs_of_nonneg x0).le
  obtain ⟨s1, s2⟩ := P.sub one c P.one.1 c1 (by rw [P.one.2]; norm_num) (by linarith)
  rw [P.one.2] at s2
  have s3 : |P.val (sub one c) - (1 - x)| ≤ 2 * η := by
    have := off_trans s2 (show |1 - P.val c - (1 - x)| ≤ η by
      rw [show 1 - P.val c - (1 - x) = -(P.val c - x) by ring, abs_neg]; exact c2)
    linarith
  have sB : |P.val (sub one c)| ≤ 1 - x + 2 * η :=
    abs_off s3 (abs_of_nonneg (by linarith)).le
  obtain ⟨m1, m2⟩ := P.mul _ _ s1 g1 (by linarith) (by linarith)
  obtain ⟨n1, n2⟩ := P.mul _ _ c1 q1 (by linarith) (by linarith)
  have m3 := off_trans m2 (prod_off s3 g2 gB)
  have n3 := off_trans n2 (prod_off c2 q2 qB)
  have m4 : |P.val (sub one c)| * γ ≤ (1 - x) * γ + 2 * η * γ := by
    have := mul_le_mul_of_nonneg_right sB hγ0; linarith
  have n4 : |P.val c| * γ ≤ x * γ + η * γ := by
    have := mul_le_mul_of_nonneg_right cB hγ0; linarith
  have hηγ : η * γ ≤ η := by nlinarith
  have sg : |(1 - x) * g| ≤ 1 - x := by
    rw [abs_mul, abs_of_nonneg (by linarith)]
    nlinarith [abs_nonneg g]
  have xq : |x * q| ≤ x := by
    rw [abs_mul, abs_of_nonneg x0]
    nlinarith [abs_nonneg q]
  have mB := abs_off m3 sg
  have nB := abs_off n3 xq
  have hγx : 0 ≤ (1 - x) * γ ∧ (1 - x) * γ ≤ 1 := ⟨mul_nonneg (by linarith) hγ0, by nlinarith⟩
  have hγy : 0 ≤ x * γ ∧ x * γ ≤ 1 := ⟨mul_nonneg x0 hγ0, by nlinarith⟩
  obtain ⟨a1, a2⟩ := P.add _ _ m1 n1 (by linarith) (by linarith)
  refine ⟨a1, ?_⟩
  have a3 : |P.val (mul (sub one c) G) + P.val (mul c Q) - ((1 - x) * g + x * q)| ≤
      η + (|P.val (sub one c)| * γ + 2 * η) + (η + (|P.val c| * γ + η)) := by
    rw [add_sub_add_comm]
    exact (abs_add_le _ _).trans (add_le_add m3 n3)
  refine (off_trans a2 a3).trans ?_
  have : (1 - x) * γ + x * γ = γ := by ring
  linarith

omit [Arith α] in
theorem tol_small (T : Tolerates d L η θ ℓ) : η ≤ 1 / 10 ∧ θ ≤ 1 / 4 ∧ η + θ ≤ 1 := by
  obtain ⟨hη, hθ, hsmall⟩ := T.errors
  have hL := T.slope
  refine ⟨by nlinarith, by nlinarith, by nlinarith⟩

variable (p : Plain d) (R : P.Represents θ d ca) (T : Tolerates d L η θ ℓ)
include p R T

/-- The neighbourhood a machine computes. -/
theorem nb_off {u : Univ α N d.ext H W} (hu : P.Sane u) (n : Fin N) (o : Fin d.int) (i : Fin H)
    (j : Fin W) :
    P.Num (dot (ca.nbL.taps (u n) o i j)) ∧
      |P.val (dot (ca.nbL.taps (u n) o i j)) -
        gathered d.nbLayer.2 (P.real u n (source p.ext_pos p.dvd o)) i j| ≤ η + θ ∧
      |gathered d.nbLayer.2 (P.real u n (source p.ext_pos p.dvd o)) i j| ≤ 1 := by
  obtain ⟨hη, hθ, _⟩ := tol_small T
  have hx : ∀ c i j, P.Num (u n c i j) ∧ |P.val (u n c i j)| ≤ 1 := fun c i j =>
    ⟨(hu n c i j).1, abs_le.2 ⟨by linarith [(hu n c i j).2.1], (hu n c i j).2.2⟩⟩
  have hsum : ∑ a, ∑ b, |P.val (R.κ a b)| ≤ 4 := by
    have h1 : ∑ a, ∑ b, |P.val (R.κ a b)| ≤
        ∑ a, ∑ b, (|P.val (R.κ a b) - d.nbLayer.2 a b| + |d.nbLayer.2 a b|) :=
      Finset.sum_le_sum fun a _ => Finset.sum_le_sum fun b _ => by
        have := abs_add_le (P.val (R.κ a b) - d.nbLayer.2 a b) (d.nbLayer.2 a b)
        rwa [sub_add_cancel] at this
    simp only [Finset.sum_add_distrib] at h1
    have h2 := R.kernel.2
    have h3 := T.kernel
    linarith
  rw [R.nbL]
  obtain ⟨h1, h2⟩ := precise_conv P p.ext_pos p.dvd R.kernel.1 hsum T.terms.2.1 hx o i j
  have hle : ∀ i j, |P.real u n (source p.ext_pos p.dvd o) i j| ≤ 1 := fun i j => (hx _ i j).2
  refine ⟨h1, off_trans h2 ?_, ?_⟩
  · change |gathered _ (P.real u n (source p.ext_pos p.dvd o)) i j - _| ≤ θ
    rw [gathered_kernel_sub]
    refine (gathered_abs_le _ hle i j).trans ?_
    have := R.kernel.2
    linarith
  · refine (gathered_abs_le _ hle i j).trans ?_
    have := T.kernel
    linarith

/-- The identity layer of a machine. -/
theorem id_off {u : Univ α N d.ext H W} (hu : P.Sane u) (n : Fin N) (o : Fin d.int) (i : Fin H)
    (j : Fin W) :
    P.Num (dot (ca.idL.taps (u n) o i j)) ∧
      |P.val (dot (ca.idL.taps (u n) o i j)) -
        P.val (u n (source p.ext_pos p.dvd o) i j)| ≤ η := by
  have hx : ∀ c i j, P.Num (u n c i j) ∧ |P.val (u n c i j)| ≤ 1 := fun c i j =>
    ⟨(hu n c i j).1, abs_le.2 ⟨by linarith [(hu n c i j).2.1], (hu n c i j).2.2⟩⟩
  have hidk : (fun a b => P.val (identityKernel a b : α)) = (identityKernel : Fin 3 → Fin 3 → ℝ) := by
    funext a b; unfold identityKernel
    split
    · exact P.one.2
    · exact P.zero.2
  rw [R.idL]
  obtain ⟨h1, h2⟩ := precise_conv (r := 1) P p.ext_pos p.dvd (κ := identityKernel)
    (by intro a b; unfold identityKernel; split; exacts [P.one.1, P.zero.1])
    (by
      show ∑ a : Fin 3, ∑ b : Fin 3, |P.val (identityKernel a b)| ≤ 4
      simp only [identityKernel, Fin.sum_univ_three]
      simp [P.one.2, P.zero.2]) (by simpa using T.terms.1) hx o i j
  refine ⟨h1, ?_⟩
  have h3 := gathered_identity p.ext_pos p.dvd (P.real u n) o i j
  change |_ - gathered (r := 1) (fun a b => P.val (identityKernel a b : α)) _ i j| ≤ η at h2
  erw [hidk] at h2
  change |_ - gathered (r := 1) identityKernel (P.real u n (source p.ext_pos p.dvd o)) i j| ≤ η at h2
  rw [h3] at h2
  exact h2

/-- One step of a `CCA` on a machine is off by at most `ccaSlip`. -/
theorem cca_slip {u : Univ α N d.ext H W} (hu : P.Sane u)
    {r : Univ α N d.ext H W × CCA α d.ext d.int} (h : ca.forward u = .ok r) :
    r.2 = { ca with t := add ca.t ca.dt } ∧ P.Sane r.1 ∧
      CloseBy (ccaSlip η θ L d.dt) (P.real r.1) (eulerStep (growthOf p) d.dt (P.real u)) := by
  obtain ⟨hg, hp, hr, hc⟩ := cca_any_cell T.channels R.weights h
  obtain ⟨hη, hθ, hsmall⟩ := T.errors
  have hL := T.slope
  obtain ⟨hη1, hθ1, hηθ⟩ := tol_small T
  obtain ⟨γ, hγ⟩ : ∃ γ, γ = θ + L * (η + θ) := ⟨_, rfl⟩
  have hγ0 : 0 ≤ γ := by rw [hγ]; positivity
  have hγ1 : 9 * η + γ + (η + 2 * θ) ≤ 1 := by rw [hγ]; linarith
  have key : ∀ n e i j, P.Num (r.1 n e i j) ∧ 0 ≤ P.val (r.1 n e i j) ∧ P.val (r.1 n e i j) ≤ 1 ∧
      |P.val (r.1 n e i j) - eulerStep (growthOf p) d.dt (P.real u) n e i j| ≤
        ccaSlip η θ L d.dt := by
    intro n e i j
    rw [hc n e i j]
    have hslip : ccaSlip η θ L d.dt = 2 * (η + θ) + d.dt * (η + 2 * θ + (9 * η + γ)) := by
      rw [ccaSlip, hγ]; ring
    rw [hslip]
    refine settle p R T (hu n e i j) (τ := 9 * η + γ) ⟨by linarith, by linarith⟩
      (A := fun o => (1 - P.real u n (source p.ext_pos p.dvd o) i j) *
            (d.genesis.get (Fin.cast p.gen.symm o)).eval
              (gathered d.nbLayer.2 (P.real u n (source p.ext_pos p.dvd o)) i j) +
          P.real u n (source p.ext_pos p.dvd o) i j *
            (d.persistence.get (Fin.cast p.per.symm o)).eval
              (gathered d.nbLayer.2 (P.real u n (source p.ext_pos p.dvd o)) i j)) ?_ ?_ e
    · intro o
      obtain ⟨z1, z2, z3⟩ := nb_off p R T hu n o i j
      obtain ⟨c1, c2⟩ := id_off p R T hu n o i j
      have hG := List.Forall₂.get R.genesis (i := o.val) (by rw [hg]; exact o.2)
        (by rw [p.gen]; exact o.2)
      have hQ := List.Forall₂.get R.persistence (i := o.val) (by rw [hp]; exact o.2)
        (by rw [p.per]; exact o.2)
      have gA := T.acts _ (List.mem_append_left _ (List.get_mem d.genesis (Fin.cast p.gen.symm o)))
      have qA := T.acts _ (List.mem_append_right d.genesis
        (List.get_mem d.persistence (Fin.cast p.per.symm o)))
      obtain ⟨g1, g2⟩ := growth_off hG gA hL z1 z3 hηθ z2
      obtain ⟨q1, q2⟩ := growth_off hQ qA hL z1 z3 hηθ z2
      have gB := (gA _ _ (by linarith : |gathered d.nbLayer.2
        (P.real u n (source p.ext_pos p.dvd o)) i j| ≤ 2) (by linarith : |gathered d.nbLayer.2
        (P.real u n (source p.ext_pos p.dvd o)) i j| ≤ 2)).1
      have qB := (qA _ _ (by linarith : |gathered d.nbLayer.2
        (P.real u n (source p.ext_pos p.dvd o)) i j| ≤ 2) (by linarith : |gathered d.nbLayer.2
        (P.real u n (source p.ext_pos p.dvd o)) i j| ≤ 2)).1
      have hx := hu n (source p.ext_pos p.dvd o) i j
      rw [← hγ] at g2 q2
      exact mix_off hη ⟨hγ0, by linarith⟩ hx.2 c1 c2 g1 q1 g2 q2 gB qB
    · intro o
      obtain ⟨z1, z2, z3⟩ := nb_off p R T hu n o i j
      have gA := T.acts _ (List.mem_append_left _ (List.get_mem d.genesis (Fin.cast p.gen.symm o)))
      have qA := T.acts _ (List.mem_append_right d.genesis
        (List.get_mem d.persistence (Fin.cast p.per.symm o)))
      have gB := abs_le.1 (gA _ _ (by linarith : |gathered d.nbLayer.2
        (P.real u n (source p.ext_pos p.dvd o)) i j| ≤ 2) (by linarith : |gathered d.nbLayer.2
        (P.real u n (source p.ext_pos p.dvd o)) i j| ≤ 2)).1
      have qB := abs_le.1 (qA _ _ (by linarith : |gathered d.nbLayer.2
        (P.real u n (source p.ext_pos p.dvd o)) i j| ≤ 2) (by linarith : |gathered d.nbLayer.2
        (P.real u n (source p.ext_pos p.dvd o)) i j| ≤ 2)).1
      obtain ⟨_, x0, x1⟩ := hu n (source p.ext_pos p.dvd o) i j
      change 0 ≤ P.real u n (source p.ext_pos p.dvd o) i j at x0
      change P.real u n (source p.ext_pos p.dvd o) i j ≤ 1 at x1
      rw [abs_le]
      constructor <;> nlinarith [gB.1, gB.2, qB.1, qB.2]
  exact ⟨hr, fun n e i j => ⟨(key n e i j).1, (key n e i j).2.1, (key n e i j).2.2.1⟩,
    fun n e i j => (key n e i j).2.2.2⟩

/-- One step of a `Lenia` on a machine is off by at most `leniaSlip`. -/
theorem lenia_slip {u : Univ α N d.ext H W} (hu : P.Sane u)
    {r : Univ α N d.ext H W × CCA α d.ext d.int} (h : ca.leniaForward u = .ok r) :
    r.2 = { ca with t := add ca.t ca.dt } ∧ P.Sane r.1 ∧
      CloseBy (leniaSlip η θ L d.dt) (P.real r.1) (eulerStep (leniaRate p) d.dt (P.real u)) := by
  obtain ⟨hg, hr, hc⟩ := lenia_any_cell T.channels R.weights h
  obtain ⟨hη, hθ, hsmall⟩ := T.errors
  have hL := T.slope
  obtain ⟨hη1, hθ1, hηθ⟩ := tol_small T
  obtain ⟨γ, hγ⟩ : ∃ γ, γ = θ + L * (η + θ) := ⟨_, rfl⟩
  have hγ0 : 0 ≤ γ := by rw [hγ]; positivity
  have hγ1 : γ + (η + 2 * θ) ≤ 1 := by rw [hγ]; linarith
  have key : ∀ n e i j, P.Num (r.1 n e i j) ∧ 0 ≤ P.val (r.1 n e i j) ∧ P.val (r.1 n e i j) ≤ 1 ∧
      |P.val (r.1 n e i j) - eulerStep (leniaRate p) d.dt (P.real u) n e i j| ≤
        leniaSlip η θ L d.dt := by
    intro n e i j
    rw [hc n e i j]
    have hslip : leniaSlip η θ L d.dt = 2 * (η + θ) + d.dt * (η + 2 * θ + γ) := by
      rw [leniaSlip, hγ]; ring
    rw [hslip]
    refine settle p R T (hu n e i j) (τ := γ) ⟨hγ0, by linarith⟩
      (A := fun o => (d.genesis.get (Fin.cast p.gen.symm o)).eval
              (gathered d.nbLayer.2 (P.real u n (source p.ext_pos p.dvd o)) i j)) ?_ ?_ e
    · intro o
      obtain ⟨z1, z2, z3⟩ := nb_off p R T hu n o i j
      have hG := List.Forall₂.get R.genesis (i := o.val) (by rw [hg]; exact o.2)
        (by rw [p.gen]; exact o.2)
      have gA := T.acts _ (List.mem_append_left _ (List.get_mem d.genesis (Fin.cast p.gen.symm o)))
      rw [hγ]
      exact growth_off hG gA hL z1 z3 hηθ z2
    · intro o
      obtain ⟨z1, z2, z3⟩ := nb_off p R T hu n o i j
      have gA := T.acts _ (List.mem_append_left _ (List.get_mem d.genesis (Fin.cast p.gen.symm o)))
      exact (gA _ _ (by linarith) (by linarith : |gathered d.nbLayer.2
        (P.real u n (source p.ext_pos p.dvd o)) i j| ≤ 2)).1
  exact ⟨hr, fun n e i j => ⟨(key n e i j).1, (key n e i j).2.1, (key n e i j).2.2.1⟩,
    fun n e i j => (key n e i j).2.2.2⟩

omit [Arith α] p R T in
theorem fits_torus {ext int r : Nat} (κ : Fin (2 * r + 1) → Fin (2 * r + 1) → α) (hH : r ≤ H)
    (hW : r ≤ W) : Fits (ConvLayer.ofKernel ext int .circular (2 * r + 1) κ) H W := by
  have hr : (2 * r + 1 - 1) / 2 = r := by omega
  refine ⟨by show (2 * r + 1) % 2 = 1; omega, ?_, ?_⟩
  · show decide ((2 * r + 1 - 1) / 2 ≤ H) = true; rw [hr]; simpa using hH
  · show decide ((2 * r + 1 - 1) / 2 ≤ W) = true; rw [hr]; simpa using hW

omit T in
theorem represents_runs (u : Univ α N d.ext H W) (hH : 1 ≤ H ∧ d.nbLayer.1 ≤ H)
    (hW : 1 ≤ W ∧ d.nbLayer.1 ≤ W) :
    (∃ r, ca.forward u = .ok r) ∧ ∃ r, ca.leniaForward u = .ok r := by
  have h1 : Fits ca.idL H W := by rw [R.idL]; exact fits_torus (r := 1) _ hH.1 hW.1
  have h2 : Fits ca.nbL H W := by rw [R.nbL]; exact fits_torus _ hH.2 hW.2
  have h3 : ca.genesis.length = d.int := R.genesis.length_eq.trans p.gen
  have h4 : ca.persistence.length = d.int := R.persistence.length_eq.trans p.per
  refine ⟨(cca_runs_iff _ u).2 ⟨h1, h2, h3, h4⟩, ?_⟩
  obtain ⟨y1, e1⟩ := (apply_ok_iff _ (maskIf ca.thr u)).2 h1
  obtain ⟨y2, e2⟩ := (apply_ok_iff _ (maskIf ca.thr u)).2 h2
  obtain ⟨y3, e3⟩ := (perChannel_ok_iff _ y2).2 h3
  refine ⟨(eulerClamp ca.dt (maskIf ca.thr u) (ca.weights.apply y3),
    { ca with t := add ca.t ca.dt }), ?_⟩
  unfold CCA.leniaForward CCA.leniaUpdateUniverse
  simp only [e1, e2, e3, bind, Except.bind, pure, Except.pure]

end

/-! ## Whole runs -/

section

variable {α : Type} [Arith α] {η θ L : ℝ} {ℓ : Nat} {P : Precise α η ℓ} {d : CCADyn}

theorem gentle_mild {f : ℝ → ℝ} (hL : 0 ≤ L) (h : Gentle L f) : MildFn 1 L f :=
  ⟨zero_le_one, hL, fun x y hx hy => h x y (by linarith) (by linarith)⟩

theorem tolerates_mild (T : Tolerates d L η θ ℓ) : Mild d 1 L :=
  ⟨⟨zero_le_one, T.slope⟩, T.kernel, fun a ha => gentle_mild T.slope (T.acts a ha), T.channels⟩

omit [Arith α] in
theorem geo_step (q ε δ : ℝ) (n : Nat) :
    q ^ n * (δ + q * ε) + δ * ∑ k ∈ Finset.range n, q ^ k =
      q ^ (n + 1) * ε + δ * ∑ k ∈ Finset.range (n + 1), q ^ k := by
  rw [Finset.sum_range_succ, pow_succ]; ring

/-- A run whose steps are all off by at most `δ`. -/
theorem drift_run {F : Univ ℝ N d.ext H W → Univ ℝ N d.ext H W} {M c δ : ℝ} (hF : Tame F M c)
    (hdt : 0 ≤ d.dt)
    {fwd : CCA α d.ext d.int → Univ α N d.ext H W →
      Except PyErr (Univ α N d.ext H W × CCA α d.ext d.int)}
    (hstep : ∀ {ca : CCA α d.ext d.int}, P.Represents θ d ca → ∀ u : Univ α N d.ext H W, P.Sane u →
      ∃ r, fwd ca u = .ok r ∧ r.2 = { ca with t := add ca.t ca.dt } ∧ P.Sane r.1 ∧
        CloseBy δ (P.real r.1) (eulerStep F d.dt (P.real u))) (n : Nat) :
    ∀ {ca : CCA α d.ext d.int} (_ : P.Represents θ d ca) {ε : ℝ} (u : Univ α N d.ext H W)
      (v : Univ ℝ N d.ext H W), P.Sane u → Within01 v → CloseBy ε (P.real u) v →
      ∃ u' ca', iterate fwd n ca u = .ok (u', ca') ∧ P.Sane u' ∧
        CloseBy ((1 + d.dt * c) ^ n * ε + δ * ∑ k ∈ Finset.range n, (1 + d.dt * c) ^ k)
          (P.real u') (eulerRun F (List.replicate n d.dt) v) := by
  induction n with
  | zero =>
    intro ca _ ε u v hu _ hn
    exact ⟨u, ca, rfl, hu, by simpa [eulerRun] using hn⟩
  | succ n ih =>
    intro ca R ε u v hu hv hn
    obtain ⟨⟨u1, ca1⟩, h1, h2, h3, h4⟩ := hstep R u hu
    simp only at h2
    subst h2
    have hreal : Within01 (P.real u) := fun n e i j => (hu n e i j).2
    have h5 := near_trans h4 (eulerStep_near hF hdt hreal hv hn)
    obtain ⟨u', ca', a1, a2, a3⟩ := ih (ca := { ca with t := add ca.t ca.dt })
      ⟨R.κ, R.w, R.idL, R.nbL, R.weights, R.kernel, R.weight, R.genesis, R.persistence, R.dt⟩
      u1 (eulerStep F d.dt v) h3 (eulerStep_unit _ _) h5
    refine ⟨u', ca', ?_, a2, ?_⟩
    · simp only [iterate, h1, bind, Except.bind]; exact a1
    · rw [geo_step] at a3
      exact a3

/-- C130: a computed run of a `CCA` stays near the exact run.  However many steps are asked for,
the computed run raises nothing and all its cells are numbers in `[0, 1]`; after `n` steps it is
within `q ^ n ε + δ (1 + q + … + q ^ (n - 1))` of the exact run from a start within `ε`, with
`q = 1 + dt (2 + L) / ext` and `δ` the error of one step. -/
theorem cca_drift {ca : CCA α d.ext d.int} (p : Plain d) (R : P.Represents θ d ca)
    (T : Tolerates d L η θ ℓ) (t : ℝ) (n : Nat) {ε : ℝ} (u : Univ α N d.ext H W)
    (v : Univ ℝ N d.ext H W) (hu : P.Sane u) (hv : Within01 v) (hn : CloseBy ε (P.real u) v)
    (hH : 1 ≤ H ∧ d.nbLayer.1 ≤ H) (hW : 1 ≤ W ∧ d.nbLayer.1 ≤ W) :
    ∃ u' ca' v' s', iterate CCA.forward n ca u = .ok (u', ca') ∧
      iterate CCA.forward n (d.toCCA t) v = .ok (v', s') ∧ P.Sane u' ∧
      CloseBy ((1 + d.dt * ((2 + L) / d.ext)) ^ n * ε +
        ccaSlip η θ L d.dt * ∑ k ∈ Finset.range n, (1 + d.dt * ((2 + L) / d.ext)) ^ k)
        (P.real u') v' := by
  have m := tolerates_mild T
  have hF := growth_tame (N := N) (H := H) (W := W) p m
  rw [mul_one] at hF
  obtain ⟨u', ca', h1, h2, h3⟩ := drift_run (fwd := CCA.forward) hF T.dt.1
    (fun {ca} R u hu => by
      obtain ⟨r, hr⟩ := (represents_runs p R u hH hW).1
      exact ⟨r, hr, cca_slip p R T hu hr⟩) n R u v hu hv hn
  exact ⟨u', ca', _, _, h1, cca_steps p T.channels n t v hH hW, h2, h3⟩

/-- C130: the same for a `Lenia`, with the smaller factor `q = 1 + dt L / ext`. -/
theorem lenia_drift {ca : CCA α d.ext d.int} (p : Plain d) (R : P.Represents θ d ca)
    (T : Tolerates d L η θ ℓ) (t : ℝ) (n : Nat) {ε : ℝ} (u : Univ α N d.ext H W)
    (v : Univ ℝ N d.ext H W) (hu : P.Sane u) (hv : Within01 v) (hn : CloseBy ε (P.real u) v)
    (hH : 1 ≤ H ∧ d.nbLayer.1 ≤ H) (hW : 1 ≤ W ∧ d.nbLayer.1 ≤ W) :
    ∃ u' ca' v' s', iterate CCA.leniaForward n ca u = .ok (u', ca') ∧
      iterate CCA.leniaForward n (d.toCCA t) v = .ok (v', s') ∧ P.Sane u' ∧
      CloseBy ((1 + d.dt * (L / d.ext)) ^ n * ε +
        leniaSlip η θ L d.dt * ∑ k ∈ Finset.range n, (1 + d.dt * (L / d.ext)) ^ k)
        (P.real u') v' := by
  have m := tolerates_mild T
  have hF := leniaRate_tame (N := N) (H := H) (W := W) p m
  obtain ⟨u', ca', h1, h2, h3⟩ := drift_run (fwd := CCA.leniaForward) hF T.dt.1
    (fun {ca} R u hu => by
      obtain ⟨r, hr⟩ := (represents_runs p R u hH hW).2
      exact ⟨r, hr, lenia_slip p R T hu hr⟩) n R u v hu hv hn
  exact ⟨u', ca', _, _, h1, lenia_steps p T.channels n t v hH hW, h2, h3⟩

end

/-- C130: with enough precision a run of any fixed length is computed to any accuracy: for every
automaton, number of steps and `ε` there is a precision from which on every machine's run, from
every machine universe on every torus, is within `ε` of the exact run from there. -/
theorem drift_vanishes {d : CCADyn} {L : ℝ} (p : Plain d) (T : Tolerates d L 0 0
    (9 + (2 * d.nbLayer.1 + 1) * (2 * d.nbLayer.1 + 1) + d.int)) (n : Nat) {ε : ℝ} (hε : 0 < ε) :
    ∃ η₀ > 0, ∀ (α : Type) [Arith α] (η θ : ℝ) (ℓ : Nat) (P : Precise α η ℓ)
      (ca : CCA α d.ext d.int) (_ : P.Represents θ d ca) (N H W : Nat) (u : Univ α N d.ext H W)
      (t : ℝ), 0 ≤ η ∧ η ≤ η₀ → 0 ≤ θ ∧ θ ≤ η₀ →
      9 ≤ ℓ ∧ (2 * d.nbLayer.1 + 1) * (2 * d.nbLayer.1 + 1) ≤ ℓ ∧ d.int ≤ ℓ → P.Sane u →
      1 ≤ H ∧ d.nbLayer.1 ≤ H → 1 ≤ W ∧ d.nbLayer.1 ≤ W →
      (∃ u' ca' v' s', iterate CCA.forward n ca u = .ok (u', ca') ∧
        iterate CCA.forward n (d.toCCA t) (P.real u) = .ok (v', s') ∧ P.Sane u' ∧
        CloseBy ε (P.real u') v') ∧
      ∃ u' ca' v' s', iterate CCA.leniaForward n ca u = .ok (u', ca') ∧
        iterate CCA.leniaForward n (d.toCCA t) (P.real u) = .ok (v', s') ∧ P.Sane u' ∧
        CloseBy ε (P.real u') v' := by
  have hL := T.slope
  obtain ⟨hd0, hd1⟩ := T.dt
  obtain ⟨S, hS⟩ : ∃ S : ℝ, S = ∑ k ∈ Finset.range n, (1 + d.dt * ((2 + L) / d.ext)) ^ k := ⟨_, rfl⟩
  obtain ⟨S', hS'⟩ : ∃ S : ℝ, S = ∑ k ∈ Finset.range n, (1 + d.dt * (L / d.ext)) ^ k := ⟨_, rfl⟩
  have hS0 : 0 ≤ S := by
    rw [hS]; exact Finset.sum_nonneg fun k _ => by positivity
  have hS0' : 0 ≤ S' := by
    rw [hS']; exact Finset.sum_nonneg fun k _ => by positivity
  refine ⟨min (1 / (19 + 2 * L)) (ε / ((19 + 2 * L) * (S + S' + 1))), by positivity, ?_⟩
  intro α _ η θ ℓ P ca R N H W u t hη hθ hℓ hu hH hW
  have e1 := hη.2.trans (min_le_left _ _)
  have e2 := hη.2.trans (min_le_right _ _)
  have f1 := hθ.2.trans (min_le_left _ _)
  have f2 := hθ.2.trans (min_le_right _ _)
  rw [le_div_iff₀ (by positivity)] at e1 e2 f1 f2
  have hη0 := hη.1
  have hθ0 := hθ.1
  have T' : Tolerates d L η θ ℓ := by
    refine ⟨T.kernel, T.acts, T.channels, T.dt, T.slope, ⟨hη.1, hθ.1, ?_⟩, hℓ⟩
    nlinarith
  have hv : Within01 (P.real u) := fun n e i j => (hu n e i j).2
  have s1 : ccaSlip η θ L d.dt ≤ (14 + L) * η + (5 + L) * θ := by
    unfold ccaSlip
    have : d.dt * ((10 + L) * η + (3 + L) * θ) ≤ 1 * ((10 + L) * η + (3 + L) * θ) :=
      mul_le_mul_of_nonneg_right hd1 (by positivity)
    linarith
  have s2 : leniaSlip η θ L d.dt ≤ (14 + L) * η + (5 + L) * θ := by
    unfold leniaSlip
    have : d.dt * ((1 + L) * η + (3 + L) * θ) ≤ 1 * ((1 + L) * η + (3 + L) * θ) :=
      mul_le_mul_of_nonneg_right hd1 (by positivity)
    linarith
  have s3 : ((14 + L) * η + (5 + L) * θ) * (S + S' + 1) ≤ ε := by
    have a1 : (14 + L) * (η * (S + S' + 1)) ≤ (14 + L) * (ε / (19 + 2 * L)) :=
      mul_le_mul_of_nonneg_left (by rw [le_div_iff₀ (by positivity)]; linarith) (by positivity)
    have a2 : (5 + L) * (θ * (S + S' + 1)) ≤ (5 + L) * (ε / (19 + 2 * L)) :=
      mul_le_mul_of_nonneg_left (by rw [le_div_iff₀ (by positivity)]; linarith) (by positivity)
    have a3 : (19 + 2 * L) * (ε / (19 + 2 * L)) = ε := by field_simp
    nlinarith
  have hb : 0 ≤ (14 + L) * η + (5 + L) * θ := by positivity
  constructor
  · obtain ⟨u', ca', v', s', h1, h2, h3, h4⟩ := cca_drift p R T' t n (ε := 0) u (P.real u) hu hv
      (near_refl _) hH hW
    refine ⟨u', ca', v', s', h1, h2, h3, near_mono h4 ?_⟩
    rw [mul_zero, zero_add, ← hS]
    have := mul_le_mul_of_nonneg_right s1 hS0
    nlinarith
  · obtain ⟨u', ca', v', s', h1, h2, h3, h4⟩ := lenia_drift p R T' t n (ε := 0) u (P.real u) hu hv
      (near_refl _) hH hW
    refine ⟨u', ca', v', s', h1, h2, h3, near_mono h4 ?_⟩
    rw [mul_zero, zero_add, ← hS']
    have := mul_le_mul_of_nonneg_right s2 hS0'
    nlinarith

/-! ## Double precision -/

namespace Witness

theorem rnd53 {q b : ℚ} (h : |q| ≤ b) : |(Dbl.rnd q).1 - q| ≤ b * 2⁻¹ ^ 53 :=
  (double_err q).trans (mul_le_mul_of_nonneg_right h (by positivity))

theorem rnd53_real {q b : ℚ} (h : |q| ≤ b) :
    |(((Dbl.rnd q).1 : ℚ) : ℝ) - (q : ℝ)| ≤ (b : ℝ) * 2⁻¹ ^ 53 := by
  have := rnd53 h
  have h2 : ((|(Dbl.rnd q).1 - q| : ℚ) : ℝ) ≤ ((b * 2⁻¹ ^ 53 : ℚ) : ℝ) := Rat.cast_le.2 this
  push_cast at h2
  exact h2

/-- Summing from left to right: every term costs at most sixteen units. -/
theorem fold53 (l : List (Dbl × Dbl)) : ∀ (a : Dbl) (e : ℚ), 0 ≤ e → e + l.length ≤ 2 ^ 20 →
    ∀ t : ℚ, |a.1 - t| ≤ e * 2⁻¹ ^ 49 → |t| + (l.map fun p => |p.1.1 * p.2.1|).sum ≤ 4 →
    |(l.foldl (fun a p => Dbl.rnd (a.1 + (Dbl.rnd (p.1.1 * p.2.1)).1)) a).1 -
      (t + (l.map fun p => p.1.1 * p.2.1).sum)| ≤ (e + l.length) * 2⁻¹ ^ 49 := by
  induction l with
  | nil =>
    intro a e h0 he t ha _
    simpa using ha
  | cons p l ih =>
    intro a e h0 he t ha ht
    simp only [List.length_cons, Nat.cast_add, Nat.cast_one] at he
    simp only [List.map_cons, List.sum_cons] at ht ⊢
    simp only [List.foldl_cons, List.length_cons, Nat.cast_add, Nat.cast_one]
    have hs : 0 ≤ (l.map fun p => |p.1.1 * p.2.1|).sum :=
      List.sum_nonneg (by simp only [List.mem_map]; rintro _ ⟨q, _, rfl⟩; exact abs_nonneg _)
    have hl : (0 : ℚ) ≤ l.length := by positivity
    have t0 := abs_nonneg t
    have p0 := abs_nonneg (p.1.1 * p.2.1)
    have hp : |p.1.1 * p.2.1| ≤ 4 := by linarith
    have e1 := rnd53 hp
    generalize hx : (Dbl.rnd (p.1.1 * p.2.1)).1 = x at *
    have hu : (2⁻¹ : ℚ) ^ 49 = 16 * 2⁻¹ ^ 53 := by norm_num
    have hsmall : e * (2⁻¹ : ℚ) ^ 49 ≤ 1 / 2 := by
      have : e ≤ 2 ^ 20 := by linarith
      calc e * (2⁻¹ : ℚ) ^ 49 ≤ 2 ^ 20 * (2⁻¹ : ℚ) ^ 49 := mul_le_mul_of_nonneg_right this (by positivity)
        _ ≤ 1 / 2 := by norm_num
    have h53 : (4 : ℚ) * 2⁻¹ ^ 53 ≤ 1 / 2 := by norm_num
    have htp : |t + p.1.1 * p.2.1| ≤ 4 := by linarith [abs_add_le t (p.1.1 * p.2.1)]
    have hoff : |a.1 + x - (t + p.1.1 * p.2.1)| ≤ e * 2⁻¹ ^ 49 + 4 * 2⁻¹ ^ 53 := by
      rw [add_sub_add_comm]
      exact (abs_add_le _ _).trans (add_le_add ha e1)
    have hsum : |a.1 + x| ≤ 5 := by
      have := abs_le.1 hoff
      have := abs_le.1 htp
      rw [abs_le]
      constructor <;> linarith
    have e2 := rnd53 hsum
    have h2 : |(Dbl.rnd (a.1 + x)).1 - (t + p.1.1 * p.2.1)| ≤ (e + 1) * 2⁻¹ ^ 49 := by
      have := (abs_sub_le (Dbl.rnd (a.1 + x)).1 (a.1 + x) (t + p.1.1 * p.2.1)).trans
        (add_le_add e2 hoff)
      rw [hu] at this ⊢
      have h0 : (0 : ℚ) < 2⁻¹ ^ 53 := by positivity
      linarith
    have := ih (Dbl.rnd (a.1 + x)) (e + 1) (by linarith) (by linarith) (t + p.1.1 * p.2.1) h2
      (by linarith [abs_add_le t (p.1.1 * p.2.1)])
    rw [← add_assoc, show e + (↑l.length + 1) = e + 1 + ↑l.length by ring]
    exact this

/-- Double precision, with inner products of up to a million terms. -/
noncomputable def dblPrecise (ℓ : Nat) (hℓ : ℓ ≤ 2 ^ 20) : Precise Dbl ((ℓ + 1) * 2⁻¹ ^ 49) ℓ where
  Num _ := True
  val x := (x.1 : ℝ)
  zero := dblMachine.zero
  one := dblMachine.one
  lt x y _ _ := by simp [Arith.lt]
  add x y _ _ hx hy := ⟨trivial, by
    have hx : |x.1| ≤ 4 := by exact_mod_cast hx
    have hy : |y.1| ≤ 4 := by exact_mod_cast hy
    have := rnd53_real (q := x.1 + y.1) (b := 16) (by linarith [abs_add_le x.1 y.1])
    push_cast at this
    refine this.trans ?_
    have h0 : (0 : ℝ) ≤ ℓ * 2⁻¹ ^ 49 := by positivity
    have h1 : (16 : ℝ) * 2⁻¹ ^ 53 = 2⁻¹ ^ 49 := by norm_num
    linarith⟩
  sub x y _ _ hx hy := ⟨trivial, by
    have hx : |x.1| ≤ 4 := by exact_mod_cast hx
    have hy : |y.1| ≤ 4 := by exact_mod_cast hy
    have := rnd53_real (q := x.1 - y.1) (b := 16) (by linarith [abs_sub x.1 y.1])
    push_cast at this
    refine this.trans ?_
    have h0 : (0 : ℝ) ≤ ℓ * 2⁻¹ ^ 49 := by positivity
    have h1 : (16 : ℝ) * 2⁻¹ ^ 53 = 2⁻¹ ^ 49 := by norm_num
    linarith⟩
  mul x y _ _ hx hy := ⟨trivial, by
    have hx : |x.1| ≤ 4 := by exact_mod_cast hx
    have hy : |y.1| ≤ 4 := by exact_mod_cast hy
    have := rnd53_real (q := x.1 * y.1) (b := 16) (by
      rw [abs_mul]; nlinarith [abs_nonneg x.1, abs_nonneg y.1])
    push_cast at this
    refine this.trans ?_
    have h0 : (0 : ℝ) ≤ ℓ * 2⁻¹ ^ 49 := by positivity
    have h1 : (16 : ℝ) * 2⁻¹ ^ 53 = 2⁻¹ ^ 49 := by norm_num
    linarith⟩
  dot l hl _ hs := ⟨trivial, by
    have hs' : (l.map fun p => |p.1.1 * p.2.1|).sum ≤ 4 := by
      have : (((l.map fun p => |p.1.1 * p.2.1|).sum : ℚ) : ℝ) =
          (l.map fun p => |(p.1.1 : ℝ) * (p.2.1 : ℝ)|).sum := by
        rw [← Rat.coe_castHom, map_list_sum]
        simp [Function.comp_def]
      rw [← this] at hs
      exact_mod_cast hs
    have hl' : (l.length : ℚ) ≤ ℓ := by exact_mod_cast hl
    have hℓ' : (ℓ : ℚ) ≤ 2 ^ 20 := by exact_mod_cast hℓ
    have h := fold53 l (.rnd 0) 0 le_rfl (by linarith) 0 (by simp [Dbl.rnd, double])
      (by simpa using hs')
    rw [zero_add, zero_add] at h
    have h : |(dot l : Dbl).1 - (l.map fun p => p.1.1 * p.2.1).sum| ≤ l.length * 2⁻¹ ^ 49 := h
    have h2 := (Rat.cast_le (K := ℝ)).2 h
    rw [Rat.cast_abs, Rat.cast_sub] at h2
    have h3 : (((l.map fun p => p.1.1 * p.2.1).sum : ℚ) : ℝ) =
        (l.map fun p => (p.1.1 : ℝ) * (p.2.1 : ℝ)).sum := by
      rw [← Rat.coe_castHom, map_list_sum]
      simp [Function.comp_def]
    rw [h3] at h2
    refine h2.trans ?_
    push_cast
    refine mul_le_mul_of_nonneg_right ?_ (by positivity)
    have : (l.length : ℝ) ≤ ℓ := by exact_mod_cast hl
    linarith⟩

/-- A double near a real number. -/
theorem dbl_near (x : ℝ) {ε : ℝ} (hε : 0 < ε) :
    ∃ y : Dbl, |((y.1 : ℚ) : ℝ) - x| ≤ |x| * 2⁻¹ ^ 53 + 2 * ε := by
  obtain ⟨q, h1, h2⟩ := exists_rat_btwn (show x < x + ε by linarith)
  refine ⟨.rnd q, ?_⟩
  have h3 := rnd53_real (q := q) le_rfl
  have h4 : |(q : ℝ) - x| ≤ ε := abs_le.2 ⟨by linarith, by linarith⟩
  have h5 : ((|q| : ℚ) : ℝ) ≤ |x| + ε := by
    push_cast
    have := abs_off h4 (le_refl |x|)
    linarith
  have h6 := off_trans h3 h4
  have h7 := mul_le_mul_of_nonneg_right h5 (by positivity : (0 : ℝ) ≤ 2⁻¹ ^ 53)
  have h8 : ε * (2⁻¹ : ℝ) ^ 53 ≤ ε * 1 := mul_le_mul_of_nonneg_left (by norm_num) hε.le
  linarith

theorem dbl_act {L : ℝ} {a : Act ℝ} (h : Gentle L a.eval) (ℓ : Nat) (hℓ : ℓ ≤ 2 ^ 20) :
    ∃ f : Dbl → Dbl, (dblPrecise ℓ hℓ).Computes (2⁻¹ ^ 50) f a := by
  have hx : ∀ x : Dbl, ∃ y : Dbl, |((y.1 : ℚ) : ℝ) - a.eval ((x.1 : ℚ) : ℝ)| ≤
      |a.eval ((x.1 : ℚ) : ℝ)| * 2⁻¹ ^ 53 + 2 * 2⁻¹ ^ 53 := fun x => dbl_near _ (by positivity)
  choose f hf using hx
  refine ⟨f, fun x _ hx => ⟨trivial, (hf x).trans ?_⟩⟩
  have h1 := (h _ _ hx hx).1
  change |a.eval ((x.1 : ℚ) : ℝ)| ≤ 1 at h1
  have h2 := mul_le_mul_of_nonneg_right h1 (by positivity : (0 : ℝ) ≤ 2⁻¹ ^ 53)
  norm_num at h2 ⊢
  linarith

theorem dbl_acts {L : ℝ} {l : List (Act ℝ)} (h : ∀ a ∈ l, Gentle L a.eval) (ℓ : Nat)
    (hℓ : ℓ ≤ 2 ^ 20) :
    ∃ fs : List (Dbl → Dbl), List.Forall₂ ((dblPrecise ℓ hℓ).Computes (2⁻¹ ^ 50)) fs l := by
  induction l with
  | nil => exact ⟨[], .nil⟩
  | cons a l ih =>
    obtain ⟨f, hf⟩ := dbl_act (h a List.mem_cons_self) ℓ hℓ
    obtain ⟨fs, hfs⟩ := ih fun b hb => h b (List.mem_cons_of_mem _ hb)
    exact ⟨f :: fs, .cons hf hfs⟩

end Witness

open Witness in
/-- C130: every such automaton has a double precision version whose kernel, weights, step size and
growth functions are correct to fifty bits. -/
theorem double_represents {d : CCADyn} {L : ℝ} (p : Plain d)
    (hk : ∑ a, ∑ b, |d.nbLayer.2 a b| ≤ 1)
    (ha : ∀ a ∈ d.genesis ++ d.persistence, Gentle L a.eval) (hdt : 0 ≤ d.dt ∧ d.dt ≤ 1) (ℓ : Nat)
    (hℓ : ℓ ≤ 2 ^ 20) :
    ∃ ca, Nonempty ((dblPrecise ℓ hℓ).Represents (2⁻¹ ^ 50) d ca) := by
  obtain ⟨gs, hgs⟩ := dbl_acts (fun a h => ha a (List.mem_append_left _ h)) ℓ hℓ
  obtain ⟨ps, hps⟩ := dbl_acts (fun a h => ha a (List.mem_append_right _ h)) ℓ hℓ
  obtain ⟨k, hk'⟩ : ∃ k : ℝ, k = 2 * d.nbLayer.1 + 1 := ⟨_, rfl⟩
  have hkpos : 0 < k := by rw [hk']; positivity
  have h1 : ∀ a b, ∃ y : Dbl, |((y.1 : ℚ) : ℝ) - d.nbLayer.2 a b| ≤
      |d.nbLayer.2 a b| * 2⁻¹ ^ 53 + 2 * (2⁻¹ ^ 53 / (k * k)) := fun a b =>
    dbl_near _ (by positivity)
  choose κ hκ using h1
  obtain ⟨w, hw⟩ := dbl_near (1 / ((d.ext : ℝ) * d.int))
    (by positivity : (0 : ℝ) < 2⁻¹ ^ 53 / (d.int + 1))
  obtain ⟨h, hh⟩ := dbl_near d.dt (by positivity : (0 : ℝ) < 2⁻¹ ^ 53)
  refine ⟨⟨identityLayer d.ext d.int .circular,
    .ofKernel d.ext d.int .circular (2 * d.nbLayer.1 + 1) κ, gs, ps, .functional fun _ _ => w,
    .rnd (1 / 10), h, .rnd 0⟩, ⟨⟨κ, fun _ _ => w, rfl, rfl, rfl, ⟨fun _ _ => trivial, ?_⟩,
    ⟨fun _ _ => trivial, fun e => ?_⟩, hgs, hps, ⟨trivial, ?_⟩⟩⟩⟩
  · refine (Finset.sum_le_sum fun a _ => Finset.sum_le_sum fun b _ => hκ a b).trans ?_
    simp only [Finset.sum_add_distrib, ← Finset.sum_mul, Finset.sum_const, Finset.card_univ,
      Fintype.card_fin, nsmul_eq_mul]
    push_cast
    rw [← hk']
    have e1 : k * k * 2 * ((2⁻¹ : ℝ) ^ 53 / (k * k)) = 2 * 2⁻¹ ^ 53 := by
      field_simp
    rw [e1]
    have := mul_le_mul_of_nonneg_right hk (by positivity : (0 : ℝ) ≤ 2⁻¹ ^ 53)
    norm_num at this ⊢
    linarith
  · show ∑ _o : Fin d.int, |((w.1 : ℚ) : ℝ) - 1 / ((d.ext : ℝ) * d.int)| ≤ _
    refine (Finset.sum_le_sum fun _ _ => hw).trans ?_
    rw [Finset.sum_const, Finset.card_univ, Fintype.card_fin, nsmul_eq_mul,
      abs_of_nonneg (by positivity)]
    have he : (1 : ℝ) ≤ d.ext := by exact_mod_cast p.ext_pos
    have e1 : (d.int : ℝ) * (1 / ((d.ext : ℝ) * d.int)) ≤ 1 := by
      rcases Nat.eq_zero_or_pos d.int with h0 | h0
      · rw [h0]; simp
      · have : (0 : ℝ) < d.int := by exact_mod_cast h0
        rw [show (d.int : ℝ) * (1 / ((d.ext : ℝ) * d.int)) = 1 / d.ext by field_simp,
          div_le_one (by linarith)]
        exact he
    have e2 : (d.int : ℝ) * (2⁻¹ ^ 53 / (d.int + 1)) ≤ 2⁻¹ ^ 53 := by
      rw [mul_div_assoc', div_le_iff₀ (by positivity)]
      have : (0 : ℝ) < 2⁻¹ ^ 53 := by positivity
      linarith
    have e3 := mul_le_mul_of_nonneg_right e1 (by positivity : (0 : ℝ) ≤ 2⁻¹ ^ 53)
    have e4 : (d.int : ℝ) * (1 / ((d.ext : ℝ) * d.int) * 2⁻¹ ^ 53 + 2 * (2⁻¹ ^ 53 / (d.int + 1))) =
        (d.int : ℝ) * (1 / ((d.ext : ℝ) * d.int)) * 2⁻¹ ^ 53 +
          2 * ((d.int : ℝ) * (2⁻¹ ^ 53 / (d.int + 1))) := by ring
    rw [e4]
    norm_num at e2 e3 ⊢
    linarith
  · show |((h.1 : ℚ) : ℝ) - d.dt| ≤ _
    refine hh.trans ?_
    rw [abs_of_nonneg hdt.1]
    have := mul_le_mul_of_nonneg_right hdt.2 (by positivity : (0 : ℝ) ≤ 2⁻¹ ^ 53)
    norm_num at this ⊢
    linarith

/-! ## Examples -/

/-- The growth functions of Lenia are gentle. -/
theorem gaussian_gentle (mu sigma : ℝ) :
    Gentle (2 / |eps9 + sigma|) (Act.gaussian mu sigma true).eval := by
  intro x y _ _
  have h1 := bump_mem mu sigma x
  have h2 := bump_lip mu sigma x y
  simp only [Act.eval, gaussianFn, if_true]
  refine ⟨abs_le.2 ⟨by linarith [h1.1], by linarith [h1.2]⟩, ?_⟩
  rw [show bump mu sigma x * 2 - 1 - (bump mu sigma y * 2 - 1) =
    2 * (bump mu sigma x - bump mu sigma y) by ring, abs_mul, abs_two]
  calc _ ≤ 2 * (1 / |eps9 + sigma| * |x - y|) := by linarith
    _ = _ := by ring

theorem gentle_mono {f : ℝ → ℝ} {L L' : ℝ} (h : Gentle L f) (hL : L ≤ L') : Gentle L' f :=
  fun x y hx hy => ⟨(h x y hx hy).1,
    (h x y hx hy).2.trans (mul_le_mul_of_nonneg_right hL (abs_nonneg _))⟩

theorem Witness.orbium_tolerates {K : AnyKernel} (hK : K.1 = 13) (hk : ∑ a, ∑ b, |K.2 a b| ≤ 1) :
    Tolerates (Witness.orbiumDyn K) 134 ((729 + 1) * 2⁻¹ ^ 49) (2⁻¹ ^ 50) 729 := by
  refine ⟨hk, ?_, (by decide : 1 < 4), by norm_num [Witness.orbiumDyn], by norm_num, by norm_num, ?_⟩
  · intro a ha
    have : a = .gaussian 0.15 0.015 true := by simpa [Witness.orbiumDyn] using ha
    subst this
    refine gentle_mono (gaussian_gentle _ _) ?_
    unfold eps9
    rw [abs_of_pos (by norm_num)]
    norm_num
  · show 9 ≤ 729 ∧ (2 * K.1 + 1) * (2 * K.1 + 1) ≤ 729 ∧ 1 ≤ 729
    rw [hK]; norm_num

/-- The hypotheses can be met: the orbium in double precision.  Its first eight steps are correct
to two digits, from every universe on every torus. -/
example : ∃ (K : AnyKernel) (ca : CCA Witness.Dbl 1 1), K.1 = 13 ∧
    ∀ (u : Univ Witness.Dbl N 1 H W), (∀ n e i j, 0 ≤ (u n e i j).1 ∧ (u n e i j).1 ≤ 1) →
      13 ≤ H → 13 ≤ W →
      ∃ u' ca' v' s', iterate CCA.leniaForward 8 ca u = .ok (u', ca') ∧
        iterate CCA.leniaForward 8 ((Witness.orbiumDyn K).toCCA 0)
          (fun n e i j => (((u n e i j).1 : ℚ) : ℝ)) = .ok (v', s') ∧
        ∀ n e i j, |(((u' n e i j).1 : ℚ) : ℝ) - v' n e i j| ≤ 1 / 100 := by
  obtain ⟨K, hK⟩ : ∃ K, getKernel ⟨"Gaussian", some 13, some { mu := some 0.5, sigma := some 0.15 }⟩
      = .ok K ∧ K.1 = 13 := by simp [getKernel, kernelFn]
  obtain ⟨h1, _, _, _, h5⟩ := kernel_normalised _ (by simp [radialNames]) K hK.1
  have hk : ∑ a, ∑ b, |K.2 a b| ≤ 1 := by
    simp only [abs_of_nonneg (h1 _ _)]
    exact h5.le
  have p : Plain (Witness.orbiumDyn K) := ⟨rfl, rfl, rfl, Nat.one_pos, dvd_refl 1, rfl, rfl⟩
  have T := Witness.orbium_tolerates hK.2 hk
  obtain ⟨ca, ⟨R⟩⟩ := double_represents p hk T.acts T.dt 729 (by norm_num)
  refine ⟨K, ca, hK.2, fun u hu hH hW => ?_⟩
  have hs : (Witness.dblPrecise 729 (by norm_num)).Sane u := fun n e i j => ⟨trivial, by
    have := hu n e i j
    constructor
    · show (0 : ℝ) ≤ (((u n e i j).1 : ℚ) : ℝ)
      exact_mod_cast this.1
    · show (((u n e i j).1 : ℚ) : ℝ) ≤ 1
      exact_mod_cast this.2⟩
  have hH' : 1 ≤ H ∧ (Witness.orbiumDyn K).nbLayer.1 ≤ H := by
    show 1 ≤ H ∧ K.1 ≤ H; rw [hK.2]; omega
  have hW' : 1 ≤ W ∧ (Witness.orbiumDyn K).nbLayer.1 ≤ W := by
    show 1 ≤ W ∧ K.1 ≤ W; rw [hK.2]; omega
  obtain ⟨u', ca', v', s', a1, a2, _, a4⟩ := lenia_drift p R T 0 8 (ε := 0) u _ hs
    (fun n e i j => (hs n e i j).2) (near_refl _) hH' hW'
  refine ⟨u', ca', v', s', a1, a2, fun n e i j => (a4 n e i j).trans ?_⟩
  have hd : (Witness.orbiumDyn K).dt = 0.1 := rfl
  have he : (Witness.orbiumDyn K).ext = 1 := rfl
  rw [hd, he, leniaSlip]
  norm_num [Finset.sum_range_succ]

end Yuca
