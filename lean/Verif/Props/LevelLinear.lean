import Verif.Lemmas.Symmetric
import Verif.Props.StillLifes
import Verif.Props.GrayScottDecay

/-! # C127: steps near a homogeneous level

Near a level at which it stands still, a step of an automaton with one channel is a linear map up
to a remainder of higher order, and on the torus a balanced kernel makes that map symmetric. -/

namespace Yuca

open Arith

variable {N H W : Nat}

namespace Spec

/-- One step of one grid: every cell moves by `h` times a rate which depends on the cell and on what
the kernel gathers around it, and is clipped. -/
noncomputable def gridStep {r : Nat} (h : ℝ) (κ : Fin (2 * r + 1) → Fin (2 * r + 1) → ℝ)
    (R : ℝ → ℝ → ℝ) (x : Grid ℝ H W) : Grid ℝ H W :=
  fun i j => clip (x i j + h * R (x i j) (gathered κ x i j))

/-- Opposite entries of the kernel are equal. -/
def Balanced {r : Nat} (κ : Fin (2 * r + 1) → Fin (2 * r + 1) → ℝ) : Prop :=
  ∀ a b, κ a.rev b.rev = κ a b

/-- Near cell value `x` and surroundings `z` the rate is `a` times the change of the cell plus `b`
times the change of the surroundings, up to less than any share of them; it is 0 at `x`, `z`. -/
def SlopesAt (R : ℝ → ℝ → ℝ) (x z a b : ℝ) : Prop :=
  ∀ ε > 0, ∃ δ > 0, ∀ v w, |v| ≤ δ → |w| ≤ δ →
    |R (x + v) (z + w) - (a * v + b * w)| ≤ ε * (|v| + |w|)

end Spec

open Spec

/-- The cells of a grid as one vector. -/
abbrev GridVec (H W : Nat) := EuclideanSpace ℝ (Fin H × Fin W)

noncomputable def toVec (x : Grid ℝ H W) : GridVec H W := WithLp.toLp 2 fun p => x p.1 p.2

def ofVec (v : GridVec H W) : Grid ℝ H W := fun i j => v (i, j)

/-- Gathering by a kernel as a linear map. -/
noncomputable def gatherMap {r : Nat} (κ : Fin (2 * r + 1) → Fin (2 * r + 1) → ℝ) :
    GridVec H W →ₗ[ℝ] GridVec H W where
  toFun v := toVec (gathered κ (ofVec v))
  map_add' v w := by
    ext p
    show gathered κ _ _ _ = gathered κ _ _ _ + gathered κ _ _ _
    simp only [gathered, ofVec, PiLp.add_apply, mul_add, Finset.sum_add_distrib]
  map_smul' c v := by
    ext p
    show gathered κ _ _ _ = c * gathered κ _ _ _
    simp only [gathered, ofVec, PiLp.smul_apply, smul_eq_mul, Finset.mul_sum]
    refine Finset.sum_congr rfl fun a _ => Finset.sum_congr rfl fun b _ => ?_
    ring

theorem roll_swap {n : Nat} (d : ℤ) (f g : Fin n → ℝ) :
    ∑ i, f (rollIdx i d) * g i = ∑ i, f i * g (rollIdx i (-d)) := by
  refine (Equiv.sum_comp (rollEquiv n d) fun i => f i * g (rollIdx i (-d))).symm.trans ?_ |>.symm
  refine Finset.sum_congr rfl fun i _ => ?_
  have : rollIdx (rollIdx i d) (-d) = i := (rollEquiv n d).left_inv i
  show f (rollIdx i d) * g (rollIdx (rollIdx i d) (-d)) = _
  rw [this]

theorem roll_swap₂ (d e : ℤ) (f g : Grid ℝ H W) :
    ∑ i, ∑ j, f (rollIdx i d) (rollIdx j e) * g i j =
      ∑ i, ∑ j, f i j * g (rollIdx i (-d)) (rollIdx j (-e)) := by
  have h1 : ∀ i, ∑ j, f (rollIdx i d) (rollIdx j e) * g i j =
      ∑ j, f (rollIdx i d) j * g i (rollIdx j (-e)) := fun i =>
    roll_swap e (f (rollIdx i d)) (g i)
  simp only [h1]
  rw [Finset.sum_comm, Finset.sum_comm (s := Finset.univ (α := Fin H))]
  exact Finset.sum_congr rfl fun j _ => roll_swap d (fun i => f i j) fun i => g i (rollIdx j (-e))

theorem gathered_symm {r : Nat} {κ : Fin (2 * r + 1) → Fin (2 * r + 1) → ℝ} (hκ : Balanced κ)
    (f g : Grid ℝ H W) : ∑ i, ∑ j, gathered κ f i j * g i j = ∑ i, ∑ j, f i j * gathered κ g i j := by
  have e1 : ∑ i, ∑ j, gathered κ f i j * g i j = ∑ a, ∑ b, κ a b * ∑ i, ∑ j,
      f (rollIdx i ((r : Int) - a.val)) (rollIdx j ((r : Int) - b.val)) * g i j := by
    simp only [gathered, Finset.mul_sum, Finset.sum_mul]
    rw [Finset.sum_congr rfl fun i _ => Finset.sum_comm, Finset.sum_comm]
    refine Finset.sum_congr rfl fun a _ => ?_
    rw [Finset.sum_congr rfl fun i _ => Finset.sum_comm, Finset.sum_comm]
    simp only [mul_assoc]
  have e2 : ∑ i, ∑ j, f i j * gathered κ g i j = ∑ a, ∑ b, κ a b * ∑ i, ∑ j,
      f i j * g (rollIdx i ((r : Int) - a.val)) (rollIdx j ((r : Int) - b.val)) := by
    simp only [gathered, Finset.mul_sum]
    rw [Finset.sum_congr rfl fun i _ => Finset.sum_comm, Finset.sum_comm]
    refine Finset.sum_congr rfl fun a _ => ?_
    rw [Finset.sum_congr rfl fun i _ => Finset.sum_comm, Finset.sum_comm]
    refine Finset.sum_congr rfl fun b _ => Finset.sum_congr rfl fun i _ =>
      Finset.sum_congr rfl fun j _ => ?_
    ring
  rw [e1, e2, ← Equiv.sum_comp Fin.revPerm]
  refine Finset.sum_congr rfl fun a _ => ?_
  rw [← Equiv.sum_comp Fin.revPerm]
  refine Finset.sum_congr rfl fun b _ => ?_
  have ha : (r : ℤ) - (a.rev : ℕ) = -((r : ℤ) - a.val) := by rw [Fin.val_rev]; have := a.isLt; omega
  have hb : (r : ℤ) - (b.rev : ℕ) = -((r : ℤ) - b.val) := by rw [Fin.val_rev]; have := b.isLt; omega
  show κ a.rev b.rev * _ = _
  rw [hκ]
  congr 1
  show ∑ i, ∑ j, f (rollIdx i ((r : ℤ) - (a.rev : ℕ))) (rollIdx j ((r : ℤ) - (b.rev : ℕ))) * g i j = _
  rw [ha, hb, roll_swap₂, neg_neg, neg_neg]

theorem gatherMap_symmetric {r : Nat} {κ : Fin (2 * r + 1) → Fin (2 * r + 1) → ℝ}
    (hκ : Balanced κ) : (gatherMap (H := H) (W := W) κ).IsSymmetric := by
  intro v w
  rw [PiLp.inner_apply, PiLp.inner_apply, Fintype.sum_prod_type, Fintype.sum_prod_type]
  have h := gathered_symm hκ (ofVec w) (ofVec v)
  have e1 : ∀ i j, inner ℝ ((gatherMap κ v : GridVec H W) (i, j)) (w (i, j)) =
      ofVec w i j * gathered κ (ofVec v) i j := fun i j => rfl
  have e2 : ∀ i j, inner ℝ (v (i, j)) ((gatherMap κ w : GridVec H W) (i, j)) =
      gathered κ (ofVec w) i j * ofVec v i j := fun i j => rfl
  simp only [e1, e2]
  exact h.symm

/-- The linear part of a step at a level. -/
noncomputable def levelMap {r : Nat} (h a b : ℝ) (κ : Fin (2 * r + 1) → Fin (2 * r + 1) → ℝ) :
    GridVec H W →ₗ[ℝ] GridVec H W := (1 + h * a) • LinearMap.id + (h * b) • gatherMap κ

theorem levelMap_symmetric {r : Nat} {κ : Fin (2 * r + 1) → Fin (2 * r + 1) → ℝ}
    (hκ : Balanced κ) (h a b : ℝ) : (levelMap (H := H) (W := W) h a b κ).IsSymmetric := by
  intro v w
  have hK := gatherMap_symmetric (H := H) (W := W) hκ v w
  simp only [levelMap, LinearMap.add_apply, LinearMap.smul_apply, LinearMap.id_apply,
    inner_add_left, inner_add_right, real_inner_smul_left, real_inner_smul_right, hK]

theorem levelMap_apply {r : Nat} (κ : Fin (2 * r + 1) → Fin (2 * r + 1) → ℝ) (h a b : ℝ)
    (v : GridVec H W) (p : Fin H × Fin W) : levelMap h a b κ v p =
      v p + h * (a * v p + b * gatherMap κ v p) := by
  show (1 + h * a) * v p + h * b * gatherMap κ v p = _
  ring

/-- A step seen from a level. -/
noncomputable def offLevel {r : Nat} (h : ℝ) (κ : Fin (2 * r + 1) → Fin (2 * r + 1) → ℝ)
    (R : ℝ → ℝ → ℝ) (x : ℝ) (v : GridVec H W) : GridVec H W :=
  toVec fun i j => gridStep h κ R (fun i j => x + ofVec v i j) i j - x

theorem norm_le_card {ι : Type*} [Fintype ι] {x : EuclideanSpace ℝ ι} {B : ℝ} (hB : 0 ≤ B)
    (h : ∀ i, |x i| ≤ B) : ‖x‖ ≤ (Fintype.card ι + 1) * B := by
  refine le_of_sq_le_sq ?_ (by positivity)
  rw [EuclideanSpace.norm_sq_eq]
  have h1 : ∑ i, ‖x i‖ ^ 2 ≤ ∑ _i : ι, B ^ 2 :=
    Finset.sum_le_sum fun i _ => pow_le_pow_left₀ (norm_nonneg _) (h i) 2
  refine h1.trans ?_
  rw [Finset.sum_const, nsmul_eq_mul, Finset.card_univ, mul_pow]
  refine mul_le_mul_of_nonneg_right ?_ (sq_nonneg B)
  have : (0 : ℝ) ≤ Fintype.card ι := Nat.cast_nonneg _
  nlinarith

theorem gathered_offset {r : Nat} (κ : Fin (2 * r + 1) → Fin (2 * r + 1) → ℝ) (x : ℝ)
    (v : Grid ℝ H W) (i : Fin H) (j : Fin W) : gathered κ (fun i j => x + v i j) i j =
      (∑ a, ∑ b, κ a b) * x + gathered κ v i j := by
  simp only [gathered, mul_add, Finset.sum_add_distrib, Finset.sum_mul]

theorem clip_of_near {x y : ℝ} (h : |y - x| ≤ min x (1 - x)) : clip y = y := by
  have h1 := h.trans (min_le_left _ _)
  have h2 := h.trans (min_le_right _ _)
  rw [abs_le] at h1 h2
  unfold clip
  rw [min_eq_right (by linarith), max_eq_right (by linarith)]

/-- Near a rest level a step is linear up to less than any share of the distance. -/
theorem offLevel_linear {r : Nat} {κ : Fin (2 * r + 1) → Fin (2 * r + 1) → ℝ} {R : ℝ → ℝ → ℝ}
    {h x a b : ℝ} (hx0 : 0 < x) (hx1 : x < 1)
    (hR : SlopesAt R x ((∑ a, ∑ b, κ a b) * x) a b) :
    LinearNear (offLevel (H := H) (W := W) h κ R x) (levelMap h a b κ) := by
  intro ε hε
  obtain ⟨C, hC0, hC⟩ : ∃ C, 0 ≤ C ∧ ∀ v : GridVec H W, ‖gatherMap κ v‖ ≤ C * ‖v‖ :=
    ⟨_, norm_nonneg (LinearMap.toContinuousLinearMap (gatherMap (H := H) (W := W) κ)),
      fun v => (LinearMap.toContinuousLinearMap (gatherMap (H := H) (W := W) κ)).le_opNorm v⟩
  obtain ⟨D, hD0, hD⟩ : ∃ D, 0 ≤ D ∧ ∀ v : GridVec H W, ‖levelMap h a b κ v‖ ≤ D * ‖v‖ :=
    ⟨_, norm_nonneg (LinearMap.toContinuousLinearMap (levelMap (H := H) (W := W) h a b κ)),
      fun v => (LinearMap.toContinuousLinearMap (levelMap (H := H) (W := W) h a b κ)).le_opNorm v⟩
  obtain ⟨n, hn⟩ : ∃ n : ℝ, n = Fintype.card (Fin H × Fin W) + 1 := ⟨_, rfl⟩
  have hn0 : 0 < n := by rw [hn]; positivity
  obtain ⟨ε', hε'⟩ : ∃ e, e = ε / (n * ((|h| + 1) * (1 + C))) := ⟨_, rfl⟩
  have hε0 : 0 < ε' := by rw [hε']; positivity
  have hεe : n * (|h| * (ε' * (1 + C))) ≤ ε := by
    have : n * ((|h| + 1) * (ε' * (1 + C))) = ε := by rw [hε']; field_simp
    have h2 : 0 ≤ n * (ε' * (1 + C)) := by positivity
    nlinarith
  obtain ⟨δ, hδ, hr⟩ := hR ε' hε0
  obtain ⟨m, hm⟩ : ∃ m, m = min x (1 - x) := ⟨_, rfl⟩
  have hm0 : 0 < m := by rw [hm]; exact lt_min hx0 (by linarith)
  refine ⟨min (δ / (1 + C)) (m / (D + ε + 1)), lt_min (by positivity) (by positivity), fun v hv => ?_⟩
  have hv1 := hv.trans (min_le_left _ _)
  have hv2 := hv.trans (min_le_right _ _)
  rw [le_div_iff₀ (by positivity)] at hv1 hv2
  have hvn := norm_nonneg v
  have hcell : ∀ p, |v p| ≤ ‖v‖ := fun p => PiLp.norm_apply_le v p
  have hgcell : ∀ p, |gatherMap κ v p| ≤ C * ‖v‖ := fun p => (PiLp.norm_apply_le _ p).trans (hC v)
  have hrem : ∀ p, |R (x + v p) ((∑ a, ∑ b, κ a b) * x + gatherMap κ v p) -
      (a * v p + b * gatherMap κ v p)| ≤ ε' * ((1 + C) * ‖v‖) := fun p => by
    refine (hr _ _ ((hcell p).trans (by nlinarith)) ((hgcell p).trans (by nlinarith))).trans ?_
    exact mul_le_mul_of_nonneg_left (by linarith [hcell p, hgcell p]) hε0.le
  obtain ⟨E, hE⟩ : ∃ E : Fin H × Fin W → ℝ, E = fun p => h * (R (x + v p)
    ((∑ a, ∑ b, κ a b) * x + gatherMap κ v p) - (a * v p + b * gatherMap κ v p)) := ⟨_, rfl⟩
  have hEle : ∀ p, |E p| ≤ |h| * (ε' * (1 + C)) * ‖v‖ := fun p => by
    rw [hE, abs_mul]
    have := mul_le_mul_of_nonneg_left (hrem p) (abs_nonneg h)
    linarith
  have hEε : ∀ p, |E p| ≤ ε * ‖v‖ := fun p => by
    refine (hEle p).trans (mul_le_mul_of_nonneg_right ?_ hvn)
    refine le_trans ?_ hεe
    have h1 : 1 ≤ n := by rw [hn]; have : (0 : ℝ) ≤ Fintype.card (Fin H × Fin W) := Nat.cast_nonneg _; linarith
    exact le_mul_of_one_le_left (by positivity) h1
  have hstep : ∀ p, offLevel h κ R x v p = levelMap h a b κ v p + E p := fun p => by
    show clip (x + v p + h * R (x + v p) (gathered κ (fun i j => x + ofVec v i j) p.1 p.2)) - x = _
    have hg : gathered κ (fun i j => x + ofVec v i j) p.1 p.2 =
        (∑ a, ∑ b, κ a b) * x + gatherMap κ v p := gathered_offset κ x (ofVec v) p.1 p.2
    rw [hg]
    have hval : x + v p + h * R (x + v p) ((∑ a, ∑ b, κ a b) * x + gatherMap κ v p) =
        x + (levelMap h a b κ v p + E p) := by rw [levelMap_apply, hE]; ring
    rw [hval, clip_of_near (x := x), add_sub_cancel_left]
    rw [add_sub_cancel_left, ← hm]
    have e1 : |levelMap h a b κ v p| ≤ D * ‖v‖ := (PiLp.norm_apply_le _ p).trans (hD v)
    have := abs_add_le (levelMap h a b κ v p) (E p)
    have := hEε p
    linarith
  have : ‖offLevel h κ R x v - levelMap h a b κ v‖ ≤ n * (|h| * (ε' * (1 + C)) * ‖v‖) := by
    rw [hn]
    refine norm_le_card (by positivity) fun p => ?_
    rw [PiLp.sub_apply, hstep p, add_sub_cancel_left]
    exact hEle p
  refine this.trans ?_
  rw [← mul_assoc]
  exact mul_le_mul_of_nonneg_right hεe hvn

theorem offLevel_iterate {r : Nat} (h : ℝ) (κ : Fin (2 * r + 1) → Fin (2 * r + 1) → ℝ)
    (R : ℝ → ℝ → ℝ) (x : ℝ) (n : ℕ) (y : Grid ℝ H W) (i : Fin H) (j : Fin W) :
    (offLevel h κ R x)^[n] (toVec fun i j => y i j - x) (i, j) =
      (gridStep h κ R)^[n] y i j - x := by
  have key : ∀ n, (offLevel h κ R x)^[n] (toVec fun i j => y i j - x) =
      toVec fun i j => (gridStep h κ R)^[n] y i j - x := by
    intro n
    induction n with
    | zero => rfl
    | succ n ih =>
      rw [Function.iterate_succ_apply', ih, Function.iterate_succ_apply']
      show toVec (fun i j => gridStep h κ R (fun i j => x + ((gridStep h κ R)^[n] y i j - x)) i j - x) = _
      simp only [add_sub_cancel]
  rw [key]
  rfl

end Yuca
