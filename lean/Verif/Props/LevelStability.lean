import Verif.Props.LevelWaves
import Verif.Props.Faint

/-! # C127: which levels are stable

A homogeneous universe that stands still attracts everything nearby if every wave on it is damped,
and is unstable if one grows. -/

namespace Yuca

open Arith Spec

variable {N H W : Nat}

namespace Spec

/-- The automaton steps every channel of every sample as a grid of its own. -/
def Cellwise {d : CCADyn} {r : Nat} (fwd : CCA ℝ d.ext d.int → Univ ℝ N d.ext H W →
      Except PyErr (Univ ℝ N d.ext H W × CCA ℝ d.ext d.int))
    (h : ℝ) (κ : Fin (2 * r + 1) → Fin (2 * r + 1) → ℝ) (R : ℝ → ℝ → ℝ) : Prop :=
  ∀ (t : ℝ) (u : Univ ℝ N d.ext H W), ∃ t', fwd (d.toCCA t) u =
    .ok ((fun n e => gridStep h κ R (u n e)), d.toCCA t')

/-- Universes near the level come back to it geometrically, whatever their pattern. -/
def LevelAttracts {d : CCADyn} (fwd : CCA ℝ d.ext d.int → Univ ℝ N d.ext H W →
      Except PyErr (Univ ℝ N d.ext H W × CCA ℝ d.ext d.int)) (x : ℝ) : Prop :=
  ∃ δ > 0, ∃ M p, 0 ≤ p ∧ p < 1 ∧ ∀ ε ≤ δ, ∀ t u, CloseBy ε u (level N d.ext H W x) → ∀ n,
    ∃ u' s, iterate fwd n (d.toCCA t) u = .ok (u', s) ∧
      CloseBy (M * p ^ n * ε) u' (level N d.ext H W x)

/-- There are universes as near the level as you like that leave a fixed neighbourhood of it. -/
def LevelUnstable {d : CCADyn} (fwd : CCA ℝ d.ext d.int → Univ ℝ N d.ext H W →
      Except PyErr (Univ ℝ N d.ext H W × CCA ℝ d.ext d.int)) (x : ℝ) : Prop :=
  ∃ δ > 0, ∀ η > 0, ∃ u, CloseBy η u (level N d.ext H W x) ∧ ∀ t, ∃ k u' s,
    iterate fwd k (d.toCCA t) u = .ok (u', s) ∧ ∃ n e i j, δ < |u' n e i j - x|

end Spec

section

variable {d : CCADyn} {fwd : CCA ℝ d.ext d.int → Univ ℝ N d.ext H W →
      Except PyErr (Univ ℝ N d.ext H W × CCA ℝ d.ext d.int)} {h : ℝ} {r : Nat}
  {κ : Fin (2 * r + 1) → Fin (2 * r + 1) → ℝ} {R : ℝ → ℝ → ℝ} {x a b : ℝ}

theorem cellwise_run (hf : Cellwise fwd h κ R) (n : Nat) : ∀ (t : ℝ) (u : Univ ℝ N d.ext H W),
    ∃ s, iterate fwd n (d.toCCA t) u = .ok ((fun n' e => (gridStep h κ R)^[n] (u n' e)), s) := by
  induction n with
  | zero => intro t u; exact ⟨_, rfl⟩
  | succ n ih =>
    intro t u
    obtain ⟨t', h1⟩ := hf t u
    obtain ⟨s, h2⟩ := ih t' fun n e => gridStep h κ R (u n e)
    refine ⟨s, ?_⟩
    simp only [iterate, h1, bind, Except.bind]
    exact h2

theorem levelMap_eigen {v : GridVec H W} {g : ℝ} (hg : gatherMap κ v = g • v) :
    levelMap h a b κ v = (1 + h * (a + b * g)) • v := by
  ext p
  rw [levelMap_apply, hg]
  show v p + h * (a * v p + b * (g * v p)) = (1 + h * (a + b * g)) * v p
  ring

theorem gatherMap_mode {v : GridVec H W} (hv : v ≠ 0) {g : ℝ} (hg : gatherMap κ v = g • v) :
    Mode κ (ofVec v) g := by
  constructor
  · by_contra hno
    push Not at hno
    refine hv ?_
    ext p
    exact hno p.1 p.2
  · intro i j
    have := congrArg (fun w : GridVec H W => w (i, j)) hg
    exact this

theorem mode_gatherMap {w : Grid ℝ H W} {g : ℝ} (hw : Mode κ w g) :
    toVec w ≠ 0 ∧ gatherMap κ (toVec w) = g • toVec w := by
  obtain ⟨⟨i, j, hij⟩, hg⟩ := hw
  refine ⟨fun h0 => hij ?_, ?_⟩
  · have := congrArg (fun w : GridVec H W => w (i, j)) h0
    exact this
  · ext p
    exact hg p.1 p.2

/-- C127: a rest level attracts if every wave is dampened. -/
theorem level_attracts (hf : Cellwise fwd h κ R) (hκ : Balanced κ) (hx0 : 0 < x) (hx1 : x < 1)
    (hR : SlopesAt R x ((∑ a, ∑ b, κ a b) * x) a b)
    (hw : ∀ p < H, ∀ q < W, |1 + h * (a + b * waveGain κ H W p q)| < 1) : LevelAttracts fwd x := by
  have hsym := levelMap_symmetric (H := H) (W := W) hκ h a b
  obtain ⟨q, hq0, hq1, hq⟩ := symmetric_contracts hsym fun μ v hv hμ => by
    by_cases hb : h * b = 0
    · have hv' : ∃ p, v p ≠ 0 := by
        by_contra hno
        push Not at hno
        exact hv (by ext p; exact hno p)
      obtain ⟨p, hp⟩ := hv'
      have e := congrArg (fun w : GridVec H W => w p) hμ
      have e' : v p + h * (a * v p + b * gatherMap κ v p) = μ * v p :=
        (levelMap_apply κ h a b v p).symm.trans e
      have hμe : μ = 1 + h * a := by
        apply mul_right_cancel₀ hp
        linear_combination -e' + gatherMap κ v p * hb
      have hH : 0 < H := by have := p.1.isLt; omega
      have hW : 0 < W := by have := p.2.isLt; omega
      have := hw 0 hH 0 hW
      rwa [mul_add, ← mul_assoc, hb, zero_mul, add_zero, ← hμe] at this
    · have hg : gatherMap κ v = ((μ - 1 - h * a) / (h * b)) • v := by
        ext p
        have e := congrArg (fun w : GridVec H W => w p) hμ
        have e' : v p + h * (a * v p + b * gatherMap κ v p) = μ * v p :=
          (levelMap_apply κ h a b v p).symm.trans e
        show gatherMap κ v p = (μ - 1 - h * a) / (h * b) * v p
        rw [div_mul_eq_mul_div, eq_div_iff hb]
        linear_combination e'
      obtain ⟨p, hp, q, hq, hgain⟩ := mode_gain hκ (gatherMap_mode hv hg)
      have := hw p hp q hq
      rw [← hgain] at this
      have e : 1 + h * (a + b * ((μ - 1 - h * a) / (h * b))) = μ := by
        have : h * (b * ((μ - 1 - h * a) / (h * b))) = μ - 1 - h * a := by
          rw [← mul_assoc]; exact mul_div_cancel₀ _ hb
        rw [mul_add, this]; ring
      rwa [e] at this
  obtain ⟨δ, hδ, p, hp0, hp1, hp⟩ := attracts_near (offLevel_linear (h := h) hx0 hx1 hR) hq0 hq1 hq
  obtain ⟨c, hc⟩ : ∃ c : ℝ, c = Fintype.card (Fin H × Fin W) + 1 := ⟨_, rfl⟩
  have hc0 : 0 < c := by rw [hc]; positivity
  refine ⟨δ / c, by positivity, c, p, hp0, hp1, fun ε hε t u hu n => ?_⟩
  obtain ⟨s, hs⟩ := cellwise_run hf n t u
  refine ⟨_, s, hs, fun n' e i j => ?_⟩
  have hε0 : 0 ≤ ε := (abs_nonneg _).trans (hu n' e i j)
  have hv : ‖toVec fun i j => u n' e i j - x‖ ≤ c * ε := by
    rw [hc]
    exact norm_le_card hε0 fun p => hu n' e p.1 p.2
  have hvδ : c * ε ≤ δ := by rwa [le_div_iff₀ hc0, mul_comm] at hε
  have h1 := hp _ (hv.trans hvδ) n
  have h2 := PiLp.norm_apply_le ((offLevel h κ R x)^[n] (toVec fun i j => u n' e i j - x)) (i, j)
  rw [offLevel_iterate h κ R x n (u n' e) i j] at h2
  show |(gridStep h κ R)^[n] (u n' e) i j - x| ≤ c * p ^ n * ε
  have h3 := mul_le_mul_of_nonneg_left hv (pow_nonneg hp0 n)
  have h4 : |(gridStep h κ R)^[n] (u n' e) i j - x| ≤ _ := h2
  linarith

/-- C127: a rest level is unstable if some mode of the kernel is amplified. -/
theorem level_unstable_mode (hf : Cellwise fwd h κ R) (hκ : Balanced κ) (hx0 : 0 < x) (hx1 : x < 1)
    (hR : SlopesAt R x ((∑ a, ∑ b, κ a b) * x) a b) (hN : 0 < N) (hext : 0 < d.ext)
    {w : Grid ℝ H W} {g : ℝ} (hw : Mode κ w g) (hg : 1 < |1 + h * (a + b * g)|) :
    LevelUnstable fwd x := by
  obtain ⟨w0, w1⟩ := mode_gatherMap hw
  obtain ⟨δ, hδ, hu⟩ := unstable_near (levelMap_symmetric hκ h a b)
    (offLevel_linear (h := h) hx0 hx1 hR) w0 (levelMap_eigen w1) hg
  obtain ⟨c, hc⟩ : ∃ c : ℝ, c = Fintype.card (Fin H × Fin W) + 1 := ⟨_, rfl⟩
  have hc0 : 0 < c := by rw [hc]; positivity
  refine ⟨δ / c, by positivity, fun η hη => ?_⟩
  obtain ⟨v, hv, k, hk⟩ := hu η hη
  refine ⟨fun _ _ i j => x + v (i, j), fun _ _ i j => ?_, fun t => ?_⟩
  · show |x + v (i, j) - x| ≤ η
    rw [add_sub_cancel_left]
    exact (PiLp.norm_apply_le v (i, j)).trans hv
  · obtain ⟨s, hs⟩ := cellwise_run hf k t fun _ _ i j => x + v (i, j)
    refine ⟨k, _, s, hs, ⟨0, hN⟩, ⟨0, hext⟩, ?_⟩
    by_contra hno
    push Not at hno
    refine absurd hk (not_lt.2 ?_)
    have hle : ‖(offLevel h κ R x)^[k] v‖ ≤ c * (δ / c) := by
      rw [hc]
      refine norm_le_card (by rw [← hc]; positivity) fun p => ?_
      have := offLevel_iterate h κ R x k (fun i j => x + v (i, j)) p.1 p.2
      simp only [add_sub_cancel_left] at this
      have e : (toVec fun i j => v (i, j) : GridVec H W) = v := rfl
      rw [e] at this
      rw [show p = (p.1, p.2) from rfl, this, ← hc]
      exact hno p.1 p.2
    rwa [mul_div_cancel₀ _ hc0.ne'] at hle

/-- C127: a rest level is unstable if some wave is amplified. -/
theorem level_unstable (hf : Cellwise fwd h κ R) (hκ : Balanced κ) (hx0 : 0 < x) (hx1 : x < 1)
    (hR : SlopesAt R x ((∑ a, ∑ b, κ a b) * x) a b) (hN : 0 < N) (hext : 0 < d.ext) (hH : 1 ≤ H)
    (hW : 1 ≤ W) {p q : Nat} (hg : 1 < |1 + h * (a + b * waveGain κ H W p q)|) :
    LevelUnstable fwd x :=
  level_unstable_mode hf hκ hx0 hx1 hR hN hext (wave_mode hκ hH hW p q) hg

end

/-! ## A cell that weighs less than another makes a negative mode -/

theorem roll_same {n : Nat} {i : Fin n} {d e : ℤ} (h : rollIdx i d = rollIdx i e)
    (hlt : |d - e| < n) : d = e := by
  have h1 := rollIdx_val i d
  have h2 := rollIdx_val i e
  rw [h, h2] at h1
  have h3 : (n : ℤ) ∣ (d - e) := by
    have := Int.ModEq.dvd (show ((i.val : ℤ) - d) ≡ i.val - e [ZMOD n] from h1.symm)
    rwa [show (i.val : ℤ) - e - (i.val - d) = d - e by ring] at this
  have := Int.eq_zero_of_abs_lt_dvd h3 hlt
  omega

theorem roll_add {n : Nat} (i : Fin n) (d e : ℤ) : rollIdx (rollIdx i d) e = rollIdx i (d + e) := by
  rw [rollIdx_eq_cyc, rollIdx_eq_cyc, rollIdx_eq_cyc, cyc_cyc]
  congr 1
  ring

/-- The entry of a kernel through which one cell sees another. -/
theorem gathered_point {r : Nat} (κ : Fin (2 * r + 1) → Fin (2 * r + 1) → ℝ) (hH : 2 * r + 1 ≤ H)
    (hW : 2 * r + 1 ≤ W) (i : Fin H) (j : Fin W) (a₀ b₀ : Fin (2 * r + 1)) :
    gathered κ (fun y x => if y = rollIdx i ((r : ℤ) - a₀.val) ∧ x = rollIdx j ((r : ℤ) - b₀.val)
      then 1 else 0) i j = κ a₀ b₀ := by
  unfold gathered
  rw [Finset.sum_eq_single a₀, Finset.sum_eq_single b₀]
  · simp
  · intro b _ hb
    dsimp only
    rw [if_neg, mul_zero]
    rintro ⟨-, hx⟩
    have := roll_same hx (by rw [abs_lt]; have := b.isLt; have := b₀.isLt; constructor <;> omega)
    exact hb (Fin.ext (by omega))
  · simp
  · intro a _ ha
    refine Finset.sum_eq_zero fun b _ => ?_
    dsimp only
    rw [if_neg, mul_zero]
    rintro ⟨hy, -⟩
    have := roll_same hy (by rw [abs_lt]; have := a.isLt; have := a₀.isLt; constructor <;> omega)
    exact ha (Fin.ext (by omega))
  · simp

/-- The centre of a kernel. -/
def Spec.mid (r : Nat) : Fin (2 * r + 1) := ⟨r, by omega⟩

/-- A balanced kernel with an entry above that of its centre turns some pattern against itself. -/
theorem negative_mode {r : Nat} {κ : Fin (2 * r + 1) → Fin (2 * r + 1) → ℝ} (hκ : Balanced κ)
    (hH : 2 * r + 1 ≤ H) (hW : 2 * r + 1 ≤ W) {a₀ b₀ : Fin (2 * r + 1)}
    (hlt : κ (mid r) (mid r) < κ a₀ b₀) : ∃ (w : Grid ℝ H W) (g : ℝ), g < 0 ∧ Mode κ w g := by
  obtain ⟨i₀, hi₀⟩ : ∃ i : Fin H, i = ⟨0, by omega⟩ := ⟨_, rfl⟩
  obtain ⟨j₀, hj₀⟩ : ∃ j : Fin W, j = ⟨0, by omega⟩ := ⟨_, rfl⟩
  obtain ⟨i₁, hi₁⟩ : ∃ i : Fin H, i = rollIdx i₀ ((r : ℤ) - a₀.val) := ⟨_, rfl⟩
  obtain ⟨j₁, hj₁⟩ : ∃ j : Fin W, j = rollIdx j₀ ((r : ℤ) - b₀.val) := ⟨_, rfl⟩
  have ha : (r : ℤ) - (a₀.rev.val : ℕ) = -((r : ℤ) - a₀.val) := by
    rw [Fin.val_rev]; have := a₀.isLt; omega
  have hb : (r : ℤ) - (b₀.rev.val : ℕ) = -((r : ℤ) - b₀.val) := by
    rw [Fin.val_rev]; have := b₀.isLt; omega
  have hi0 : i₀ = rollIdx i₁ ((r : ℤ) - (a₀.rev.val : ℕ)) := by
    rw [hi₁, ha, roll_add, add_neg_cancel, roll_nothing]
  have hj0 : j₀ = rollIdx j₁ ((r : ℤ) - (b₀.rev.val : ℕ)) := by
    rw [hj₁, hb, roll_add, add_neg_cancel, roll_nothing]
  have hmid : ∀ {n : Nat} (i : Fin n), i = rollIdx i ((r : ℤ) - ((mid r).val : ℕ)) := fun i => by
    show i = rollIdx i ((r : ℤ) - (r : ℕ)); rw [sub_self, roll_nothing]
  obtain ⟨A, hA⟩ : ∃ A : Grid ℝ H W, A = fun y x => if y = i₀ ∧ x = j₀ then 1 else 0 := ⟨_, rfl⟩
  obtain ⟨B, hB⟩ : ∃ B : Grid ℝ H W, B = fun y x => if y = i₁ ∧ x = j₁ then 1 else 0 := ⟨_, rfl⟩
  have g00 : gathered κ A i₀ j₀ = κ (mid r) (mid r) := by
    rw [← gathered_point κ hH hW i₀ j₀ (mid r) (mid r), ← hmid, ← hmid, hA]
  have g11 : gathered κ B i₁ j₁ = κ (mid r) (mid r) := by
    rw [← gathered_point κ hH hW i₁ j₁ (mid r) (mid r), ← hmid, ← hmid, hB]
  have g01 : gathered κ B i₀ j₀ = κ a₀ b₀ := by
    rw [← gathered_point κ hH hW i₀ j₀ a₀ b₀, ← hi₁, ← hj₁, hB]
  have g10 : gathered κ A i₁ j₁ = κ a₀ b₀ := by
    rw [← hκ, ← gathered_point κ hH hW i₁ j₁ a₀.rev b₀.rev, ← hi0, ← hj0, hA]
  have hinner : inner ℝ (toVec fun y x => A y x - B y x)
      (gatherMap κ (toVec fun y x => A y x - B y x)) < 0 := by
    rw [PiLp.inner_apply, Fintype.sum_prod_type]
    have e : ∀ i j, inner ℝ ((toVec fun y x => A y x - B y x : GridVec H W) (i, j))
        (gatherMap κ (toVec fun y x => A y x - B y x) (i, j)) =
        A i j * (gathered κ A i j - gathered κ B i j) -
          B i j * (gathered κ A i j - gathered κ B i j) := fun i j => by
      show gathered κ (fun y x => A y x - B y x) i j * (A i j - B i j) = _
      rw [← gathered_sub]; ring
    simp only [e, Finset.sum_sub_distrib]
    have pick : ∀ (i₂ : Fin H) (j₂ : Fin W) (f : Grid ℝ H W),
        ∑ i, ∑ j, (if i = i₂ ∧ j = j₂ then (1 : ℝ) else 0) * f i j = f i₂ j₂ := by
      intro i₂ j₂ f
      rw [Finset.sum_eq_single i₂, Finset.sum_eq_single j₂] <;> simp +contextual
    have pA := pick i₀ j₀ fun i j => gathered κ A i j - gathered κ B i j
    have pB := pick i₁ j₁ fun i j => gathered κ A i j - gathered κ B i j
    have hA' : ∀ i j, A i j = if i = i₀ ∧ j = j₀ then 1 else 0 := fun i j => by rw [hA]
    have hB' : ∀ i j, B i j = if i = i₁ ∧ j = j₁ then 1 else 0 := fun i j => by rw [hB]
    simp only [← hA'] at pA
    simp only [← hB'] at pB
    rw [pA, pB, g00, g01, g10, g11]
    linarith
  obtain ⟨μ, hμ, v, hv, hg⟩ := negative_eigenvalue (gatherMap_symmetric hκ) hinner
  exact ⟨ofVec v, μ, hμ, gatherMap_mode hv hg⟩

end Yuca
