import Verif.Props.LevelStability

/-! # C127: the levels of CCA, Lenia and Orbium

The rates of `CCA` and `Lenia` and the objects made from the stored configurations. -/

namespace Yuca

open Arith Spec

variable {N H W : Nat}

/-! ## Slopes of the rates of CCA and Lenia -/

theorem deriv_near {G : ℝ → ℝ} {z g : ℝ} (hG : HasDerivAt G g z) {ε : ℝ} (hε : 0 < ε) :
    ∃ δ > 0, ∀ w, |w| ≤ δ → |G (z + w) - G z - g * w| ≤ ε * |w| := by
  have h1 := (hasDerivAt_iff_isLittleO_nhds_zero.1 hG).def hε
  obtain ⟨δ, hδ, h2⟩ := Metric.eventually_nhds_iff.1 h1
  refine ⟨δ / 2, by positivity, fun w hw => ?_⟩
  have := h2 (y := w) (by rw [Real.dist_eq, sub_zero]; linarith)
  rw [smul_eq_mul, mul_comm w g] at this
  exact this

/-- The slopes of Lenia's rate. -/
theorem slopes_lenia {G : ℝ → ℝ} {x z g : ℝ} (hG : HasDerivAt G g z) (h0 : G z = 0) :
    SlopesAt (fun _ z => G z) x z 0 g := by
  intro ε hε
  obtain ⟨δ, hδ, h⟩ := deriv_near hG hε
  refine ⟨δ, hδ, fun v w _ hw => ?_⟩
  have := h w hw
  rw [h0, sub_zero] at this
  have h1 : 0 ≤ ε * |v| := by positivity
  simp only [zero_mul, zero_add]
  linarith

/-- The slopes of the rate of a CCA. -/
theorem slopes_cca {G P : ℝ → ℝ} {x z g p : ℝ} (hG : HasDerivAt G g z) (hP : HasDerivAt P p z)
    (hx0 : 0 < x) (hx1 : x < 1) (h0 : (1 - x) * G z + x * P z = 0) :
    SlopesAt (fun y z => (1 - y) * G z + y * P z) x z (P z - G z) ((1 - x) * g + x * p) := by
  intro ε hε
  obtain ⟨δ₁, hδ₁, h1⟩ := deriv_near hG (by positivity : 0 < ε / 8)
  obtain ⟨δ₂, hδ₂, h2⟩ := deriv_near hP (by positivity : 0 < ε / 8)
  obtain ⟨δ₃, hδ₃⟩ : ∃ e, e = ε / (2 * (|p - g| + 1)) := ⟨_, rfl⟩
  have h3 : 0 < δ₃ := by rw [hδ₃]; positivity
  have h3' : δ₃ * |p - g| ≤ ε / 2 := by
    have : δ₃ * (|p - g| + 1) = ε / 2 := by rw [hδ₃]; field_simp
    linarith
  refine ⟨min (min δ₁ δ₂) (min δ₃ 1), lt_min (lt_min hδ₁ hδ₂) (lt_min h3 one_pos), fun v w hv hw => ?_⟩
  have w1 := hw.trans ((min_le_left _ _).trans (min_le_left _ _))
  have w2 := hw.trans ((min_le_left _ _).trans (min_le_right _ _))
  have v3 := hv.trans ((min_le_right _ _).trans (min_le_left _ _))
  have v4 := hv.trans ((min_le_right _ _).trans (min_le_right _ _))
  have e1 := h1 w w1
  have e2 := h2 w w2
  obtain ⟨E, hE⟩ : ∃ E, E = G (z + w) - G z - g * w := ⟨_, rfl⟩
  obtain ⟨F, hF⟩ : ∃ F, F = P (z + w) - P z - p * w := ⟨_, rfl⟩
  rw [← hE] at e1
  rw [← hF] at e2
  have key : (1 - (x + v)) * G (z + w) + (x + v) * P (z + w) -
      ((P z - G z) * v + ((1 - x) * g + x * p) * w) =
      (1 - (x + v)) * E + (x + v) * F + v * (p - g) * w := by
    rw [hE, hF]
    linear_combination h0
  rw [key]
  have b1 : |(1 - (x + v)) * E| ≤ 2 * (ε / 8 * |w|) := by
    rw [abs_mul]
    refine mul_le_mul ?_ e1 (abs_nonneg _) (by norm_num)
    rw [abs_le] at v4 ⊢
    constructor <;> linarith
  have b2 : |(x + v) * F| ≤ 2 * (ε / 8 * |w|) := by
    rw [abs_mul]
    refine mul_le_mul ?_ e2 (abs_nonneg _) (by norm_num)
    rw [abs_le] at v4 ⊢
    constructor <;> linarith
  have b3 : |v * (p - g) * w| ≤ ε / 2 * |w| := by
    rw [abs_mul, abs_mul]
    refine mul_le_mul_of_nonneg_right ?_ (abs_nonneg _)
    exact (mul_le_mul_of_nonneg_right v3 (abs_nonneg _)).trans h3'
  have t1 := abs_add_le ((1 - (x + v)) * E + (x + v) * F) (v * (p - g) * w)
  have t2 := abs_add_le ((1 - (x + v)) * E) ((x + v) * F)
  have : 0 ≤ ε * |v| := by positivity
  linarith

/-! ## CCA and Lenia with one channel -/

namespace Spec

/-- The mean of growth functions. -/
noncomputable def meanFn (gs : List (Act ℝ)) (z : ℝ) : ℝ :=
  1 / gs.length * (gs.map fun g => g.eval z).sum

end Spec

theorem mean_get {gs : List (Act ℝ)} {n : Nat} (hn : gs.length = n) (z : ℝ) :
    meanFn gs z = 1 / n * ∑ o : Fin n, (gs.get (Fin.cast hn.symm o)).eval z := by
  subst hn
  rw [meanFn, ← List.sum_ofFn]
  congr 2
  apply List.ext_getElem
  · simp
  · intro i h1 h2
    simp

section

variable {d : CCADyn}

/-- A `CCA` with one channel steps every sample as a grid of its own. -/
theorem cca_cellwise (p : Plain d) (he : d.ext = 1) (hH : 1 ≤ H ∧ d.nbLayer.1 ≤ H)
    (hW : 1 ≤ W ∧ d.nbLayer.1 ≤ W) :
    Cellwise (N := N) (H := H) (W := W) (d := d) CCA.forward d.dt d.nbLayer.2
      fun y z => (1 - y) * meanFn d.genesis z + y * meanFn d.persistence z := by
  intro t u
  refine ⟨t + d.dt, (cca_step p (by omega) t u hH hW).trans ?_⟩
  congr 2
  funext n e i j
  show clip _ = clip _
  congr 2
  have hs : ∀ o, source p.ext_pos p.dvd o = e := fun o => Fin.ext (by
    have := (source p.ext_pos p.dvd o).isLt; have := e.isLt; omega)
  show d.dt * growth p (u n) i j = _
  unfold growth
  simp only [hs, he, Nat.cast_one, one_mul, mean_get p.gen, mean_get p.per,
    Finset.sum_add_distrib, ← Finset.mul_sum]
  ring

/-- So does a `Lenia`. -/
theorem lenia_cellwise (p : Plain d) (he : d.ext = 1) (hH : 1 ≤ H ∧ d.nbLayer.1 ≤ H)
    (hW : 1 ≤ W ∧ d.nbLayer.1 ≤ W) :
    Cellwise (N := N) (H := H) (W := W) (d := d) CCA.leniaForward d.dt d.nbLayer.2
      fun _ z => meanFn d.genesis z := by
  intro t u
  refine ⟨t + d.dt, (lenia_step p (by omega) t u hH hW).trans ?_⟩
  congr 2
  funext n e i j
  show clip _ = clip _
  congr 2
  have hs : ∀ o, source p.ext_pos p.dvd o = e := fun o => Fin.ext (by
    have := (source p.ext_pos p.dvd o).isLt; have := e.isLt; omega)
  show d.dt * leniaRate p u n e i j = _
  unfold leniaRate
  simp only [hs, he, Nat.cast_one, one_mul, mean_get p.gen]

/-- C127: the rest levels of a `CCA` with one channel: which attract and which do not is decided by
the waves. -/
theorem cca_level_stability (p : Plain d) (he : d.ext = 1) (hκ : Balanced d.nbLayer.2)
    (hN : 0 < N) (hH : 1 ≤ H ∧ d.nbLayer.1 ≤ H) (hW : 1 ≤ W ∧ d.nbLayer.1 ≤ W)
    {x z g q : ℝ} (hx0 : 0 < x) (hx1 : x < 1) (hz : z = (∑ a, ∑ b, d.nbLayer.2 a b) * x)
    (hG : HasDerivAt (meanFn d.genesis) g z) (hP : HasDerivAt (meanFn d.persistence) q z)
    (h0 : (1 - x) * meanFn d.genesis z + x * meanFn d.persistence z = 0) :
    ((∀ k < H, ∀ l < W, |1 + d.dt * (meanFn d.persistence z - meanFn d.genesis z +
        ((1 - x) * g + x * q) * waveGain d.nbLayer.2 H W k l)| < 1) →
      LevelAttracts (N := N) (H := H) (W := W) (d := d) CCA.forward x) ∧
    (∀ k l, 1 < |1 + d.dt * (meanFn d.persistence z - meanFn d.genesis z +
        ((1 - x) * g + x * q) * waveGain d.nbLayer.2 H W k l)| →
      LevelUnstable (N := N) (H := H) (W := W) (d := d) CCA.forward x) := by
  have hs := slopes_cca hG hP hx0 hx1 h0
  rw [hz] at hs
  constructor
  · intro hw
    rw [hz] at hw
    exact level_attracts (cca_cellwise p he hH hW) hκ hx0 hx1 hs hw
  · intro k l hw
    rw [hz] at hw
    exact level_unstable (cca_cellwise p he hH hW) hκ hx0 hx1 hs hN (by omega) hH.1 hW.1 hw

/-- C127: the same for a `Lenia` with one channel. -/
theorem lenia_level_stability (p : Plain d) (he : d.ext = 1) (hκ : Balanced d.nbLayer.2)
    (hN : 0 < N) (hH : 1 ≤ H ∧ d.nbLayer.1 ≤ H) (hW : 1 ≤ W ∧ d.nbLayer.1 ≤ W)
    {x g : ℝ} (hx0 : 0 < x) (hx1 : x < 1)
    (hG : HasDerivAt (meanFn d.genesis) g ((∑ a, ∑ b, d.nbLayer.2 a b) * x))
    (h0 : meanFn d.genesis ((∑ a, ∑ b, d.nbLayer.2 a b) * x) = 0) :
    ((∀ k < H, ∀ l < W, |1 + d.dt * (g * waveGain d.nbLayer.2 H W k l)| < 1) →
      LevelAttracts (N := N) (H := H) (W := W) (d := d) CCA.leniaForward x) ∧
    (∀ k l, 1 < |1 + d.dt * (g * waveGain d.nbLayer.2 H W k l)| →
      LevelUnstable (N := N) (H := H) (W := W) (d := d) CCA.leniaForward x) := by
  have hs := slopes_lenia (x := x) hG h0
  constructor
  · intro hw
    exact level_attracts (lenia_cellwise p he hH hW) hκ hx0 hx1 hs
      (by simpa only [zero_add] using hw)
  · intro k l hw
    exact level_unstable (lenia_cellwise p he hH hW) hκ hx0 hx1 hs hN (by omega) hH.1 hW.1
      (p := k) (q := l) (by rwa [zero_add])

end

/-! ## Kernels that weigh their centre less than another cell -/

section

variable {d : CCADyn} {fwd : CCA ℝ d.ext d.int → Univ ℝ N d.ext H W →
      Except PyErr (Univ ℝ N d.ext H W × CCA ℝ d.ext d.int)} {h : ℝ} {r : Nat}
  {κ : Fin (2 * r + 1) → Fin (2 * r + 1) → ℝ}

theorem waveGain_flat (κ : Fin (2 * r + 1) → Fin (2 * r + 1) → ℝ) :
    waveGain κ H W 0 0 = ∑ a, ∑ b, κ a b := by
  simp [waveGain, phase]

/-- C127: if the rate depends on the surroundings only, and the kernel weighs some cell more than its
own centre, no rest level between 0 and 1 is stable at which the rate has a slope: whatever the step
size. -/
theorem ring_unstable {G : ℝ → ℝ} (hf : Cellwise fwd h κ fun _ z => G z) (hh : 0 < h)
    (hκ : Balanced κ) (hsum : 0 < ∑ a, ∑ b, κ a b) {a₀ b₀ : Fin (2 * r + 1)}
    (hring : κ (mid r) (mid r) < κ a₀ b₀) (hN : 0 < N) (hext : 0 < d.ext) (hH : 2 * r + 1 ≤ H)
    (hW : 2 * r + 1 ≤ W) {x g : ℝ} (hx0 : 0 < x) (hx1 : x < 1)
    (hG : HasDerivAt G g ((∑ a, ∑ b, κ a b) * x)) (h0 : G ((∑ a, ∑ b, κ a b) * x) = 0)
    (hg : g ≠ 0) : LevelUnstable fwd x := by
  have hs := slopes_lenia (x := x) hG h0
  rcases lt_or_gt_of_ne hg with hneg | hpos
  · obtain ⟨w, μ, hμ, hw⟩ := negative_mode hκ hH hW hring
    refine level_unstable_mode hf hκ hx0 hx1 hs hN hext hw ?_
    have : 0 < h * (0 + g * μ) := by
      rw [zero_add]; exact mul_pos hh (mul_pos_of_neg_of_neg hneg hμ)
    rw [abs_of_pos (by linarith)]
    linarith
  · refine level_unstable hf hκ hx0 hx1 hs hN hext (by omega) (by omega) (p := 0) (q := 0) ?_
    rw [waveGain_flat]
    have : 0 < h * (0 + g * ∑ a, ∑ b, κ a b) := by
      rw [zero_add]; exact mul_pos hh (mul_pos hpos hsum)
    rw [abs_of_pos (by linarith)]
    linarith

end

/-! ## Lenia's bell, Orbium and Geminium -/

theorem leniaGrowth_deriv (m w z : ℝ) : HasDerivAt (leniaGrowth m w)
    (2 * (bell m w z * (-(2 * (z - m)) / (2 * w ^ 2)))) z := by
  unfold leniaGrowth bell
  have h1 : HasDerivAt (fun z : ℝ => -((z - m) ^ 2) / (2 * w ^ 2)) (-(2 * (z - m)) / (2 * w ^ 2)) z := by
    have := (((hasDerivAt_id z).sub_const m).pow 2).neg.div_const (2 * w ^ 2)
    simpa using this
  exact (h1.exp.const_mul 2).sub_const 1

theorem leniaGrowth_slope {m w z : ℝ} (hw : 0 < w) (h0 : leniaGrowth m w z = 0) :
    ∃ g, g ≠ 0 ∧ HasDerivAt (leniaGrowth m w) g z := by
  refine ⟨_, ?_, leniaGrowth_deriv m w z⟩
  have hz : z ≠ m := by
    rintro rfl
    simp [leniaGrowth, bell] at h0
    norm_num at h0
  have hb : bell m w z ≠ 0 := (Real.exp_pos _).ne'
  have hzm : z - m ≠ 0 := sub_ne_zero.2 hz
  refine mul_ne_zero two_ne_zero (mul_ne_zero hb (div_ne_zero ?_ (by positivity)))
  exact neg_ne_zero.2 (mul_ne_zero two_ne_zero hzm)

/-- Where Lenia's growth is 0. -/
theorem leniaGrowth_zero {m w : ℝ} (hw : 0 < w) (z : ℝ) :
    leniaGrowth m w z = 0 ↔ z = m - w * Real.sqrt (2 * Real.log 2) ∨
      z = m + w * Real.sqrt (2 * Real.log 2) := by
  have hl : 0 < Real.log 2 := Real.log_pos (by norm_num)
  have h1 : leniaGrowth m w z = 0 ↔ -(z - m) ^ 2 / (2 * w ^ 2) = Real.log (1 / 2) := by
    unfold leniaGrowth bell
    constructor
    · intro h
      rw [show (1 / 2 : ℝ) = Real.exp (-(z - m) ^ 2 / (2 * w ^ 2)) by linarith, Real.log_exp]
    · intro h
      rw [h, Real.exp_log (by norm_num)]; norm_num
  obtain ⟨s, hs⟩ : ∃ s, s = Real.sqrt (2 * Real.log 2) := ⟨_, rfl⟩
  have hs2 : s ^ 2 = 2 * Real.log 2 := by rw [hs]; exact Real.sq_sqrt (by positivity)
  rw [h1, one_div, Real.log_inv, ← hs, div_eq_iff (by positivity)]
  constructor
  · intro h
    have : (z - (m - w * s)) * (z - (m + w * s)) = 0 := by
      linear_combination -h + (-(w ^ 2)) * hs2
    rcases mul_eq_zero.1 this with h | h
    · exact Or.inl (by linarith)
    · exact Or.inr (by linarith)
  · rintro (rfl | rfl) <;> linear_combination -(w ^ 2) * hs2

theorem distance_rev (r : Nat) (a b : Fin (2 * r + 1)) : distance r a.rev b.rev = distance r a b := by
  unfold distance
  have h : ∀ c : Fin (2 * r + 1), ((c.rev.val : ℝ) - r) ^ 2 = ((c.val : ℝ) - r) ^ 2 := fun c => by
    have : ((c.rev.val : ℕ) : ℝ) = 2 * r - c.val := by
      rw [Fin.val_rev, Nat.cast_sub (by omega)]; push_cast; ring
    rw [this]; ring
  rw [h, h]

theorem profile_balanced {r : Nat} {f : ℝ → ℝ} {κ : Fin (2 * r + 1) → Fin (2 * r + 1) → ℝ}
    (h : Profile r f κ) : Balanced κ := by
  obtain ⟨low, _, _, h3⟩ := h
  intro a b
  rw [h3, h3, distance_rev]

/-- Entries of a kernel are ordered as its profile. -/
theorem profile_lt {r : Nat} {f : ℝ → ℝ} {κ : Fin (2 * r + 1) → Fin (2 * r + 1) → ℝ}
    (h : Profile r f κ) {a b a' b' : Fin (2 * r + 1)}
    (hlt : f (distance r a b) < f (distance r a' b')) : κ a b < κ a' b' := by
  obtain ⟨low, h1, _, h3⟩ := h
  have hS : 0 ≤ ∑ a, ∑ b, (f (distance r a b) - low) :=
    Finset.sum_nonneg fun a _ => Finset.sum_nonneg fun b _ => sub_nonneg.2 (h1 a b)
  rw [h3, h3]
  exact div_lt_div_of_pos_right (by linarith) (by have : (0 : ℝ) < 1e-9 := by norm_num
                                                  linarith)

theorem steps_cellwise {o : CCAObj} {dt : ℝ} {r : Nat}
    {κ : Fin (2 * r + 1) → Fin (2 * r + 1) → ℝ} {g : ℝ → ℝ} (ho : StepsAsLenia o dt κ g)
    (hH : 1 ≤ H ∧ r ≤ H) (hW : 1 ≤ W ∧ r ≤ W) :
    Cellwise (N := N) (H := H) (W := W) (d := o.dynamics) CCA.forward dt κ (fun _ z => g z) ∧
    Cellwise (N := N) (H := H) (W := W) (d := o.dynamics) CCA.leniaForward dt κ (fun _ z => g z) := by
  constructor <;> intro t u <;> obtain ⟨u', h1, h2, h3⟩ := ho.2 u t hH hW
  · exact ⟨_, by rw [h1]; congr 2; funext n e i j; exact h3 n e i j⟩
  · exact ⟨_, by rw [h2]; congr 2; funext n e i j; exact h3 n e i j⟩

/-- A homogeneous universe stands still under both uses of the object. -/
def Spec.StillLevel (o : CCAObj) (N H W : Nat) (x : ℝ) : Prop :=
  ∀ t, (∃ s, (o.dynamics.toCCA t).forward (level N o.dynamics.ext H W x) =
      .ok (level N o.dynamics.ext H W x, s)) ∧
    ∃ s, (o.dynamics.toCCA t).leniaForward (level N o.dynamics.ext H W x) =
      .ok (level N o.dynamics.ext H W x, s)

/-- C127: the still levels of an object that steps as Lenia: 0, the two edges of the window in which
there is growth, and no other, provided the window reaches neither 0 nor the weight of the kernel. -/
theorem still_levels {o : CCAObj} {dt : ℝ} {r : Nat} {κ : Fin (2 * r + 1) → Fin (2 * r + 1) → ℝ}
    {m w : ℝ} (ho : StepsAsLenia o dt κ (leniaGrowth m w)) (hdt : 0 < dt) (hw : 0 < w)
    (hN : 0 < N) (hH : 1 ≤ H ∧ r ≤ H) (hW : 1 ≤ W ∧ r ≤ W)
    (hlo : w * Real.sqrt (2 * Real.log 2) < m)
    (hhi : m + w * Real.sqrt (2 * Real.log 2) < ∑ a, ∑ b, κ a b) (x : ℝ) :
    StillLevel o N H W x ↔ x = 0 ∨
      x = (m - w * Real.sqrt (2 * Real.log 2)) / ∑ a, ∑ b, κ a b ∨
      x = (m + w * Real.sqrt (2 * Real.log 2)) / ∑ a, ∑ b, κ a b := by
  obtain ⟨c, hc⟩ : ∃ c, c = w * Real.sqrt (2 * Real.log 2) := ⟨_, rfl⟩
  obtain ⟨S, hS⟩ : ∃ S, S = ∑ a, ∑ b, κ a b := ⟨_, rfl⟩
  have hl : 0 < Real.log 2 := Real.log_pos (by norm_num)
  have hc0 : 0 < c := by rw [hc]; positivity
  rw [← hc] at hlo hhi
  rw [← hS] at hhi
  have hS0 : 0 < S := by linarith
  have hgrow : ∀ z, 0 < leniaGrowth m w z ↔ |z - m| < c := fun z => by rw [hc]; exact lenia_window hw z
  have hzero : ∀ z, leniaGrowth m w z = 0 ↔ z = m - c ∨ z = m + c := fun z => by
    rw [hc]; exact leniaGrowth_zero hw z
  have hrest : StillLevel o N H W x ↔ clip (x + dt * leniaGrowth m w (S * x)) = x := by
    have key : ∀ t, ∃ s, (o.dynamics.toCCA t).forward (level N o.dynamics.ext H W x) =
        .ok (level N o.dynamics.ext H W (clip (x + dt * leniaGrowth m w (S * x))), s) ∧
        (o.dynamics.toCCA t).leniaForward (level N o.dynamics.ext H W x) =
        .ok (level N o.dynamics.ext H W (clip (x + dt * leniaGrowth m w (S * x))), s) := fun t => by
      obtain ⟨u', h1, h2, h3⟩ := ho.2 (level N o.dynamics.ext H W x) t hH hW
      have : u' = level N o.dynamics.ext H W (clip (x + dt * leniaGrowth m w (S * x))) := by
        funext n e i j
        rw [h3 n e i j, hS]
        unfold level
        rw [gathered_level]
      exact ⟨_, by rw [h1, this], by rw [h2, this]⟩
    constructor
    · intro h
      obtain ⟨s, hs⟩ := (h 0).1
      obtain ⟨s', hs', _⟩ := key 0
      rw [hs] at hs'
      have he := congrArg (fun r : Univ ℝ N o.dynamics.ext H W × _ => r.1) (Except.ok.inj hs')
      have := congrFun (congrFun (congrFun (congrFun he ⟨0, hN⟩) ⟨0, by rw [ho.1]; exact one_pos⟩)
        ⟨0, hH.1⟩) ⟨0, hW.1⟩
      exact this.symm
    · intro h t
      obtain ⟨s, h1, h2⟩ := key t
      rw [h] at h1 h2
      exact ⟨⟨s, h1⟩, ⟨s, h2⟩⟩
  rw [hrest, clip_rest_iff hdt, ← hc, ← hS]
  constructor
  · rintro ⟨⟨h0, h1⟩, h2, h3⟩
    rcases h0.eq_or_lt with h0 | h0
    · exact Or.inl h0.symm
    · right
      rcases h1.eq_or_lt with h1 | h1
      · exfalso
        have h4 := h3 h0
        rw [h1, mul_one] at h4
        rcases h4.eq_or_lt with h4 | h4
        · rcases (hzero S).1 h4.symm with h | h <;> linarith
        · have := (hgrow S).1 h4
          rw [abs_lt] at this
          linarith
      · rcases (hzero _).1 (le_antisymm (h2 h1) (h3 h0)) with h | h
        · left; rw [eq_div_iff hS0.ne']; linarith
        · right; rw [eq_div_iff hS0.ne']; linarith
  · rintro (rfl | rfl | rfl)
    · refine ⟨⟨le_rfl, zero_le_one⟩, fun _ => ?_, fun h => absurd h (lt_irrefl _)⟩
      rw [mul_zero]
      by_contra h
      have := (hgrow 0).1 (not_le.1 h)
      rw [abs_lt] at this
      linarith
    · have : leniaGrowth m w (S * ((m - c) / S)) = 0 := by
        rw [mul_div_cancel₀ _ hS0.ne', hzero]; exact Or.inl rfl
      rw [this]
      exact ⟨⟨by apply div_nonneg <;> linarith, by rw [div_le_one hS0]; linarith⟩, fun _ => le_rfl,
        fun _ => le_rfl⟩
    · have : leniaGrowth m w (S * ((m + c) / S)) = 0 := by
        rw [mul_div_cancel₀ _ hS0.ne', hzero]; exact Or.inr rfl
      rw [this]
      exact ⟨⟨by apply div_nonneg <;> linarith, by rw [div_le_one hS0]; linarith⟩, fun _ => le_rfl,
        fun _ => le_rfl⟩

/-- C127: if moreover the kernel weighs some cell more than its centre, all still levels but 0 are
unstable. -/
theorem still_levels_unstable {o : CCAObj} {dt : ℝ} {r : Nat}
    {κ : Fin (2 * r + 1) → Fin (2 * r + 1) → ℝ} {m w : ℝ}
    (ho : StepsAsLenia o dt κ (leniaGrowth m w)) (hdt : 0 < dt) (hw : 0 < w) (hκ : Balanced κ)
    {a₀ b₀ : Fin (2 * r + 1)} (hring : κ (mid r) (mid r) < κ a₀ b₀) (hN : 0 < N)
    (hH : 2 * r + 1 ≤ H) (hW : 2 * r + 1 ≤ W) (hlo : w * Real.sqrt (2 * Real.log 2) < m)
    (hhi : m + w * Real.sqrt (2 * Real.log 2) < ∑ a, ∑ b, κ a b) {x : ℝ} (hx : x ≠ 0)
    (hstill : StillLevel o N H W x) :
    LevelUnstable (N := N) (H := H) (W := W) (d := o.dynamics) CCA.forward x ∧
      LevelUnstable (N := N) (H := H) (W := W) (d := o.dynamics) CCA.leniaForward x := by
  have hl : 0 < Real.log 2 := Real.log_pos (by norm_num)
  have hc0 : 0 < w * Real.sqrt (2 * Real.log 2) := by positivity
  have hS0 : 0 < ∑ a, ∑ b, κ a b := by linarith
  have hz : leniaGrowth m w ((∑ a, ∑ b, κ a b) * x) = 0 ∧ 0 < x ∧ x < 1 := by
    rcases (still_levels ho hdt hw hN ⟨by omega, by omega⟩ ⟨by omega, by omega⟩ hlo hhi x).1 hstill
      with h | h | h
    · exact absurd h hx
    · refine ⟨?_, ?_, ?_⟩
      · rw [h, mul_div_cancel₀ _ hS0.ne', leniaGrowth_zero hw]; exact Or.inl rfl
      · rw [h]; apply div_pos <;> linarith
      · rw [h, div_lt_one hS0]; linarith
    · refine ⟨?_, ?_, ?_⟩
      · rw [h, mul_div_cancel₀ _ hS0.ne', leniaGrowth_zero hw]; exact Or.inr rfl
      · rw [h]; apply div_pos <;> linarith
      · rw [h, div_lt_one hS0]; linarith
  obtain ⟨g, hg, hd⟩ := leniaGrowth_slope hw hz.1
  obtain ⟨c1, c2⟩ := steps_cellwise (N := N) ho (H := H) (W := W) ⟨by omega, by omega⟩ ⟨by omega, by omega⟩
  have hext : 0 < o.dynamics.ext := by rw [ho.1]; exact one_pos
  exact ⟨ring_unstable c1 hdt hκ hS0 hring hN hext hH hW hz.2.1 hz.2.2 hd hz.1 hg,
    ring_unstable c2 hdt hκ hS0 hring hN hext hH hW hz.2.1 hz.2.2 hd hz.1 hg⟩

theorem sqrt_log_lt : Real.sqrt (2 * Real.log 2) < 1.2 := by
  rw [Real.sqrt_lt' (by norm_num)]
  have := Real.log_two_lt_d9
  norm_num at *
  linarith

/-- The weights of a kernel with some spread sum to nearly 1. -/
theorem profile_mass {r : Nat} {f : ℝ → ℝ} {κ : Fin (2 * r + 1) → Fin (2 * r + 1) → ℝ}
    (h : Profile r f κ) {a b a' b' : Fin (2 * r + 1)}
    (hs : 1e-6 ≤ f (distance r a b) - f (distance r a' b')) : 0.99 ≤ ∑ a, ∑ b, κ a b := by
  obtain ⟨low, h1, _, h3⟩ := h
  simp only [h3, ← Finset.sum_div]
  obtain ⟨T, hT⟩ : ∃ T, T = ∑ a, ∑ b, (f (distance r a b) - low) := ⟨_, rfl⟩
  rw [← hT]
  have c1 : f (distance r a b) - low ≤ T := by
    rw [hT]
    refine le_trans ?_ (Finset.single_le_sum (f := fun a => ∑ b, (f (distance r a b) - low))
      (fun a _ => Finset.sum_nonneg fun b _ => sub_nonneg.2 (h1 a b)) (Finset.mem_univ a))
    exact Finset.single_le_sum (f := fun b => f (distance r a b) - low)
      (fun b _ => sub_nonneg.2 (h1 _ b)) (Finset.mem_univ b)
  have c2 := h1 a' b'
  have hT2 : (1e-6 : ℝ) ≤ T := by linarith
  rw [le_div_iff₀ (by norm_num at *; linarith)]
  norm_num at *
  linarith

theorem distance_mid (r : Nat) : distance r (mid r) (mid r) = 0 := by
  simp [distance, mid]

theorem distance_right {r k : Nat} (hk : k ≤ r) :
    distance r (mid r) ⟨r + k, by omega⟩ = k / r := by
  simp [distance, mid]

theorem bell_lt {m w x y : ℝ} (hw : 0 < w) (h : |y - m| < |x - m|) : bell m w x < bell m w y := by
  unfold bell
  rw [Real.exp_lt_exp, div_lt_div_iff_of_pos_right (by positivity), neg_lt_neg_iff]
  exact sq_lt_sq.2 h

/-- C127: the still levels of Orbium, at every radius from 2 on: nothing, and the two edges of the
window of growth, both of them unstable. -/
theorem orbium_levels (fs : Files) (fuel : Nat) (d : Nat → Draws) (o : CCAObj) (hp : Plain1 o)
    (r : Nat) (hr : 2 ≤ r) :
    ∃ o' S, o.loadConfig fs fuel d (orbiumConfig r) = some (.ok o') ∧ 0.99 ≤ S ∧ S ≤ 1 ∧
      ∀ {N H W : Nat}, 0 < N → 2 * r + 1 ≤ H → 2 * r + 1 ≤ W → ∀ x,
        (StillLevel o' N H W x ↔ x = 0 ∨
          x = (0.15 - (0.015 + 1e-9) * Real.sqrt (2 * Real.log 2)) / S ∨
          x = (0.15 + (0.015 + 1e-9) * Real.sqrt (2 * Real.log 2)) / S) ∧
        (x ≠ 0 → StillLevel o' N H W x →
          LevelUnstable (N := N) (H := H) (W := W) (d := o'.dynamics) CCA.forward x ∧
          LevelUnstable (N := N) (H := H) (W := W) (d := o'.dynamics) CCA.leniaForward x) := by
  obtain ⟨o', κ, h1, h2, h3, _⟩ := orbium_rule fs fuel d o hp r (by omega)
  have hr0 : (0 : ℝ) < r := by positivity
  have hr2 : (2 : ℝ) ≤ r := by exact_mod_cast hr
  have hring : κ (mid r) (mid r) < κ (mid r) ⟨r + 1, by omega⟩ := by
    refine profile_lt h2 (bell_lt (by norm_num) ?_)
    rw [distance_mid, distance_right (by omega), Nat.cast_one]
    have e1 : (1 : ℝ) / r ≤ 1 / 2 := one_div_le_one_div_of_le two_pos hr2
    have e2 : (0 : ℝ) < 1 / r := by positivity
    rw [abs_of_nonpos (by norm_num at *; linarith), abs_of_nonpos (by norm_num)]
    linarith
  have hS : 0.99 ≤ ∑ a, ∑ b, κ a b := by
    refine profile_mass h2 (a := mid r) (b := mid r) (a' := ⟨0, by omega⟩) (b' := ⟨0, by omega⟩) ?_
    rw [distance_mid]
    have hd : distance r ⟨0, by omega⟩ ⟨0, by omega⟩ = Real.sqrt 2 := by
      simp only [distance]
      rw [show (((0 : ℕ) : ℝ) - r) ^ 2 + (((0 : ℕ) : ℝ) - r) ^ 2 = 2 * (r : ℝ) ^ 2 by push_cast; ring,
        Real.sqrt_mul (by norm_num), Real.sqrt_sq (Nat.cast_nonneg r)]
      field_simp
    rw [hd]
    have hs : 1.4 ≤ Real.sqrt 2 := Real.le_sqrt_of_sq_le (by norm_num)
    have k1 : Real.exp (-6) ≤ bell 0.5 (0.15 + 1e-9) 0 := by
      rw [bell, Real.exp_le_exp]; norm_num
    have k2 : bell 0.5 (0.15 + 1e-9) (Real.sqrt 2) ≤ Real.exp (-7) := by
      rw [bell, Real.exp_le_exp, div_le_iff₀ (by norm_num)]
      nlinarith
    have e1 : Real.exp (-6) = Real.exp (-7) * Real.exp 1 := by rw [← Real.exp_add]; norm_num
    have e2 : (2 : ℝ) ≤ Real.exp 1 := by have := Real.add_one_le_exp (1 : ℝ); linarith
    have e3 : (1 / 2187 : ℝ) ≤ Real.exp (-7) := by
      have h7 : Real.exp 7 = Real.exp 1 ^ 7 := by rw [← Real.exp_nat_mul]; norm_num
      have h8 : Real.exp 1 ^ 7 ≤ 3 ^ 7 :=
        pow_le_pow_left₀ (Real.exp_pos _).le Real.exp_one_lt_three.le 7
      rw [Real.exp_neg, one_div, h7]
      exact inv_anti₀ (by positivity) (h8.trans (by norm_num))
    have e4 : Real.exp (-7) * 2 ≤ Real.exp (-7) * Real.exp 1 :=
      mul_le_mul_of_nonneg_left e2 (Real.exp_pos _).le
    have : (1e-6 : ℝ) ≤ 1 / 2187 := by norm_num
    linarith
  have hq := sqrt_log_lt
  have hlo : (0.015 + 1e-9) * Real.sqrt (2 * Real.log 2) < (0.15 : ℝ) := by norm_num at *; linarith
  have hhi : 0.15 + (0.015 + 1e-9) * Real.sqrt (2 * Real.log 2) < ∑ a, ∑ b, κ a b := by
    norm_num at *; linarith
  refine ⟨o', _, h1, hS, (profile_averages h2).2, fun {N H W} hN hH hW x => ⟨?_, fun hx hst => ?_⟩⟩
  · exact still_levels h3 (by norm_num) (by norm_num) hN ⟨by omega, by omega⟩ ⟨by omega, by omega⟩
      hlo hhi x
  · exact still_levels_unstable h3 (by norm_num) (by norm_num) (profile_balanced h2) hring hN hH hW
      hlo hhi hx hst

/-! ## Examples -/

/-- A kernel that weighs its centre most. -/
def Witness.blunt : Fin (2 * 1 + 1) → Fin (2 * 1 + 1) → ℝ :=
  fun a b => (if a = 1 ∧ b = 1 then 0.55 else 0) + 0.05

theorem blunt_sum : ∑ a, ∑ b, Witness.blunt a b = 1 := by
  show ∑ a : Fin 3, ∑ b : Fin 3, ((if a = 1 ∧ b = 1 then (0.55 : ℝ) else 0) + 0.05) = 1
  simp only [Fin.sum_univ_three]
  norm_num [show ¬ (0 : Fin 3) = 1 by decide, show ¬ (2 : Fin 3) = 1 by decide]

theorem blunt_gain (k l : Nat) :
    0.1 ≤ waveGain Witness.blunt H W k l ∧ waveGain Witness.blunt H W k l ≤ 1 := by
  have h : waveGain Witness.blunt H W k l = 0.55 + 0.05 * ∑ a : Fin 3, ∑ b : Fin 3,
      Real.cos (phase H W k l ((a.val : ℝ) - 1) ((b.val : ℝ) - 1)) := by
    simp only [waveGain, Witness.blunt, add_mul, Finset.sum_add_distrib, ← Finset.mul_sum,
      Nat.cast_one]
    congr 1
    rw [Finset.sum_eq_single (1 : Fin 3), Finset.sum_eq_single (1 : Fin 3)]
    · simp [phase]
    · intro b _ hb
      rw [if_neg (fun h => hb h.2), zero_mul]
    · intro h; exact absurd (Finset.mem_univ _) h
    · intro a _ ha
      exact Finset.sum_eq_zero fun b _ => by rw [if_neg (fun h => ha h.1), zero_mul]
    · intro h; exact absurd (Finset.mem_univ _) h
  have lo : (-9 : ℝ) ≤ ∑ a : Fin 3, ∑ b : Fin 3,
      Real.cos (phase H W k l ((a.val : ℝ) - 1) ((b.val : ℝ) - 1)) := by
    have : ∑ _a : Fin 3, ∑ _b : Fin 3, (-1 : ℝ) ≤ ∑ a : Fin 3, ∑ b : Fin 3,
        Real.cos (phase H W k l ((a.val : ℝ) - 1) ((b.val : ℝ) - 1)) :=
      Finset.sum_le_sum fun a _ => Finset.sum_le_sum fun b _ => Real.neg_one_le_cos _
    norm_num at this ⊢
    linarith
  have hi : ∑ a : Fin 3, ∑ b : Fin 3,
      Real.cos (phase H W k l ((a.val : ℝ) - 1) ((b.val : ℝ) - 1)) ≤ 9 := by
    have : ∑ a : Fin 3, ∑ b : Fin 3,
        Real.cos (phase H W k l ((a.val : ℝ) - 1) ((b.val : ℝ) - 1)) ≤
        ∑ _a : Fin 3, ∑ _b : Fin 3, (1 : ℝ) :=
      Finset.sum_le_sum fun a _ => Finset.sum_le_sum fun b _ => Real.cos_le_one _
    norm_num at this ⊢
    linarith
  rw [h]
  constructor <;> norm_num <;> linarith

/-- A Lenia with that kernel and a broad bell. -/
noncomputable def Witness.bluntLenia : CCADyn :=
  ⟨1, 1, .circular, ⟨1, identityKernel⟩, ⟨1, Witness.blunt⟩, [.mixture [(1, 0.5, 0.15)] true],
    [.mixture [(1, 0.5, 0.15)] true], none, 0.1, 0.1⟩

theorem bluntLenia_plain : Plain Witness.bluntLenia :=
  ⟨rfl, rfl, rfl, by decide, by decide, rfl, rfl⟩

theorem blunt_balanced : Balanced Witness.blunt := by
  intro a b
  have : (a.rev = 1 ∧ b.rev = 1) ↔ (a = 1 ∧ b = 1) := by revert a b; decide
  simp only [Witness.blunt, this]

theorem sqrt_log_gt : 1.1 < Real.sqrt (2 * Real.log 2) := by
  rw [Real.lt_sqrt (by norm_num)]
  have := Real.log_two_gt_d9
  norm_num at *
  linarith

/-- C127: not every rest level is unstable: a Lenia whose kernel weighs its centre most has one that
attracts everything nearby, on grids of every size, and one that does not. -/
theorem bluntLenia_levels (hN : 0 < N) (hH : 1 ≤ H) (hW : 1 ≤ W) :
    LevelAttracts (N := N) (H := H) (W := W) (d := Witness.bluntLenia) CCA.leniaForward
      (0.5 + (0.15 + 1e-9) * Real.sqrt (2 * Real.log 2)) ∧
    LevelUnstable (N := N) (H := H) (W := W) (d := Witness.bluntLenia) CCA.leniaForward
      (0.5 - (0.15 + 1e-9) * Real.sqrt (2 * Real.log 2)) := by
  obtain ⟨q, hq⟩ : ∃ q, q = Real.sqrt (2 * Real.log 2) := ⟨_, rfl⟩
  have q1 : q < 1.2 := by rw [hq]; exact sqrt_log_lt
  have q2 : 1.1 < q := by rw [hq]; exact sqrt_log_gt
  have hm : meanFn Witness.bluntLenia.genesis = leniaGrowth 0.5 (0.15 + 1e-9) := by
    funext z
    simp [meanFn, Witness.bluntLenia, mixture_pair_growth]
  have hs : ∑ a, ∑ b, Witness.bluntLenia.nbLayer.2 a b = 1 := blunt_sum
  have hw : (0 : ℝ) < 0.15 + 1e-9 := by norm_num
  have hz := fun z => leniaGrowth_zero (m := 0.5) hw z
  rw [← hq] at hz ⊢
  have hslope : ∀ z, leniaGrowth 0.5 (0.15 + 1e-9) z = 0 → HasDerivAt (leniaGrowth 0.5 (0.15 + 1e-9))
      (-(z - 0.5) / (0.15 + 1e-9) ^ 2) z := fun z h => by
    have hb : bell 0.5 (0.15 + 1e-9) z = 1 / 2 := by unfold leniaGrowth at h; linarith
    have := leniaGrowth_deriv 0.5 (0.15 + 1e-9) z
    rw [hb] at this
    convert this using 1
    field_simp
  constructor
  · have h0 := (hz (0.5 + (0.15 + 1e-9) * q)).2 (Or.inr rfl)
    refine (lenia_level_stability bluntLenia_plain rfl blunt_balanced hN ⟨hH, hH⟩ ⟨hW, hW⟩
      (g := -(0.5 + (0.15 + 1e-9) * q - 0.5) / (0.15 + 1e-9) ^ 2)
      (by norm_num; linarith) (by norm_num at *; linarith) (by rw [hs, one_mul, hm]; exact hslope _ h0)
      (by rw [hs, one_mul, hm]; exact h0)).1 fun k _ l _ => ?_
    obtain ⟨g1, g2⟩ := blunt_gain (H := H) (W := W) k l
    obtain ⟨G, hG⟩ : ∃ G, G = waveGain Witness.blunt H W k l := ⟨_, rfl⟩
    rw [← hG] at g1 g2
    show |1 + 0.1 * (_ * waveGain Witness.blunt H W k l)| < 1
    rw [← hG, show -(0.5 + (0.15 + 1e-9) * q - 0.5) / (0.15 + 1e-9) ^ 2 = -(q / (0.15 + 1e-9)) by
      field_simp; ring]
    have e1 : q / (0.15 + 1e-9) < 8 := by rw [div_lt_iff₀ hw]; norm_num at *; linarith
    have e2 : 7 < q / (0.15 + 1e-9) := by rw [lt_div_iff₀ hw]; norm_num at *; linarith
    have e3 : 0 < q / (0.15 + 1e-9) * G := mul_pos (by linarith) (by norm_num at *; linarith)
    have e4 : q / (0.15 + 1e-9) * G ≤ 8 * 1 := mul_le_mul e1.le g2 (by norm_num at *; linarith) (by norm_num)
    rw [neg_mul, abs_lt]
    constructor <;> norm_num at * <;> linarith
  · have h0 := (hz (0.5 - (0.15 + 1e-9) * q)).2 (Or.inl rfl)
    refine (lenia_level_stability bluntLenia_plain rfl blunt_balanced hN ⟨hH, hH⟩ ⟨hW, hW⟩
      (g := -(0.5 - (0.15 + 1e-9) * q - 0.5) / (0.15 + 1e-9) ^ 2)
      (by norm_num at *; linarith) (by norm_num at *; linarith) (by rw [hs, one_mul, hm]; exact hslope _ h0)
      (by rw [hs, one_mul, hm]; exact h0)).2 0 0 ?_
    rw [waveGain_flat, hs]
    show 1 < |1 + 0.1 * _|
    rw [show -(0.5 - (0.15 + 1e-9) * q - 0.5) / (0.15 + 1e-9) ^ 2 = q / (0.15 + 1e-9) by
      field_simp; ring]
    have e2 : 0 < q / (0.15 + 1e-9) := div_pos (by linarith) hw
    rw [abs_of_pos (by positivity)]
    norm_num at *
    linarith

/-- The hypotheses of `cca_level_stability` are met, at a level that attracts all waves. -/
example : Plain Witness.bluntLenia ∧ Balanced Witness.bluntLenia.nbLayer.2 ∧
    ∃ x g q : ℝ, 0 < x ∧ x < 1 ∧ HasDerivAt (meanFn Witness.bluntLenia.genesis) g x ∧
      HasDerivAt (meanFn Witness.bluntLenia.persistence) q x ∧
      (1 - x) * meanFn Witness.bluntLenia.genesis x +
        x * meanFn Witness.bluntLenia.persistence x = 0 := by
  have hm : meanFn Witness.bluntLenia.genesis = leniaGrowth 0.5 (0.15 + 1e-9) := by
    funext z
    simp [meanFn, Witness.bluntLenia, mixture_pair_growth]
  have hp : meanFn Witness.bluntLenia.persistence = leniaGrowth 0.5 (0.15 + 1e-9) := hm
  have q1 := sqrt_log_lt
  have q2 := sqrt_log_gt
  refine ⟨bluntLenia_plain, blunt_balanced, 0.5 + (0.15 + 1e-9) * Real.sqrt (2 * Real.log 2), _, _,
    by positivity, by norm_num at *; linarith, by rw [hm]; exact leniaGrowth_deriv _ _ _,
    by rw [hp]; exact leniaGrowth_deriv _ _ _, ?_⟩
  rw [hm, hp, (leniaGrowth_zero (by norm_num) _).2 (Or.inr rfl)]
  ring

/-- `orbium_levels` applies to the object `CCA.__init__` makes, at the radius of the stored pattern. -/
example (fs : Files) (dr : Draws) (d : Nat → Draws) (hd : MixtureLength dr.kernel.length) :
    ∃ o o', CCAObj.defaultInit {} dr = .ok o ∧ o.loadConfig fs 5 d (orbiumConfig 13) = some (.ok o') ∧
      StillLevel o' 1 64 64 0 ∧ ∃ x, x ≠ 0 ∧ StillLevel o' 1 64 64 x := by
  obtain ⟨o, h1, h2, _⟩ := defaultInit_ok {} dr (by decide) (by decide) (by decide) hd
  have hp : Plain1 o := ⟨by rw [h2]; rfl, by rw [h2]; rfl, by rw [h2]; rfl, by rw [h2]; rfl⟩
  obtain ⟨o', S, h3, hS, _, h4⟩ := orbium_levels fs 5 d o hp 13 (by norm_num)
  have h5 := fun x => h4 (N := 1) (H := 64) (W := 64) one_pos (by norm_num) (by norm_num) x
  refine ⟨o, o', h1, h3, (h5 0).1.2 (Or.inl rfl), _, ?_, (h5 _).1.2 (Or.inr (Or.inr rfl))⟩
  have : (0 : ℝ) < 0.15 + (0.015 + 1e-9) * Real.sqrt (2 * Real.log 2) := by positivity
  exact (div_pos this (by norm_num at *; linarith)).ne'

end Yuca
