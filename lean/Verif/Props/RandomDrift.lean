import Verif.Props.Drift

/-!
# Computed runs with random step sizes (C130)
-/

namespace Yuca

open Arith Spec

variable {N H W : Nat}

namespace Spec

/-- A run of a `RandomStepCA` on a machine, one step per draw. -/
def drawnRun {α : Type} [Arith α] {ext int : Nat} (s : RandomStepCA α ext int)
    (u : Univ α N ext H W) :
    List α → Except PyErr (Univ α N ext H W × RandomStepCA α ext int)
  | [] => .ok (u, s)
  | r :: rs => do
    let (u', s') ← s.forward r u
    drawnRun s' u' rs

end Spec

variable {α : Type} [Arith α] {η θ τ L : ℝ} {ℓ : Nat} {P : Precise α η ℓ} {d : CCADyn}

/-- A random step is a step of the `CCA` with the drawn step size. -/
theorem random_as_cca {ext int : Nat} (s : RandomStepCA α ext int) (r : α) (u : Univ α N ext H W) :
    s.forward r u = (fun q => (q.1, { s with
        ca := q.2, prevDt := mul one (add (mul r (sub s.maxDt s.minDt)) s.minDt) })) <$>
      ({ s.ca with dt := add (mul r (sub s.maxDt s.minDt)) s.minDt } : CCA α ext int).forward u := by
  unfold RandomStepCA.forward CCA.forward
  simp only [bind, Except.bind, pure, Except.pure, Functor.map, Except.map]
  cases s.ca.idL.apply (maskIf s.ca.thr u) with
  | error e => rfl
  | ok a =>
    cases s.ca.nbL.apply (maskIf s.ca.thr u) with
    | error e => rfl
    | ok b =>
      have hu : ({ s.ca with dt := add (mul r (sub s.maxDt s.minDt)) s.minDt } :
        CCA α ext int).updateUniverse a b = s.ca.updateUniverse a b := rfl
      dsimp only
      rw [hu]
      cases s.ca.updateUniverse a b <;> rfl

/-- The step size drawn on a machine. -/
theorem drawn_dt {mx mn : ℝ} {a b r : α} (hη : 0 ≤ η) (hm : 0 ≤ mn ∧ mn ≤ mx ∧ mx ≤ 1)
    (ha : P.Num a ∧ |P.val a - mx| ≤ τ) (hb : P.Num b ∧ |P.val b - mn| ≤ τ)
    (hr : P.Num r ∧ 0 ≤ P.val r ∧ P.val r ≤ 1) (hs : 3 * (η + τ) ≤ 1 / 4) :
    P.Num (add (mul r (sub a b)) b) ∧
      |P.val (add (mul r (sub a b)) b) - (mn + P.val r * (mx - mn))| ≤ 3 * (η + τ) := by
  have hτ : 0 ≤ τ := (abs_nonneg _).trans ha.2
  obtain ⟨h1, h2⟩ := abs_le.1 ha.2
  obtain ⟨h3, h4⟩ := abs_le.1 hb.2
  obtain ⟨e1, e2⟩ := P.sub a b ha.1 hb.1 (abs_le.2 ⟨by linarith, by linarith⟩)
    (abs_le.2 ⟨by linarith, by linarith⟩)
  obtain ⟨h5, h6⟩ := abs_le.1 e2
  obtain ⟨e3, e4⟩ := P.mul r (sub a b) hr.1 e1 (abs_le.2 ⟨by linarith, by linarith⟩)
    (abs_le.2 ⟨by linarith, by linarith⟩)
  have e5 : |P.val (mul r (sub a b)) - P.val r * (mx - mn)| ≤ 2 * η + 2 * τ := by
    have : |P.val r * P.val (sub a b) - P.val r * (mx - mn)| ≤ η + 2 * τ := by
      rw [← mul_sub, abs_mul, abs_of_nonneg hr.2.1]
      have : |P.val (sub a b) - (mx - mn)| ≤ η + 2 * τ := abs_le.2 ⟨by linarith, by linarith⟩
      exact (mul_le_of_le_one_left (abs_nonneg _) hr.2.2).trans this
    have h := off_trans e4 this
    linarith
  obtain ⟨h7, h8⟩ := abs_le.1 e5
  have hp : 0 ≤ P.val r * (mx - mn) ∧ P.val r * (mx - mn) ≤ 1 :=
    ⟨mul_nonneg hr.2.1 (by linarith), mul_le_one₀ hr.2.2 (by linarith) (by linarith)⟩
  obtain ⟨e6, e7⟩ := P.add (mul r (sub a b)) b e3 hb.1 (abs_le.2 ⟨by linarith, by linarith⟩)
    (abs_le.2 ⟨by linarith, by linarith⟩)
  obtain ⟨h9, h10⟩ := abs_le.1 e7
  exact ⟨e6, abs_le.2 ⟨by linarith, by linarith⟩⟩

/-- The same automaton with another step size on the machine and in exact arithmetic. -/
def represents_dt {ca : CCA α d.ext d.int} (R : P.Represents θ d ca) {h : ℝ} {x : α}
    (hx : P.Num x ∧ |P.val x - h| ≤ θ) :
    P.Represents (d := { d with dt := h }) θ { ca with dt := x } :=
  ⟨R.κ, R.w, R.idL, R.nbL, R.weights, R.kernel, R.weight, R.genesis, R.persistence, hx⟩

theorem tolerates_dt (T : Tolerates d L η θ ℓ) {h : ℝ} (hh : 0 ≤ h ∧ h ≤ 1) :
    Tolerates { d with dt := h } L η θ ℓ :=
  ⟨T.kernel, T.acts, T.channels, hh, T.slope, T.errors, T.terms⟩

/-- One random step on a machine. -/
theorem random_slip (p : Plain d) (T : Tolerates d L η θ ℓ) {mx mn : ℝ}
    (hm : 0 ≤ mn ∧ mn ≤ mx ∧ mx ≤ 1) (hτ : 3 * (η + τ) ≤ θ) {s : RandomStepCA α d.ext d.int}
    (R : P.Represents θ d s.ca) (ha : P.Num s.maxDt ∧ |P.val s.maxDt - mx| ≤ τ)
    (hb : P.Num s.minDt ∧ |P.val s.minDt - mn| ≤ τ) {r : α}
    (hr : P.Num r ∧ 0 ≤ P.val r ∧ P.val r ≤ 1) (u : Univ α N d.ext H W) (hu : P.Sane u)
    (hH : 1 ≤ H ∧ d.nbLayer.1 ≤ H) (hW : 1 ≤ W ∧ d.nbLayer.1 ≤ W) :
    ∃ u' s', s.forward r u = .ok (u', s') ∧ s'.maxDt = s.maxDt ∧ s'.minDt = s.minDt ∧
      Nonempty (P.Represents (d := { d with dt := mn + P.val r * (mx - mn) }) θ s'.ca) ∧
      P.Sane u' ∧ CloseBy (ccaSlip η θ L mx) (P.real u')
        (eulerStep (growthOf p) (mn + P.val r * (mx - mn)) (P.real u)) := by
  obtain ⟨hη1, hθ1, hηθ⟩ := tol_small T
  obtain ⟨hη, hθ, _⟩ := T.errors
  have hL := T.slope
  have hx := drawn_dt (P := P) hη hm ha hb hr (hτ.trans hθ1)
  have hx' := And.intro hx.1 (hx.2.trans hτ)
  have h0 : 0 ≤ P.val r * (mx - mn) := mul_nonneg hr.2.1 (by linarith)
  have h1 : P.val r * (mx - mn) ≤ mx - mn := mul_le_of_le_one_left (by linarith) hr.2.2
  have R' := represents_dt R hx'
  have T' := tolerates_dt T (h := mn + P.val r * (mx - mn)) ⟨by linarith, by linarith⟩
  have p' := plain_dt p (mn + P.val r * (mx - mn))
  obtain ⟨⟨u', ca'⟩, hq⟩ := (represents_runs p' R' u hH hW).1
  obtain ⟨e1, e2, e3⟩ := cca_slip p' R' T' hu hq
  refine ⟨u', { ca := ca', prevDt := Arith.mul Arith.one (Arith.add (Arith.mul r
    (Arith.sub s.maxDt s.minDt)) s.minDt), maxDt := s.maxDt, minDt := s.minDt },
    (random_as_cca s r u).trans (by rw [hq]; rfl), rfl, rfl, ?_, e2, ?_⟩
  · simp only at e1
    subst e1
    exact ⟨⟨R'.κ, R'.w, R'.idL, R'.nbL, R'.weights, R'.kernel, R'.weight, R'.genesis,
      R'.persistence, R'.dt⟩⟩
  · refine near_mono e3 ?_
    show ccaSlip η θ L (mn + P.val r * (mx - mn)) ≤ _
    unfold ccaSlip
    have : 0 ≤ (10 + L) * η + (3 + L) * θ := by positivity
    have := mul_le_mul_of_nonneg_right (show mn + P.val r * (mx - mn) ≤ mx by linarith) this
    linarith

/-- C130: a computed run with random step sizes stays near the exact run with the same draws.  The
ends of the interval the step sizes are drawn from are correct to `τ`, with `3 (η + τ) ≤ θ`. -/
theorem random_drift {mx mn : ℝ} (hm : 0 ≤ mn ∧ mn ≤ mx ∧ mx ≤ 1) (hτ : 3 * (η + τ) ≤ θ)
    (draws : List α) (hd : ∀ r ∈ draws, P.Num r ∧ 0 ≤ P.val r ∧ P.val r ≤ 1) :
    ∀ {d : CCADyn} (_ : Plain d) (_ : Tolerates d L η θ ℓ) {s : RandomStepCA α d.ext d.int}
      (_ : P.Represents θ d s.ca) (_ : P.Num s.maxDt ∧ |P.val s.maxDt - mx| ≤ τ)
      (_ : P.Num s.minDt ∧ |P.val s.minDt - mn| ≤ τ) (t prev : ℝ) {ε : ℝ} (_ : 0 ≤ ε)
      (u : Univ α N d.ext H W) (v : Univ ℝ N d.ext H W) (_ : P.Sane u) (_ : Within01 v)
      (_ : CloseBy ε (P.real u) v) (_ : 1 ≤ H ∧ d.nbLayer.1 ≤ H) (_ : 1 ≤ W ∧ d.nbLayer.1 ≤ W),
      ∃ u' s' v' q', drawnRun s u draws = .ok (u', s') ∧
        randomRun ⟨d.toCCA t, prev, mx, mn⟩ v (draws.map P.val) = .ok (v', q') ∧ P.Sane u' ∧
        CloseBy ((1 + mx * ((2 + L) / d.ext)) ^ draws.length * ε + ccaSlip η θ L mx *
          ∑ k ∈ Finset.range draws.length, (1 + mx * ((2 + L) / d.ext)) ^ k) (P.real u') v' := by
  have main : ∀ (draws : List α), (∀ r ∈ draws, P.Num r ∧ 0 ≤ P.val r ∧ P.val r ≤ 1) →
      ∀ {d : CCADyn} (p : Plain d) (_ : Tolerates d L η θ ℓ) {s : RandomStepCA α d.ext d.int}
      (_ : P.Represents θ d s.ca) (_ : P.Num s.maxDt ∧ |P.val s.maxDt - mx| ≤ τ)
      (_ : P.Num s.minDt ∧ |P.val s.minDt - mn| ≤ τ) {ε : ℝ} (_ : 0 ≤ ε)
      (u : Univ α N d.ext H W) (v : Univ ℝ N d.ext H W) (_ : P.Sane u) (_ : Within01 v)
      (_ : CloseBy ε (P.real u) v) (_ : 1 ≤ H ∧ d.nbLayer.1 ≤ H) (_ : 1 ≤ W ∧ d.nbLayer.1 ≤ W),
      ∃ u' s', drawnRun s u draws = .ok (u', s') ∧ P.Sane u' ∧
        CloseBy ((1 + mx * ((2 + L) / d.ext)) ^ draws.length * ε + ccaSlip η θ L mx *
          ∑ k ∈ Finset.range draws.length, (1 + mx * ((2 + L) / d.ext)) ^ k) (P.real u')
          (eulerRun (growthOf p) ((draws.map P.val).map fun r => mn + r * (mx - mn)) v) := by
    intro draws
    induction draws with
    | nil =>
      intro _ d p _ s _ _ _ ε _ u v hu _ hn _ _
      exact ⟨u, s, rfl, hu, by simpa [eulerRun] using hn⟩
    | cons r rs ih =>
      intro hd d p T s R ha hb ε hε u v hu hv hn hH hW
      have hr := hd r (by simp)
      obtain ⟨u1, s1, a1, a2, a3, ⟨a4⟩, a5, a6⟩ := random_slip p T hm hτ R ha hb hr u hu hH hW
      have h0 : 0 ≤ P.val r * (mx - mn) := mul_nonneg hr.2.1 (by linarith)
      have h1 : P.val r * (mx - mn) ≤ mx - mn := mul_le_of_le_one_left (by linarith) hr.2.2
      have hF := growth_tame (N := N) (H := H) (W := W) p (tolerates_mild T)
      rw [mul_one] at hF
      have hreal : Within01 (P.real u) := fun n e i j => (hu n e i j).2
      have h5 := near_trans a6 (eulerStep_near hF (h := mn + P.val r * (mx - mn)) (by linarith)
        hreal hv hn)
      have hc : 0 ≤ (2 + L) / (d.ext : ℝ) := hF.nonneg.2
      have h6 : CloseBy (ccaSlip η θ L mx + (1 + mx * ((2 + L) / d.ext)) * ε) (P.real u1)
          (eulerStep (growthOf p) (mn + P.val r * (mx - mn)) v) := by
        refine near_mono h5 ?_
        have := mul_le_mul_of_nonneg_right
          (show mn + P.val r * (mx - mn) ≤ mx by linarith) (mul_nonneg hc hε)
        nlinarith
      have hsl : 0 ≤ ccaSlip η θ L mx := by
        obtain ⟨hη, hθ, _⟩ := T.errors
        have hL := T.slope
        have hmx : 0 ≤ mx := by linarith
        unfold ccaSlip; positivity
      have hq : 0 ≤ (1 + mx * ((2 + L) / (d.ext : ℝ))) * ε := by
        have : 0 ≤ mx := by linarith
        positivity
      obtain ⟨u', s', b1, b2, b3⟩ := ih (fun r hr => hd r (by simp [hr]))
        (plain_dt p (mn + P.val r * (mx - mn)))
        (tolerates_dt T (h := mn + P.val r * (mx - mn)) ⟨by linarith, by linarith⟩) a4
        (by rw [a2]; exact ha) (by rw [a3]; exact hb) (add_nonneg hsl hq) u1 _ a5
        (eulerStep_unit _ _) h6 hH hW
      refine ⟨u', s', ?_, b2, ?_⟩
      · show (do
          let (u', s') ← s.forward r u
          drawnRun s' u' rs) = _
        rw [a1]
        exact b1
      · have := b3
        rw [geo_step] at this
        exact this
  intro d p T s R ha hb t prev ε hε u v hu hv hn hH hW
  obtain ⟨u', s', a1, a2, a3⟩ := main draws hd p T R ha hb hε u v hu hv hn hH hW
  obtain ⟨q', b1, _⟩ := random_euler (draws.map P.val) p T.channels t prev mx mn v hH hW
  exact ⟨u', s', _, q', a1, b1, a2, a3⟩

/-- What is correct to within `θ` is correct to within more. -/
def represents_mono {ca : CCA α d.ext d.int} (R : P.Represents θ d ca) {θ' : ℝ} (h : θ ≤ θ') :
    P.Represents θ' d ca :=
  ⟨R.κ, R.w, R.idL, R.nbL, R.weights, ⟨R.kernel.1, R.kernel.2.trans h⟩,
    ⟨R.weight.1, fun e => (R.weight.2 e).trans h⟩,
    R.genesis.imp fun _ _ H x a b => ⟨(H x a b).1, (H x a b).2.trans h⟩,
    R.persistence.imp fun _ _ H x a b => ⟨(H x a b).1, (H x a b).2.trans h⟩,
    ⟨R.dt.1, R.dt.2.trans h⟩⟩

/-- The hypotheses can be met: the orbium rule in double precision with step sizes drawn between 0
and 0.1.  Its first five steps are correct to two digits, whatever is drawn. -/
example : ∃ (K : AnyKernel) (s : RandomStepCA Witness.Dbl 1 1), K.1 = 13 ∧
    ∀ (u : Univ Witness.Dbl N 1 H W) (draws : List Witness.Dbl),
      (∀ n e i j, 0 ≤ (u n e i j).1 ∧ (u n e i j).1 ≤ 1) → draws.length = 5 →
      (∀ r ∈ draws, 0 ≤ r.1 ∧ r.1 ≤ 1) → 13 ≤ H → 13 ≤ W →
      ∃ u' s' v' q', drawnRun s u draws = .ok (u', s') ∧
        randomRun ⟨(Witness.orbiumDyn K).toCCA 0, 0, 1 / 10, 0⟩
          (fun n e i j => (((u n e i j).1 : ℚ) : ℝ))
          (draws.map fun r => ((r.1 : ℚ) : ℝ)) = .ok (v', q') ∧
        ∀ n e i j, |(((u' n e i j).1 : ℚ) : ℝ) - v' n e i j| ≤ 1 / 100 := by
  obtain ⟨K, hK⟩ : ∃ K, getKernel ⟨"Gaussian", some 13, some { mu := some 0.5, sigma := some 0.15 }⟩
      = .ok K ∧ K.1 = 13 := by simp [getKernel, kernelFn]
  obtain ⟨h1, _, _, _, h5⟩ := kernel_normalised _ (by simp [radialNames]) K hK.1
  have hk : ∑ a, ∑ b, |K.2 a b| ≤ 1 := by
    simp only [abs_of_nonneg (h1 _ _)]
    exact h5.le
  have p : Plain (Witness.orbiumDyn K) := ⟨rfl, rfl, rfl, Nat.one_pos, dvd_refl 1, rfl, rfl⟩
  have T := Witness.orbium_tolerates hK.2 hk
  have T' : Tolerates (Witness.orbiumDyn K) 134 ((729 + 1) * 2⁻¹ ^ 49) (2⁻¹ ^ 36) 729 :=
    ⟨T.kernel, T.acts, T.channels, T.dt, T.slope, by norm_num, T.terms⟩
  obtain ⟨ca, ⟨R⟩⟩ := double_represents p hk T.acts T.dt 729 (by norm_num)
  obtain ⟨mx, hmx⟩ := Witness.dbl_near (1 / 10) (by positivity : (0 : ℝ) < 2⁻¹ ^ 53)
  refine ⟨K, ⟨ca, Arith.zero, mx, Arith.zero⟩, hK.2, fun u draws hu hl hd hH hW => ?_⟩
  have hs : (Witness.dblPrecise 729 (by norm_num)).Sane u := fun n e i j => ⟨trivial, by
    have := hu n e i j
    constructor
    · show (0 : ℝ) ≤ (((u n e i j).1 : ℚ) : ℝ)
      exact_mod_cast this.1
    · show (((u n e i j).1 : ℚ) : ℝ) ≤ 1
      exact_mod_cast this.2⟩
  have hd' : ∀ r ∈ draws, (Witness.dblPrecise 729 (by norm_num)).Num r ∧
      0 ≤ (Witness.dblPrecise 729 (by norm_num)).val r ∧
      (Witness.dblPrecise 729 (by norm_num)).val r ≤ 1 := fun r hr => ⟨trivial, by
    have := hd r hr
    constructor
    · show (0 : ℝ) ≤ ((r.1 : ℚ) : ℝ)
      exact_mod_cast this.1
    · show ((r.1 : ℚ) : ℝ) ≤ 1
      exact_mod_cast this.2⟩
  have hH' : 1 ≤ H ∧ (Witness.orbiumDyn K).nbLayer.1 ≤ H := by
    show 1 ≤ H ∧ K.1 ≤ H; rw [hK.2]; omega
  have hW' : 1 ≤ W ∧ (Witness.orbiumDyn K).nbLayer.1 ≤ W := by
    show 1 ≤ W ∧ K.1 ≤ W; rw [hK.2]; omega
  have hz := (Witness.dblPrecise 729 (by norm_num)).zero
  obtain ⟨u', s', v', q', a1, a2, _, a4⟩ := random_drift (mx := 1 / 10) (mn := 0)
    (η := ((729 : ℕ) + 1) * 2⁻¹ ^ 49) (θ := 2⁻¹ ^ 36) (τ := 2⁻¹ ^ 50) (L := 134)
    (by norm_num) (by norm_num) draws hd' p (by exact_mod_cast T')
    (s := ⟨ca, Arith.zero, mx, Arith.zero⟩)
    (represents_mono R (by norm_num)) ⟨trivial, hmx.trans (by norm_num)⟩
    ⟨hz.1, by rw [hz.2]; norm_num⟩ 0 0 (ε := 0) le_rfl u _ hs
    (fun n e i j => (hs n e i j).2) (near_refl _) hH' hW'
  refine ⟨u', s', v', q', a1, a2, fun n e i j => (a4 n e i j).trans ?_⟩
  have he : (Witness.orbiumDyn K).ext = 1 := rfl
  rw [hl, he, ccaSlip]
  norm_num [Finset.sum_range_succ]

end Yuca
