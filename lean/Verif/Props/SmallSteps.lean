import Verif.Lemmas.Euler
import Verif.Props.StepControl
import Verif.Props.Kernels
import Mathlib.Analysis.Calculus.MeanValue
import Mathlib.Analysis.SpecialFunctions.ExpDeriv
import Mathlib.Analysis.SpecialFunctions.Trigonometric.DerivHyp

/-!
# Step size does not matter in the limit (C100)

Over exact reals, on the torus, with fewer than four channels (with more, the alive mask jumps).
-/

namespace Yuca

open Arith Spec

variable {N H W : Nat}

namespace Spec

/-- On `[-1, 1]` the function is at most `M` and has slope at most `L`. -/
def MildFn (M L : ℝ) (f : ℝ → ℝ) : Prop :=
  0 ≤ M ∧ 0 ≤ L ∧ ∀ x y, |x| ≤ 1 → |y| ≤ 1 → |f x| ≤ M ∧ |f x - f y| ≤ L * |x - y|

/-- The growth functions are mild, the weights of the kernel sum to at most 1 in absolute value,
and there is no alive mask. -/
structure Mild (d : CCADyn) (M L : ℝ) : Prop where
  nonneg : 0 ≤ M ∧ 0 ≤ L
  kernel : ∑ a, ∑ b, |d.nbLayer.2 a b| ≤ 1
  acts : ∀ a ∈ d.genesis ++ d.persistence, MildFn M L a.eval
  channels : d.ext < 4

/-- The growth of a `CCA` as a universe. -/
noncomputable def growthOf {d : CCADyn} (p : Plain d) (u : Univ ℝ N d.ext H W) :
    Univ ℝ N d.ext H W := fun n _ i j => growth p (u n) i j

/-- The growth of a `Lenia` as a universe: only the genesis functions count. -/
noncomputable def leniaRate {d : CCADyn} (p : Plain d) (u : Univ ℝ N d.ext H W) :
    Univ ℝ N d.ext H W := fun n _ i j =>
  1 / (d.ext * d.int) * ∑ o : Fin d.int, (d.genesis.get (Fin.cast p.gen.symm o)).eval
    (gathered d.nbLayer.2 (u n (source p.ext_pos p.dvd o)) i j)

/-- No Gaussian of width `-1e-9` and no interval with infinitely steep sides. -/
def Sound : Act ℝ → Prop
  | .gaussian _ s _ => eps9 + s ≠ 0
  | .doGaussian _ s _ _ => eps9 + s ≠ 0
  | .doubleGaussian _ _ s₀ s₁ _ => eps9 + s₀ ≠ 0 ∧ eps9 + s₁ ≠ 0
  | .mixture cs _ => ∀ c ∈ cs, eps9 + c.2.2 ≠ 0
  | .smoothIntervals _ a _ => a ≠ 0
  | _ => True

end Spec

/-! ## The growth of an automaton -/

section

variable {d : CCADyn} {M L : ℝ}

theorem gathered_le (hk : ∑ a, ∑ b, |d.nbLayer.2 a b| ≤ 1) {x : Grid ℝ H W} {ε : ℝ} (hε : 0 ≤ ε)
    (hx : ∀ i j, |x i j| ≤ ε) (i : Fin H) (j : Fin W) : |gathered d.nbLayer.2 x i j| ≤ ε := by
  unfold gathered
  refine (Finset.abs_sum_le_sum_abs _ _).trans ?_
  have h1 : ∀ a, |∑ b, d.nbLayer.2 a b * x (rollIdx i ((d.nbLayer.1 : Int) - a.val))
      (rollIdx j ((d.nbLayer.1 : Int) - b.val))| ≤ ∑ b, |d.nbLayer.2 a b| * ε := fun a => by
    refine (Finset.abs_sum_le_sum_abs _ _).trans (Finset.sum_le_sum fun b _ => ?_)
    rw [abs_mul]
    exact mul_le_mul_of_nonneg_left (hx _ _) (abs_nonneg _)
  refine (Finset.sum_le_sum fun a _ => h1 a).trans ?_
  simp only [← Finset.sum_mul]
  calc _ ≤ 1 * ε := mul_le_mul_of_nonneg_right hk hε
    _ = ε := one_mul ε

theorem gathered_sub {r : Nat} (κ : Fin (2 * r + 1) → Fin (2 * r + 1) → ℝ) (x y : Grid ℝ H W)
    (i : Fin H) (j : Fin W) :
    gathered κ x i j - gathered κ y i j = gathered κ (fun i j => x i j - y i j) i j := by
  unfold gathered
  simp only [← Finset.sum_sub_distrib, mul_sub]

theorem gathered_unit (hk : ∑ a, ∑ b, |d.nbLayer.2 a b| ≤ 1) {u : Univ ℝ N d.ext H W}
    (hu : Within01 u) (n : Fin N) (e : Fin d.ext) (i : Fin H) (j : Fin W) :
    |gathered d.nbLayer.2 (u n e) i j| ≤ 1 :=
  gathered_le hk zero_le_one
    (fun i j => abs_le.2 ⟨by linarith [(hu n e i j).1], (hu n e i j).2⟩) i j

theorem gathered_near (hk : ∑ a, ∑ b, |d.nbLayer.2 a b| ≤ 1) {u v : Univ ℝ N d.ext H W} {ε : ℝ}
    (hn : CloseBy ε u v) (n : Fin N) (e : Fin d.ext) (i : Fin H) (j : Fin W) :
    |gathered d.nbLayer.2 (u n e) i j - gathered d.nbLayer.2 (v n e) i j| ≤ ε := by
  rw [gathered_sub]
  exact gathered_le hk ((abs_nonneg _).trans (hn n e i j)) (fun i j => hn n e i j) i j

/-- The mean of `int` numbers of absolute value at most `B`, divided by `ext`. -/
theorem mean_le {int ext : Nat} {f : Fin int → ℝ} {B : ℝ} (hB : 0 ≤ B) (hf : ∀ o, |f o| ≤ B) :
    |1 / ((ext : ℝ) * int) * ∑ o, f o| ≤ B / ext := by
  have h1 : |∑ o, f o| ≤ int * B := by
    refine (Finset.abs_sum_le_sum_abs _ _).trans ((Finset.sum_le_sum fun o _ => hf o).trans ?_)
    simp
  rw [abs_mul, abs_of_nonneg (by positivity)]
  rcases Nat.eq_zero_or_pos int with h0 | h0
  · subst h0; simp; positivity
  · have hi : (0 : ℝ) < int := by exact_mod_cast h0
    calc _ ≤ 1 / ((ext : ℝ) * int) * (int * B) := mul_le_mul_of_nonneg_left h1 (by positivity)
      _ = B / ext := by
        rcases Nat.eq_zero_or_pos ext with he | he
        · subst he; simp
        · have : (0 : ℝ) < ext := by exact_mod_cast he
          field_simp

/-- The growth of a mild automaton is bounded and Lipschitz. -/
theorem growth_tame (p : Plain d) (m : Mild d M L) :
    Tame (growthOf (N := N) (H := H) (W := W) p) (M / d.ext) ((2 * M + L) / d.ext) := by
  obtain ⟨hM, hL⟩ := m.nonneg
  have hg : ∀ o : Fin d.int, MildFn M L (d.genesis.get (Fin.cast p.gen.symm o)).eval :=
    fun o => m.acts _ (List.mem_append_left _ (List.get_mem _ _))
  have hp : ∀ o : Fin d.int, MildFn M L (d.persistence.get (Fin.cast p.per.symm o)).eval :=
    fun o => m.acts _ (List.mem_append_right _ (List.get_mem _ _))
  refine ⟨⟨by positivity, by positivity⟩, ?_, ?_⟩
  · intro u hu n e i j
    refine mean_le hM fun o => ?_
    have hx := hu n (source p.ext_pos p.dvd o) i j
    have hk := gathered_unit m.kernel hu n (source p.ext_pos p.dvd o) i j
    have h1 := abs_le.1 ((hg o).2.2 _ _ hk hk).1
    have h2 := abs_le.1 ((hp o).2.2 _ _ hk hk).1
    rw [abs_le]
    constructor <;> nlinarith [hx.1, hx.2, h1.1, h1.2, h2.1, h2.2]
  · intro ε u v hu hv hn n e i j
    have hε : 0 ≤ ε := (abs_nonneg _).trans (hn n e i j)
    have hsub : growthOf p u n e i j - growthOf p v n e i j = 1 / ((d.ext : ℝ) * d.int) *
        ∑ o : Fin d.int,
          (((1 - u n (source p.ext_pos p.dvd o) i j) *
              (d.genesis.get (Fin.cast p.gen.symm o)).eval
                (gathered d.nbLayer.2 (u n (source p.ext_pos p.dvd o)) i j) +
            u n (source p.ext_pos p.dvd o) i j *
              (d.persistence.get (Fin.cast p.per.symm o)).eval
                (gathered d.nbLayer.2 (u n (source p.ext_pos p.dvd o)) i j)) -
          ((1 - v n (source p.ext_pos p.dvd o) i j) *
              (d.genesis.get (Fin.cast p.gen.symm o)).eval
                (gathered d.nbLayer.2 (v n (source p.ext_pos p.dvd o)) i j) +
            v n (source p.ext_pos p.dvd o) i j *
              (d.persistence.get (Fin.cast p.per.symm o)).eval
                (gathered d.nbLayer.2 (v n (source p.ext_pos p.dvd o)) i j))) := by
      rw [Finset.sum_sub_distrib, mul_sub]; rfl
    rw [hsub]
    have := mean_le (int := d.int) (ext := d.ext) (B := (2 * M + L) * ε) (by positivity)
      (f := fun o : Fin d.int =>
          ((1 - u n (source p.ext_pos p.dvd o) i j) *
              (d.genesis.get (Fin.cast p.gen.symm o)).eval
                (gathered d.nbLayer.2 (u n (source p.ext_pos p.dvd o)) i j) +
            u n (source p.ext_pos p.dvd o) i j *
              (d.persistence.get (Fin.cast p.per.symm o)).eval
                (gathered d.nbLayer.2 (u n (source p.ext_pos p.dvd o)) i j)) -
          ((1 - v n (source p.ext_pos p.dvd o) i j) *
              (d.genesis.get (Fin.cast p.gen.symm o)).eval
                (gathered d.nbLayer.2 (v n (source p.ext_pos p.dvd o)) i j) +
            v n (source p.ext_pos p.dvd o) i j *
              (d.persistence.get (Fin.cast p.per.symm o)).eval
                (gathered d.nbLayer.2 (v n (source p.ext_pos p.dvd o)) i j))) ?_
    · refine this.trans (le_of_eq ?_); ring
    · intro o
      have hv' := hv n (source p.ext_pos p.dvd o) i j
      have hxy := hn n (source p.ext_pos p.dvd o) i j
      have ku := gathered_unit m.kernel hu n (source p.ext_pos p.dvd o) i j
      have kv := gathered_unit m.kernel hv n (source p.ext_pos p.dvd o) i j
      have kn := gathered_near m.kernel hn n (source p.ext_pos p.dvd o) i j
      obtain ⟨g1, g2⟩ := (hg o).2.2 _ _ ku kv
      obtain ⟨p1, p2⟩ := (hp o).2.2 _ _ ku kv
      generalize (d.genesis.get (Fin.cast p.gen.symm o)).eval
        (gathered d.nbLayer.2 (u n (source p.ext_pos p.dvd o)) i j) = gu at *
      generalize (d.genesis.get (Fin.cast p.gen.symm o)).eval
        (gathered d.nbLayer.2 (v n (source p.ext_pos p.dvd o)) i j) = gv at *
      generalize (d.persistence.get (Fin.cast p.per.symm o)).eval
        (gathered d.nbLayer.2 (u n (source p.ext_pos p.dvd o)) i j) = pu at *
      generalize (d.persistence.get (Fin.cast p.per.symm o)).eval
        (gathered d.nbLayer.2 (v n (source p.ext_pos p.dvd o)) i j) = pv at *
      generalize u n (source p.ext_pos p.dvd o) i j = x at *
      generalize v n (source p.ext_pos p.dvd o) i j = y at *
      have hLε := mul_le_mul_of_nonneg_left kn hL
      have e1 : (1 - x) * gu + x * pu - ((1 - y) * gv + y * pv) =
          (x - y) * (pu - gu) + ((1 - y) * (gu - gv) + y * (pu - pv)) := by ring
      have e2 : |(x - y) * (pu - gu)| ≤ ε * (2 * M) := by
        rw [abs_mul]
        refine mul_le_mul hxy ?_ (abs_nonneg _) hε
        refine (abs_sub _ _).trans ?_
        linarith
      have e3 : |(1 - y) * (gu - gv) + y * (pu - pv)| ≤ L * ε := by
        refine (abs_add_le _ _).trans ?_
        rw [abs_mul, abs_mul, abs_of_nonneg (by linarith [hv'.2]), abs_of_nonneg hv'.1]
        have h1 := mul_le_mul_of_nonneg_left (g2.trans hLε) (by linarith [hv'.2] : 0 ≤ 1 - y)
        have h2 := mul_le_mul_of_nonneg_left (p2.trans hLε) hv'.1
        linarith
      rw [e1]
      refine (abs_add_le _ _).trans ?_
      linarith

/-- The growth of a mild `Lenia` is bounded and Lipschitz, with a smaller constant. -/
theorem leniaRate_tame (p : Plain d) (m : Mild d M L) :
    Tame (leniaRate (N := N) (H := H) (W := W) p) (M / d.ext) (L / d.ext) := by
  obtain ⟨hM, hL⟩ := m.nonneg
  have hg : ∀ o : Fin d.int, MildFn M L (d.genesis.get (Fin.cast p.gen.symm o)).eval :=
    fun o => m.acts _ (List.mem_append_left _ (List.get_mem _ _))
  refine ⟨⟨by positivity, by positivity⟩, ?_, ?_⟩
  · intro u hu n e i j
    refine mean_le hM fun o => ?_
    have hk := gathered_unit m.kernel hu n (source p.ext_pos p.dvd o) i j
    exact ((hg o).2.2 _ _ hk hk).1
  · intro ε u v hu hv hn n e i j
    have hε : 0 ≤ ε := (abs_nonneg _).trans (hn n e i j)
    have hsub : leniaRate p u n e i j - leniaRate p v n e i j = 1 / ((d.ext : ℝ) * d.int) *
        ∑ o : Fin d.int, ((d.genesis.get (Fin.cast p.gen.symm o)).eval
            (gathered d.nbLayer.2 (u n (source p.ext_pos p.dvd o)) i j) -
          (d.genesis.get (Fin.cast p.gen.symm o)).eval
            (gathered d.nbLayer.2 (v n (source p.ext_pos p.dvd o)) i j)) := by
      rw [Finset.sum_sub_distrib, mul_sub]; rfl
    rw [hsub]
    refine (mean_le (B := L * ε) (by positivity) fun o => ?_).trans (le_of_eq (by ring))
    have ku := gathered_unit m.kernel hu n (source p.ext_pos p.dvd o) i j
    have kv := gathered_unit m.kernel hv n (source p.ext_pos p.dvd o) i j
    have kn := gathered_near m.kernel hn n (source p.ext_pos p.dvd o) i j
    exact ((hg o).2.2 _ _ ku kv).2.trans (mul_le_mul_of_nonneg_left kn hL)

end

/-! ## The automata take clipped Euler steps -/

theorem alive_few {C : Nat} (hC : C < 4) (thr : ℝ) (u : Univ ℝ N C H W) : alive thr u = u := by
  funext n e i j
  unfold alive
  rw [dif_neg (by omega)]

section

variable {d : CCADyn} (p : Plain d) (hch : d.ext < 4)
include hch

theorem cca_step (t : ℝ) (u : Univ ℝ N d.ext H W) (hH : 1 ≤ H ∧ d.nbLayer.1 ≤ H)
    (hW : 1 ≤ W ∧ d.nbLayer.1 ≤ W) :
    (d.toCCA t).forward u = .ok (eulerStep (growthOf p) d.dt u, d.toCCA (t + d.dt)) := by
  obtain ⟨u', h1, h2⟩ := cca_rule d t p.mode p.idLayer p.functional p.ext_pos p.dvd p.gen p.per u
    hH hW
  rw [h1]
  congr 2
  funext n e i j
  rw [h2 n e i j, alive_few hch]
  rfl

theorem lenia_step (t : ℝ) (u : Univ ℝ N d.ext H W) (hH : 1 ≤ H ∧ d.nbLayer.1 ≤ H)
    (hW : 1 ≤ W ∧ d.nbLayer.1 ≤ W) :
    (d.toCCA t).leniaForward u = .ok (eulerStep (leniaRate p) d.dt u, d.toCCA (t + d.dt)) := by
  obtain ⟨u', h1, h2⟩ := lenia_rule d t p.mode p.idLayer p.functional p.ext_pos p.dvd p.gen u hH hW
  rw [h1]
  congr 2
  funext n e i j
  rw [h2 n e i j, alive_few hch]
  rfl

theorem cca_steps (n : Nat) : ∀ (t : ℝ) (u : Univ ℝ N d.ext H W), 1 ≤ H ∧ d.nbLayer.1 ≤ H →
    1 ≤ W ∧ d.nbLayer.1 ≤ W → iterate CCA.forward n (d.toCCA t) u =
      .ok (eulerRun (growthOf p) (List.replicate n d.dt) u, d.toCCA (t + n * d.dt)) := by
  induction n with
  | zero => intro t u _ _; simp [iterate, eulerRun]
  | succ n ih =>
    intro t u hH hW
    show (do
      let (b', s') ← (d.toCCA t).forward u
      iterate CCA.forward n s' b') = _
    rw [cca_step p hch t u hH hW]
    show iterate CCA.forward n (d.toCCA (t + d.dt)) (eulerStep (growthOf p) d.dt u) = _
    rw [ih _ _ hH hW, show t + d.dt + n * d.dt = t + ((n + 1 : ℕ) : ℝ) * d.dt by push_cast; ring]
    rfl

theorem lenia_steps (n : Nat) : ∀ (t : ℝ) (u : Univ ℝ N d.ext H W), 1 ≤ H ∧ d.nbLayer.1 ≤ H →
    1 ≤ W ∧ d.nbLayer.1 ≤ W → iterate CCA.leniaForward n (d.toCCA t) u =
      .ok (eulerRun (leniaRate p) (List.replicate n d.dt) u, d.toCCA (t + n * d.dt)) := by
  induction n with
  | zero => intro t u _ _; simp [iterate, eulerRun]
  | succ n ih =>
    intro t u hH hW
    show (do
      let (b', s') ← (d.toCCA t).leniaForward u
      iterate CCA.leniaForward n s' b') = _
    rw [lenia_step p hch t u hH hW]
    show iterate CCA.leniaForward n (d.toCCA (t + d.dt)) (eulerStep (leniaRate p) d.dt u) = _
    rw [ih _ _ hH hW, show t + d.dt + n * d.dt = t + ((n + 1 : ℕ) : ℝ) * d.dt by push_cast; ring]
    rfl

end

/-- The same automaton with another step size. -/
theorem plain_dt {d : CCADyn} (p : Plain d) (h : ℝ) : Plain { d with dt := h } :=
  ⟨p.mode, p.idLayer, p.functional, p.ext_pos, p.dvd, p.gen, p.per⟩

theorem random_euler (draws : List ℝ) : ∀ {d : CCADyn} (p : Plain d), d.ext < 4 →
    ∀ (t prev mx mn : ℝ) (u : Univ ℝ N d.ext H W), 1 ≤ H ∧ d.nbLayer.1 ≤ H →
    1 ≤ W ∧ d.nbLayer.1 ≤ W → ∃ s', randomRun ⟨d.toCCA t, prev, mx, mn⟩ u draws =
      .ok (eulerRun (growthOf p) (draws.map fun r => mn + r * (mx - mn)) u, s') ∧
      s'.ca.t = t + (draws.map fun r => mn + r * (mx - mn)).sum := by
  induction draws with
  | nil => intro d p _ t prev mx mn u _ _; exact ⟨_, rfl, by simp [CCADyn.toCCA]⟩
  | cons r rs ih =>
    intro d p hch t prev mx mn u hH hW
    obtain ⟨u', h1, h2⟩ := randomStep_rule p t prev mx mn r u hH hW
    have hu' : u' = eulerStep (growthOf p) (mn + r * (mx - mn)) u := by
      funext n e i j
      rw [h2 n e i j, alive_few hch]
      rfl
    subst hu'
    obtain ⟨s', h3, h4⟩ := ih (plain_dt p (mn + r * (mx - mn))) hch
      (t + (mn + r * (mx - mn))) (mn + r * (mx - mn)) mx mn
      (eulerStep (growthOf (plain_dt p (mn + r * (mx - mn)))) (mn + r * (mx - mn)) u) hH hW
    refine ⟨s', ?_, ?_⟩
    · show (do
        let (u', s') ← RandomStepCA.forward ⟨d.toCCA t, prev, mx, mn⟩ r u
        randomRun s' u' rs) = _
      rw [h1]
      exact h3
    · rw [h4, List.map_cons, List.sum_cons, add_assoc]

theorem plain_runnable {d : CCADyn} (p : Plain d) {t prev mx mn thr : ℝ}
    (hH : 1 ≤ H ∧ d.nbLayer.1 ≤ H) (hW : 1 ≤ W ∧ d.nbLayer.1 ≤ W) :
    Runnable (⟨d.toCCA t, prev, mx, mn, thr⟩ : CODE ℝ d.ext d.int) H W := by
  refine ⟨?_, ?_, ?_, ?_⟩
  · exact (apply_ok_iff _ (fun _ _ _ _ => 0 : Univ ℝ 0 d.ext H W)).1
      ⟨_, plain_identity p t _ hH.1 hW.1⟩
  · exact (apply_ok_iff _ (fun _ _ _ _ => 0 : Univ ℝ 0 d.ext H W)).1
      ⟨_, plain_neighborhood p t _ hH.2 hW.2⟩
  · simpa [CCADyn.toCCA] using p.gen
  · simpa [CCADyn.toCCA] using p.per

theorem code_steps (k : Nat) : ∀ {d : CCADyn} (p : Plain d), d.ext < 4 →
    ∀ (t prev mx mn thr : ℝ) (u : Univ ℝ N d.ext H W), 1 ≤ H ∧ d.nbLayer.1 ≤ H →
    1 ≤ W ∧ d.nbLayer.1 ≤ W →
    StepReady (⟨d.toCCA t, prev, mx, mn, thr⟩ : CODE ℝ d.ext d.int) →
    ∀ s' u', CodeSteps k ⟨d.toCCA t, prev, mx, mn, thr⟩ u s' u' →
      ∃ hs : List ℝ, hs.length = k ∧ (∀ h ∈ hs, mn ≤ h ∧ h ≤ mx) ∧ s'.ca.t = t + hs.sum ∧
        u' = eulerRun (growthOf p) hs u := by
  induction k with
  | zero =>
    intro d p _ t prev mx mn thr u _ _ _ s' u' h
    cases h
    exact ⟨[], rfl, by simp, by simp [CCADyn.toCCA], rfl⟩
  | succ k ih =>
    intro d p hch t prev mx mn thr u hH hW hr s' u' h
    cases h with
    | @succ _ _ _ s1 u1 _ _ fuel h1 h2 =>
      obtain ⟨hg, hv, hr', heq⟩ := code_step_unique _ hr (plain_runnable p hH hW) u h1
      simp only at hg hv hr' heq
      generalize hdt : s1.ca.dt = h at hg hv heq
      obtain ⟨v, hv1, hv2⟩ := code_grid_rule p t prev mx mn thr h u hH hW
      have hu1 : u1 = eulerStep (growthOf p) h u := by
        rw [hv1] at hv
        cases hv
        funext n e i j
        rw [hv2 n e i j, alive_few hch]
        rfl
      subst hu1 heq
      obtain ⟨hs, a1, a2, a3, a4⟩ := ih (plain_dt p h) hch (t + h) h mx mn thr
        (eulerStep (growthOf (plain_dt p h)) h u) hH hW hr' s' u' h2
      refine ⟨h :: hs, by simp [a1], ?_, ?_, a4⟩
      · intro x hx
        rcases List.mem_cons.1 hx with rfl | hx
        · exact ⟨hg.1, hg.2.1⟩
        · exact a2 x hx
      · rw [a3, List.sum_cons, add_assoc]

/-! ## C100 -/

section

variable {d : CCADyn} {M L : ℝ}

/-- C100: two universes that differ a little still differ only a little after `n` steps: a step
multiplies the difference by at most `1 + dt (2M + L) / ext`. -/
theorem cca_sensitivity (p : Plain d) (m : Mild d M L) (hdt : 0 ≤ d.dt) (t t' : ℝ) (n : Nat) {ε : ℝ}
    (hε : 0 ≤ ε) (u v : Univ ℝ N d.ext H W) (hu : Within01 u) (hv : Within01 v)
    (hn : CloseBy ε u v) (hH : 1 ≤ H ∧ d.nbLayer.1 ≤ H) (hW : 1 ≤ W ∧ d.nbLayer.1 ≤ W) :
    ∃ u' v' s s', iterate CCA.forward n (d.toCCA t) u = .ok (u', s) ∧
      iterate CCA.forward n (d.toCCA t') v = .ok (v', s') ∧
      CloseBy ((1 + d.dt * ((2 * M + L) / d.ext)) ^ n * ε) u' v' := by
  refine ⟨_, _, _, _, cca_steps p m.channels n t u hH hW, cca_steps p m.channels n t' v hH hW, ?_⟩
  have hF := growth_tame (N := N) (H := H) (W := W) p m
  clear t t'
  induction n generalizing u v ε with
  | zero => simpa [eulerRun] using hn
  | succ n ih =>
    have hc : 0 ≤ d.dt * ((2 * M + L) / d.ext) := mul_nonneg hdt hF.nonneg.2
    have := ih (by positivity) _ _ (eulerStep_unit (F := growthOf p) d.dt u)
      (eulerStep_unit (F := growthOf p) d.dt v) (eulerStep_near hF hdt hu hv hn)
    rw [List.replicate_succ]
    refine near_mono this (le_of_eq ?_)
    rw [pow_succ]; ring

/-- C100: rounding errors add up, amplified by the same factor: if every step of a computed run
`v` is within `δ` of the exact step, then after `n` steps the computed run is within
`δ (1 + q + … + q ^ (n - 1))` of the exact one. -/
theorem cca_noise (p : Plain d) (m : Mild d M L) (hdt : 0 ≤ d.dt) (t : ℝ) {δ : ℝ}
    (v : Nat → Univ ℝ N d.ext H W) (hv : ∀ k, Within01 (v k)) (hH : 1 ≤ H ∧ d.nbLayer.1 ≤ H)
    (hW : 1 ≤ W ∧ d.nbLayer.1 ≤ W)
    (hstep : ∀ k : ℕ, ∃ w s, (d.toCCA (t + k * d.dt)).forward (v k) = .ok (w, s) ∧
      CloseBy δ (v (k + 1)) w) (n : Nat) :
    ∃ u' s, iterate CCA.forward n (d.toCCA t) (v 0) = .ok (u', s) ∧
      CloseBy (δ * ∑ k ∈ Finset.range n, (1 + d.dt * ((2 * M + L) / d.ext)) ^ k) (v n) u' := by
  refine ⟨_, _, cca_steps p m.channels n t _ hH hW, ?_⟩
  have hF := growth_tame (N := N) (H := H) (W := W) p m
  have hnear : ∀ k, CloseBy δ (v (k + 1)) (eulerStep (growthOf p) d.dt (v k)) := by
    intro k
    obtain ⟨w, s, h1, h2⟩ := hstep k
    rw [cca_step p m.channels _ _ hH hW] at h1
    cases h1
    exact h2
  induction n with
  | zero => simpa [eulerRun] using near_refl (v 0)
  | succ n ih =>
    have hu : Within01 (eulerRun (growthOf p) (List.replicate n d.dt) (v 0)) :=
      eulerRun_unit _ (hv 0)
    have h1 := near_trans (hnear n) (eulerStep_near hF hdt (hv n) hu ih)
    rw [List.replicate_succ', eulerRun_append]
    refine near_mono h1 (le_of_eq ?_)
    rw [Finset.sum_range_succ', mul_add, pow_zero, mul_one, Finset.mul_sum, Finset.mul_sum,
      Finset.mul_sum, add_comm]
    congr 1
    refine Finset.sum_congr rfl fun k _ => ?_
    rw [pow_succ]; ring

/-- What stepping through time `T` in steps of at most `h` costs: the constant of a growth of at
most `M` and slope at most `c`. -/
noncomputable def Spec.cost (M c T : ℝ) : ℝ := c * M * Real.exp (c * T) / 2 * T

theorem run_follows {C : Nat} {F : Univ ℝ N C H W → Univ ℝ N C H W} {M c : ℝ} (hF : Tame F M c)
    {P : List ℝ} {h : ℝ} (hP : ∀ x ∈ P, 0 < x ∧ x ≤ h) (hs : 0 < P.sum) {u : Univ ℝ N C H W}
    (hu : Within01 u) : CloseBy (cost M c P.sum * h) (eulerRun F P u) (flow F P.sum u) := by
  refine near_mono (flow_near hF (fun x hx => (hP x hx).1) hs hu) ?_
  have h1 := stepSquares_le (P := P) (m := h) fun x hx => ⟨(hP x hx).1.le, (hP x hx).2⟩
  have hK : 0 ≤ c * M * Real.exp (c * P.sum) / 2 := by
    obtain ⟨_, _⟩ := hF.nonneg
    positivity
  have := mul_le_mul_of_nonneg_left h1 hK
  unfold cost
  linarith

/-- C100: there is one trajectory in continuous time, the same for all step sizes, that `n` steps
of any positive size follow up to an error proportional to the step size. -/
theorem cca_follows (p : Plain d) (m : Mild d M L) (hdt : 0 < d.dt) (t : ℝ) (n : Nat) (hn : 0 < n)
    (u : Univ ℝ N d.ext H W) (hu : Within01 u) (hH : 1 ≤ H ∧ d.nbLayer.1 ≤ H)
    (hW : 1 ≤ W ∧ d.nbLayer.1 ≤ W) :
    ∃ u' s, iterate CCA.forward n (d.toCCA t) u = .ok (u', s) ∧ s.t = t + n * d.dt ∧
      CloseBy (cost (M / d.ext) ((2 * M + L) / d.ext) (n * d.dt) * d.dt) u'
        (flow (growthOf p) (n * d.dt) u) := by
  refine ⟨_, _, cca_steps p m.channels n t u hH hW, rfl, ?_⟩
  have hsum : (List.replicate n d.dt).sum = n * d.dt := by simp
  have := run_follows (growth_tame (N := N) (H := H) (W := W) p m) (P := List.replicate n d.dt)
    (h := d.dt) (fun x hx => by rw [List.eq_of_mem_replicate hx]; exact ⟨hdt, le_refl _⟩)
    (by rw [hsum]; positivity) hu
  rwa [hsum] at this

/-- C100: the same for Lenia. -/
theorem lenia_follows (p : Plain d) (m : Mild d M L) (hdt : 0 < d.dt) (t : ℝ) (n : Nat) (hn : 0 < n)
    (u : Univ ℝ N d.ext H W) (hu : Within01 u) (hH : 1 ≤ H ∧ d.nbLayer.1 ≤ H)
    (hW : 1 ≤ W ∧ d.nbLayer.1 ≤ W) :
    ∃ u' s, iterate CCA.leniaForward n (d.toCCA t) u = .ok (u', s) ∧ s.t = t + n * d.dt ∧
      CloseBy (cost (M / d.ext) (L / d.ext) (n * d.dt) * d.dt) u'
        (flow (leniaRate p) (n * d.dt) u) := by
  refine ⟨_, _, lenia_steps p m.channels n t u hH hW, rfl, ?_⟩
  have hsum : (List.replicate n d.dt).sum = n * d.dt := by simp
  have := run_follows (leniaRate_tame (N := N) (H := H) (W := W) p m)
    (P := List.replicate n d.dt) (h := d.dt)
    (fun x hx => by rw [List.eq_of_mem_replicate hx]; exact ⟨hdt, le_refl _⟩)
    (by rw [hsum]; positivity) hu
  rwa [hsum] at this

/-- C100: random step sizes follow the same trajectory, whatever is drawn. -/
theorem random_follows (p : Plain d) (m : Mild d M L) (t prev mx mn : ℝ) (hmn : 0 < mn)
    (hmx : mn < mx) (draws : List ℝ) (hne : draws ≠ []) (hr : ∀ r ∈ draws, 0 ≤ r ∧ r < 1)
    (u : Univ ℝ N d.ext H W) (hu : Within01 u) (hH : 1 ≤ H ∧ d.nbLayer.1 ≤ H)
    (hW : 1 ≤ W ∧ d.nbLayer.1 ≤ W) :
    ∃ u' s, randomRun ⟨d.toCCA t, prev, mx, mn⟩ u draws = .ok (u', s) ∧
      CloseBy (cost (M / d.ext) ((2 * M + L) / d.ext) (s.ca.t - t) * mx) u'
        (flow (growthOf p) (s.ca.t - t) u) := by
  obtain ⟨s, h1, h2⟩ := random_euler draws p m.channels t prev mx mn u hH hW
  refine ⟨_, s, h1, ?_⟩
  have hP : ∀ x ∈ draws.map (fun r => mn + r * (mx - mn)), 0 < x ∧ x ≤ mx := by
    intro x hx
    obtain ⟨r, hr', rfl⟩ := List.mem_map.1 hx
    obtain ⟨a, b⟩ := hr r hr'
    constructor <;> nlinarith
  have ht : s.ca.t - t = (draws.map fun r => mn + r * (mx - mn)).sum := by rw [h2]; ring
  rw [ht]
  refine run_follows (growth_tame p m) hP ?_ hu
  cases draws with
  | nil => exact absurd rfl hne
  | cons r rs =>
    rw [List.map_cons, List.sum_cons]
    have h3 := hP _ (by rw [List.map_cons]; exact List.mem_cons_self)
    have h4 := sum_nonneg_of_pos fun x hx =>
      (hP x (by rw [List.map_cons]; exact List.mem_cons_of_mem _ hx)).1
    linarith [h3.1]

/-- C100: and so do the steps `CODE` chooses. -/
theorem code_follows (p : Plain d) (m : Mild d M L) (t prev mx mn thr : ℝ)
    (hr : StepReady (⟨d.toCCA t, prev, mx, mn, thr⟩ : CODE ℝ d.ext d.int)) (k : Nat) (hk : 0 < k)
    (u : Univ ℝ N d.ext H W) (hu : Within01 u) (hH : 1 ≤ H ∧ d.nbLayer.1 ≤ H)
    (hW : 1 ≤ W ∧ d.nbLayer.1 ≤ W) (s : CODE ℝ d.ext d.int) (u' : Univ ℝ N d.ext H W)
    (h : CodeSteps k ⟨d.toCCA t, prev, mx, mn, thr⟩ u s u') :
    CloseBy (cost (M / d.ext) ((2 * M + L) / d.ext) (s.ca.t - t) * mx) u'
      (flow (growthOf p) (s.ca.t - t) u) := by
  obtain ⟨hs, a1, a2, a3, a4⟩ := code_steps k p m.channels t prev mx mn thr u hH hW hr s u' h
  have hmn : 0 < mn := hr.1
  have ht : s.ca.t - t = hs.sum := by rw [a3]; ring
  rw [ht, a4]
  refine run_follows (growth_tame p m) (fun x hx => ⟨by linarith [(a2 x hx).1], (a2 x hx).2⟩) ?_ hu
  cases hs with
  | nil => simp at a1; omega
  | cons x hs =>
    rw [List.sum_cons]
    have h3 := a2 x List.mem_cons_self
    have h4 := sum_nonneg_of_pos fun y hy => hmn.trans_le (a2 y (List.mem_cons_of_mem _ hy)).1
    linarith [h3.1]

/-- C100: that trajectory is the limit of ever more steps, and no other universe is. -/
theorem cca_limit (p : Plain d) (m : Mild d M L) {T : ℝ} (hT : 0 < T) (t : ℝ)
    (u : Univ ℝ N d.ext H W) (hu : Within01 u) (hH : 1 ≤ H ∧ d.nbLayer.1 ≤ H)
    (hW : 1 ≤ W ∧ d.nbLayer.1 ≤ W) (φ : Univ ℝ N d.ext H W) :
    (∀ ε > 0, ∃ n₀, ∀ n ≥ n₀, ∃ u' s,
      iterate CCA.forward n (({ d with dt := T / n } : CCADyn).toCCA t) u = .ok (u', s) ∧
        CloseBy ε u' φ) ↔ φ = flow (growthOf p) T u := by
  set B := cost (M / d.ext) ((2 * M + L) / d.ext) T with hB
  have hmild : ∀ h : ℝ, Mild { d with dt := h } M L :=
    fun h => ⟨m.nonneg, m.kernel, m.acts, m.channels⟩
  have hfol : ∀ n : ℕ, 0 < n → ∃ u' s,
      iterate CCA.forward n (({ d with dt := T / n } : CCADyn).toCCA t) u = .ok (u', s) ∧
        CloseBy (C := d.ext) (B * (T / n)) u' (flow (growthOf (d := d) p) T u) := by
    intro n hn
    have hn' : (0 : ℝ) < n := by exact_mod_cast hn
    obtain ⟨u', s, h1, _, h3⟩ := cca_follows (plain_dt p (T / n)) (hmild (T / n)) (by positivity) t n
      hn u hu hH hW
    have hT' : (n : ℝ) * (T / n) = T := by field_simp
    refine ⟨u', s, h1, ?_⟩
    have h3' : CloseBy (C := d.ext) (cost (M / d.ext) ((2 * M + L) / d.ext) (n * (T / n)) * (T / n)) u'
        (flow (growthOf (d := d) p) (n * (T / n)) u) := h3
    rwa [hT'] at h3'
  have hB0 : 0 ≤ B := by
    obtain ⟨hM, hL⟩ := m.nonneg
    rw [hB]; unfold cost; positivity
  have hsmall : ∀ ε > 0, ∃ n₀ : ℕ, 0 < n₀ ∧ ∀ n ≥ n₀, B * (T / n) ≤ ε := by
    intro ε hε
    obtain ⟨n₀, h₀⟩ := exists_nat_gt (B * T / ε)
    refine ⟨n₀ + 1, Nat.succ_pos _, fun n hn => ?_⟩
    have h1 : (n₀ : ℝ) + 1 ≤ n := by exact_mod_cast hn
    have hn' : (0 : ℝ) < n := by have : (0 : ℝ) ≤ n₀ := Nat.cast_nonneg _; linarith
    rw [div_lt_iff₀ hε] at h₀
    rw [← mul_div_assoc, div_le_iff₀ hn']
    nlinarith
  constructor
  · intro h
    funext n e i j
    by_contra hne
    have hpos : 0 < |φ n e i j - flow (growthOf p) T u n e i j| := abs_pos.2 (sub_ne_zero.2 hne)
    obtain ⟨n₁, h1⟩ := h (|φ n e i j - flow (growthOf p) T u n e i j| / 3) (by linarith)
    obtain ⟨n₂, h2, h3⟩ := hsmall (|φ n e i j - flow (growthOf p) T u n e i j| / 3) (by linarith)
    obtain ⟨u1, s1, a1, a2⟩ := h1 (max n₁ n₂) (le_max_left _ _)
    obtain ⟨u2, s2, b1, b2⟩ := hfol (max n₁ n₂) (lt_of_lt_of_le h2 (le_max_right _ _))
    rw [a1] at b1
    cases b1
    have c1 : |u1 n e i j - φ n e i j| ≤ _ := a2 n e i j
    have c2 : |u1 n e i j - flow (growthOf p) T u n e i j| ≤ _ :=
      (b2 n e i j).trans (h3 (max n₁ n₂) (le_max_right _ _))
    have := abs_sub_le (φ n e i j) (u1 n e i j) (flow (growthOf p) T u n e i j)
    rw [abs_sub_comm] at c1
    linarith
  · rintro rfl ε hε
    obtain ⟨n₀, h0, h1⟩ := hsmall ε hε
    refine ⟨n₀, fun n hn => ?_⟩
    obtain ⟨u', s, a, b⟩ := hfol n (lt_of_lt_of_le h0 hn)
    exact ⟨u', s, a, near_mono b (h1 n hn)⟩

/-- C100: the trajectory stays between 0 and 1, can be interrupted anywhere and taken up again,
moves at most `M` per unit of time, and depends continuously on the start. -/
theorem trajectory_facts (p : Plain d) (m : Mild d M L) (u v : Univ ℝ N d.ext H W)
    (hu : Within01 u) (hv : Within01 v) {s t : ℝ} (hs : 0 < s) (ht : 0 < t) :
    Within01 (flow (growthOf p) t u) ∧
    flow (growthOf p) (s + t) u = flow (growthOf p) t (flow (growthOf p) s u) ∧
    CloseBy (t * (M / d.ext)) (flow (growthOf p) t u) u ∧
    ∀ ε ≥ 0, CloseBy ε u v →
      CloseBy (Real.exp ((2 * M + L) / d.ext * t) * ε) (flow (growthOf p) t u)
        (flow (growthOf p) t v) := by
  have hF := growth_tame (N := N) (H := H) (W := W) p m
  exact ⟨flow_unit hF ht hu, flow_add hF hs ht hu, flow_move hF ht hu,
    fun ε hε hn => flow_stable hF ht hε hu hv hn⟩

end

/-! ## The trajectory solves the differential equation -/

theorem flow_deriv {C : Nat} {F : Univ ℝ N C H W → Univ ℝ N C H W} {M c : ℝ} (hF : Tame F M c)
    {u : Univ ℝ N C H W} (hu : Within01 u) {t : ℝ} (ht : 0 < t) (n : Fin N) (e : Fin C) (i : Fin H)
    (j : Fin W) (h0 : 0 < flow F t u n e i j) (h1 : flow F t u n e i j < 1) :
    HasDerivAt (fun s => flow F s u n e i j) (F (flow F t u) n e i j) t := by
  obtain ⟨hM, hc⟩ := hF.nonneg
  set x := flow F t u n e i j with hx
  have hw := flow_unit hF ht hu
  set μ := min x (1 - x) with hμ
  have hμ0 : 0 < μ := lt_min h0 (by linarith)
  obtain ⟨δ, hδ0, hδ1, hδt, hδμ⟩ : ∃ δ : ℝ, 0 < δ ∧ δ ≤ 1 ∧ δ ≤ t ∧ δ * (2 * M) ≤ μ := by
    refine ⟨min (min 1 t) (μ / (2 * M + 1)), by positivity, (min_le_left _ _).trans (min_le_left _ _),
      (min_le_left _ _).trans (min_le_right _ _), ?_⟩
    have h2 : min (min 1 t) (μ / (2 * M + 1)) ≤ μ / (2 * M + 1) := min_le_right _ _
    have h3 : μ / (2 * M + 1) * (2 * M + 1) = μ := by field_simp
    have h4 : 0 < min (min 1 t) (μ / (2 * M + 1)) := by positivity
    nlinarith
  set K := c * M * Real.exp c / 2 + c * M with hK
  have hquad : ∀ s, |s - t| < δ →
      |flow F s u n e i j - x - (s - t) * F (flow F t u) n e i j| ≤ K * (s - t) ^ 2 := by
    intro s hs
    have hcM : 0 ≤ c * M := mul_nonneg hc hM
    have hstep : ∀ h : ℝ, 0 < h → h < δ → ∀ w : Univ ℝ N C H W, Within01 w →
        |w n e i j - x| ≤ h * M →
        |flow F h w n e i j - w n e i j - h * F w n e i j| ≤ c * M * Real.exp c / 2 * h ^ 2 := by
      intro h hh hhδ w hw' hwx
      have a1 := flow_step hF hh hw' n e i j
      have a2 := abs_le.1 (hF.bound w hw' n e i j)
      have a3 := abs_le.1 hwx
      have hb : h * M ≤ δ * M := mul_le_mul_of_nonneg_right hhδ.le hM
      have b1 : μ ≤ x := min_le_left _ _
      have b2 : μ ≤ 1 - x := min_le_right _ _
      have c1 : h * F w n e i j ≤ h * M := mul_le_mul_of_nonneg_left a2.2 hh.le
      have c2 : -(h * M) ≤ h * F w n e i j := by
        have := mul_le_mul_of_nonneg_left a2.1 hh.le; linarith
      have hcl : eulerStep F h w n e i j = w n e i j + h * F w n e i j :=
        clip_eq (by linarith [a3.1]) (by linarith [a3.2])
      rw [hcl] at a1
      have he : Real.exp (c * h) ≤ Real.exp c := Real.exp_le_exp.2 (by nlinarith)
      rw [show flow F h w n e i j - w n e i j - h * F w n e i j =
        -(w n e i j + h * F w n e i j - flow F h w n e i j) by ring, abs_neg]
      refine a1.trans (mul_le_mul_of_nonneg_right ?_ (sq_nonneg h))
      have := mul_le_mul_of_nonneg_left he hcM
      linarith
    rcases lt_trichotomy s t with hst | hst | hst
    · have hh : 0 < t - s := by linarith
      have hhδ : t - s < δ := by rw [abs_of_neg (by linarith)] at hs; linarith
      have hs0 : 0 < s := by linarith
      have hadd : flow F t u = flow F (t - s) (flow F s u) := by
        rw [← flow_add hF hs0 hh hu]; congr 1; ring
      have hws := flow_unit hF hs0 hu
      have hmv := flow_move hF hh hws
      rw [← hadd] at hmv
      have a1 := hstep (t - s) hh hhδ _ hws (by rw [abs_sub_comm]; exact hmv n e i j)
      rw [← hadd, ← hx] at a1
      have a2 := hF.lip _ _ _ hws hw (near_symm hmv) n e i j
      have e1 : flow F s u n e i j - x - (s - t) * F (flow F t u) n e i j =
          -(x - flow F s u n e i j - (t - s) * F (flow F s u) n e i j) +
            (t - s) * (F (flow F t u) n e i j - F (flow F s u) n e i j) := by ring
      rw [e1]
      refine (abs_add_le _ _).trans ?_
      rw [abs_neg, abs_mul, abs_of_pos hh, abs_sub_comm (F (flow F t u) n e i j)]
      have := mul_le_mul_of_nonneg_left a2 hh.le
      rw [hK]
      nlinarith
    · subst hst; simp [hx]
    · have hh : 0 < s - t := by linarith
      have hhδ : s - t < δ := by rwa [abs_of_pos hh] at hs
      have hadd : flow F s u = flow F (s - t) (flow F t u) := by
        rw [← flow_add hF ht hh hu]; congr 1; ring
      have a1 := hstep (s - t) hh hhδ _ hw (by simp [← hx]; positivity)
      rw [← hadd, ← hx] at a1
      refine a1.trans ?_
      rw [hK]
      nlinarith [sq_nonneg (s - t)]
  rw [hasDerivAt_iff_isLittleO]
  refine Asymptotics.IsBigO.trans_isLittleO (g := fun s => ‖s - t‖ ^ 2) ?_
    (Asymptotics.isLittleO_pow_sub_sub t (by norm_num))
  refine Asymptotics.IsBigO.of_bound K ?_
  filter_upwards [Metric.ball_mem_nhds t hδ0] with s hs
  rw [Metric.mem_ball, Real.dist_eq] at hs
  have := hquad s hs
  simpa [Real.norm_eq_abs, smul_eq_mul] using this

/-- C100: wherever a cell of the trajectory is strictly between 0 and 1, it changes at the rate
given by genesis and persistence. -/
theorem trajectory_deriv {d : CCADyn} {M L : ℝ} (p : Plain d) (m : Mild d M L)
    (u : Univ ℝ N d.ext H W) (hu : Within01 u) {t : ℝ} (ht : 0 < t) (n : Fin N) (e : Fin d.ext)
    (i : Fin H) (j : Fin W) (h0 : 0 < flow (growthOf p) t u n e i j)
    (h1 : flow (growthOf p) t u n e i j < 1) :
    HasDerivAt (fun s => flow (growthOf p) s u n e i j) (growth p (flow (growthOf p) t u n) i j) t :=
  flow_deriv (growth_tame p m) hu ht n e i j h0 h1

/-! ## Which automata are mild -/

theorem lip_of_deriv {f f' : ℝ → ℝ} {B : ℝ} (h : ∀ x, HasDerivAt f (f' x) x) (hb : ∀ x, |f' x| ≤ B)
    (x y : ℝ) : |f x - f y| ≤ B * |x - y| :=
  Convex.norm_image_sub_le_of_norm_hasDerivWithin_le (s := Set.univ) (f := f) (f' := f')
    (fun x _ => (h x).hasDerivWithinAt) (fun x _ => hb x) convex_univ (Set.mem_univ y)
    (Set.mem_univ x)

theorem bell_lip (x y : ℝ) :
    |Real.exp (-x ^ 2 / 2) - Real.exp (-y ^ 2 / 2)| ≤ 1 * |x - y| := by
  refine lip_of_deriv (f := fun x => Real.exp (-x ^ 2 / 2))
    (f' := fun x => Real.exp (-x ^ 2 / 2) * -x) (fun x => ?_) (fun x => ?_) x y
  · have h : HasDerivAt (fun x : ℝ => -x ^ 2 / 2) (-x) x := by
      have := ((hasDerivAt_pow 2 x).neg).div_const 2
      refine this.congr_deriv ?_
      push_cast; ring
    exact h.exp
  · rw [abs_mul, abs_neg, abs_of_pos (Real.exp_pos _)]
    have h1 : |x| ≤ Real.exp (x ^ 2 / 2) := by
      have := Real.add_one_le_exp (x ^ 2 / 2)
      have h2 : 0 ≤ (|x| - 1) ^ 2 := sq_nonneg _
      have h3 : |x| ^ 2 = x ^ 2 := sq_abs x
      nlinarith
    calc Real.exp (-x ^ 2 / 2) * |x| ≤ Real.exp (-x ^ 2 / 2) * Real.exp (x ^ 2 / 2) :=
          mul_le_mul_of_nonneg_left h1 (Real.exp_pos _).le
      _ = 1 := by rw [← Real.exp_add, neg_div, neg_add_cancel, Real.exp_zero]

theorem bump_lip (mu sigma x y : ℝ) :
    |bump mu sigma x - bump mu sigma y| ≤ 1 / |eps9 + sigma| * |x - y| := by
  refine (bell_lip _ _).trans (le_of_eq ?_)
  rw [one_mul, ← sub_div, abs_div]
  rw [show x - mu - (y - mu) = x - y by ring]
  ring

theorem bump_mem (mu sigma x : ℝ) : 0 ≤ bump mu sigma x ∧ bump mu sigma x ≤ 1 :=
  ⟨(Real.exp_pos _).le, Real.exp_le_one_iff.2 (by
    have := sq_nonneg ((x - mu) / (eps9 + sigma)); linarith)⟩

theorem logistic_lip (x y : ℝ) :
    |1 / (1 + Real.exp x) - 1 / (1 + Real.exp y)| ≤ 1 * |x - y| := by
  refine lip_of_deriv (f := fun x => 1 / (1 + Real.exp x))
    (f' := fun x => -Real.exp x / (1 + Real.exp x) ^ 2) (fun x => ?_) (fun x => ?_) x y
  · have h := ((Real.hasDerivAt_exp x).const_add 1).inv (by positivity)
    simp only [one_div]
    exact h
  · have h := Real.exp_pos x
    rw [abs_div, abs_neg, abs_of_pos h, abs_of_pos (by positivity), div_le_one (by positivity)]
    nlinarith

/-- Some slope bounds the function on `[-1, 1]`. -/
def Sloped (f : ℝ → ℝ) : Prop :=
  ∃ L, 0 ≤ L ∧ ∀ x y, |x| ≤ 1 → |y| ≤ 1 → |f x - f y| ≤ L * |x - y|

theorem sloped_bound {f : ℝ → ℝ} (h : Sloped f) : ∃ M, 0 ≤ M ∧ ∀ x, |x| ≤ 1 → |f x| ≤ M := by
  obtain ⟨L, hL, hf⟩ := h
  refine ⟨|f 0| + L, by positivity, fun x hx => ?_⟩
  have h1 := hf x 0 hx (by simp)
  rw [sub_zero] at h1
  have h2 := abs_sub_abs_le_abs_sub (f x) (f 0)
  have h3 := mul_le_mul_of_nonneg_left hx hL
  linarith

theorem sloped_const (a : ℝ) : Sloped fun _ => a := ⟨0, le_refl _, fun x y _ _ => by simp⟩

theorem sloped_id : Sloped fun x => x := ⟨1, zero_le_one, fun x y _ _ => by simp⟩

theorem sloped_of_lip {f : ℝ → ℝ} {B : ℝ} (hB : 0 ≤ B) (h : ∀ x y, |f x - f y| ≤ B * |x - y|) :
    Sloped f := ⟨B, hB, fun x y _ _ => h x y⟩

theorem sloped_add {f g : ℝ → ℝ} (hf : Sloped f) (hg : Sloped g) : Sloped fun x => f x + g x := by
  obtain ⟨A, hA, hf⟩ := hf
  obtain ⟨B, hB, hg⟩ := hg
  refine ⟨A + B, by positivity, fun x y hx hy => ?_⟩
  rw [add_sub_add_comm, add_mul]
  exact (abs_add_le _ _).trans (add_le_add (hf x y hx hy) (hg x y hx hy))

theorem sloped_mul {f g : ℝ → ℝ} (hf : Sloped f) (hg : Sloped g) : Sloped fun x => f x * g x := by
  obtain ⟨P, hP, hfb⟩ := sloped_bound hf
  obtain ⟨Q, hQ, hgb⟩ := sloped_bound hg
  obtain ⟨A, hA, hf⟩ := hf
  obtain ⟨B, hB, hg⟩ := hg
  refine ⟨P * B + Q * A, by positivity, fun x y hx hy => ?_⟩
  rw [show f x * g x - f y * g y = f x * (g x - g y) + g y * (f x - f y) by ring]
  refine (abs_add_le _ _).trans ?_
  rw [abs_mul, abs_mul, add_mul, mul_assoc, mul_assoc]
  exact add_le_add (mul_le_mul (hfb x hx) (hg x y hx hy) (abs_nonneg _) hP)
    (mul_le_mul (hgb y hy) (hf x y hx hy) (abs_nonneg _) hQ)

theorem sloped_comp {f g : ℝ → ℝ} {B : ℝ} (hB : 0 ≤ B) (hg : ∀ x y, |g x - g y| ≤ B * |x - y|)
    (hf : Sloped f) : Sloped fun x => g (f x) := by
  obtain ⟨A, hA, hf⟩ := hf
  refine ⟨B * A, by positivity, fun x y hx hy => (hg _ _).trans ?_⟩
  rw [mul_assoc]
  exact mul_le_mul_of_nonneg_left (hf x y hx hy) hB

theorem sloped_pow (i : Nat) : Sloped fun x => x ^ i := by
  induction i with
  | zero => simpa using sloped_const 1
  | succ i ih => simpa only [pow_succ] using sloped_mul ih sloped_id

theorem sloped_sum {α : Type} (l : List α) (f : α → ℝ → ℝ) (h : ∀ a ∈ l, Sloped (f a)) :
    Sloped fun x => (l.map fun a => f a x).sum := by
  induction l with
  | nil => simpa using sloped_const 0
  | cons a l ih =>
    simp only [List.map_cons, List.sum_cons]
    exact sloped_add (h a List.mem_cons_self) (ih fun b hb => h b (List.mem_cons_of_mem _ hb))

theorem clampR_lip (lo hi x y : ℝ) : |clampR lo hi x - clampR lo hi y| ≤ 1 * |x - y| := by
  unfold clampR
  rw [one_mul]
  exact (abs_min_sub_min_le_max _ _ _ _).trans (by
    rw [sub_self, abs_zero, max_eq_left (abs_nonneg _)]
    refine (abs_max_sub_max_le_max _ _ _ _).trans ?_
    rw [sub_self, abs_zero, max_eq_left (abs_nonneg _)])

theorem relu_lip (x y : ℝ) : |max x 0 - max y 0| ≤ 1 * |x - y| := by
  rw [one_mul]
  refine (abs_max_sub_max_le_max _ _ _ _).trans ?_
  rw [sub_self, abs_zero, max_eq_left (abs_nonneg _)]

theorem sloped_double {f : ℝ → ℝ} (hf : Sloped f) : Sloped fun x => f x * 2 - 1 := by
  simpa [sub_eq_add_neg] using sloped_add (sloped_mul hf (sloped_const 2)) (sloped_const (-1))

theorem sloped_sub {f g : ℝ → ℝ} (hf : Sloped f) (hg : Sloped g) : Sloped fun x => f x - g x := by
  have := sloped_add hf (sloped_mul (sloped_const (-1)) hg)
  simpa [sub_eq_add_neg] using this

theorem sloped_bump (mu sigma : ℝ) : Sloped (bump mu sigma) :=
  sloped_of_lip (by positivity) (bump_lip mu sigma)

theorem sloped_sigmoid (mu alpha : ℝ) : Sloped (sigmoid1 mu alpha) := by
  refine sloped_of_lip (B := 4 / |alpha|) (by positivity) fun x y => ?_
  refine (logistic_lip _ _).trans (le_of_eq ?_)
  rw [one_mul, ← sub_div, abs_div, show -4 * (x - mu) - -4 * (y - mu) = -4 * (x - y) by ring,
    abs_mul]
  norm_num
  ring

theorem tanh_logistic (x : ℝ) : Real.tanh x = 1 - 1 / (1 + Real.exp (2 * x)) * 2 := by
  rw [Real.tanh_eq, two_mul, Real.exp_add, Real.exp_neg]
  have := Real.exp_pos x
  field_simp
  ring

theorem sloped_eval : ∀ a : Act ℝ, Sloped a.eval
  | .gaussian mu s m => by
    cases m
    · exact sloped_bump mu s
    · exact sloped_double (sloped_bump mu s)
  | .doGaussian mu s dx m => by
    have h1 : Sloped fun x => bump mu s (x + dx) :=
      sloped_of_lip (B := 1 / |eps9 + s|) (by positivity) fun x y => by
        have := bump_lip mu s (x + dx) (y + dx)
        rwa [add_sub_add_right_eq_sub] at this
    have h2 : Sloped fun x => bump mu s (x - dx) :=
      sloped_of_lip (B := 1 / |eps9 + s|) (by positivity) fun x y => by
        have := bump_lip mu s (x - dx) (y - dx)
        rwa [sub_sub_sub_cancel_right] at this
    cases m
    · exact sloped_sub h1 h2
    · exact sloped_sub (sloped_sub h1 (sloped_mul h2 (sloped_const 2))) (sloped_const 1)
  | .doubleGaussian m₀ m₁ s₀ s₁ m => by
    have h := sloped_add (sloped_bump m₀ s₀) (sloped_bump m₁ s₁)
    cases m
    · exact sloped_comp (g := clampR 0 1) zero_le_one (clampR_lip 0 1) h
    · exact sloped_comp (g := clampR (-1) 1) zero_le_one (clampR_lip (-1) 1) (sloped_double h)
  | .mixture cs m => by
    have h := sloped_sum cs (fun c x => c.1 * bump c.2.1 c.2.2 x) fun c _ =>
      sloped_mul (sloped_const c.1) (sloped_bump c.2.1 c.2.2)
    cases m
    · exact sloped_comp (g := clampR 0 1) zero_le_one (clampR_lip 0 1) h
    · exact sloped_comp (g := clampR (-1) 1) zero_le_one (clampR_lip (-1) 1) (sloped_double h)
  | .polynomial cs m => by
    have h : Sloped fun x => (cs.mapIdx fun i v => v * x ^ i).sum := by
      have := sloped_sum cs.zipIdx (fun p x => p.1 * x ^ p.2) fun p _ =>
        sloped_mul (sloped_const p.1) (sloped_pow p.2)
      simpa [List.mapIdx_eq_zipIdx_map] using this
    cases m
    · exact h
    · exact sloped_double h
  | .smoothIntervals is a m => by
    have h := sloped_sum is (fun b x => sigmoid1 b.1 a x * (1 - sigmoid1 b.2 a x)) fun b _ =>
      sloped_mul (sloped_sigmoid b.1 a) (sloped_sub (sloped_const 1) (sloped_sigmoid b.2 a))
    cases m
    · exact h
    · exact sloped_double h
  | .identity => sloped_id
  | .relu => sloped_of_lip zero_le_one relu_lip
  | .tanh => by
    have h : Sloped fun x => 1 / (1 + Real.exp (2 * x)) :=
      sloped_comp (g := fun x => 1 / (1 + Real.exp x)) zero_le_one logistic_lip (sloped_mul (sloped_const 2) sloped_id)
    have := sloped_sub (sloped_const 1) (sloped_mul h (sloped_const 2))
    simp only [← tanh_logistic] at this
    exact this

/-- C100: every growth function that does not divide by zero is bounded and has a bounded slope. -/
theorem act_mild (a : Act ℝ) (_ha : Sound a) : ∃ M L, MildFn M L a.eval := by
  obtain ⟨M, hM, hb⟩ := sloped_bound (sloped_eval a)
  obtain ⟨L, hL, hl⟩ := sloped_eval a
  exact ⟨M, L, hM, hL, fun x y hx hy => ⟨hb x hx, hl x y hx hy⟩⟩

/-- C100: the growth functions of Lenia and of the evolved automata, with their constants. -/
theorem gaussian_mild (mu sigma : ℝ) (_h : eps9 + sigma ≠ 0) :
    MildFn 1 (2 / |eps9 + sigma|) (Act.gaussian mu sigma true).eval ∧
    MildFn 1 (1 / |eps9 + sigma|) (Act.gaussian mu sigma false).eval := by
  refine ⟨⟨zero_le_one, by positivity, fun x y _ _ => ⟨?_, ?_⟩⟩,
    ⟨zero_le_one, by positivity, fun x y _ _ => ⟨?_, ?_⟩⟩⟩
  · have := bump_mem mu sigma x
    simp only [Act.eval, gaussianFn, if_true]
    exact abs_le.2 ⟨by linarith [this.1], by linarith [this.2]⟩
  · have := bump_lip mu sigma x y
    simp only [Act.eval, gaussianFn, if_true]
    rw [show bump mu sigma x * 2 - 1 - (bump mu sigma y * 2 - 1) =
      2 * (bump mu sigma x - bump mu sigma y) by ring, abs_mul, abs_two]
    calc _ ≤ 2 * (1 / |eps9 + sigma| * |x - y|) := by linarith
      _ = _ := by ring
  · have := bump_mem mu sigma x
    simp only [Act.eval, gaussianFn, Bool.false_eq_true, if_false]
    exact abs_le.2 ⟨by linarith [this.1], this.2⟩
  · simpa [Act.eval, gaussianFn] using bump_lip mu sigma x y

theorem mildFn_mono {f : ℝ → ℝ} {M L M' L' : ℝ} (h : MildFn M L f) (hM : M ≤ M') (hL : L ≤ L') :
    MildFn M' L' f :=
  ⟨h.1.trans hM, h.2.1.trans hL, fun x y hx hy => ⟨((h.2.2 x y hx hy).1).trans hM,
    ((h.2.2 x y hx hy).2).trans (mul_le_mul_of_nonneg_right hL (abs_nonneg _))⟩⟩

theorem acts_mild (l : List (Act ℝ)) (h : ∀ a ∈ l, Sound a) :
    ∃ M L : ℝ, 0 ≤ M ∧ 0 ≤ L ∧ ∀ a ∈ l, MildFn M L a.eval := by
  induction l with
  | nil => exact ⟨0, 0, le_refl _, le_refl _, by simp⟩
  | cons a l ih =>
    obtain ⟨M, L, hM, hL, h1⟩ := ih fun b hb => h b (List.mem_cons_of_mem _ hb)
    obtain ⟨M', L', h2⟩ := act_mild a (h a List.mem_cons_self)
    refine ⟨max M M', max L L', le_max_of_le_left hM, le_max_of_le_left hL, fun b hb => ?_⟩
    rcases List.mem_cons.1 hb with rfl | hb
    · exact mildFn_mono h2 (le_max_right _ _) (le_max_right _ _)
    · exact mildFn_mono (h1 b hb) (le_max_left _ _) (le_max_left _ _)

/-- C100: an automaton with a radial kernel, fewer than four channels and sound growth functions is
mild, so everything above is about it. -/
theorem radial_mild (d : CCADyn) (cfg : KernelConfig) (hn : cfg.name ∈ radialNames)
    (hk : getKernel cfg = .ok d.nbLayer) (hc : d.ext < 4)
    (ha : ∀ a ∈ d.genesis ++ d.persistence, Sound a) : ∃ M L, Mild d M L := by
  obtain ⟨M, L, hM, hL, h⟩ := acts_mild _ ha
  obtain ⟨h1, _, _, _, h5⟩ := kernel_normalised cfg hn d.nbLayer hk
  refine ⟨M, L, ⟨hM, hL⟩, ?_, h, hc⟩
  simp only [abs_of_nonneg (h1 _ _)]
  exact h5.le

/-! ## How small `CODE` makes its steps -/

section

variable {d : CCADyn} {M L : ℝ}

theorem code_euler (p : Plain d) (hch : d.ext < 4) (t prev mx mn thr h : ℝ)
    (u : Univ ℝ N d.ext H W) (hH : 1 ≤ H ∧ d.nbLayer.1 ≤ H) (hW : 1 ≤ W ∧ d.nbLayer.1 ≤ W) :
    (⟨d.toCCA t, prev, mx, mn, thr⟩ : CODE ℝ d.ext d.int).getNewGrid h u =
      .ok (eulerStep (growthOf p) h u) := by
  obtain ⟨v, h1, h2⟩ := code_grid_rule p t prev mx mn thr h u hH hW
  rw [h1]
  congr 1
  funext n e i j
  rw [h2 n e i j, alive_few hch]
  rfl

/-- C100: on a universe with no cell below `2m`, `CODE` accepts every step that is small enough:
its size does not depend on the universe. -/
theorem code_accepts (p : Plain d) (m : Mild d M L) (t prev mx mn thr : ℝ) {h μ : ℝ} (hh : 0 ≤ h)
    (hμ : 0 < μ) (h1 : h * (M / d.ext) ≤ μ)
    (h2 : (2 * M + L) / d.ext * (M / d.ext) * h ^ 2 / 2 < thr * μ) (u : Univ ℝ N d.ext H W)
    (hu : Within01 u) (hlow : ∀ n e i j, 2 * μ ≤ u n e i j) (hH : 1 ≤ H ∧ d.nbLayer.1 ≤ H)
    (hW : 1 ≤ W ∧ d.nbLayer.1 ≤ W) :
    MeetsThreshold (⟨d.toCCA t, prev, mx, mn, thr⟩ : CODE ℝ d.ext d.int) u h := by
  have hF := growth_tame (N := N) (H := H) (W := W) p m
  refine ⟨_, _, _, code_euler p m.channels t prev mx mn thr h u hH hW,
    code_euler p m.channels t prev mx mn thr (h / 2) u hH hW,
    code_euler p m.channels t prev mx mn thr (h / 2) _ hH hW, fun n e i j => ?_⟩
  have hcut := eulerRun_cut hF hu [h / 2, h / 2] (by intro x hx; simp at hx; subst hx; linarith)
    n e i j
  rw [show [h / 2, h / 2].sum = h by simp] at hcut
  have hrun : eulerRun (growthOf p) [h / 2, h / 2] u =
      eulerStep (growthOf p) (h / 2) (eulerStep (growthOf p) (h / 2) u) := rfl
  rw [hrun, abs_sub_comm] at hcut
  have hmv := near_trans
    (eulerStep_move hF (by linarith : 0 ≤ h / 2) (eulerStep_unit (F := growthOf p) (h / 2) u))
    (eulerStep_move hF (by linarith : 0 ≤ h / 2) hu) n e i j
  generalize eulerStep (growthOf p) (h / 2) (eulerStep (growthOf p) (h / 2) u) n e i j = y at *
  have hy : μ ≤ y := by
    have := abs_le.1 hmv
    have := hlow n e i j
    linarith
  rw [if_pos (by linarith), div_lt_iff₀ (by linarith)]
  refine lt_of_le_of_lt hcut (lt_of_lt_of_le h2 ?_)
  have hthr : 0 < thr := by
    have : 0 ≤ (2 * M + L) / d.ext * (M / d.ext) * h ^ 2 / 2 := by
      have := hF.nonneg; have := mul_nonneg hF.nonneg.2 hF.nonneg.1; positivity
    by_contra hle
    have := mul_le_mul_of_nonneg_right (not_lt.1 hle) hμ.le
    linarith
  exact mul_le_mul_of_nonneg_left hy hthr.le

/-- C100: so on such a universe `CODE` either takes its first candidate or a step of more than
three quarters of that size. -/
theorem code_step_large (p : Plain d) (m : Mild d M L) (t prev mx mn thr : ℝ)
    (hr : StepReady (⟨d.toCCA t, prev, mx, mn, thr⟩ : CODE ℝ d.ext d.int)) {h₀ μ : ℝ}
    (hμ : 0 < μ) (h1 : h₀ * (M / d.ext) ≤ μ)
    (h2 : (2 * M + L) / d.ext * (M / d.ext) * h₀ ^ 2 / 2 < thr * μ) (u : Univ ℝ N d.ext H W)
    (hu : Within01 u) (hlow : ∀ n e i j, 2 * μ ≤ u n e i j) (hH : 1 ≤ H ∧ d.nbLayer.1 ≤ H)
    (hW : 1 ≤ W ∧ d.nbLayer.1 ≤ W) {fuel : Nat} {u' : Univ ℝ N d.ext H W} {s' : CODE ℝ d.ext d.int}
    (h : (⟨d.toCCA t, prev, mx, mn, thr⟩ : CODE ℝ d.ext d.int).forward fuel u = some (.ok (u', s'))) :
    s'.ca.dt = min (2 * prev) mx ∨ 3 / 4 * h₀ < s'.ca.dt := by
  obtain ⟨⟨g1, g2, g3, g4⟩, _, _, _⟩ := code_step_unique _ hr (plain_runnable p hH hW) u h
  simp only at g1 g2 g3 g4
  obtain ⟨hr0, hr1, hr2⟩ := hr
  simp only at hr0 hr1 hr2
  have hF := growth_tame (N := N) (H := H) (W := W) p m
  have hmc : mn ≤ min (2 * prev) mx := le_min hr2 hr1
  generalize min (2 * prev) mx = c at *
  have hc : 0 < c := lt_of_lt_of_le hr0 hmc
  have hbig : ∀ x, 0 < x →
      ¬ MeetsThreshold (⟨d.toCCA t, prev, mx, mn, thr⟩ : CODE ℝ d.ext d.int) u x → h₀ < x := by
    intro x hx hno
    by_contra hle
    push Not at hle
    refine hno (code_accepts p m t prev mx mn thr hx.le hμ ?_ ?_ u hu hlow hH hW)
    · exact (mul_le_mul_of_nonneg_right hle hF.nonneg.1).trans h1
    · refine lt_of_le_of_lt ?_ h2
      have h3 : x ^ 2 ≤ h₀ ^ 2 := pow_le_pow_left₀ hx.le hle 2
      have := mul_le_mul_of_nonneg_left h3 (mul_nonneg hF.nonneg.2 hF.nonneg.1)
      linarith
  rcases g4 with ⟨j, e1, _, e3⟩ | ⟨e1, e2⟩
  · cases j with
    | zero => left; simpa using e1
    | succ j =>
      right
      have := hbig _ (by positivity) (e3 j (Nat.lt_succ_self j))
      rw [e1, pow_succ]
      linarith
  · right
    obtain ⟨F, hF'⟩ := exists_fuel c hr0
    have hex : ∃ j : ℕ, c * (3 / 4) ^ j < mn := ⟨F, hF' F (le_refl _)⟩
    classical
    have hj := Nat.find_spec hex
    generalize hj' : Nat.find hex = j at hj
    cases j with
    | zero => simp at hj; linarith
    | succ j =>
      have hmin : mn ≤ c * (3 / 4) ^ j := by
        by_contra hlt
        exact Nat.find_min hex (m := j) (by omega) (not_le.1 hlt)
      have := hbig _ (by positivity) (e2 j hmin)
      rw [e1]
      rw [pow_succ] at hj
      linarith

end

/-! ## With four channels the alive mask jumps -/

/-- Four channels that do not grow. -/
noncomputable def Witness.still : CCADyn where
  ext := 4
  int := 4
  mode := .circular
  idLayer := ⟨1, identityKernel⟩
  nbLayer := ⟨1, fun a b => if a = 1 ∧ b = 2 then 1 else 0⟩
  genesis := List.replicate 4 (.polynomial [0] false)
  persistence := List.replicate 4 (.polynomial [0] false)
  seqWeights := none
  thr := 0.1
  dt := 0.1

theorem Witness.still_plain : Plain Witness.still :=
  ⟨rfl, rfl, rfl, by decide, dvd_refl 4, by simp [Witness.still], by simp [Witness.still]⟩

/-- C100, exception: with four channels two universes that differ by as little as you like can be
1 apart after a single step, even if nothing grows. -/
theorem mask_jump_refuted (ε : ℝ) (hε : 0 < ε) (hε1 : ε ≤ 0.9) :
    ∃ u v : Univ ℝ 1 4 3 3, Within01 u ∧ Within01 v ∧ CloseBy ε u v ∧
      ∃ u' v' s s', (Witness.still.toCCA 0).forward u = .ok (u', s) ∧
        (Witness.still.toCCA 0).forward v = .ok (v', s') ∧ |u' 0 (0 : Fin 4) 1 1 - v' 0 (0 : Fin 4) 1 1| = 1 := by
  have hz : ∀ (x : Fin 4 → Grid ℝ 3 3) (i j : Fin 3), growth Witness.still_plain x i j = 0 := by
    intro x i j
    have h : ∀ (o : Fin 4), (∀ y, (Witness.still.genesis.get
        (Fin.cast Witness.still_plain.gen.symm o)).eval y = 0) ∧ (∀ y,
        (Witness.still.persistence.get (Fin.cast Witness.still_plain.per.symm o)).eval y = 0) := by
      intro o
      have hg := List.eq_of_mem_replicate (List.get_mem Witness.still.genesis
        (Fin.cast Witness.still_plain.gen.symm o))
      have hp := List.eq_of_mem_replicate (List.get_mem Witness.still.persistence
        (Fin.cast Witness.still_plain.per.symm o))
      rw [hg, hp]
      simp [Act.eval, polynomialFn]
    unfold growth
    rw [Finset.sum_eq_zero, mul_zero]
    intro o _
    rw [(h o).1, (h o).2, mul_zero, mul_zero, add_zero]
  have hstep : ∀ w : Univ ℝ 1 4 3 3, ∃ w', (Witness.still.toCCA 0).forward w =
      .ok (w', Witness.still.toCCA (0 + Witness.still.dt)) ∧
      ∀ n e i j, w' n e i j = clip (alive 0.1 w n e i j) := by
    intro w
    obtain ⟨w', h1, h2⟩ := cca_rule Witness.still 0 rfl rfl rfl Witness.still_plain.ext_pos
      Witness.still_plain.dvd Witness.still_plain.gen Witness.still_plain.per w
      (by decide : 1 ≤ 3 ∧ 1 ≤ 3) (by decide : 1 ≤ 3 ∧ 1 ≤ 3)
    refine ⟨w', h1, fun n e i j => ?_⟩
    have h3 := h2 n e i j
    have h4 := hz (alive 0.1 w n) i j
    unfold growth at h4
    simp only at h3
    rw [h3]
    congr 1
    have h5 : (Witness.still.thr : ℝ) = 0.1 := rfl
    rw [h5]
    refine (congrArg (fun z => alive 0.1 w n e i j + Witness.still.dt * z) h4).trans ?_
    simp
  refine ⟨fun _ e _ _ => if e = 3 then 0.1 + ε else 1, fun _ e _ _ => if e = 3 then 0.1 else 1,
    ?_, ?_, ?_, ?_⟩
  · intro n e i j
    dsimp only
    split <;> constructor <;> linarith
  · intro n e i j
    dsimp only
    split <;> constructor <;> norm_num
  · intro n e i j
    dsimp only
    split
    · rw [add_sub_cancel_left, abs_of_pos hε]
    · simp [hε.le]
  · obtain ⟨u', a1, a2⟩ := hstep fun _ e _ _ => if e = 3 then 0.1 + ε else 1
    obtain ⟨v', b1, b2⟩ := hstep fun _ e _ _ => if e = 3 then 0.1 else 1
    refine ⟨u', v', _, _, a1, b1, ?_⟩
    have hu1 : u' 0 (0 : Fin 4) 1 1 = 1 := (a2 0 (0 : Fin 4) 1 1).trans (by
      simp only [alive]
      rw [dif_pos (by decide), if_pos (by simp [hε]), if_neg (by decide)]
      simp [clip])
    have hv1 : v' 0 (0 : Fin 4) 1 1 = 0 := (b2 0 (0 : Fin 4) 1 1).trans (by
      simp only [alive]
      rw [dif_pos (by decide), if_neg (by simp)]
      simp [clip])
    have hval : u' 0 (0 : Fin 4) 1 1 - v' 0 (0 : Fin 4) 1 1 = 1 := by
      have := congrArg₂ (fun a b : ℝ => a - b) hu1 hv1
      simpa using this
    exact (congrArg (fun z : ℝ => |z|) hval).trans abs_one

/-! ## Examples -/

/-- Orbium: one channel, the kernel and the growth function of Lenia. -/
noncomputable def Witness.orbiumDyn (K : AnyKernel) : CCADyn where
  ext := 1
  int := 1
  mode := .circular
  idLayer := ⟨1, identityKernel⟩
  nbLayer := K
  genesis := [.gaussian 0.15 0.015 true]
  persistence := [.gaussian 0.15 0.015 true]
  seqWeights := none
  thr := 0.1
  dt := 0.1

/-- `radial_mild` and with it the hypotheses of all theorems about mild automata are met by the
orbium. -/
example : ∃ K, K.1 = 13 ∧ Plain (Witness.orbiumDyn K) ∧ (∃ M L, Mild (Witness.orbiumDyn K) M L) ∧
    0 < (Witness.orbiumDyn K).dt := by
  obtain ⟨K, hK⟩ : ∃ K, getKernel ⟨"Gaussian", some 13, some { mu := some 0.5, sigma := some 0.15 }⟩
      = .ok K ∧ K.1 = 13 := by simp [getKernel, kernelFn]
  refine ⟨K, hK.2, ⟨rfl, rfl, rfl, Nat.one_pos, dvd_refl 1, rfl, rfl⟩,
    radial_mild _ _ (by simp [radialNames]) hK.1 (by decide : 1 < 4) ?_, by
      norm_num [Witness.orbiumDyn]⟩
  intro a ha
  have : a = .gaussian 0.15 0.015 true := by simpa [Witness.orbiumDyn] using ha
  subst this
  show eps9 + 0.015 ≠ 0
  unfold eps9
  norm_num

theorem Witness.twoFour_mild : Mild Witness.twoFour 1 1 := by
  refine ⟨⟨zero_le_one, zero_le_one⟩, ?_, ?_, by decide⟩
  · show ∑ a : Fin 3, ∑ b : Fin 3, |if a = 1 ∧ b = 2 then (1 : ℝ) else 0| ≤ 1
    simp [Fin.sum_univ_three]
  · intro a ha
    have : a = .identity := by simpa [Witness.twoFour] using ha
    subst this
    exact ⟨zero_le_one, zero_le_one, fun x y hx _ => ⟨hx, by simp [Act.eval]⟩⟩

/-- The hypotheses of the theorems about `CCA`, random steps and `CODE` are met. -/
example : ∃ (u v : Univ ℝ 1 2 8 8), Within01 u ∧ Within01 v ∧ CloseBy 0.01 u v ∧ u ≠ v ∧
    (∀ n e i j, 2 * 0.2 ≤ u n e i j) ∧
    StepReady (⟨Witness.twoFour.toCCA 0, 0.1, 0.2, 0.001, 0.1⟩ : CODE ℝ 2 4) ∧
    (0.1 : ℝ) * (1 / 2) ≤ 0.2 ∧ (2 * 1 + 1) / 2 * ((1 : ℝ) / 2) * 0.1 ^ 2 / 2 < 0.1 * 0.2 := by
  refine ⟨fun _ _ _ _ => 0.5, fun _ _ _ _ => 0.505, ?_, ?_, ?_, ?_, ?_, ?_, ?_, ?_⟩
  · intro n e i j; norm_num
  · intro n e i j; norm_num
  · intro n e i j; norm_num [abs_of_neg]
  · intro h
    have := congrFun (congrFun (congrFun (congrFun h 0) 0) 0) 0
    norm_num at this
  · intro n e i j; norm_num
  · exact ⟨by norm_num, by norm_num, by norm_num⟩
  · norm_num
  · norm_num

/-- The trajectory of a cell can be strictly between 0 and 1. -/
example : ∃ u : Univ ℝ 1 2 8 8, Within01 u ∧
    0 < flow (growthOf Witness.twoFour_plain) 0.1 u 0 (0 : Fin 2) 0 0 ∧
    flow (growthOf Witness.twoFour_plain) 0.1 u 0 (0 : Fin 2) 0 0 < 1 := by
  have hu : Within01 (fun _ _ _ _ => 0.5 : Univ ℝ 1 2 8 8) := by intro n e i j; norm_num
  refine ⟨_, hu, ?_⟩
  have h := (trajectory_facts Witness.twoFour_plain Witness.twoFour_mild _ _ hu hu
    (by norm_num : (0 : ℝ) < 0.1) (by norm_num : (0 : ℝ) < 0.1)).2.2.1 0 (0 : Fin 2) 0 0
  have he : (Witness.twoFour.ext : ℝ) = 2 := rfl
  rw [he] at h
  have := abs_le.1 h
  constructor <;> norm_num at this ⊢ <;> linarith [this.1, this.2]

end Yuca
