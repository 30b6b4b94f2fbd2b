import Verif.Props.SmallSteps
import Verif.Props.Builtin

/-!
# C104: faint universes die out within a known number of steps

Exact real arithmetic, on the torus.
-/

namespace Yuca

open Arith

variable {N H W : Nat}

namespace Spec

/-- No cell is below 0 or above `b`. -/
def Faint {C : Nat} (b : ℝ) (u : Univ ℝ N C H W) : Prop := ∀ n e i j, 0 ≤ u n e i j ∧ u n e i j ≤ b

/-- The kernel takes a weighted mean, or less. -/
def Averages {r : Nat} (κ : Fin (2 * r + 1) → Fin (2 * r + 1) → ℝ) : Prop :=
  (∀ a b, 0 ≤ κ a b) ∧ ∑ a, ∑ b, κ a b ≤ 1

/-- Wherever the surroundings are between 0 and `m`, the growth function takes away at least `c`. -/
def TakesAway (m c : ℝ) (g : ℝ → ℝ) : Prop := ∀ x, 0 ≤ x → x ≤ m → g x ≤ -c

end Spec

open Spec

theorem gathered_faint {r : Nat} {κ : Fin (2 * r + 1) → Fin (2 * r + 1) → ℝ} (hκ : Averages κ)
    {x : Grid ℝ H W} {b : ℝ} (hb : 0 ≤ b) (hx : ∀ i j, 0 ≤ x i j ∧ x i j ≤ b) (i : Fin H)
    (j : Fin W) : 0 ≤ gathered κ x i j ∧ gathered κ x i j ≤ b := by
  unfold gathered
  constructor
  · exact Finset.sum_nonneg fun a _ => Finset.sum_nonneg fun c _ => mul_nonneg (hκ.1 a c) (hx _ _).1
  · have h1 : ∑ a, ∑ c, κ a c * x (rollIdx i ((r : Int) - a.val)) (rollIdx j ((r : Int) - c.val)) ≤
        ∑ a, ∑ c, κ a c * b :=
      Finset.sum_le_sum fun a _ => Finset.sum_le_sum fun c _ =>
        mul_le_mul_of_nonneg_left (hx _ _).2 (hκ.1 a c)
    simp only [← Finset.sum_mul] at h1
    have h2 : (∑ a, ∑ c, κ a c) * b ≤ 1 * b := mul_le_mul_of_nonneg_right hκ.2 hb
    linarith

theorem faint_alive {C : Nat} {b : ℝ} (hb : 0 ≤ b) {u : Univ ℝ N C H W} (hu : Faint b u) (thr : ℝ) :
    Faint b (alive thr u) := by
  intro n e i j
  unfold alive
  split
  · split
    · exact hu n e i j
    · exact ⟨le_rfl, hb⟩
  · exact hu n e i j

theorem faint_mean {int ext : Nat} (hi : 0 < int) (he : 0 < ext) {f : Fin int → ℝ} {c : ℝ}
    (hf : ∀ o, f o ≤ -c) : 1 / ((ext : ℝ) * int) * ∑ o, f o ≤ -(c / ext) := by
  have h1 : ∑ o, f o ≤ int * -c := by
    refine (Finset.sum_le_sum fun o _ => hf o).trans ?_
    simp
  have hi' : (0 : ℝ) < int := by exact_mod_cast hi
  have he' : (0 : ℝ) < ext := by exact_mod_cast he
  calc 1 / ((ext : ℝ) * int) * ∑ o, f o ≤ 1 / ((ext : ℝ) * int) * (int * -c) :=
        mul_le_mul_of_nonneg_left h1 (by positivity)
    _ = -(c / ext) := by field_simp

theorem faint_cell {x b h g c : ℝ} (hx : x ≤ b) (hh : 0 ≤ h) (hg : g ≤ -c) :
    0 ≤ clip (x + h * g) ∧ clip (x + h * g) ≤ max 0 (b - h * c) := by
  unfold clip
  refine ⟨le_max_left _ _, max_le_max le_rfl ((min_le_right _ _).trans ?_)⟩
  have : h * g ≤ h * -c := mul_le_mul_of_nonneg_left hg hh
  linarith

theorem faint_after {b T h c : ℝ} (hh : 0 ≤ h) (hc : 0 ≤ c) :
    max 0 (max 0 (b - T * c) - h * c) = max 0 (b - (T + h) * c) := by
  have : 0 ≤ h * c := mul_nonneg hh hc
  rcases max_cases 0 (b - T * c) with ⟨h1, h2⟩ | ⟨h1, h2⟩ <;> rw [h1]
  · rw [max_eq_left (by linarith), max_eq_left (by linarith)]
  · congr 1; ring

section

variable {d : CCADyn} {m c : ℝ}

/-- An automaton whose kernel averages and whose growth functions all take away. -/
structure Spec.Withers (d : CCADyn) (gs : List (Act ℝ)) (m c : ℝ) : Prop where
  channels : 0 < d.int
  kernel : Averages d.nbLayer.2
  acts : ∀ a ∈ gs, TakesAway m c a.eval
  range : 0 ≤ m ∧ m ≤ 1
  loss : 0 ≤ c

theorem faint_growth (p : Plain d) (w : Withers d (d.genesis ++ d.persistence) m c) {b : ℝ}
    (hb : 0 ≤ b) (hbm : b ≤ m) {x : Fin d.ext → Grid ℝ H W}
    (hx : ∀ e i j, 0 ≤ x e i j ∧ x e i j ≤ b) (i : Fin H) (j : Fin W) :
    growth p x i j ≤ -(c / d.ext) := by
  refine faint_mean w.channels p.ext_pos fun o => ?_
  have hg := gathered_faint w.kernel hb (hx (source p.ext_pos p.dvd o)) i j
  have h1 := w.acts _ (List.mem_append_left _ (List.get_mem d.genesis (Fin.cast p.gen.symm o))) _
    hg.1 (hg.2.trans hbm)
  have h2 := w.acts _ (List.mem_append_right _ (List.get_mem d.persistence (Fin.cast p.per.symm o)))
    _ hg.1 (hg.2.trans hbm)
  obtain ⟨y0, y1⟩ := hx (source p.ext_pos p.dvd o) i j
  have y2 : x (source p.ext_pos p.dvd o) i j ≤ 1 := y1.trans (hbm.trans w.range.2)
  have a1 := mul_le_mul_of_nonneg_left h1 (by linarith : 0 ≤ 1 - x (source p.ext_pos p.dvd o) i j)
  have a2 := mul_le_mul_of_nonneg_left h2 y0
  linarith

/-- C104: a `CCA` whose growth functions all take away at least `c` wherever the surroundings are
at most `m`: a universe with no cell above `m` has after `n` steps no cell above
`m - n dt c / ext`, and is empty once this is not positive.  With or without alive mask. -/
theorem cca_dies (p : Plain d) (w : Withers d (d.genesis ++ d.persistence) m c) (hdt : 0 ≤ d.dt)
    (n : Nat) (t : ℝ) (u : Univ ℝ N d.ext H W) (hu : Faint m u) (hH : 1 ≤ H ∧ d.nbLayer.1 ≤ H)
    (hW : 1 ≤ W ∧ d.nbLayer.1 ≤ W) :
    ∃ u' s, iterate CCA.forward n (d.toCCA t) u = .ok (u', s) ∧
      Faint (max 0 (m - n * d.dt * (c / d.ext))) u' := by
  have hc : 0 ≤ c / d.ext := div_nonneg w.loss (Nat.cast_nonneg _)
  have key : ∀ (n : Nat) (T : ℝ), 0 ≤ T → ∀ (t : ℝ) (u : Univ ℝ N d.ext H W),
      Faint (max 0 (m - T * (c / d.ext))) u →
      ∃ u' s, iterate CCA.forward n (d.toCCA t) u = .ok (u', s) ∧
        Faint (max 0 (m - (T + n * d.dt) * (c / d.ext))) u' := by
    intro n
    induction n with
    | zero => intro T _ t u hu; exact ⟨u, _, rfl, by simpa using hu⟩
    | succ n ih =>
      intro T hT t u hu
      obtain ⟨u1, h1, h2⟩ := cca_rule d t p.mode p.idLayer p.functional p.ext_pos p.dvd p.gen p.per u
        hH hW
      have hb : (0 : ℝ) ≤ max 0 (m - T * (c / d.ext)) := le_max_left _ _
      have hbm : max 0 (m - T * (c / d.ext)) ≤ m :=
        max_le w.range.1 (by linarith [mul_nonneg hT hc])
      have hal := faint_alive hb hu d.thr
      have hf : Faint (max 0 (m - (T + d.dt) * (c / d.ext))) u1 := by
        intro n e i j
        rw [h2 n e i j, ← faint_after hdt hc]
        exact faint_cell (hal n e i j).2 hdt (faint_growth p w hb hbm (hal n) i j)
      obtain ⟨u', s, h3, h4⟩ := ih (T + d.dt) (by linarith) (t + d.dt) u1 hf
      refine ⟨u', s, ?_, ?_⟩
      · simp only [iterate, h1, bind, Except.bind]
        exact h3
      · rwa [show T + ((n + 1 : ℕ) : ℝ) * d.dt = T + d.dt + n * d.dt by push_cast; ring]
  have h0 : Faint (max 0 (m - 0 * (c / d.ext))) u := by
    rw [zero_mul, sub_zero, max_eq_right w.range.1]; exact hu
  obtain ⟨u', s, h1, h2⟩ := key n 0 le_rfl t u h0
  exact ⟨u', s, h1, by rwa [zero_add] at h2⟩

/-- C104: for a `Lenia` only the genesis functions matter. -/
theorem lenia_dies (p : Plain d) (w : Withers d d.genesis m c) (hdt : 0 ≤ d.dt)
    (n : Nat) (t : ℝ) (u : Univ ℝ N d.ext H W) (hu : Faint m u) (hH : 1 ≤ H ∧ d.nbLayer.1 ≤ H)
    (hW : 1 ≤ W ∧ d.nbLayer.1 ≤ W) :
    ∃ u' s, iterate CCA.leniaForward n (d.toCCA t) u = .ok (u', s) ∧
      Faint (max 0 (m - n * d.dt * (c / d.ext))) u' := by
  have hc : 0 ≤ c / d.ext := div_nonneg w.loss (Nat.cast_nonneg _)
  have key : ∀ (n : Nat) (T : ℝ), 0 ≤ T → ∀ (t : ℝ) (u : Univ ℝ N d.ext H W),
      Faint (max 0 (m - T * (c / d.ext))) u →
      ∃ u' s, iterate CCA.leniaForward n (d.toCCA t) u = .ok (u', s) ∧
        Faint (max 0 (m - (T + n * d.dt) * (c / d.ext))) u' := by
    intro n
    induction n with
    | zero => intro T _ t u hu; exact ⟨u, _, rfl, by simpa using hu⟩
    | succ n ih =>
      intro T hT t u hu
      obtain ⟨u1, h1, h2⟩ := lenia_rule d t p.mode p.idLayer p.functional p.ext_pos p.dvd p.gen u
        hH hW
      have hb : (0 : ℝ) ≤ max 0 (m - T * (c / d.ext)) := le_max_left _ _
      have hbm : max 0 (m - T * (c / d.ext)) ≤ m :=
        max_le w.range.1 (by linarith [mul_nonneg hT hc])
      have hal := faint_alive hb hu d.thr
      have hf : Faint (max 0 (m - (T + d.dt) * (c / d.ext))) u1 := by
        intro n e i j
        rw [h2 n e i j, ← faint_after hdt hc]
        refine faint_cell (hal n e i j).2 hdt (faint_mean w.channels p.ext_pos fun o => ?_)
        have hg := gathered_faint w.kernel hb (hal n (source p.ext_pos p.dvd o)) i j
        exact w.acts _ (List.get_mem d.genesis (Fin.cast p.gen.symm o)) _ hg.1 (hg.2.trans hbm)
      obtain ⟨u', s, h3, h4⟩ := ih (T + d.dt) (by linarith) (t + d.dt) u1 hf
      refine ⟨u', s, ?_, ?_⟩
      · simp only [iterate, h1, bind, Except.bind]
        exact h3
      · rwa [show T + ((n + 1 : ℕ) : ℝ) * d.dt = T + d.dt + n * d.dt by push_cast; ring]
  have h0 : Faint (max 0 (m - 0 * (c / d.ext))) u := by
    rw [zero_mul, sub_zero, max_eq_right w.range.1]; exact hu
  obtain ⟨u', s, h1, h2⟩ := key n 0 le_rfl t u h0
  exact ⟨u', s, h1, by rwa [zero_add] at h2⟩

end

theorem withers_dt {d : CCADyn} {gs : List (Act ℝ)} {m c : ℝ} (w : Withers d gs m c) (h : ℝ) :
    Withers { d with dt := h } gs m c := ⟨w.channels, w.kernel, w.acts, w.range, w.loss⟩

/-- C104: the same with random step sizes, whatever is drawn: only the time that has passed
matters. -/
theorem random_dies {d : CCADyn} {m c : ℝ} (p : Plain d)
    (w : Withers d (d.genesis ++ d.persistence) m c) (t prev mx mn : ℝ) (hmn : 0 ≤ mn)
    (hmx : mn ≤ mx) (draws : List ℝ) (hr : ∀ r ∈ draws, 0 ≤ r) (u : Univ ℝ N d.ext H W)
    (hu : Faint m u) (hH : 1 ≤ H ∧ d.nbLayer.1 ≤ H) (hW : 1 ≤ W ∧ d.nbLayer.1 ≤ W) :
    ∃ u' s, randomRun ⟨d.toCCA t, prev, mx, mn⟩ u draws = .ok (u', s) ∧
      Faint (max 0 (m - (s.ca.t - t) * (c / d.ext))) u' := by
  have key : ∀ (draws : List ℝ), (∀ r ∈ draws, 0 ≤ r) → ∀ {d : CCADyn} (p : Plain d),
      Withers d (d.genesis ++ d.persistence) m c → ∀ (T : ℝ), 0 ≤ T → ∀ (t prev : ℝ)
      (u : Univ ℝ N d.ext H W), Faint (max 0 (m - T * (c / d.ext))) u → 1 ≤ H ∧ d.nbLayer.1 ≤ H →
      1 ≤ W ∧ d.nbLayer.1 ≤ W → ∃ u' s, randomRun ⟨d.toCCA t, prev, mx, mn⟩ u draws = .ok (u', s) ∧
        Faint (max 0 (m - (T + (s.ca.t - t)) * (c / d.ext))) u' := by
    intro draws
    induction draws with
    | nil =>
      intro _ d p w T _ t prev u hu _ _
      exact ⟨u, _, rfl, by simpa [CCADyn.toCCA] using hu⟩
    | cons r rs ih =>
      intro hr d p w T hT t prev u hu hH hW
      have hc : 0 ≤ c / d.ext := div_nonneg w.loss (Nat.cast_nonneg _)
      obtain ⟨u1, h1, h2⟩ := randomStep_rule p t prev mx mn r u hH hW
      have hh : 0 ≤ mn + r * (mx - mn) := by
        have := mul_nonneg (hr r (List.mem_cons_self ..)) (by linarith : 0 ≤ mx - mn)
        linarith
      have hb : (0 : ℝ) ≤ max 0 (m - T * (c / d.ext)) := le_max_left _ _
      have hbm : max 0 (m - T * (c / d.ext)) ≤ m :=
        max_le w.range.1 (by linarith [mul_nonneg hT hc])
      have hal := faint_alive hb hu d.thr
      have hf : Faint (max 0 (m - (T + (mn + r * (mx - mn))) * (c / d.ext))) u1 := by
        intro n e i j
        rw [h2 n e i j, ← faint_after hh hc]
        exact faint_cell (hal n e i j).2 hh (faint_growth p w hb hbm (hal n) i j)
      obtain ⟨u', s, h3, h4⟩ := ih (fun x hx => hr x (List.mem_cons_of_mem _ hx))
        (plain_dt p (mn + r * (mx - mn))) (withers_dt w _) (T + (mn + r * (mx - mn))) (by linarith)
        (t + (mn + r * (mx - mn))) (mn + r * (mx - mn)) u1 hf hH hW
      refine ⟨u', s, ?_, ?_⟩
      · show (do
          let (u', s') ← RandomStepCA.forward ⟨d.toCCA t, prev, mx, mn⟩ r u
          randomRun s' u' rs) = _
        rw [h1]
        exact h3
      · rwa [show T + (s.ca.t - t) = T + (mn + r * (mx - mn)) + (s.ca.t - (t + (mn + r * (mx - mn))))
          by ring]
  have h0 : Faint (max 0 (m - 0 * (c / d.ext))) u := by
    rw [zero_mul, sub_zero, max_eq_right w.range.1]; exact hu
  obtain ⟨u', s, h1, h2⟩ := key draws hr p w 0 le_rfl t prev u h0 hH hW
  exact ⟨u', s, h1, by rwa [zero_add] at h2⟩

/-- C104: and with the steps `CODE` chooses. -/
theorem code_dies {d : CCADyn} {m c : ℝ} (p : Plain d)
    (w : Withers d (d.genesis ++ d.persistence) m c) (t prev mx mn thr : ℝ)
    (hr : StepReady (⟨d.toCCA t, prev, mx, mn, thr⟩ : CODE ℝ d.ext d.int)) (k : Nat)
    (u : Univ ℝ N d.ext H W) (hu : Faint m u) (hH : 1 ≤ H ∧ d.nbLayer.1 ≤ H)
    (hW : 1 ≤ W ∧ d.nbLayer.1 ≤ W) (s : CODE ℝ d.ext d.int) (u' : Univ ℝ N d.ext H W)
    (h : CodeSteps k ⟨d.toCCA t, prev, mx, mn, thr⟩ u s u') :
    Faint (max 0 (m - (s.ca.t - t) * (c / d.ext))) u' := by
  have key : ∀ (k : Nat) {d : CCADyn} (p : Plain d), Withers d (d.genesis ++ d.persistence) m c →
      ∀ (T : ℝ), 0 ≤ T → ∀ (t prev : ℝ) (u : Univ ℝ N d.ext H W),
      Faint (max 0 (m - T * (c / d.ext))) u → 1 ≤ H ∧ d.nbLayer.1 ≤ H → 1 ≤ W ∧ d.nbLayer.1 ≤ W →
      StepReady (⟨d.toCCA t, prev, mx, mn, thr⟩ : CODE ℝ d.ext d.int) →
      ∀ s u', CodeSteps k ⟨d.toCCA t, prev, mx, mn, thr⟩ u s u' →
        Faint (max 0 (m - (T + (s.ca.t - t)) * (c / d.ext))) u' := by
    intro k
    induction k with
    | zero =>
      intro d p w T _ t prev u hu _ _ _ s u' h
      cases h
      simpa [CCADyn.toCCA] using hu
    | succ k ih =>
      intro d p w T hT t prev u hu hH hW hr s u' h
      cases h with
      | @succ _ _ _ s1 u1 _ _ fuel h1 h2 =>
        obtain ⟨hg, hv, hr', heq⟩ := code_step_unique _ hr (plain_runnable p hH hW) u h1
        simp only at hg hv hr' heq
        generalize hdt : s1.ca.dt = h at hg hv heq
        obtain ⟨v, hv1, hv2⟩ := code_grid_rule p t prev mx mn thr h u hH hW
        rw [hv1] at hv
        cases hv
        subst heq
        have hc : 0 ≤ c / d.ext := div_nonneg w.loss (Nat.cast_nonneg _)
        have hh : 0 ≤ h := hr.1.le.trans hg.1
        have hb : (0 : ℝ) ≤ max 0 (m - T * (c / d.ext)) := le_max_left _ _
        have hbm : max 0 (m - T * (c / d.ext)) ≤ m :=
          max_le w.range.1 (by linarith [mul_nonneg hT hc])
        have hal := faint_alive hb hu d.thr
        have hf : Faint (max 0 (m - (T + h) * (c / d.ext))) u1 := by
          intro n e i j
          rw [hv2 n e i j, ← faint_after hh hc]
          exact faint_cell (hal n e i j).2 hh (faint_growth p w hb hbm (hal n) i j)
        have := ih (plain_dt p h) (withers_dt w h) (T + h) (by linarith) (t + h) h u1 hf hH hW hr'
          s u' h2
        rwa [show T + (s.ca.t - t) = T + h + (s.ca.t - (t + h)) by ring]
  have h0 : Faint (max 0 (m - 0 * (c / d.ext))) u := by
    rw [zero_mul, sub_zero, max_eq_right w.range.1]; exact hu
  have := key k p w 0 le_rfl t prev u h0 hH hW hr s u' h
  rwa [zero_add] at this

/-! ## Lenia's growth, Orbium and Geminium -/

/-- Below its window Lenia's growth takes away, the more the farther below. -/
theorem lenia_takes_away {mu w m : ℝ} (hw : 0 < w) (hm : m ≤ mu) :
    TakesAway m (-leniaGrowth mu w m) (leniaGrowth mu w) := by
  intro x _ hx
  rw [neg_neg]
  unfold leniaGrowth bell
  have : Real.exp (-(x - mu) ^ 2 / (2 * w ^ 2)) ≤ Real.exp (-(m - mu) ^ 2 / (2 * w ^ 2)) := by
    rw [Real.exp_le_exp]
    refine div_le_div_of_nonneg_right ?_ (by positivity)
    nlinarith
  linarith

/-- C104: the window: Lenia's growth is positive exactly where the surroundings are less than
`w √(2 ln 2)` away from `mu`. -/
theorem lenia_window {mu w : ℝ} (hw : 0 < w) (x : ℝ) :
    0 < leniaGrowth mu w x ↔ |x - mu| < w * Real.sqrt (2 * Real.log 2) := by
  have hl : 0 < Real.log 2 := Real.log_pos (by norm_num)
  have h1 : 0 < leniaGrowth mu w x ↔ Real.log (1 / 2) < -(x - mu) ^ 2 / (2 * w ^ 2) := by
    unfold leniaGrowth bell
    rw [Real.log_lt_iff_lt_exp (by norm_num)]
    constructor <;> intro h <;> linarith
  have h2 : w * Real.sqrt (2 * Real.log 2) = Real.sqrt (w ^ 2 * (2 * Real.log 2)) := by
    rw [Real.sqrt_mul (sq_nonneg w), Real.sqrt_sq hw.le]
  rw [h1, h2, Real.lt_sqrt (abs_nonneg _), sq_abs, lt_div_iff₀ (by positivity), one_div, Real.log_inv]
  constructor <;> intro h <;> linarith

/-- An object that steps as Lenia does, with an averaging kernel, empties every faint universe. -/
theorem stepsAsLenia_dies {o : CCAObj} {dt : ℝ} {r : Nat}
    {κ : Fin (2 * r + 1) → Fin (2 * r + 1) → ℝ} {g : ℝ → ℝ} (ho : StepsAsLenia o dt κ g)
    (hdt : 0 ≤ dt) (hκ : Averages κ) {m c : ℝ} (hm : 0 ≤ m) (hc : 0 ≤ c)
    (hg : TakesAway m c g) (hH : 1 ≤ H ∧ r ≤ H) (hW : 1 ≤ W ∧ r ≤ W) (n : Nat) :
    ∀ (T : ℝ), 0 ≤ T → ∀ (t : ℝ) (u : Univ ℝ N o.dynamics.ext H W), Faint (max 0 (m - T * c)) u →
    ∃ u' s, iterate CCA.forward n (o.dynamics.toCCA t) u = .ok (u', s) ∧
      iterate CCA.leniaForward n (o.dynamics.toCCA t) u = .ok (u', s) ∧
      Faint (max 0 (m - (T + n * dt) * c)) u' := by
  induction n with
  | zero => intro T _ t u hu; exact ⟨u, _, rfl, rfl, by simpa using hu⟩
  | succ n ih =>
    intro T hT t u hu
    obtain ⟨u1, h1, h1', h2⟩ := ho.2 u t hH hW
    have hb : (0 : ℝ) ≤ max 0 (m - T * c) := le_max_left _ _
    have hbm : max 0 (m - T * c) ≤ m := max_le hm (by linarith [mul_nonneg hT hc])
    have hf : Faint (max 0 (m - (T + dt) * c)) u1 := by
      intro n e i j
      rw [h2 n e i j, ← faint_after hdt hc]
      have hgt := gathered_faint hκ hb (hu n e) i j
      exact faint_cell (hu n e i j).2 hdt (hg _ hgt.1 (hgt.2.trans hbm))
    obtain ⟨u', s, h3, h3', h4⟩ := ih (T + dt) (by linarith) (t + dt) u1 hf
    refine ⟨u', s, ?_, ?_, ?_⟩
    · simp only [iterate, h1, bind, Except.bind]
      exact h3
    · simp only [iterate, h1', bind, Except.bind]
      exact h3'
    · rwa [show T + ((n + 1 : ℕ) : ℝ) * dt = T + dt + n * dt by push_cast; ring]

theorem profile_averages {r : Nat} {f : ℝ → ℝ} {κ : Fin (2 * r + 1) → Fin (2 * r + 1) → ℝ}
    (h : Profile r f κ) : Averages κ := by
  obtain ⟨low, h1, _, h3⟩ := h
  have hS : 0 ≤ ∑ a, ∑ b, (f (distance r a b) - low) :=
    Finset.sum_nonneg fun a _ => Finset.sum_nonneg fun b _ => sub_nonneg.2 (h1 a b)
  have hp : (0 : ℝ) < 1e-9 + ∑ a, ∑ b, (f (distance r a b) - low) := by
    have : (0 : ℝ) < 1e-9 := by norm_num
    linarith
  refine ⟨fun a b => ?_, ?_⟩
  · rw [h3]
    exact div_nonneg (sub_nonneg.2 (h1 a b)) hp.le
  · simp only [h3, ← Finset.sum_div]
    rw [div_le_one hp]
    norm_num

/-- Faintness below 0 is emptiness. -/
theorem faint_empty {C : Nat} {b : ℝ} (hb : b ≤ 0) {u : Univ ℝ N C H W} (hu : Faint b u) :
    u = fun _ _ _ _ => 0 := by
  funext n e i j
  exact le_antisymm ((hu n e i j).2.trans hb) (hu n e i j).1

theorem gathered_level {r : Nat} (κ : Fin (2 * r + 1) → Fin (2 * r + 1) → ℝ) (x : ℝ) (i : Fin H)
    (j : Fin W) : gathered κ (fun _ _ => x) i j = (∑ a, ∑ b, κ a b) * x := by
  simp only [gathered, Finset.sum_mul]

/-- Both uses of the object empty every universe with no cell above `m` within `k` steps, for ever. -/
def Spec.Empties (o : CCAObj) (r : Nat) (m : ℝ) (k : Nat) : Prop :=
  ∀ {N H W : Nat} (_ : 1 ≤ H ∧ r ≤ H) (_ : 1 ≤ W ∧ r ≤ W) (t : ℝ)
    (u : Univ ℝ N o.dynamics.ext H W), Faint m u → ∀ n ≥ k, ∃ s,
      iterate CCA.forward n (o.dynamics.toCCA t) u = .ok ((fun _ _ _ _ => 0), s) ∧
      iterate CCA.leniaForward n (o.dynamics.toCCA t) u = .ok ((fun _ _ _ _ => 0), s)

theorem empties {o : CCAObj} {r : Nat} {κ : Fin (2 * r + 1) → Fin (2 * r + 1) → ℝ} {g : ℝ → ℝ}
    (ho : StepsAsLenia o 0.1 κ g) (hκ : Averages κ) {m c : ℝ} (hm : 0 ≤ m) (hc : 0 ≤ c)
    (hg : TakesAway m c g) {k : Nat} (hk : m ≤ k * 0.1 * c) : Empties o r m k := by
  intro N H W hH hW t u hu n hn
  obtain ⟨u', s, h1, h2, h3⟩ := stepsAsLenia_dies ho (by norm_num) hκ hm hc hg hH hW n 0 le_rfl t u
    (by rw [zero_mul, sub_zero, max_eq_right hm]; exact hu)
  have hle : m - (0 + n * 0.1) * c ≤ 0 := by
    have hn' : (k : ℝ) ≤ n := by exact_mod_cast hn
    have : (k : ℝ) * 0.1 * c ≤ n * 0.1 * c :=
      mul_le_mul_of_nonneg_right (mul_le_mul_of_nonneg_right hn' (by norm_num)) hc
    linarith
  have := faint_empty (max_le le_rfl hle) h3
  subst this
  exact ⟨s, h1, h2⟩

/-- `exp (-4 y)` is at most `1 / (1 + y + y² / 2) ^ 4`. -/
theorem exp_neg_four_le {y z : ℝ} (hy : 0 ≤ y) (hz : z ≤ -(4 * y)) :
    Real.exp z ≤ 1 / (1 + y + y ^ 2 / 2) ^ 4 := by
  have h1 := Real.quadratic_le_exp_of_nonneg hy
  have h2 : (1 + y + y ^ 2 / 2) ^ 4 ≤ Real.exp y ^ 4 := pow_le_pow_left₀ (by positivity) h1 4
  rw [← Real.exp_nat_mul] at h2
  have h3 : Real.exp z ≤ (Real.exp (((4 : ℕ) : ℝ) * y))⁻¹ := by
    rw [← Real.exp_neg, Real.exp_le_exp]
    push_cast
    exact hz
  refine h3.trans ?_
  rw [one_div]
  exact inv_anti₀ (by positivity) h2

theorem orbium_below : leniaGrowth 0.15 (0.015 + 1e-9) 0.13 ≤ -0.1626 := by
  unfold leniaGrowth bell
  have := exp_neg_four_le (y := 0.222) (z := -(0.13 - 0.15) ^ 2 / (2 * (0.015 + 1e-9) ^ 2))
    (by norm_num) (by norm_num)
  norm_num at this ⊢
  linarith

/-- C104: in the Orbium universe whatever is nowhere above 0.13 is gone after 8 steps. -/
theorem orbium_dies (fs : Files) (fuel : Nat) (d : Nat → Draws) (o : CCAObj) (hp : Plain1 o)
    (r : Nat) (hr : 1 ≤ r) :
    ∃ o', o.loadConfig fs fuel d (orbiumConfig r) = some (.ok o') ∧ Empties o' r 0.13 8 := by
  obtain ⟨o', κ, h1, h2, h3, _⟩ := orbium_rule fs fuel d o hp r hr
  have hb := orbium_below
  exact ⟨o', h1, empties (m := 0.13) (k := 8) (c := -leniaGrowth 0.15 (0.015 + 1e-9) 0.13) h3
    (profile_averages h2) (by norm_num) (by linarith)
    (lenia_takes_away (by norm_num) (by norm_num)) (by push_cast; linarith)⟩

/-- C104: in the Geminium universe whatever is nowhere above 0.21 is gone after 10 steps. -/
theorem geminium_dies (fs : Files) (fuel : Nat) (d : Nat → Draws) (o : CCAObj) (hp : Plain1 o)
    (r : Nat) (hr : 1 ≤ r) :
    ∃ o', o.loadConfig fs fuel d (geminiumConfig r) = some (.ok o') ∧ Empties o' r 0.21 10 := by
  obtain ⟨o', κ, h1, h2, h3, _⟩ := geminium_rule fs fuel d o hp r hr
  have hb : leniaGrowth 0.26 (0.036 + 1e-9) 0.21 ≤ -0.21 := by
    unfold leniaGrowth bell
    have := exp_neg_four_le (y := 0.24) (z := -(0.21 - 0.26) ^ 2 / (2 * (0.036 + 1e-9) ^ 2))
      (by norm_num) (by norm_num)
    norm_num at this ⊢
    linarith
  exact ⟨o', h1, empties (m := 0.21) (k := 10) (c := -leniaGrowth 0.26 (0.036 + 1e-9) 0.21) h3
    (profile_averages h2) (by norm_num) (by linarith)
    (lenia_takes_away (by norm_num) (by norm_num)) (by push_cast; linarith)⟩

/-- C104: 0.13 is close to the best level: an Orbium universe that is 0.14 everywhere grows in the
first step, in every cell. -/
theorem orbium_grows (fs : Files) (fuel : Nat) (d : Nat → Draws) (o : CCAObj) (hp : Plain1 o)
    (r : Nat) (hr : 1 ≤ r) :
    ∃ o', o.loadConfig fs fuel d (orbiumConfig r) = some (.ok o') ∧
      ∀ {N H W : Nat} (_ : 1 ≤ H ∧ r ≤ H) (_ : 1 ≤ W ∧ r ≤ W) (t : ℝ),
        ∃ u' s, (o'.dynamics.toCCA t).forward
            (fun _ _ _ _ => 0.14 : Univ ℝ N o'.dynamics.ext H W) = .ok (u', s) ∧
          ∀ n e i j, 0.14 < u' n e i j := by
  obtain ⟨o', κ, h1, h2, h3, _⟩ := orbium_rule fs fuel d o hp r hr
  refine ⟨o', h1, fun {N H W} hH hW t => ?_⟩
  obtain ⟨u', a1, _, a3⟩ := h3.2 (fun _ _ _ _ => 0.14 : Univ ℝ N o'.dynamics.ext H W) t hH hW
  refine ⟨u', _, a1, fun n e i j => ?_⟩
  rw [a3, gathered_level]
  have hS1 : ∑ a, ∑ b, κ a b ≤ 1 := (profile_averages h2).2
  have hS : 0.99 ≤ ∑ a, ∑ b, κ a b := by
    obtain ⟨low, b1, _, b3⟩ := h2
    simp only [b3, ← Finset.sum_div]
    set T := ∑ a, ∑ b, (bell 0.5 (0.15 + 1e-9) (distance r a b) - low) with hT
    have hr0 : (r : ℝ) ≠ 0 := by positivity
    have hc : bell 0.5 (0.15 + 1e-9) (distance r ⟨r, by omega⟩ ⟨r, by omega⟩) ≥ Real.exp (-6) := by
      simp only [distance, sub_self, bell, ge_iff_le, Real.exp_le_exp]
      norm_num
    have hk : bell 0.5 (0.15 + 1e-9) (distance r ⟨0, by omega⟩ ⟨0, by omega⟩) ≤ Real.exp (-7) := by
      have hd : distance r ⟨0, by omega⟩ ⟨0, by omega⟩ = Real.sqrt 2 := by
        simp only [distance]
        rw [show (((0 : ℕ) : ℝ) - r) ^ 2 + (((0 : ℕ) : ℝ) - r) ^ 2 = 2 * (r : ℝ) ^ 2 by push_cast; ring,
          Real.sqrt_mul (by norm_num), Real.sqrt_sq (Nat.cast_nonneg r)]
        field_simp
      rw [hd]
      have hs : 1.4 ≤ Real.sqrt 2 := Real.le_sqrt_of_sq_le (by norm_num)
      rw [bell, Real.exp_le_exp, div_le_iff₀ (by norm_num)]
      nlinarith
    have hT' : Real.exp (-6) - Real.exp (-7) ≤ T := by
      have c1 : bell 0.5 (0.15 + 1e-9) (distance r ⟨r, by omega⟩ ⟨r, by omega⟩) - low ≤ T := by
        refine le_trans ?_ (Finset.single_le_sum (f := fun a => ∑ b, (bell 0.5 (0.15 + 1e-9)
          (distance r a b) - low)) (fun a _ => Finset.sum_nonneg fun b _ => sub_nonneg.2 (b1 a b))
          (Finset.mem_univ (⟨r, by omega⟩ : Fin (2 * r + 1))))
        exact Finset.single_le_sum (f := fun b => bell 0.5 (0.15 + 1e-9)
          (distance r ⟨r, by omega⟩ b) - low) (fun b _ => sub_nonneg.2 (b1 _ b))
          (Finset.mem_univ (⟨r, by omega⟩ : Fin (2 * r + 1)))
      have c2 := b1 ⟨0, by omega⟩ ⟨0, by omega⟩
      linarith
    have hT2 : (1e-6 : ℝ) ≤ T := by
      have e1 : Real.exp (-6) = Real.exp (-7) * Real.exp 1 := by rw [← Real.exp_add]; norm_num
      have e2 : (2 : ℝ) ≤ Real.exp 1 := by have := Real.add_one_le_exp (1 : ℝ); linarith
      have e3 : (1 / 2187 : ℝ) ≤ Real.exp (-7) := by
        have h7 : Real.exp 7 = Real.exp 1 ^ 7 := by rw [← Real.exp_nat_mul]; norm_num
        have h8 : Real.exp 1 ^ 7 ≤ 3 ^ 7 :=
          pow_le_pow_left₀ (Real.exp_pos _).le Real.exp_one_lt_three.le 7
        rw [Real.exp_neg, one_div, h7]
        exact inv_anti₀ (by positivity) (h8.trans (by norm_num))
      have e4 : Real.exp (-7) * 2 ≤ Real.exp (-7) * Real.exp 1 :=
        mul_le_mul_of_nonneg_left e2 (Real.exp_pos _).le
      norm_num at *
      linarith
    rw [le_div_iff₀ (by norm_num at *; linarith)]
    norm_num at *
    linarith
  have hg : 0 < leniaGrowth 0.15 (0.015 + 1e-9) ((∑ a, ∑ b, κ a b) * 0.14) := by
    rw [lenia_window (by norm_num)]
    have hq : 1 ≤ Real.sqrt (2 * Real.log 2) := by
      rw [Real.one_le_sqrt]
      have := Real.log_two_gt_d9
      linarith
    have : (0.015 + 1e-9) * 1 ≤ (0.015 + 1e-9) * Real.sqrt (2 * Real.log 2) :=
      mul_le_mul_of_nonneg_left hq (by norm_num)
    refine lt_of_lt_of_le ?_ this
    rw [abs_lt]
    constructor <;> norm_num <;> linarith
  unfold clip
  exact lt_max_of_lt_right (lt_min (by norm_num) (by linarith))

/-- An automaton of five channels with alive mask
meets the hypotheses of `cca_dies`. -/
example : ∃ d : CCADyn, d.ext = 5 ∧ Plain d ∧
    Withers d (d.genesis ++ d.persistence) 0.13 0.1 := by
  refine ⟨⟨5, 5, .circular, ⟨1, identityKernel⟩, 
    ⟨1, normaliseKernel fun a b => bump 0.5 0.15 (radialGrid 1 a b)⟩,
    List.replicate 5 (.mixture [(1, 0.15, 0.015)] true),
    List.replicate 5 (.mixture [(1, 0.15, 0.015)] true), none, 0.1, 0.1⟩, rfl,
    ⟨rfl, rfl, rfl, by decide, by decide, rfl, rfl⟩, ⟨by decide, ?_, ?_, by norm_num, by norm_num⟩⟩
  · exact profile_averages (normalise_profile _)
  · intro a ha
    have : a = .mixture [(1, 0.15, 0.015)] true := by
      simp only [← List.replicate_add] at ha
      exact List.eq_of_mem_replicate ha
    subst this
    intro x h0 h1
    rw [mixture_pair_growth]
    have := lenia_takes_away (mu := 0.15) (w := 0.015 + 1e-9) (m := 0.13) (by norm_num)
      (by norm_num) x h0 h1
    linarith [orbium_below]

end Yuca
