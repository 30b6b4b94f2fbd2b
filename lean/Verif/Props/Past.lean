import Verif.Props.SmallSteps
import Verif.Props.Trajectories
import Verif.Props.Drift
import Verif.Props.Continuity
import Mathlib.Topology.MetricSpace.Contracting

/-!
# C138: with small steps a run loses nothing but what it clips

Over exact reals, on the torus, without alive mask.
-/

namespace Yuca

open Arith Spec

variable {N H W : Nat}

namespace Spec

/-- Every cell is at least `m` away from 0 and from 1. -/
def Inside {C : Nat} (m : ℝ) (u : Univ ℝ N C H W) : Prop := ∀ n e i j, m ≤ u n e i j ∧ u n e i j ≤ 1 - m

/-- No cell is at 0 or at 1. -/
def Open01 {C : Nat} (u : Univ ℝ N C H W) : Prop := ∀ n e i j, 0 < u n e i j ∧ u n e i j < 1

/-- Two universes are no more than `ε` apart, and some cell is that far apart. -/
def Apart {C : Nat} (ε : ℝ) (u v : Univ ℝ N C H W) : Prop :=
  CloseBy ε u v ∧ ∃ n e i j, |u n e i j - v n e i j| = ε

/-- What is left of a difference after steps of the given sizes, at least. -/
def leftOver (c : ℝ) (hs : List ℝ) : ℝ := (hs.map fun h => 1 - h * c).prod

end Spec

section

variable {C : Nat} {F : Univ ℝ N C H W → Univ ℝ N C H W} {M c : ℝ}

/-- A step that ends far enough from 0 and 1 has clipped nothing. -/
theorem unclipped (hF : Tame F M c) {h : ℝ} (hh : 0 ≤ h) {u : Univ ℝ N C H W} (hu : Within01 u)
    (hw : Inside (h * M) (eulerStep F h u)) (n : Fin N) (e : Fin C) (i : Fin H) (j : Fin W) :
    eulerStep F h u n e i j = u n e i j + h * F u n e i j := by
  have hb : |h * F u n e i j| ≤ h * M := by
    rw [abs_mul, abs_of_nonneg hh]
    exact mul_le_mul_of_nonneg_left (hF.bound u hu n e i j) hh
  obtain ⟨b1, b2⟩ := abs_le.1 hb
  obtain ⟨w1, w2⟩ := hw n e i j
  obtain ⟨u1, u2⟩ := hu n e i j
  unfold eulerStep at w1 w2 ⊢
  generalize h * F u n e i j = g at *
  unfold clip at *
  rcases le_total 0 (u n e i j + g) with h0 | h0
  · rcases le_total (u n e i j + g) 1 with h1 | h1
    · rw [min_eq_right h1, max_eq_right h0]
    · rw [min_eq_left h1, max_eq_right (by norm_num)] at w2 ⊢
      linarith
  · rw [min_eq_right (by linarith), max_eq_left h0] at w1 ⊢
    linarith

/-- Some cell shows the whole difference of two universes. -/
theorem apart_exists (u v : Univ ℝ N C H W) : u = v ∨ ∃ ε, 0 < ε ∧ Apart ε u v := by
  by_cases huv : u = v
  · exact Or.inl huv
  · refine Or.inr ?_
    have hne : Nonempty (Fin N × Fin C × Fin H × Fin W) := by
      by_contra hc
      refine huv ?_
      funext n e i j
      exact absurd ⟨(n, e, i, j)⟩ hc
    obtain ⟨⟨n, e, i, j⟩, hmax⟩ := Finite.exists_max
      fun q : Fin N × Fin C × Fin H × Fin W => |u q.1 q.2.1 q.2.2.1 q.2.2.2 - v q.1 q.2.1 q.2.2.1 q.2.2.2|
    refine ⟨|u n e i j - v n e i j|, ?_, fun n' e' i' j' => hmax (n', e', i', j'), n, e, i, j, rfl⟩
    rcases (abs_nonneg (u n e i j - v n e i j)).lt_or_eq with h | h
    · exact h
    · exfalso
      refine huv ?_
      funext n' e' i' j'
      have := hmax (n', e', i', j')
      simp only [← h] at this
      exact sub_eq_zero.1 (abs_eq_zero.1 (le_antisymm this (abs_nonneg _)))

/-- A step that clips nothing leaves at least `1 - h c` of a difference. -/
theorem step_apart (hF : Tame F M c) {h δ : ℝ} (hh : 0 ≤ h) (hc : h * c < 1)
    {u v : Univ ℝ N C H W} (hu : Within01 u) (hv : Within01 v)
    (hwu : ∀ n e i j, eulerStep F h u n e i j = u n e i j + h * F u n e i j)
    (hwv : ∀ n e i j, eulerStep F h v n e i j = v n e i j + h * F v n e i j) (hδ : 0 ≤ δ)
    (hn : CloseBy δ (eulerStep F h u) (eulerStep F h v)) : CloseBy (δ / (1 - h * c)) u v := by
  have hpos : 0 < 1 - h * c := by linarith
  rcases apart_exists u v with rfl | ⟨ε, hε, hcl, n, e, i, j, he⟩
  · exact near_mono (near_refl u) (by positivity)
  · refine near_mono hcl ?_
    rw [le_div_iff₀ hpos]
    have h1 := hn n e i j
    rw [hwu, hwv] at h1
    have h2 := mul_le_mul_of_nonneg_left (hF.lip ε u v hu hv hcl n e i j) hh
    have h3 : u n e i j - v n e i j = (u n e i j + h * F u n e i j - (v n e i j + h * F v n e i j)) -
        h * (F u n e i j - F v n e i j) := by ring
    have h4 := abs_sub (u n e i j + h * F u n e i j - (v n e i j + h * F v n e i j))
      (h * (F u n e i j - F v n e i j))
    rw [← h3, he, abs_mul, abs_of_nonneg hh] at h4
    linarith

theorem inside_back (hF : Tame F M c) {h m : ℝ} (hh : 0 ≤ h) {u : Univ ℝ N C H W} (hu : Within01 u)
    (hw : Inside (h * M + m) (eulerStep F h u)) : Inside m u := fun n e i j => by
  have h1 := abs_le.1 (eulerStep_move hF hh hu n e i j)
  have h2 := hw n e i j
  constructor <;> linarith [h1.1, h1.2, h2.1, h2.2]

/-- A run changes a cell by at most the bound of the growth times the time. -/
theorem run_inside (hF : Tame F M c) (hs : List ℝ) : ∀ {m : ℝ} {u : Univ ℝ N C H W},
    (∀ h ∈ hs, 0 ≤ h) → Within01 u → Inside (M * hs.sum + m) (eulerRun F hs u) → Inside m u := by
  induction hs with
  | nil => intro m u _ _ hw; simpa [eulerRun] using hw
  | cons h hs ih =>
    intro m u hp hu hw
    refine inside_back (h := h) hF (hp h List.mem_cons_self) hu ?_
    refine ih (fun x hx => hp x (List.mem_cons_of_mem _ hx)) (eulerStep_unit h u) ?_
    rw [List.sum_cons] at hw
    rw [show M * hs.sum + (h * M + m) = M * (h + hs.sum) + m by ring]
    exact hw

theorem leftOver_pos (hs : List ℝ) (hp : ∀ h ∈ hs, h * c < 1) : 0 < leftOver c hs := by
  unfold leftOver
  refine List.prod_pos ?_
  intro x hx
  obtain ⟨h, hh, rfl⟩ := List.mem_map.1 hx
  linarith [hp h hh]

theorem run_apart (hF : Tame F M c) (hs : List ℝ) : ∀ {δ : ℝ} {u v : Univ ℝ N C H W},
    (∀ h ∈ hs, 0 ≤ h ∧ h * c < 1) → Within01 u → Within01 v →
    Inside (M * hs.sum) (eulerRun F hs u) → Inside (M * hs.sum) (eulerRun F hs v) → 0 ≤ δ →
    CloseBy δ (eulerRun F hs u) (eulerRun F hs v) → CloseBy (δ / leftOver c hs) u v := by
  induction hs with
  | nil => intro δ u v _ _ _ _ _ _ hn; simpa [eulerRun, leftOver] using hn
  | cons h hs ih =>
    intro δ u v hp hu hv hwu hwv hδ hn
    have hp' : ∀ x ∈ hs, 0 ≤ x ∧ x * c < 1 := fun x hx => hp x (List.mem_cons_of_mem _ hx)
    obtain ⟨h0, h1⟩ := hp h List.mem_cons_self
    have hM := hF.nonneg.1
    have hsum : M * (h :: hs).sum = M * hs.sum + h * M := by rw [List.sum_cons]; ring
    rw [hsum] at hwu hwv
    have iu := run_inside hF hs (fun x hx => (hp' x hx).1) (eulerStep_unit h u) hwu
    have iv := run_inside hF hs (fun x hx => (hp' x hx).1) (eulerStep_unit h v) hwv
    have weak : ∀ w : Univ ℝ N C H W, Inside (M * hs.sum + h * M) w → Inside (M * hs.sum) w :=
      fun w hw n e i j => by
        have := hw n e i j
        have : 0 ≤ h * M := mul_nonneg h0 hM
        constructor <;> linarith [(hw n e i j).1, (hw n e i j).2]
    have h2 := ih hp' (eulerStep_unit h u) (eulerStep_unit h v) (weak _ hwu) (weak _ hwv) hδ hn
    have hl := leftOver_pos (c := c) hs fun x hx => (hp' x hx).2
    have h3 := step_apart hF h0 h1 hu hv (unclipped hF h0 hu iu) (unclipped hF h0 hv iv) (by positivity) h2
    refine near_mono h3 (le_of_eq ?_)
    rw [show leftOver c (h :: hs) = (1 - h * c) * leftOver c hs by simp [leftOver], div_div, mul_comm]

/-- A run whose cells are strictly between 0 and 1 after every step leaves some of every
difference. -/
theorem run_apart_open (hF : Tame F M c) (hs : List ℝ) : ∀ {δ : ℝ} {u v : Univ ℝ N C H W},
    (∀ h ∈ hs, 0 ≤ h ∧ h * c < 1) → Within01 u → Within01 v →
    (∀ k < hs.length, Open01 (eulerRun F (hs.take (k + 1)) u)) →
    (∀ k < hs.length, Open01 (eulerRun F (hs.take (k + 1)) v)) → 0 ≤ δ →
    CloseBy δ (eulerRun F hs u) (eulerRun F hs v) → CloseBy (δ / leftOver c hs) u v := by
  induction hs with
  | nil => intro δ u v _ _ _ _ _ _ hn; simpa [eulerRun, leftOver] using hn
  | cons h hs ih =>
    intro δ u v hp hu hv hwu hwv hδ hn
    have hp' : ∀ x ∈ hs, 0 ≤ x ∧ x * c < 1 := fun x hx => hp x (List.mem_cons_of_mem _ hx)
    obtain ⟨h0, h1⟩ := hp h List.mem_cons_self
    have h2 := ih hp' (eulerStep_unit h u) (eulerStep_unit h v)
      (fun k hk => hwu (k + 1) (by simpa using hk)) (fun k hk => hwv (k + 1) (by simpa using hk)) hδ hn
    have hl := leftOver_pos (c := c) hs fun x hx => (hp' x hx).2
    have opened : ∀ w : Univ ℝ N C H W, Open01 (eulerStep F h w) → ∀ n e i j,
        eulerStep F h w n e i j = w n e i j + h * F w n e i j := fun w hw n e i j =>
      clip_inside (hw n e i j).1 (hw n e i j).2
    have h3 := step_apart hF h0 h1 hu hv (opened u (by simpa [eulerRun] using hwu 0 (by simp)))
      (opened v (by simpa [eulerRun] using hwv 0 (by simp))) (by positivity) h2
    refine near_mono h3 (le_of_eq ?_)
    rw [show leftOver c (h :: hs) = (1 - h * c) * leftOver c hs by simp [leftOver], div_div, mul_comm]

/-- Every universe far enough from 0 and 1 is the result of a step. -/
theorem step_past (hF : Tame F M c) {h m : ℝ} (hh : 0 ≤ h) (hc : h * c < 1) (hm : 0 ≤ m)
    {w : Univ ℝ N C H W} (hw : Inside (h * M + m) w) :
    ∃ u, Within01 u ∧ Inside m u ∧ eulerStep F h u = w := by
  let S : Set (Univ ℝ N C H W) := {u | Within01 u}
  have hS : IsClosed S := by
    have : S = ⋂ n, ⋂ e, ⋂ i, ⋂ j, {u : Univ ℝ N C H W | 0 ≤ u n e i j ∧ u n e i j ≤ 1} := by
      ext u; simp [S, Within01]
    rw [this]
    refine isClosed_iInter fun n => isClosed_iInter fun e => isClosed_iInter fun i =>
      isClosed_iInter fun j => ?_
    have hcont : Continuous fun u : Univ ℝ N C H W => u n e i j := by fun_prop
    exact (isClosed_le continuous_const hcont).inter (isClosed_le hcont continuous_const)
  let T : Univ ℝ N C H W → Univ ℝ N C H W := fun u n e i j => clip (w n e i j - h * F u n e i j)
  have hT : Set.MapsTo T S S := fun u _ n e i j => clip_mem _
  have hc0 : 0 ≤ h * c := mul_nonneg hh hF.nonneg.2
  have hdist : ∀ (u v : Univ ℝ N C H W) {ε : ℝ}, 0 ≤ ε → (dist u v ≤ ε ↔ CloseBy ε u v) := by
    intro u v ε hε
    simp only [dist_pi_le_iff hε, Real.dist_eq, CloseBy]
  have hK : ContractingWith (⟨h * c, hc0⟩ : NNReal) (hT.restrict T S S) := by
    refine ⟨by exact_mod_cast hc, ?_⟩
    refine LipschitzWith.of_dist_le_mul fun u v => ?_
    show dist (T u.1) (T v.1) ≤ h * c * dist u.1 v.1
    rw [hdist _ _ (by positivity)]
    have hcl : CloseBy (dist u.1 v.1) u.1 v.1 := (hdist _ _ dist_nonneg).1 le_rfl
    intro n e i j
    refine (clip_sub_le _ _).trans ?_
    have h2 := mul_le_mul_of_nonneg_left (hF.lip _ _ _ u.2 v.2 hcl n e i j) hh
    rw [show w n e i j - h * F u.1 n e i j - (w n e i j - h * F v.1 n e i j) =
      -(h * (F u.1 n e i j - F v.1 n e i j)) by ring, abs_neg, abs_mul, abs_of_nonneg hh]
    linarith
  have hwS : w ∈ S := fun n e i j => by
    have h1 := hw n e i j
    have : 0 ≤ h * M := mul_nonneg hh hF.nonneg.1
    constructor <;> linarith [h1.1, h1.2]
  obtain ⟨u, hu, hfix, -⟩ := hK.exists_fixedPoint' (s := S) hS.isComplete hT hwS (edist_ne_top _ _)
  have hval : ∀ n e i j, u n e i j = w n e i j - h * F u n e i j ∧ m ≤ u n e i j ∧
      u n e i j ≤ 1 - m := by
    intro n e i j
    have hb : |h * F u n e i j| ≤ h * M := by
      rw [abs_mul, abs_of_nonneg hh]
      exact mul_le_mul_of_nonneg_left (hF.bound u hu n e i j) hh
    obtain ⟨b1, b2⟩ := abs_le.1 hb
    obtain ⟨w1, w2⟩ := hw n e i j
    have h1 : u n e i j = clip (w n e i j - h * F u n e i j) :=
      (congrFun (congrFun (congrFun (congrFun hfix n) e) i) j).symm
    rw [clip_eq (by linarith) (by linarith)] at h1
    exact ⟨h1, by linarith, by linarith⟩
  refine ⟨u, hu, fun n e i j => (hval n e i j).2, ?_⟩
  funext n e i j
  obtain ⟨h1, -, -⟩ := hval n e i j
  have hwn := hwS n e i j
  unfold eulerStep
  rw [show u n e i j + h * F u n e i j = w n e i j by linarith, clip_eq hwn.1 hwn.2]

theorem run_past (hF : Tame F M c) (hs : List ℝ) : ∀ {m : ℝ} {w : Univ ℝ N C H W},
    (∀ h ∈ hs, 0 ≤ h ∧ h * c < 1) → 0 ≤ m → Inside (M * hs.sum + m) w →
    ∃ u, Within01 u ∧ Inside m u ∧ eulerRun F hs u = w := by
  induction hs using List.reverseRecOn with
  | nil =>
    intro m w _ hm hw
    have hw' : Inside m w := by simpa using hw
    exact ⟨w, fun n e i j => by
      have := hw' n e i j
      constructor <;> linarith [this.1, this.2], hw', rfl⟩
  | append_singleton hs h ih =>
    intro m w hp hm hw
    obtain ⟨h0, h1⟩ := hp h (by simp)
    have hp' : ∀ x ∈ hs, 0 ≤ x ∧ x * c < 1 := fun x hx => hp x (by simp [hx])
    have hsum : 0 ≤ hs.sum := List.sum_nonneg fun x hx => (hp' x hx).1
    have hM := hF.nonneg.1
    have hw' : Inside (h * M + (M * hs.sum + m)) w := by
      rw [List.sum_append, List.sum_singleton] at hw
      rw [show h * M + (M * hs.sum + m) = M * (hs.sum + h) + m by ring]
      exact hw
    obtain ⟨v, -, hv, rfl⟩ := step_past hF h0 h1 (by positivity) hw'
    obtain ⟨u, hu, hi, rfl⟩ := ih hp' hm hv
    exact ⟨u, hu, hi, by rw [eulerRun_append]; rfl⟩

/-- Exactly one universe leads to a universe far enough from 0 and 1. -/
theorem run_unique_past (hF : Tame F M c) (hs : List ℝ) (hp : ∀ h ∈ hs, 0 ≤ h ∧ h * c < 1)
    {w : Univ ℝ N C H W} (hw : Inside (M * hs.sum) w) :
    ∃! u, Within01 u ∧ eulerRun F hs u = w := by
  obtain ⟨u, hu, -, hr⟩ := run_past hF hs hp le_rfl (by rw [add_zero]; exact hw)
  refine ⟨u, ⟨hu, hr⟩, fun v ⟨hv, hr'⟩ => ?_⟩
  have := run_apart hF hs hp hv hu (by rw [hr']; exact hw) (by rw [hr]; exact hw) le_rfl
    (by rw [hr, hr']; exact near_refl w)
  funext n e i j
  have h := this n e i j
  rw [zero_div] at h
  exact sub_eq_zero.1 (abs_eq_zero.1 (le_antisymm h (abs_nonneg _)))

theorem leftOver_replicate (n : Nat) (h : ℝ) : leftOver c (List.replicate n h) = (1 - h * c) ^ n := by
  simp [leftOver]

end

/-! ## The automata -/

section

variable {d : CCADyn} {M L : ℝ}

/-- C138: if the step size is below `ext / (2M + L)` and no cell is at 0 or 1 after any of the `n`
steps, a step leaves at least the share `1 - dt (2M + L) / ext` of the difference of two universes.
So universes that are `δ` apart in the end were at most `δ / (1 - dt (2M + L) / ext) ^ n` apart, and
different universes do not end up the same. -/
theorem cca_apart (p : Plain d) (m : Mild d M L) (hdt : 0 ≤ d.dt)
    (hc : d.dt * ((2 * M + L) / d.ext) < 1) (t t' : ℝ) (n : Nat) (u v u' v' : Univ ℝ N d.ext H W)
    (hu : Within01 u) (hv : Within01 v) (hH : 1 ≤ H ∧ d.nbLayer.1 ≤ H) (hW : 1 ≤ W ∧ d.nbLayer.1 ≤ W)
    (hou : ∀ k < n, ∃ w s, iterate CCA.forward (k + 1) (d.toCCA t) u = .ok (w, s) ∧ Open01 w)
    (hov : ∀ k < n, ∃ w s, iterate CCA.forward (k + 1) (d.toCCA t') v = .ok (w, s) ∧ Open01 w)
    {s s' : CCA ℝ d.ext d.int} (hru : iterate CCA.forward n (d.toCCA t) u = .ok (u', s))
    (hrv : iterate CCA.forward n (d.toCCA t') v = .ok (v', s')) {δ : ℝ} (hδ : 0 ≤ δ)
    (hn : CloseBy δ u' v') : CloseBy (δ / (1 - d.dt * ((2 * M + L) / d.ext)) ^ n) u v := by
  have key : ∀ (t : ℝ) (u : Univ ℝ N d.ext H W),
      (∀ k < n, ∃ w s, iterate CCA.forward (k + 1) (d.toCCA t) u = .ok (w, s) ∧ Open01 w) →
      ∀ k < (List.replicate n d.dt).length,
        Open01 (eulerRun (growthOf p) ((List.replicate n d.dt).take (k + 1)) u) := by
    intro t u ho k hk
    rw [List.length_replicate] at hk
    obtain ⟨w, s, h1, h2⟩ := ho k hk
    rw [cca_steps p m.channels _ t u hH hW] at h1
    cases h1
    rwa [List.take_replicate, Nat.min_eq_left (by omega)]
  rw [cca_steps p m.channels _ _ _ hH hW] at hru hrv
  cases hru
  cases hrv
  rw [← leftOver_replicate]
  exact run_apart_open (growth_tame p m) _
    (fun x hx => by rw [List.eq_of_mem_replicate hx]; exact ⟨hdt, hc⟩) hu hv (key t u hou)
    (key t' v hov) hδ hn

/-- C138: and below that step size every universe that keeps the distance `n dt M / ext` from 0 and 1
has exactly one past of `n` steps: it is the result of a run, and of no other. -/
theorem cca_past (p : Plain d) (m : Mild d M L) (hdt : 0 ≤ d.dt)
    (hc : d.dt * ((2 * M + L) / d.ext) < 1) (t : ℝ) (n : Nat) (w : Univ ℝ N d.ext H W)
    (hw : Inside (n * d.dt * (M / d.ext)) w) (hH : 1 ≤ H ∧ d.nbLayer.1 ≤ H)
    (hW : 1 ≤ W ∧ d.nbLayer.1 ≤ W) :
    ∃! u, Within01 u ∧ ∃ s, iterate CCA.forward n (d.toCCA t) u = .ok (w, s) := by
  have h := run_unique_past (growth_tame (N := N) (H := H) (W := W) p m) (List.replicate n d.dt)
    (fun x hx => by rw [List.eq_of_mem_replicate hx]; exact ⟨hdt, hc⟩) (w := w) (by
      have : M / d.ext * (List.replicate n d.dt).sum = n * d.dt * (M / d.ext) := by
        simp only [List.sum_replicate, nsmul_eq_mul]; ring
      rw [this]; exact hw)
  obtain ⟨u, ⟨h1, h2⟩, h3⟩ := h
  refine ⟨u, ⟨h1, _, by rw [cca_steps p m.channels n t u hH hW, h2]⟩, ?_⟩
  rintro v ⟨hv, s, hs⟩
  rw [cca_steps p m.channels n t v hH hW] at hs
  exact h3 v ⟨hv, by cases hs; rfl⟩

/-- C138: the same for `Lenia`, below the step size `ext / L`. -/
theorem lenia_apart (p : Plain d) (m : Mild d M L) (hdt : 0 ≤ d.dt)
    (hc : d.dt * (L / d.ext) < 1) (t t' : ℝ) (n : Nat) (u v u' v' : Univ ℝ N d.ext H W)
    (hu : Within01 u) (hv : Within01 v) (hH : 1 ≤ H ∧ d.nbLayer.1 ≤ H) (hW : 1 ≤ W ∧ d.nbLayer.1 ≤ W)
    (hou : ∀ k < n, ∃ w s, iterate CCA.leniaForward (k + 1) (d.toCCA t) u = .ok (w, s) ∧ Open01 w)
    (hov : ∀ k < n, ∃ w s, iterate CCA.leniaForward (k + 1) (d.toCCA t') v = .ok (w, s) ∧ Open01 w)
    {s s' : CCA ℝ d.ext d.int} (hru : iterate CCA.leniaForward n (d.toCCA t) u = .ok (u', s))
    (hrv : iterate CCA.leniaForward n (d.toCCA t') v = .ok (v', s')) {δ : ℝ} (hδ : 0 ≤ δ)
    (hn : CloseBy δ u' v') : CloseBy (δ / (1 - d.dt * (L / d.ext)) ^ n) u v := by
  have key : ∀ (t : ℝ) (u : Univ ℝ N d.ext H W),
      (∀ k < n, ∃ w s, iterate CCA.leniaForward (k + 1) (d.toCCA t) u = .ok (w, s) ∧ Open01 w) →
      ∀ k < (List.replicate n d.dt).length,
        Open01 (eulerRun (leniaRate p) ((List.replicate n d.dt).take (k + 1)) u) := by
    intro t u ho k hk
    rw [List.length_replicate] at hk
    obtain ⟨w, s, h1, h2⟩ := ho k hk
    rw [lenia_steps p m.channels _ t u hH hW] at h1
    cases h1
    rwa [List.take_replicate, Nat.min_eq_left (by omega)]
  rw [lenia_steps p m.channels _ _ _ hH hW] at hru hrv
  cases hru
  cases hrv
  rw [← leftOver_replicate]
  exact run_apart_open (leniaRate_tame p m) _
    (fun x hx => by rw [List.eq_of_mem_replicate hx]; exact ⟨hdt, hc⟩) hu hv (key t u hou)
    (key t' v hov) hδ hn

/-- C138: the past of a `Lenia` universe. -/
theorem lenia_past (p : Plain d) (m : Mild d M L) (hdt : 0 ≤ d.dt)
    (hc : d.dt * (L / d.ext) < 1) (t : ℝ) (n : Nat) (w : Univ ℝ N d.ext H W)
    (hw : Inside (n * d.dt * (M / d.ext)) w) (hH : 1 ≤ H ∧ d.nbLayer.1 ≤ H)
    (hW : 1 ≤ W ∧ d.nbLayer.1 ≤ W) :
    ∃! u, Within01 u ∧ ∃ s, iterate CCA.leniaForward n (d.toCCA t) u = .ok (w, s) := by
  have h := run_unique_past (leniaRate_tame (N := N) (H := H) (W := W) p m) (List.replicate n d.dt)
    (fun x hx => by rw [List.eq_of_mem_replicate hx]; exact ⟨hdt, hc⟩) (w := w) (by
      have : M / d.ext * (List.replicate n d.dt).sum = n * d.dt * (M / d.ext) := by
        simp only [List.sum_replicate, nsmul_eq_mul]; ring
      rw [this]; exact hw)
  obtain ⟨u, ⟨h1, h2⟩, h3⟩ := h
  refine ⟨u, ⟨h1, _, by rw [lenia_steps p m.channels n t u hH hW, h2]⟩, ?_⟩
  rintro v ⟨hv, s, hs⟩
  rw [lenia_steps p m.channels n t v hH hW] at hs
  exact h3 v ⟨hv, by cases hs; rfl⟩

/-- C138: with random step sizes, as long as the largest is below `ext / (2M + L)`: whatever is drawn,
a universe that keeps the distance `T M / ext` from 0 and 1, where `T` is the time the draws take, has
exactly one past. -/
theorem random_past (p : Plain d) (m : Mild d M L) (t prev mx mn : ℝ) (hmn : 0 ≤ mn) (hmx : mn ≤ mx)
    (hc : mx * ((2 * M + L) / d.ext) < 1) (draws : List ℝ) (hr : ∀ r ∈ draws, 0 ≤ r ∧ r ≤ 1)
    (w : Univ ℝ N d.ext H W)
    (hw : Inside ((draws.map fun r => mn + r * (mx - mn)).sum * (M / d.ext)) w)
    (hH : 1 ≤ H ∧ d.nbLayer.1 ≤ H) (hW : 1 ≤ W ∧ d.nbLayer.1 ≤ W) :
    ∃! u, Within01 u ∧ ∃ s, randomRun ⟨d.toCCA t, prev, mx, mn⟩ u draws = .ok (w, s) := by
  have hF := growth_tame (N := N) (H := H) (W := W) p m
  have h := run_unique_past hF (draws.map fun r => mn + r * (mx - mn)) (by
      intro x hx
      obtain ⟨r, hr', rfl⟩ := List.mem_map.1 hx
      obtain ⟨a, b⟩ := hr r hr'
      have hx0 : 0 ≤ mn + r * (mx - mn) := by
        have := mul_nonneg a (sub_nonneg.2 hmx); linarith
      have hx1 : mn + r * (mx - mn) ≤ mx := by nlinarith
      exact ⟨hx0, lt_of_le_of_lt (mul_le_mul_of_nonneg_right hx1 hF.nonneg.2) hc⟩) (w := w) (by
      rw [mul_comm]; exact hw)
  obtain ⟨u, ⟨h1, h2⟩, h3⟩ := h
  obtain ⟨s, h4, -⟩ := random_euler draws p m.channels t prev mx mn u hH hW
  refine ⟨u, ⟨h1, s, by rw [h4, h2]⟩, ?_⟩
  rintro v ⟨hv, s', hs⟩
  obtain ⟨s'', h5, -⟩ := random_euler draws p m.channels t prev mx mn v hH hW
  rw [h5] at hs
  exact h3 v ⟨hv, by cases hs; rfl⟩

end

section

variable {r : Nat}

/-- C138: the past of a Gray-Scott universe. -/
theorem rxn_past {ca : RxnDfn ℝ} {κ : Fin (2 * r + 1) → Fin (2 * r + 1) → ℝ}
    (hid : ca.idL = identityLayer 2 2 .circular)
    (hnb : ca.nbL = .ofKernel 2 2 .circular (2 * r + 1) κ) (hdt : 0 ≤ ca.dt)
    (hc : ca.dt * (grayScottMax ca κ + 2) < 1) (hroom : Room r H W) (n : Nat) (w : Univ ℝ N 2 H W)
    (hw : Inside (n * ca.dt * grayScottMax ca κ) w) :
    ∃! x, Within01 x ∧ ∃ s, iterate RxnDfn.forward n ca x = .ok (w, s) := by
  have hrun := fun x : Univ ℝ N 2 H W => rxn_euler hid hnb hroom n ca.t x
  have h := run_unique_past (grayScott_tame (N := N) (H := H) (W := W) ca κ) (List.replicate n ca.dt)
    (fun x hx => by rw [List.eq_of_mem_replicate hx]; exact ⟨hdt, hc⟩) (w := w) (by
      have : grayScottMax ca κ * (List.replicate n ca.dt).sum = n * ca.dt * grayScottMax ca κ := by
        simp only [List.sum_replicate, nsmul_eq_mul]; ring
      rw [this]; exact hw)
  obtain ⟨x, ⟨h1, h2⟩, h3⟩ := h
  refine ⟨x, ⟨h1, _, (hrun x).trans (by rw [h2])⟩, ?_⟩
  rintro y ⟨hy, s, hs⟩
  rw [hrun y] at hs
  exact h3 y ⟨hy, by cases hs; rfl⟩

/-- C138: a cell of a Gray-Scott universe that holds some of the second species always will: each
step leaves at least the share `1 - dt (D given / dx² + f + k)`.  So where the second species dies out
it never quite vanishes. -/
theorem rxn_never_gone {ca : RxnDfn ℝ} {κ : Fin (2 * r + 1) → Fin (2 * r + 1) → ℝ}
    (hca : Resolved ca κ) (hroom : Room r H W) (m : Nat) :
    ∀ (x : Univ ℝ N 2 H W) (t : ℝ) (s : Univ ℝ N 2 H W × RxnDfn ℝ), Within01 x →
      iterate RxnDfn.forward m { ca with t := t } x = .ok s → ∀ n i j,
      x n 1 i j * (1 - ca.dt * (ca.diffV * given κ / ca.dx ^ 2 + (ca.f + ca.k))) ^ m ≤ s.1 n 1 i j := by
  set q := 1 - ca.dt * (ca.diffV * given κ / ca.dx ^ 2 + (ca.f + ca.k)) with hq
  have hq0 : 0 ≤ q := by have := hca.stepV; linarith
  have hdx : 0 < ca.dx ^ 2 := by have := hca.dx; positivity
  have hq1 : q ≤ 1 := by
    have h1 := given_nonneg hca.exchanges
    have h2 := hca.diffV
    have h3 := hca.f
    have h4 := hca.k
    have h5 := hca.dt
    have : 0 ≤ ca.dt * (ca.diffV * given κ / ca.dx ^ 2 + (ca.f + ca.k)) := by positivity
    linarith
  induction m with
  | zero =>
    intro x t s _ h n i j
    cases h
    simp
  | succ m ih =>
    intro x t s hx h n i j
    obtain ⟨x', h1, h2⟩ := rxn_rule { ca with t := t } κ hca.idL hca.nbL x hroom.1 hroom.2
    change (do
      let (b', s') ← ({ ca with t := t } : RxnDfn ℝ).forward x
      iterate RxnDfn.forward m s' b') = .ok s at h
    rw [h1] at h
    have hx' : Within01 x' := fun n c i j => by
      obtain ⟨a, b⟩ := h2 n i j
      rcases Fin.exists_fin_two.mp ⟨c, rfl⟩ with h | h
      · subst h; rw [a]; exact clip_mem _
      · subst h; rw [b]; exact clip_mem _
    refine le_trans ?_ (ih x' (t + ca.dt) s hx' h n i j)
    rw [pow_succ', ← mul_assoc]
    refine mul_le_mul_of_nonneg_right ?_ (pow_nonneg hq0 m)
    rw [(h2 n i j).2]
    have hu := hx n 0 i j
    have hv := hx n 1 i j
    have hg := (gathered_between hca.exchanges (x n 1) (lo := 0) (hi := 1)
      (fun i j => hx n 1 i j) i j).1
    have hG : -(ca.diffV * given κ / ca.dx ^ 2 * x n 1 i j) ≤
        ca.diffV * (gathered κ (x n 1) i j / ca.dx ^ 2) := by
      have : ca.diffV * ((given κ * (0 - x n 1 i j)) / ca.dx ^ 2) ≤
          ca.diffV * (gathered κ (x n 1) i j / ca.dx ^ 2) :=
        mul_le_mul_of_nonneg_left (div_le_div_of_nonneg_right hg hdx.le) hca.diffV
      refine le_trans (le_of_eq ?_) this
      ring
    have hr : 0 ≤ x n 0 i j * x n 1 i j ^ 2 := mul_nonneg hu.1 (sq_nonneg _)
    have hlow : x n 1 i j * q ≤ x n 1 i j + ca.dt * (ca.diffV * (gathered κ (x n 1) i j / ca.dx ^ 2) +
        x n 0 i j * x n 1 i j ^ 2 - (ca.f + ca.k) * x n 1 i j) := by
      have := mul_le_mul_of_nonneg_left (show -(ca.diffV * given κ / ca.dx ^ 2 * x n 1 i j) -
        (ca.f + ca.k) * x n 1 i j ≤ ca.diffV * (gathered κ (x n 1) i j / ca.dx ^ 2) +
        x n 0 i j * x n 1 i j ^ 2 - (ca.f + ca.k) * x n 1 i j by linarith) hca.dt.le
      rw [hq]
      linarith
    have h1' : x n 1 i j * q ≤ 1 := by
      calc x n 1 i j * q ≤ 1 * 1 := mul_le_mul hv.2 hq1 hq0 zero_le_one
        _ = 1 := one_mul 1
    unfold clip
    exact le_max_of_le_right (le_min h1' hlow)

/-- C138: the past of a neural universe in evaluation mode. -/
theorem nca_past {ext hid : Nat} {ca : NCA ℝ ext ext hid} {κ : Fin (2 * r + 1) → Fin (2 * r + 1) → ℝ}
    (hid' : ca.idL = identityLayer ext ext .circular)
    (hnb : ca.nbL = .ofKernel ext ext .circular (2 * r + 1) κ) (hext : 0 < ext) (hfew : ext < 4)
    {A₁ A₂ : ℝ} (hA₁ : SlopeAt A₁ ca.act₁) (hA₂ : SlopeAt A₂ ca.act₂) (hdt : 0 ≤ ca.dt)
    (hc : ca.dt * (A₁ * A₂ * (entries ca.w₁ * entries ca.w₂ * entries ca.w₃ * (1 + weight κ))) < 1)
    (hroom : Room r H W) (n : Nat) (w : Univ ℝ N ext H W) (hw : Inside (n * ca.dt) w) :
    ∃! x, Within01 x ∧
      ∃ s, iterate (fun (s : NCA ℝ ext ext hid) b => s.forward none b) n ca x = .ok (w, s) := by
  have hrun := fun x : Univ ℝ N ext H W => nca_euler hid' hnb hext hfew hroom n ca.t x
  have h := run_unique_past (network_tame (N := N) (H := H) (W := W) ca κ hA₁ hA₂)
    (List.replicate n ca.dt)
    (fun x hx => by rw [List.eq_of_mem_replicate hx]; exact ⟨hdt, hc⟩) (w := w) (by
      have : 1 * (List.replicate n ca.dt).sum = n * ca.dt := by
        simp only [List.sum_replicate, nsmul_eq_mul]; ring
      rw [this]; exact hw)
  obtain ⟨x, ⟨h1, h2⟩, h3⟩ := h
  refine ⟨x, ⟨h1, _, (hrun x).trans (by rw [h2])⟩, ?_⟩
  rintro y ⟨hy, s, hs⟩
  rw [hrun y] at hs
  exact h3 y ⟨hy, by cases hs; rfl⟩

end

/-! ## Exceptions -/

/-- One channel that strives for one half, with steps of size `h`. -/
noncomputable def Witness.striving (h : ℝ) : CCADyn where
  ext := 1
  int := 1
  mode := .circular
  idLayer := ⟨1, identityKernel⟩
  nbLayer := ⟨1, identityKernel⟩
  genesis := [.polynomial [1 / 2, -1] false]
  persistence := [.polynomial [1 / 2, -1] false]
  seqWeights := none
  thr := 0.1
  dt := h

theorem Witness.striving_plain (h : ℝ) : Plain (Witness.striving h) :=
  ⟨rfl, rfl, rfl, Nat.one_pos, dvd_refl 1, rfl, rfl⟩

theorem striving_act (y : ℝ) : (Act.polynomial [1 / 2, -1] false).eval y = 1 / 2 - y := by
  simp [Act.eval, polynomialFn]
  ring

theorem Witness.striving_mild (h : ℝ) : Mild (Witness.striving h) (3 / 2) 1 := by
  refine ⟨⟨by norm_num, by norm_num⟩, ?_, ?_, Nat.one_lt_ofNat⟩
  · show ∑ a : Fin 3, ∑ b : Fin 3, |(identityKernel a b : ℝ)| ≤ 1
    simp [Fin.sum_univ_three, identityKernel, Arith.zero, Arith.one]
  · intro a ha
    have : a = .polynomial [1 / 2, -1] false := by simpa [Witness.striving] using ha
    subst this
    refine ⟨by norm_num, by norm_num, fun x y hx _ => ?_⟩
    rw [striving_act, striving_act]
    obtain ⟨h1, h2⟩ := abs_le.1 hx
    refine ⟨abs_le.2 ⟨by linarith, by linarith⟩, ?_⟩
    rw [show (1 / 2 - x - (1 / 2 - y) : ℝ) = -(x - y) by ring, abs_neg, one_mul]

theorem striving_growth (h : ℝ) (u : Univ ℝ N 1 H W) (n : Fin N) (e : Fin 1) (i : Fin H) (j : Fin W) :
    growthOf (Witness.striving_plain h) u n e i j = 1 / 2 - u n e i j ∧
    leniaRate (Witness.striving_plain h) u n e i j = 1 / 2 - u n e i j := by
  have hsrc : ∀ o : Fin (Witness.striving h).int,
      u n (source (Witness.striving_plain h).ext_pos (Witness.striving_plain h).dvd o) i j =
        u n e i j := fun o => congrArg (fun z => u n z i j) (Subsingleton.elim (α := Fin 1) _ e)
  have hk : ∀ o : Fin (Witness.striving h).int, gathered (Witness.striving h).nbLayer.2
      (u n (source (Witness.striving_plain h).ext_pos (Witness.striving_plain h).dvd o)) i j =
        u n e i j := fun o =>
    (gathered_identity (Witness.striving_plain h).ext_pos (Witness.striving_plain h).dvd (u n) o i
      j).trans (hsrc o)
  have hg : ∀ (o : Fin (Witness.striving h).int) y, ((Witness.striving h).genesis.get
      (Fin.cast (Witness.striving_plain h).gen.symm o)).eval y = 1 / 2 - y := fun o y => by
    have : (Witness.striving h).genesis.get (Fin.cast (Witness.striving_plain h).gen.symm o) =
        .polynomial [1 / 2, -1] false := List.mem_singleton.1 (List.get_mem _ _)
    rw [this]; exact striving_act y
  have hp : ∀ (o : Fin (Witness.striving h).int) y, ((Witness.striving h).persistence.get
      (Fin.cast (Witness.striving_plain h).per.symm o)).eval y = 1 / 2 - y := fun o y => by
    have : (Witness.striving h).persistence.get (Fin.cast (Witness.striving_plain h).per.symm o) =
        .polynomial [1 / 2, -1] false := List.mem_singleton.1 (List.get_mem _ _)
    rw [this]; exact striving_act y
  have hs : ∀ (f : Fin (Witness.striving h).int → ℝ) (z : ℝ), (∀ o, f o = z) →
      1 / (((Witness.striving h).ext : ℝ) * (Witness.striving h).int) * ∑ o, f o = z := by
    intro f z hf
    rw [Finset.sum_congr rfl fun o _ => hf o]
    show 1 / (((1 : Nat) : ℝ) * ((1 : Nat) : ℝ)) * ∑ _o : Fin 1, z = z
    simp
  have aux : ∀ a g x : ℝ, a = x → g = x → (1 - a) * (1 / 2 - g) + a * (1 / 2 - g) = 1 / 2 - x := by
    rintro a g x rfl rfl; ring
  constructor
  · unfold growthOf growth
    refine hs _ _ fun o => ?_
    rw [hg o, hp o]
    exact aux _ _ _ (hsrc o) (hk o)
  · unfold leniaRate
    refine hs _ _ fun o => ?_
    rw [hg o]
    exact congrArg (fun z : ℝ => 1 / 2 - z) (hk o)

/-- C138, exception: with a step size of 1, four times the bound for `CCA` and just the bound for
`Lenia`, there is an automaton that turns every universe into the same one, which is one half
everywhere. -/
theorem merge_refuted (t : ℝ) (u : Univ ℝ N 1 H W) (hH : 1 ≤ H) (hW : 1 ≤ W) :
    (∃ s, CCA.forward (ext := 1) (int := 1) ((Witness.striving 1).toCCA t) u =
      .ok ((fun _ _ _ _ => 1 / 2), s)) ∧
    (∃ s, CCA.leniaForward (ext := 1) (int := 1) ((Witness.striving 1).toCCA t) u =
      .ok ((fun _ _ _ _ => 1 / 2), s)) ∧
    (Witness.striving 1).dt * ((2 * (3 / 2) + 1) / (Witness.striving 1).ext) = 4 ∧
    (Witness.striving 1).dt * (1 / (Witness.striving 1).ext) = 1 := by
  have half : ∀ x : ℝ, clip (x + 1 * (1 / 2 - x)) = 1 / 2 := fun x => by
    rw [show x + 1 * (1 / 2 - x) = 1 / 2 by ring, clip_eq (by norm_num) (by norm_num)]
  refine ⟨⟨(Witness.striving 1).toCCA (t + 1), ?_⟩, ⟨(Witness.striving 1).toCCA (t + 1), ?_⟩, ?_, ?_⟩
  · refine (cca_step (Witness.striving_plain 1) Nat.one_lt_ofNat t u ⟨hH, hH⟩ ⟨hW, hW⟩).trans ?_
    congr 2
    funext n e i j
    unfold eulerStep
    rw [(striving_growth 1 u n e i j).1]
    exact half _
  · refine (lenia_step (Witness.striving_plain 1) Nat.one_lt_ofNat t u ⟨hH, hH⟩ ⟨hW, hW⟩).trans ?_
    congr 2
    funext n e i j
    unfold eulerStep
    rw [(striving_growth 1 u n e i j).2]
    exact half _
  · norm_num [Witness.striving]
  · norm_num [Witness.striving]

/-- One channel that loses 1 per unit of time, with steps of size `h`. -/
noncomputable def Witness.fading (h : ℝ) : CCADyn where
  ext := 1
  int := 1
  mode := .circular
  idLayer := ⟨1, identityKernel⟩
  nbLayer := ⟨1, identityKernel⟩
  genesis := [.polynomial [-1] false]
  persistence := [.polynomial [-1] false]
  seqWeights := none
  thr := 0.1
  dt := h

theorem Witness.fading_plain (h : ℝ) : Plain (Witness.fading h) :=
  ⟨rfl, rfl, rfl, Nat.one_pos, dvd_refl 1, rfl, rfl⟩

theorem Witness.fading_mild (h : ℝ) : Mild (Witness.fading h) 1 0 := by
  refine ⟨⟨by norm_num, by norm_num⟩, ?_, ?_, Nat.one_lt_ofNat⟩
  · show ∑ a : Fin 3, ∑ b : Fin 3, |(identityKernel a b : ℝ)| ≤ 1
    simp [Fin.sum_univ_three, identityKernel, Arith.zero, Arith.one]
  · intro a ha
    have : a = .polynomial [-1] false := by simpa [Witness.fading] using ha
    subst this
    refine ⟨by norm_num, by norm_num, fun x y _ _ => ?_⟩
    simp [Act.eval, polynomialFn]

/-- C138, exception: clipping loses something at every step size.  There is an automaton, however
small its steps, that turns two different universes into the same one, and a universe without a past;
and its steps meet the bound as soon as they are below one half. -/
theorem clip_refuted {h : ℝ} (hh : 0 < h) (h1 : h < 1 / 2) (t : ℝ) (hN : 1 ≤ N) (hH : 1 ≤ H)
    (hW : 1 ≤ W) :
    (Witness.fading h).dt * ((2 * 1 + 0) / (Witness.fading h).ext) < 1 ∧
    (∃ u v : Univ ℝ N 1 H W, Within01 u ∧ Within01 v ∧ u ≠ v ∧ ∃ w s,
      CCA.forward (ext := 1) (int := 1) ((Witness.fading h).toCCA t) u = .ok (w, s) ∧
      CCA.forward (ext := 1) (int := 1) ((Witness.fading h).toCCA t) v = .ok (w, s)) ∧
    ∃ w : Univ ℝ N 1 H W, Within01 w ∧ ∀ u, Within01 u → ∀ s,
      CCA.forward (ext := 1) (int := 1) ((Witness.fading h).toCCA t) u ≠ .ok (w, s) := by
  have hstep := fun u : Univ ℝ N 1 H W =>
    cca_step (Witness.fading_plain h) Nat.one_lt_ofNat t u ⟨hH, hH⟩ ⟨hW, hW⟩
  have hg : ∀ (u : Univ ℝ N 1 H W) n e i j, eulerStep (growthOf (Witness.fading_plain h)) h u n e i j =
      clip (u n e i j - h) := fun u n e i j => by
    have := constant_growth (Witness.fading_plain h) Nat.one_ne_zero (c := -1) (by
      intro a ha y
      have : a = .polynomial [-1] false := by simpa [Witness.fading] using ha
      subst this
      simp [Act.eval, polynomialFn]) (u n) i j
    have h' : growthOf (Witness.fading_plain h) u n e i j = -1 := by
      unfold growthOf
      rw [this]
      show (-1 : ℝ) / ((1 : Nat) : ℝ) = -1
      norm_num
    unfold eulerStep
    rw [h']
    congr 1
    ring
  refine ⟨by norm_num [Witness.fading]; linarith, ⟨fun _ _ _ _ => 0, fun _ _ _ _ => h, fun n e i j =>
    ⟨le_rfl, zero_le_one⟩, fun n e i j => ⟨hh.le, by linarith⟩, ?_, (fun _ _ _ _ => 0),
      (Witness.fading h).toCCA (t + h), ?_, ?_⟩,
    (fun _ _ _ _ => 1), fun n e i j => ⟨zero_le_one, le_rfl⟩, ?_⟩
  · intro he
    exact hh.ne (congrFun (congrFun (congrFun (congrFun he ⟨0, hN⟩) 0) ⟨0, hH⟩) ⟨0, hW⟩)
  · refine (hstep _).trans ?_
    congr 2
    funext n e i j
    refine (hg _ n e i j).trans ?_
    unfold clip
    rw [min_eq_right (by linarith), max_eq_left (by linarith)]
  · refine (hstep _).trans ?_
    congr 2
    funext n e i j
    refine (hg _ n e i j).trans ?_
    unfold clip
    rw [sub_self, min_eq_right (by norm_num), max_eq_left (by norm_num)]
  · intro u hu s hs
    have h2 := (hstep u).symm.trans hs
    have h3 : eulerStep (growthOf (Witness.fading_plain h)) h u = fun _ _ _ _ => 1 :=
      congrArg Prod.fst (Except.ok.inj h2)
    let e : Fin (Witness.fading h).ext := (0 : Fin 1)
    have h4 := congrFun (congrFun (congrFun (congrFun h3 ⟨0, hN⟩) e) ⟨0, hH⟩) ⟨0, hW⟩
    have h5 := (hg u ⟨0, hN⟩ e ⟨0, hH⟩ ⟨0, hW⟩).symm.trans h4
    have h6 := (hu ⟨0, hN⟩ e ⟨0, hH⟩ ⟨0, hW⟩).2
    unfold clip at h5
    rw [min_eq_right (by linarith)] at h5
    rcases max_choice 0 (u ⟨0, hN⟩ e ⟨0, hH⟩ ⟨0, hW⟩ - h) with h7 | h7 <;> linarith

/-! ## Examples -/

/-- A universe of three different levels has one past of two steps. -/
example (t : ℝ) : ∃! u : Univ ℝ 1 1 8 8, Within01 u ∧
    ∃ s, iterate (CCA.forward (ext := 1) (int := 1)) 2 ((Witness.striving 0.1).toCCA t) u =
      .ok ((fun _ _ i j => 0.4 + 0.1 * ((i.val + j.val) % 3 : ℕ)), s) := by
  refine cca_past (N := 1) (H := 8) (W := 8) (Witness.striving_plain 0.1) (Witness.striving_mild 0.1)
    (by norm_num [Witness.striving]) (by norm_num [Witness.striving]) t 2 _ ?_
    ⟨by decide, by decide⟩ ⟨by decide, by decide⟩
  intro n e i j
  have h3 : ((i.val + j.val) % 3 : ℕ) < 3 := Nat.mod_lt _ (by decide)
  show _ ≤ 0.4 + 0.1 * (((i.val + j.val) % 3 : ℕ) : ℝ) ∧
    0.4 + 0.1 * (((i.val + j.val) % 3 : ℕ) : ℝ) ≤ _
  generalize ((i.val + j.val) % 3 : ℕ) = k at *
  have : k = 0 ∨ k = 1 ∨ k = 2 := by omega
  have hm : ((2 : ℕ) : ℝ) * (Witness.striving 0.1).dt * (3 / 2 / (Witness.striving 0.1).ext) = 0.3 := by
    norm_num [Witness.striving]
  rw [hm]
  rcases this with rfl | rfl | rfl <;> norm_num

/-- Runs whose cells are strictly between 0 and 1 after every step. -/
example (t : ℝ) (n : Nat) : ∃ (w : Univ ℝ 1 1 8 8) (s : CCA ℝ 1 1),
    iterate (CCA.forward (ext := 1) (int := 1)) n ((Witness.striving 0.1).toCCA t)
      (fun _ _ i _ => if i.val = 0 then 0.3 else 0.6) = .ok (w, s) ∧ Open01 w := by
  have hrun := cca_steps (N := 1) (H := 8) (W := 8) (Witness.striving_plain 0.1) Nat.one_lt_ofNat n t
    (fun _ _ i _ => if i.val = 0 then 0.3 else 0.6) ⟨by decide, by decide⟩ ⟨by decide, by decide⟩
  refine ⟨_, _, hrun, ?_⟩
  have key : ∀ (n : Nat) (u : Univ ℝ 1 1 8 8), (∀ n e i j, 0.3 ≤ u n e i j ∧ u n e i j ≤ 0.6) →
      ∀ n' e i j, 0.3 ≤ eulerRun (growthOf (Witness.striving_plain 0.1)) (List.replicate n 0.1) u n' e i j
        ∧ eulerRun (growthOf (Witness.striving_plain 0.1)) (List.replicate n 0.1) u n' e i j ≤ 0.6 := by
    intro n
    induction n with
    | zero => intro u hu; exact hu
    | succ n ih =>
      intro u hu
      refine ih _ fun n e i j => ?_
      have := hu n e i j
      unfold eulerStep
      rw [(striving_growth 0.1 u n e i j).1, clip_eq (by linarith) (by linarith)]
      constructor <;> linarith
  intro n' e i j
  have := key n (fun _ _ i _ => if i.val = 0 then 0.3 else 0.6) (fun n e i j => by
    split <;> norm_num) n' e i j
  constructor
  · refine lt_of_lt_of_le ?_ this.1; norm_num
  · refine lt_of_le_of_lt this.2 ?_; norm_num

/-- The default Gray-Scott automaton keeps at least 0.3 of what a cell holds of the second species in
each step. -/
example (x : Univ ℝ 1 2 5 7) (hx : Within01 x) (m : Nat) (s : Univ ℝ 1 2 5 7 × RxnDfn ℝ)
    (h : iterate RxnDfn.forward m RxnDfn.default x = .ok s) (i : Fin 5) (j : Fin 7)
    (hv : 0 < x 0 1 i j) : 0 < s.1 0 1 i j := by
  refine lt_of_lt_of_le ?_ (rxn_never_gone rxn_default_resolved (by unfold Room; decide) m x
    RxnDfn.default.t s hx h 0 i j)
  refine mul_pos hv (pow_pos ?_ _)
  rw [default_exchanges.2]
  norm_num [RxnDfn.default]

/-- A Gray-Scott automaton with steps small enough. -/
example : ∃ ca : RxnDfn ℝ, 0 < ca.dt ∧ ca.idL = identityLayer 2 2 .circular ∧
    ca.nbL = .ofKernel 2 2 .circular (2 * 1 + 1) laplacian9 ∧
    ca.dt * (grayScottMax (r := 1) ca laplacian9 + 2) < 1 := by
  refine ⟨{ RxnDfn.default with
    nbL := .ofKernel 2 2 .circular 3 laplacian9, dt := 0.01 }, by norm_num, rfl, rfl, ?_⟩
  have hw : weight (r := 1) laplacian9 = 6 := by
    unfold weight
    refine (Fin.sum_univ_three fun a : Fin 3 => ∑ b : Fin 3, |laplacian9 a b|).trans ?_
    simp [Fin.sum_univ_three, laplacian9]
    norm_num
  unfold grayScottMax
  rw [hw]
  norm_num [RxnDfn.default, abs_of_pos]

end Yuca
