import Verif.Props.Rules2
import Mathlib.Topology.MetricSpace.Cauchy
import Mathlib.Analysis.SpecialFunctions.Exp
import Mathlib.Analysis.SpecificLimits.Basic

/-!
# Clipped Euler steps with a bounded and Lipschitz growth

About any growth of universes, independently of the automata.
-/

namespace Yuca

variable {N C H W : Nat}

namespace Spec

/-- No cell of the two universes differs by more than `ε`. -/
def CloseBy (ε : ℝ) (u v : Univ ℝ N C H W) : Prop := ∀ n e i j, |u n e i j - v n e i j| ≤ ε

/-- Every cell lies between 0 and 1. -/
def Within01 (u : Univ ℝ N C H W) : Prop := ∀ n e i j, 0 ≤ u n e i j ∧ u n e i j ≤ 1

/-- A step of size `h` with growth `F`. -/
noncomputable def eulerStep (F : Univ ℝ N C H W → Univ ℝ N C H W) (h : ℝ)
    (u : Univ ℝ N C H W) : Univ ℝ N C H W := fun n e i j => clip (u n e i j + h * F u n e i j)

/-- Steps of the given sizes one after the other. -/
noncomputable def eulerRun (F : Univ ℝ N C H W → Univ ℝ N C H W) :
    List ℝ → Univ ℝ N C H W → Univ ℝ N C H W
  | [], u => u
  | h :: hs, u => eulerRun F hs (eulerStep F h u)

/-- On universes between 0 and 1 the growth is at most `M`, and it changes by at most `c` times
what the universe changes by. -/
structure Tame (F : Univ ℝ N C H W → Univ ℝ N C H W) (M c : ℝ) : Prop where
  nonneg : 0 ≤ M ∧ 0 ≤ c
  bound : ∀ u, Within01 u → ∀ n e i j, |F u n e i j| ≤ M
  lip : ∀ ε u v, Within01 u → Within01 v → CloseBy ε u v → CloseBy (c * ε) (F u) (F v)

/-- `Q` cuts the steps of `P` into smaller ones. -/
inductive Cuts : List ℝ → List ℝ → Prop
  | nil : Cuts [] []
  | cons {s : ℝ} {P Q R : List ℝ} : Q.sum = s → (∀ h ∈ Q, 0 < h) → Cuts P R → Cuts (s :: P) (Q ++ R)

end Spec

open Spec

theorem clip_mem (x : ℝ) : 0 ≤ clip x ∧ clip x ≤ 1 :=
  ⟨le_max_left _ _, max_le (by norm_num) (min_le_left _ _)⟩

theorem clip_eq {x : ℝ} (h0 : 0 ≤ x) (h1 : x ≤ 1) : clip x = x := by
  unfold clip; rw [min_eq_right h1, max_eq_right h0]

theorem clip_sub_le (x y : ℝ) : |clip x - clip y| ≤ |x - y| := by
  unfold clip
  rcases abs_cases (x - y) with ⟨h, _⟩ | ⟨h, _⟩ <;> rw [h, abs_le] <;>
    rcases max_cases 0 (min 1 x) with ⟨a, _⟩ | ⟨a, _⟩ <;> rw [a] <;>
    rcases max_cases 0 (min 1 y) with ⟨b, _⟩ | ⟨b, _⟩ <;> rw [b] <;>
    rcases min_cases 1 x with ⟨p, _⟩ | ⟨p, _⟩ <;>
    rcases min_cases 1 y with ⟨q, _⟩ | ⟨q, _⟩ <;> constructor <;> linarith

/-- Going on in the same direction after a clip. -/
theorem clip_clip {x a b : ℝ} (h0 : 0 ≤ x) (h1 : x ≤ 1) (hab : 0 ≤ a ∧ 0 ≤ b ∨ a ≤ 0 ∧ b ≤ 0) :
    clip (clip (x + a) + b) = clip (x + (a + b)) := by
  have hc : ∀ y : ℝ, 1 ≤ y → clip y = 1 := fun y hy => by
    unfold clip; rw [min_eq_left hy, max_eq_right (by norm_num)]
  have h0' : ∀ y : ℝ, y ≤ 0 → clip y = 0 := fun y hy => by
    unfold clip; rw [min_eq_right (by linarith), max_eq_left hy]
  rcases hab with ⟨ha, hb⟩ | ⟨ha, hb⟩
  · rcases le_total (x + a) 1 with h | h
    · rw [clip_eq (by linarith) h, add_assoc]
    · rw [hc _ h, hc _ (by linarith), hc _ (by linarith)]
  · rcases le_total 0 (x + a) with h | h
    · rw [clip_eq h (by linarith), add_assoc]
    · rw [h0' _ h, h0' _ (by linarith), h0' _ (by linarith)]

theorem near_refl (u : Univ ℝ N C H W) : CloseBy 0 u u := fun n e i j => by simp

theorem near_mono {ε δ : ℝ} {u v : Univ ℝ N C H W} (h : CloseBy ε u v) (hle : ε ≤ δ) : CloseBy δ u v :=
  fun n e i j => (h n e i j).trans hle

theorem near_symm {ε : ℝ} {u v : Univ ℝ N C H W} (h : CloseBy ε u v) : CloseBy ε v u :=
  fun n e i j => by rw [abs_sub_comm]; exact h n e i j

theorem near_trans {ε δ : ℝ} {u v w : Univ ℝ N C H W} (h : CloseBy ε u v) (h' : CloseBy δ v w) :
    CloseBy (ε + δ) u w := fun n e i j =>
  (abs_sub_le _ (v n e i j) _).trans (add_le_add (h n e i j) (h' n e i j))

variable {F : Univ ℝ N C H W → Univ ℝ N C H W} {M c : ℝ}

theorem eulerStep_unit (h : ℝ) (u : Univ ℝ N C H W) : Within01 (eulerStep F h u) :=
  fun _ _ _ _ => clip_mem _

theorem eulerRun_unit (hs : List ℝ) : ∀ {u : Univ ℝ N C H W}, Within01 u → Within01 (eulerRun F hs u) := by
  induction hs with
  | nil => intro u hu; exact hu
  | cons h hs ih => intro u _; exact ih (eulerStep_unit h u)

theorem eulerRun_append (P Q : List ℝ) : ∀ u : Univ ℝ N C H W,
    eulerRun F (P ++ Q) u = eulerRun F Q (eulerRun F P u) := by
  induction P with
  | nil => intro u; rfl
  | cons h P ih => intro u; exact ih _

theorem eulerStep_zero {u : Univ ℝ N C H W} (hu : Within01 u) : eulerStep F 0 u = u := by
  funext n e i j
  unfold eulerStep
  rw [zero_mul, add_zero, clip_eq (hu n e i j).1 (hu n e i j).2]

theorem eulerStep_move (hF : Tame F M c) {h : ℝ} (hh : 0 ≤ h) {u : Univ ℝ N C H W}
    (hu : Within01 u) : CloseBy (h * M) (eulerStep F h u) u := fun n e i j => by
  have h1 := clip_sub_le (u n e i j + h * F u n e i j) (u n e i j)
  rw [clip_eq (hu n e i j).1 (hu n e i j).2, add_sub_cancel_left, abs_mul, abs_of_nonneg hh] at h1
  exact h1.trans (mul_le_mul_of_nonneg_left (hF.bound u hu n e i j) hh)

theorem eulerStep_near (hF : Tame F M c) {h ε : ℝ} (hh : 0 ≤ h) {u v : Univ ℝ N C H W}
    (hu : Within01 u) (hv : Within01 v) (hn : CloseBy ε u v) :
    CloseBy ((1 + h * c) * ε) (eulerStep F h u) (eulerStep F h v) := fun n e i j => by
  refine (clip_sub_le _ _).trans ?_
  have h1 := hn n e i j
  have h2 := hF.lip ε u v hu hv hn n e i j
  have h3 : u n e i j + h * F u n e i j - (v n e i j + h * F v n e i j) =
      (u n e i j - v n e i j) + h * (F u n e i j - F v n e i j) := by ring
  rw [h3]
  refine (abs_add_le _ _).trans ?_
  rw [abs_mul, abs_of_nonneg hh]
  have := mul_le_mul_of_nonneg_left h2 hh
  linarith

theorem eulerRun_near (hF : Tame F M c) (hs : List ℝ) : ∀ {ε : ℝ} {u v : Univ ℝ N C H W},
    0 ≤ ε → (∀ h ∈ hs, 0 ≤ h) → Within01 u → Within01 v → CloseBy ε u v →
    CloseBy (Real.exp (c * hs.sum) * ε) (eulerRun F hs u) (eulerRun F hs v) := by
  induction hs with
  | nil => intro ε u v _ _ _ _ hn; simpa [eulerRun] using hn
  | cons h hs ih =>
    intro ε u v hε hp hu hv hn
    have hh : 0 ≤ h := hp h List.mem_cons_self
    have h1 := eulerStep_near hF hh hu hv hn
    have hc : 0 ≤ h * c := mul_nonneg hh hF.nonneg.2
    have h2 := ih (by positivity) (fun x hx => hp x (List.mem_cons_of_mem _ hx))
      (eulerStep_unit h u) (eulerStep_unit h v) h1
    refine near_mono h2 ?_
    rw [List.sum_cons, mul_add, Real.exp_add]
    have h3 : 1 + h * c ≤ Real.exp (c * h) := by
      have := Real.add_one_le_exp (c * h); linarith
    have h4 : (1 + h * c) * ε ≤ Real.exp (c * h) * ε := mul_le_mul_of_nonneg_right h3 hε
    have := mul_le_mul_of_nonneg_left h4 (Real.exp_pos (c * hs.sum)).le
    linarith

/-- Compared with going on with the growth of the start. -/
theorem eulerRun_frozen (hF : Tame F M c) {u : Univ ℝ N C H W} (hu : Within01 u) (hs : List ℝ) :
    ∀ {a δ : ℝ} {w : Univ ℝ N C H W}, 0 ≤ a → (∀ h ∈ hs, 0 ≤ h) → Within01 w →
      CloseBy (a * M) w u → CloseBy δ w (eulerStep F a u) →
      CloseBy (δ + c * M * ((a + hs.sum) ^ 2 - a ^ 2) / 2) (eulerRun F hs w)
        (eulerStep F (a + hs.sum) u) := by
  induction hs with
  | nil => intro a δ w _ _ _ _ hd; simpa [eulerRun] using hd
  | cons h hs ih =>
    intro a δ w ha hp hw hm hd
    have hh : 0 ≤ h := hp h List.mem_cons_self
    have hm' : CloseBy ((a + h) * M) (eulerStep F h w) u := by
      have := near_trans (eulerStep_move hF hh hw) hm
      exact near_mono this (by linarith)
    have hd' : CloseBy (δ + h * (c * (a * M))) (eulerStep F h w) (eulerStep F (a + h) u) := by
      intro n e i j
      have hx : eulerStep F (a + h) u n e i j =
          clip (eulerStep F a u n e i j + h * F u n e i j) := by
        unfold eulerStep
        rw [clip_clip (hu n e i j).1 (hu n e i j).2]
        · congr 1; ring
        · rcases le_total 0 (F u n e i j) with hf | hf
          · exact .inl ⟨mul_nonneg ha hf, mul_nonneg hh hf⟩
          · exact .inr ⟨mul_nonpos_of_nonneg_of_nonpos ha hf, mul_nonpos_of_nonneg_of_nonpos hh hf⟩
      rw [hx]
      refine (clip_sub_le _ _).trans ?_
      have h1 := hd n e i j
      have h2 := hF.lip _ w u hw hu hm n e i j
      have h3 : w n e i j + h * F w n e i j - (eulerStep F a u n e i j + h * F u n e i j) =
          (w n e i j - eulerStep F a u n e i j) + h * (F w n e i j - F u n e i j) := by ring
      rw [h3]
      refine (abs_add_le _ _).trans ?_
      rw [abs_mul, abs_of_nonneg hh]
      have := mul_le_mul_of_nonneg_left h2 hh
      linarith
    have h5 := ih (by linarith) (fun x hx => hp x (List.mem_cons_of_mem _ hx))
      (eulerStep_unit h w) hm' hd'
    rw [List.sum_cons, ← add_assoc]
    refine near_mono h5 ?_
    have hcM : 0 ≤ c * M * h ^ 2 := mul_nonneg (mul_nonneg hF.nonneg.2 hF.nonneg.1) (sq_nonneg h)
    nlinarith

/-- Cutting a step into smaller ones changes the outcome by an amount quadratic in its size. -/
theorem eulerRun_cut (hF : Tame F M c) {u : Univ ℝ N C H W} (hu : Within01 u) (hs : List ℝ)
    (hp : ∀ h ∈ hs, 0 ≤ h) :
    CloseBy (c * M * hs.sum ^ 2 / 2) (eulerRun F hs u) (eulerStep F hs.sum u) := by
  have h := eulerRun_frozen hF hu hs (le_refl 0) hp hu
    (by rw [zero_mul]; exact near_refl u) (by rw [eulerStep_zero hu]; exact near_refl u)
  simpa using h

/-- The sum of the stepSquares of the step sizes. -/
def Spec.stepSquares (P : List ℝ) : ℝ := (P.map fun h => h ^ 2).sum

theorem stepSquares_nonneg (P : List ℝ) : 0 ≤ stepSquares P := by
  refine List.sum_nonneg fun x hx => ?_
  obtain ⟨h, _, rfl⟩ := List.mem_map.1 hx
  exact sq_nonneg h

theorem stepSquares_le {P : List ℝ} {m : ℝ} (hp : ∀ h ∈ P, 0 ≤ h ∧ h ≤ m) : stepSquares P ≤ m * P.sum := by
  induction P with
  | nil => simp [stepSquares]
  | cons h P ih =>
    have h1 := hp h List.mem_cons_self
    have h2 := ih fun x hx => hp x (List.mem_cons_of_mem _ hx)
    simp only [stepSquares, List.map_cons, List.sum_cons] at h2 ⊢
    nlinarith [h1.1, h1.2]

theorem cuts_sum {P Q : List ℝ} (h : Cuts P Q) : Q.sum = P.sum := by
  induction h with
  | nil => rfl
  | cons h1 _ _ ih => rw [List.sum_append, List.sum_cons, h1, ih]

theorem cuts_pos {P Q : List ℝ} (h : Cuts P Q) : ∀ x ∈ Q, 0 < x := by
  induction h with
  | nil => intro x hx; cases hx
  | cons _ h2 _ ih =>
    intro x hx
    rcases List.mem_append.1 hx with hx | hx
    · exact h2 x hx
    · exact ih x hx

theorem sum_nonneg_of_pos {P : List ℝ} (hp : ∀ h ∈ P, 0 < h) : 0 ≤ P.sum :=
  List.sum_nonneg fun x hx => (hp x hx).le

theorem cuts_near (hF : Tame F M c) {P Q : List ℝ} (h : Cuts P Q) :
    ∀ {u : Univ ℝ N C H W}, Within01 u → (∀ x ∈ P, 0 < x) →
      CloseBy (c * M * Real.exp (c * P.sum) / 2 * stepSquares P) (eulerRun F P u) (eulerRun F Q u) := by
  induction h with
  | nil => intro u _ _; simpa [stepSquares, eulerRun] using near_refl u
  | @cons s P Q R h1 h2 h3 ih =>
    intro u hu hp
    have hP : ∀ x ∈ P, 0 < x := fun x hx => hp x (List.mem_cons_of_mem _ hx)
    have hs : 0 < s := hp s List.mem_cons_self
    have hcM : 0 ≤ c * M := mul_nonneg hF.nonneg.2 hF.nonneg.1
    have a1 := ih (eulerStep_unit (F := F) s u) hP
    have a2 := near_symm (eulerRun_cut hF hu Q fun x hx => (h2 x hx).le)
    rw [h1] at a2
    have a3 := eulerRun_near hF R (by positivity) (fun x hx => (cuts_pos h3 x hx).le)
      (eulerStep_unit s u) (eulerRun_unit Q hu) a2
    rw [eulerRun_append]
    refine near_mono (near_trans a1 a3) ?_
    rw [cuts_sum h3, List.sum_cons]
    have hsq : stepSquares (s :: P) = s ^ 2 + stepSquares P := by simp [stepSquares]
    rw [hsq]
    have he : Real.exp (c * P.sum) ≤ Real.exp (c * (s + P.sum)) :=
      Real.exp_le_exp.2 (mul_le_mul_of_nonneg_left (by linarith) hF.nonneg.2)
    have e1 : c * M * Real.exp (c * P.sum) / 2 * stepSquares P ≤
        c * M * Real.exp (c * (s + P.sum)) / 2 * stepSquares P := by
      refine mul_le_mul_of_nonneg_right ?_ (stepSquares_nonneg P)
      have := mul_le_mul_of_nonneg_left he hcM
      linarith
    have e2 : Real.exp (c * P.sum) * (c * M * s ^ 2 / 2) ≤
        Real.exp (c * (s + P.sum)) * (c * M * s ^ 2 / 2) :=
      mul_le_mul_of_nonneg_right he (by positivity)
    calc _ ≤ c * M * Real.exp (c * (s + P.sum)) / 2 * stepSquares P +
          Real.exp (c * (s + P.sum)) * (c * M * s ^ 2 / 2) := add_le_add e1 e2
      _ = _ := by ring

theorem cuts_refl {P : List ℝ} (hp : ∀ x ∈ P, 0 < x) : Cuts P P := by
  induction P with
  | nil => exact .nil
  | cons s P ih =>
    exact Cuts.cons (Q := [s]) (by simp) (by simpa using hp s List.mem_cons_self)
      (ih fun x hx => hp x (List.mem_cons_of_mem _ hx))

/-- Two ways to step through the same time have a common cut. -/
theorem cuts_common : ∀ (k : Nat) (P Q : List ℝ), P.length + Q.length ≤ k →
    (∀ x ∈ P, 0 < x) → (∀ x ∈ Q, 0 < x) → P.sum = Q.sum → ∃ R, Cuts P R ∧ Cuts Q R := by
  intro k
  induction k with
  | zero =>
    intro P Q hk _ _ _
    have h1 : P = [] := List.length_eq_zero_iff.1 (by omega)
    have h2 : Q = [] := List.length_eq_zero_iff.1 (by omega)
    subst h1 h2
    exact ⟨[], .nil, .nil⟩
  | succ k ih =>
    intro P Q hk hP hQ hs
    cases P with
    | nil =>
      cases Q with
      | nil => exact ⟨[], .nil, .nil⟩
      | cons b Q =>
        exfalso
        have h1 := hQ b List.mem_cons_self
        have h2 := sum_nonneg_of_pos fun x hx => hQ x (List.mem_cons_of_mem _ hx)
        simp only [List.sum_nil, List.sum_cons] at hs
        linarith
    | cons a P =>
      have ha := hP a List.mem_cons_self
      have hP' : ∀ x ∈ P, 0 < x := fun x hx => hP x (List.mem_cons_of_mem _ hx)
      cases Q with
      | nil =>
        exfalso
        have h2 := sum_nonneg_of_pos hP'
        simp only [List.sum_nil, List.sum_cons] at hs
        linarith
      | cons b Q =>
        have hb := hQ b List.mem_cons_self
        have hQ' : ∀ x ∈ Q, 0 < x := fun x hx => hQ x (List.mem_cons_of_mem _ hx)
        simp only [List.length_cons] at hk
        simp only [List.sum_cons] at hs
        rcases lt_trichotomy a b with hab | hab | hab
        · obtain ⟨R, h1, h2⟩ := ih P ((b - a) :: Q) (by simp only [List.length_cons]; omega) hP'
            (by intro x hx
                rcases List.mem_cons.1 hx with rfl | hx
                · linarith
                · exact hQ' x hx) (by simp only [List.sum_cons]; linarith)
          refine ⟨a :: R, Cuts.cons (Q := [a]) (by simp) (by simpa using ha) h1, ?_⟩
          cases h2 with
          | @cons _ _ Q₁ R₁ e1 e2 e3 =>
            exact Cuts.cons (Q := a :: Q₁) (by rw [List.sum_cons, e1]; ring)
              (by intro x hx
                  rcases List.mem_cons.1 hx with rfl | hx
                  · exact ha
                  · exact e2 x hx) e3
        · subst hab
          obtain ⟨R, h1, h2⟩ := ih P Q (by omega) hP' hQ' (by linarith)
          exact ⟨a :: R, Cuts.cons (Q := [a]) (by simp) (by simpa using ha) h1,
            Cuts.cons (Q := [a]) (by simp) (by simpa using ha) h2⟩
        · obtain ⟨R, h1, h2⟩ := ih ((a - b) :: P) Q (by simp only [List.length_cons]; omega)
            (by intro x hx
                rcases List.mem_cons.1 hx with rfl | hx
                · linarith
                · exact hP' x hx) hQ' (by simp only [List.sum_cons]; linarith)
          refine ⟨b :: R, ?_, Cuts.cons (Q := [b]) (by simp) (by simpa using hb) h2⟩
          cases h1 with
          | @cons _ _ Q₁ R₁ e1 e2 e3 =>
            exact Cuts.cons (Q := b :: Q₁) (by rw [List.sum_cons, e1]; ring)
              (by intro x hx
                  rcases List.mem_cons.1 hx with rfl | hx
                  · exact hb
                  · exact e2 x hx) e3

/-- Two ways to step through the same time end near each other. -/
theorem eulerRun_agree (hF : Tame F M c) {P Q : List ℝ} (hP : ∀ x ∈ P, 0 < x)
    (hQ : ∀ x ∈ Q, 0 < x) (hs : P.sum = Q.sum) {u : Univ ℝ N C H W} (hu : Within01 u) :
    CloseBy (c * M * Real.exp (c * P.sum) / 2 * (stepSquares P + stepSquares Q)) (eulerRun F P u)
      (eulerRun F Q u) := by
  obtain ⟨R, h1, h2⟩ := cuts_common _ P Q (le_refl _) hP hQ hs
  have a := cuts_near hF h1 hu hP
  have b := near_symm (cuts_near hF h2 hu hQ)
  rw [← hs] at b
  refine near_mono (near_trans a b) (le_of_eq (by ring))

/-! ## The limit of ever smaller steps -/

/-- Time `T` in `k + 1` equal steps. -/
noncomputable def Spec.equalSteps (T : ℝ) (k : Nat) : List ℝ := List.replicate (k + 1) (T / (k + 1))

/-- Where the universe is after time `T` with ever smaller steps. -/
noncomputable def Spec.flow (F : Univ ℝ N C H W → Univ ℝ N C H W) (T : ℝ) (u : Univ ℝ N C H W) :
    Univ ℝ N C H W :=
  fun n e i j => Filter.limUnder Filter.atTop fun k => eulerRun F (equalSteps T k) u n e i j

theorem equalSteps_sum (T : ℝ) (k : Nat) : (equalSteps T k).sum = T := by
  unfold equalSteps
  rw [List.sum_replicate, nsmul_eq_mul]
  push_cast
  field_simp

theorem equalSteps_pos {T : ℝ} (hT : 0 < T) (k : Nat) : ∀ x ∈ equalSteps T k, 0 < x := by
  intro x hx
  rw [List.eq_of_mem_replicate hx]
  positivity

theorem equalSteps_stepSquares (T : ℝ) (k : Nat) : stepSquares (equalSteps T k) = T ^ 2 / (k + 1) := by
  unfold stepSquares equalSteps
  rw [List.map_replicate, List.sum_replicate, nsmul_eq_mul]
  push_cast
  field_simp

open Filter Topology

theorem tendsto_small (B : ℝ) : Tendsto (fun k : ℕ => B / ((k : ℝ) + 1)) atTop (𝓝 0) := by
  have := (tendsto_one_div_add_atTop_nhds_zero_nat (𝕜 := ℝ)).const_mul B
  rw [mul_zero] at this
  refine this.congr fun k => ?_
  ring

theorem flow_tendsto (hF : Tame F M c) {T : ℝ} (hT : 0 < T) {u : Univ ℝ N C H W} (hu : Within01 u)
    (n : Fin N) (e : Fin C) (i : Fin H) (j : Fin W) :
    Tendsto (fun k => eulerRun F (equalSteps T k) u n e i j) atTop (𝓝 (flow F T u n e i j)) := by
  refine CauchySeq.tendsto_limUnder ?_
  set B := c * M * Real.exp (c * T) / 2 * T ^ 2 with hB
  have hB0 : 0 ≤ B := by
    have := hF.nonneg; have := Real.exp_pos (c * T)
    obtain ⟨_, _⟩ := hF.nonneg
    positivity
  refine cauchySeq_of_le_tendsto_0 (fun k : ℕ => 2 * B / ((k : ℝ) + 1)) ?_ (tendsto_small _)
  intro k l m hk hl
  rw [Real.dist_eq]
  refine (eulerRun_agree hF (equalSteps_pos hT k) (equalSteps_pos hT l)
    (by rw [equalSteps_sum, equalSteps_sum]) hu n e i j).trans ?_
  rw [equalSteps_sum, equalSteps_stepSquares, equalSteps_stepSquares]
  have h1 : T ^ 2 / ((k : ℝ) + 1) ≤ T ^ 2 / ((m : ℝ) + 1) := by
    have : (m : ℝ) ≤ k := by exact_mod_cast hk
    gcongr
  have h2 : T ^ 2 / ((l : ℝ) + 1) ≤ T ^ 2 / ((m : ℝ) + 1) := by
    have : (m : ℝ) ≤ l := by exact_mod_cast hl
    gcongr
  have h3 : 0 ≤ c * M * Real.exp (c * T) / 2 := by
    obtain ⟨_, _⟩ := hF.nonneg
    positivity
  calc _ ≤ c * M * Real.exp (c * T) / 2 * (T ^ 2 / ((m : ℝ) + 1) + T ^ 2 / ((m : ℝ) + 1)) :=
        mul_le_mul_of_nonneg_left (add_le_add h1 h2) h3
    _ = _ := by rw [hB]; ring

theorem flow_near (hF : Tame F M c) {P : List ℝ} (hP : ∀ x ∈ P, 0 < x) (hs : 0 < P.sum)
    {u : Univ ℝ N C H W} (hu : Within01 u) :
    CloseBy (c * M * Real.exp (c * P.sum) / 2 * stepSquares P) (eulerRun F P u) (flow F P.sum u) := by
  intro n e i j
  set K := c * M * Real.exp (c * P.sum) / 2 with hK
  have h1 := flow_tendsto hF hs hu n e i j
  have h2 : Tendsto (fun k => |eulerRun F P u n e i j -
      eulerRun F (equalSteps P.sum k) u n e i j|) atTop
      (𝓝 |eulerRun F P u n e i j - flow F P.sum u n e i j|) :=
    (h1.const_sub _).abs
  have h3 : Tendsto (fun k : ℕ => K * (stepSquares P + P.sum ^ 2 / ((k : ℝ) + 1))) atTop
      (𝓝 (K * (stepSquares P + 0))) := ((tendsto_small _).const_add _).const_mul _
  rw [add_zero] at h3
  refine le_of_tendsto_of_tendsto' h2 h3 fun k => ?_
  have := eulerRun_agree hF hP (equalSteps_pos hs k) (by rw [equalSteps_sum]) hu n e i j
  rwa [equalSteps_stepSquares] at this

theorem flow_unit (hF : Tame F M c) {T : ℝ} (hT : 0 < T) {u : Univ ℝ N C H W} (hu : Within01 u) :
    Within01 (flow F T u) := fun n e i j =>
  ⟨ge_of_tendsto' (flow_tendsto hF hT hu n e i j) fun _ => (eulerRun_unit _ hu n e i j).1,
    le_of_tendsto' (flow_tendsto hF hT hu n e i j) fun _ => (eulerRun_unit _ hu n e i j).2⟩

theorem flow_stable (hF : Tame F M c) {T ε : ℝ} (hT : 0 < T) (hε : 0 ≤ ε) {u v : Univ ℝ N C H W}
    (hu : Within01 u) (hv : Within01 v) (hn : CloseBy ε u v) :
    CloseBy (Real.exp (c * T) * ε) (flow F T u) (flow F T v) := fun n e i j => by
  refine le_of_tendsto' (((flow_tendsto hF hT hu n e i j).sub (flow_tendsto hF hT hv n e i j)).abs)
    fun k => ?_
  have := eulerRun_near hF (equalSteps T k) hε (fun x hx => (equalSteps_pos hT k x hx).le) hu hv hn
    n e i j
  rwa [equalSteps_sum] at this

theorem stepSquares_append (P Q : List ℝ) : stepSquares (P ++ Q) = stepSquares P + stepSquares Q := by
  simp [stepSquares]

theorem flow_add (hF : Tame F M c) {s t : ℝ} (hs : 0 < s) (ht : 0 < t) {u : Univ ℝ N C H W}
    (hu : Within01 u) : flow F (s + t) u = flow F t (flow F s u) := by
  funext n e i j
  obtain ⟨hM, hc⟩ := hF.nonneg
  set K := c * M * Real.exp (c * (s + t)) / 2 with hK
  set K₁ := c * M * Real.exp (c * s) / 2 with hK₁
  set K₂ := c * M * Real.exp (c * t) / 2 with hK₂
  have hs' := flow_unit hF hs hu
  have key : ∀ k : ℕ, |flow F (s + t) u n e i j - flow F t (flow F s u) n e i j| ≤
      (K * (s ^ 2 + t ^ 2) + (Real.exp (c * t) * (K₁ * s ^ 2) + K₂ * t ^ 2)) / ((k : ℝ) + 1) := by
    intro k
    have hp : ∀ x ∈ equalSteps s k ++ equalSteps t k, 0 < x := by
      intro x hx
      rcases List.mem_append.1 hx with hx | hx
      · exact equalSteps_pos hs k x hx
      · exact equalSteps_pos ht k x hx
    have hsum : (equalSteps s k ++ equalSteps t k).sum = s + t := by
      rw [List.sum_append, equalSteps_sum, equalSteps_sum]
    have a1 := flow_near hF hp (by rw [hsum]; linarith) hu
    rw [hsum, stepSquares_append, equalSteps_stepSquares, equalSteps_stepSquares, eulerRun_append] at a1
    have a2 := flow_near hF (equalSteps_pos hs k) (by rw [equalSteps_sum]; exact hs) hu
    rw [equalSteps_sum, equalSteps_stepSquares] at a2
    have a3 := eulerRun_near hF (equalSteps t k) (by positivity)
      (fun x hx => (equalSteps_pos ht k x hx).le) (eulerRun_unit _ hu) hs' a2
    rw [equalSteps_sum] at a3
    have a4 := flow_near hF (equalSteps_pos ht k) (by rw [equalSteps_sum]; exact ht) hs'
    rw [equalSteps_sum, equalSteps_stepSquares] at a4
    refine (near_trans (near_symm a1) (near_trans a3 a4) n e i j).trans (le_of_eq ?_)
    rw [hK, hK₁, hK₂]
    ring
  have h0 := ge_of_tendsto' (tendsto_small _) key
  have := abs_nonneg (flow F (s + t) u n e i j - flow F t (flow F s u) n e i j)
  exact sub_eq_zero.1 (abs_eq_zero.1 (le_antisymm h0 this))

/-- One step from anywhere on the limiting trajectory. -/
theorem flow_step (hF : Tame F M c) {h : ℝ} (hh : 0 < h) {u : Univ ℝ N C H W} (hu : Within01 u) :
    CloseBy (c * M * Real.exp (c * h) / 2 * h ^ 2) (eulerStep F h u) (flow F h u) := by
  have := flow_near hF (P := [h]) (by simpa using hh) (by simpa using hh) hu
  simpa [stepSquares, eulerRun] using this

theorem flow_move (hF : Tame F M c) {T : ℝ} (hT : 0 < T) {u : Univ ℝ N C H W} (hu : Within01 u) :
    CloseBy (T * M) (flow F T u) u := fun n e i j => by
  have key : ∀ (hs : List ℝ) (w : Univ ℝ N C H W), Within01 w → (∀ x ∈ hs, 0 < x) →
      CloseBy (hs.sum * M) (eulerRun F hs w) w := by
    intro hs
    induction hs with
    | nil => intro w _ _; simpa [eulerRun] using near_refl w
    | cons h hs ih =>
      intro w hw hp
      have h1 := ih (eulerStep F h w) (eulerStep_unit h w) fun x hx => hp x (List.mem_cons_of_mem _ hx)
      have h2 := eulerStep_move hF (hp h List.mem_cons_self).le hw
      refine near_mono (near_trans h1 h2) (le_of_eq ?_)
      rw [List.sum_cons]; ring
  refine le_of_tendsto' (((flow_tendsto hF hT hu n e i j).sub_const _).abs) fun k => ?_
  have := key (equalSteps T k) u hu (equalSteps_pos hT k) n e i j
  rwa [equalSteps_sum] at this

end Yuca
