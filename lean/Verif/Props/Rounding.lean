import Verif.Spec.Rounding
import Verif.Props.Life
import Verif.Lemmas.Float
import Verif.Props.Patterns

/-!
# C90: life-like rules are simulated for ever in machine arithmetic
-/

namespace Yuca

open Arith Spec

variable {N H W : Nat}

/-! ## The growth functions a thirty-second off -/

/-- The leakage of one interval edge a thirty-second away. -/
noncomputable def leak32 : ℝ := Real.exp (-10)

theorem leak32_pos : 0 < leak32 := Real.exp_pos _

theorem leak32_le : leak32 ≤ 1 / 20000 := by
  unfold leak32
  have h1 : (2.7182818283 : ℝ) < Real.exp 1 := Real.exp_one_gt_d9
  have h2 : Real.exp 10 = Real.exp 1 ^ 10 := by
    rw [← Real.exp_nat_mul]; norm_num
  have h3 : (20000 : ℝ) ≤ Real.exp 10 := by
    rw [h2]
    calc (20000 : ℝ) ≤ 2.7182818283 ^ 10 := by norm_num
      _ ≤ _ := pow_le_pow_left₀ (by norm_num) h1.le 10
  rw [Real.exp_neg, ← one_div]
  exact one_div_le_one_div_of_le (by norm_num) h3

theorem ivTerm_far32 {b k : Nat} (hb : b ≠ k) {x : ℝ} (hx : |x - k / 8| ≤ 1 / 32) :
    ivTerm b x ≤ leak32 := by
  rw [abs_le] at hx
  have h1 := sigmoid1_lt_one ((2 * (b : ℝ) - 1) / 16) 0.0125 x
  have h2 := sigmoid1_pos ((2 * (b : ℝ) + 1) / 16) 0.0125 x
  have h3 := sigmoid1_pos ((2 * (b : ℝ) - 1) / 16) 0.0125 x
  have h4 := sigmoid1_lt_one ((2 * (b : ℝ) + 1) / 16) 0.0125 x
  unfold ivTerm leak32
  rcases lt_or_gt_of_ne hb with h | h
  · have h : (b : ℝ) + 1 ≤ k := by exact_mod_cast h
    have h5 := one_sub_sigmoid1_le_exp ((2 * (b : ℝ) + 1) / 16) x
    have h6 : Real.exp (-(320 * (x - (2 * (b : ℝ) + 1) / 16))) ≤ Real.exp (-10) :=
      Real.exp_le_exp.2 (by linarith)
    nlinarith
  · have h : (k : ℝ) + 1 ≤ b := by exact_mod_cast h
    have h5 := sigmoid1_le_exp ((2 * (b : ℝ) - 1) / 16) x
    have h6 : Real.exp (320 * (x - (2 * (b : ℝ) - 1) / 16)) ≤ Real.exp (-10) :=
      Real.exp_le_exp.2 (by linarith)
    nlinarith

theorem ivTerm_near32 {k : Nat} {x : ℝ} (hx : |x - k / 8| ≤ 1 / 32) : 1 - 2 * leak32 ≤ ivTerm k x := by
  rw [abs_le] at hx
  have h5 := one_sub_sigmoid1_le_exp ((2 * (k : ℝ) - 1) / 16) x
  have h6 : Real.exp (-(320 * (x - (2 * (k : ℝ) - 1) / 16))) ≤ leak32 :=
    Real.exp_le_exp.2 (by linarith)
  have h7 := sigmoid1_le_exp ((2 * (k : ℝ) + 1) / 16) x
  have h8 : Real.exp (320 * (x - (2 * (k : ℝ) + 1) / 16)) ≤ leak32 :=
    Real.exp_le_exp.2 (by linarith)
  have h9 := leak32_le
  have h10 := leak32_pos
  unfold ivTerm; nlinarith

theorem ivSum_le32 {k : Nat} {x : ℝ} (hx : |x - k / 8| ≤ 1 / 32) (l : List Nat) :
    (l.map fun b => ivTerm b x).sum ≤ l.count k + l.length * leak32 := by
  induction l with
  | nil => simp
  | cons b l ih =>
    simp only [List.map_cons, List.sum_cons, List.length_cons, List.count_cons]
    push_cast
    by_cases hb : b = k
    · subst hb
      have := ivTerm_le_one b x
      have := leak32_pos
      simp only [beq_self_eq_true, if_true]
      linarith
    · have := ivTerm_far32 hb hx
      have hbk : (b == k) = false := by simpa using hb
      simp only [hbk, Bool.false_eq_true, if_false]
      linarith

theorem ivSum_ge32 {k : Nat} {x : ℝ} (hx : |x - k / 8| ≤ 1 / 32) {l : List Nat} (hk : k ∈ l) :
    1 - 2 * leak32 ≤ (l.map fun b => ivTerm b x).sum := by
  induction l with
  | nil => simp at hk
  | cons b l ih =>
    simp only [List.map_cons, List.sum_cons]
    rcases List.mem_cons.1 hk with rfl | h
    · have := ivTerm_near32 hx
      have := ivSum_nonneg l x
      linarith
    · have := ih h
      have := ivTerm_nonneg b x
      linarith

/-- The growth function within a thirty-second of `k/8`: about 1 for counts in the list, about -1
for the others. -/
theorem rule_growth32 {l : List Nat} (h : RuleList l) {k : Nat} {x : ℝ}
    (hx : |x - k / 8| ≤ 1 / 32) :
    |(Act.smoothIntervals (smoothInterval l) 0.0125 true).eval x - (if k ∈ l then 1 else -1)| ≤ 1 / 1000 := by
  rw [smoothInterval_eval]
  have h1 := ivSum_le32 hx l
  have h2 := ivSum_nonneg l x
  have h3 : (l.length : ℝ) ≤ 9 := by exact_mod_cast ruleList_length h
  have h4 := leak32_pos
  have h6 := leak32_le
  have h5 : (l.length : ℝ) * leak32 ≤ 9 * leak32 := mul_le_mul_of_nonneg_right h3 h4.le
  by_cases hk : k ∈ l
  · have h7 := ivSum_ge32 hx hk
    have h8 : (l.count k : ℝ) ≤ 1 := by exact_mod_cast List.nodup_iff_count_le_one.1 h.1 k
    rw [if_pos hk, abs_le]
    constructor <;> linarith
  · have h8 : (l.count k : ℝ) = 0 := by exact_mod_cast List.count_eq_zero.2 hk
    rw [if_neg hk, abs_le]
    rw [h8] at h1
    constructor <;> linarith

/-! ## One cell -/

/-- The chain of roundings in one cell. -/
theorem cell_rounded {c c' G P s₁ m₁ m₂ a b d v : ℝ} {s inB inS : Bool}
    (hsub : inB = true → inS = true) (h0 : 0 ≤ c) (h1 : c ≤ 1) (hc : |c - bit s| ≤ 1 / 50)
    (hc' : |c' - c| ≤ 1 / 500)
    (hG : |G - (if inB then 1 else -1)| ≤ 6 / 1000) (hP : |P - (if inS then 1 else -1)| ≤ 6 / 1000)
    (e1 : |s₁ - (1 - c')| ≤ 1 / 1000) (e2 : |m₁ - s₁ * G| ≤ 1 / 1000)
    (e3 : |m₂ - c' * P| ≤ 1 / 1000) (e4 : |a - (m₁ + m₂)| ≤ 1 / 1000) (e5 : |b - a| ≤ 1 / 500)
    (e6 : |d - b| ≤ 1 / 1000) (e7 : |v - (c + d)| ≤ 1 / 1000) :
    |max 0 (min 1 v) - bit (if s then inS else inB)| ≤ 1 / 50 := by
  rw [abs_le] at *
  have lo : ∀ x : ℝ, 1 - 1 / 50 ≤ x → -(1 / 50) ≤ max 0 (min 1 x) - 1 ∧ max 0 (min 1 x) - 1 ≤ 1 / 50 := by
    intro x hx
    have h2 : 1 - 1 / 50 ≤ max 0 (min 1 x) := le_max_of_le_right (le_min (by norm_num) hx)
    have h3 : max 0 (min 1 x) ≤ 1 := max_le (by norm_num) (min_le_left _ _)
    constructor <;> linarith
  have hi : ∀ x : ℝ, x ≤ 1 / 50 → -(1 / 50) ≤ max 0 (min 1 x) - 0 ∧ max 0 (min 1 x) - 0 ≤ 1 / 50 := by
    intro x hx
    have h2 : max 0 (min 1 x) ≤ 1 / 50 := max_le (by norm_num) ((min_le_right _ _).trans hx)
    have h3 : 0 ≤ max 0 (min 1 x) := le_max_left _ _
    constructor <;> linarith
  cases s <;> cases inB <;> cases inS <;>
    simp only [bit, if_true, if_false, Bool.false_eq_true, forall_true_left] at *
  · apply hi; nlinarith
  · apply hi; nlinarith
  · apply lo; nlinarith
  · apply hi; nlinarith
  · apply lo; nlinarith
  · apply lo; nlinarith

/-! ## One step on a machine -/

variable {α : Type} [Arith α]

theorem padRead_map (val : α → ℝ) (h0 : val zero = 0) (m : PadMode) (g : Grid α H W) (a b : Int) :
    val (padRead m g a b) = padRead m (fun i j => val (g i j)) a b := by
  unfold padRead
  split <;> simp_all [Arith.zero]

theorem taps_map (val : α → ℝ) (h0 : val zero = 0) (κ : Fin 3 → Fin 3 → α)
    (x : Fin 1 → Grid α H W) (i : Fin H) (j : Fin W) :
    (((ConvLayer.ofKernel 1 1 .circular 3 κ).taps x 0 i j).map fun p => val p.1 * val p.2).sum =
      dot ((ConvLayer.ofKernel 1 1 .circular 3 fun a b => val (κ a b)).taps
        (fun c i j => val (x c i j)) 0 i j) := by
  simp only [ConvLayer.taps, Arith.dot, List.map_flatMap, List.map_map, Function.comp_def,
    padRead_map val h0]
  rfl

theorem taps_mem {κ : Fin 3 → Fin 3 → α} {x : Fin 1 → Grid α H W} {i : Fin H} {j : Fin W}
    {p : α × α} (hp : p ∈ (ConvLayer.ofKernel 1 1 .circular 3 κ).taps x 0 i j) :
    (∃ a b, p.1 = κ a b) ∧ (p.2 = zero ∨ ∃ i j, p.2 = x 0 i j) := by
  simp only [ConvLayer.taps, List.mem_flatMap, List.mem_map, List.mem_finRange, true_and] at hp
  obtain ⟨c, a, b, rfl⟩ := hp
  refine ⟨⟨a, b, rfl⟩, ?_⟩
  simp only [Subsingleton.elim (inChan 0 c) (0 : Fin 1)]
  unfold padRead
  split
  · exact .inr ⟨_, _, rfl⟩
  · exact .inl rfl

theorem taps_length (κ : Fin 3 → Fin 3 → α) (x : Fin 1 → Grid α H W) (i : Fin H) (j : Fin W) :
    ((ConvLayer.ofKernel 1 1 .circular 3 κ).taps x 0 i j).length = 9 := by
  simp [ConvLayer.taps, ConvLayer.ofKernel, List.length_flatMap, groups]

/-- The computed convolution of a universe with values in `[0, 1]`. -/
theorem machine_conv (M : Machine α) {κ : Fin 3 → Fin 3 → α} (hκ : ∀ a b, M.Num (κ a b))
    (hpos : ∀ a b, 0 ≤ M.val (κ a b)) {x : Fin 1 → Grid α H W}
    (hx : ∀ i j, M.Num (x 0 i j) ∧ 0 ≤ M.val (x 0 i j)) (i : Fin H) (j : Fin W) {v : ℝ}
    (hv : dot ((ConvLayer.ofKernel 1 1 .circular 3 fun a b => M.val (κ a b)).taps
        (fun c i j => M.val (x c i j)) 0 i j) = v) (h2 : v ≤ 2) :
    M.Num (dot ((ConvLayer.ofKernel 1 1 .circular 3 κ).taps x 0 i j)) ∧
      |M.val (dot ((ConvLayer.ofKernel 1 1 .circular 3 κ).taps x 0 i j)) - v| ≤ 1 / 500 := by
  have hmem : ∀ p ∈ (ConvLayer.ofKernel 1 1 .circular 3 κ).taps x 0 i j,
      (M.Num p.1 ∧ M.Num p.2) ∧ 0 ≤ M.val p.1 * M.val p.2 := by
    intro p hp
    obtain ⟨⟨a, b, h1⟩, h2 | ⟨i', j', h2⟩⟩ := taps_mem hp
    · rw [h1, h2]
      exact ⟨⟨hκ _ _, M.zero.1⟩, by rw [M.zero.2, mul_zero]⟩
    · rw [h1, h2]
      exact ⟨⟨hκ _ _, (hx _ _).1⟩, mul_nonneg (hpos _ _) (hx _ _).2⟩
  have habs : (((ConvLayer.ofKernel 1 1 .circular 3 κ).taps x 0 i j).map
      fun p => |M.val p.1 * M.val p.2|) =
      ((ConvLayer.ofKernel 1 1 .circular 3 κ).taps x 0 i j).map fun p => M.val p.1 * M.val p.2 :=
    List.map_congr_left fun p hp => abs_of_nonneg (hmem p hp).2
  have := M.dot _ (taps_length κ x i j).le (fun p hp => (hmem p hp).1)
    (by rw [habs, taps_map _ M.zero.2, hv]; exact h2)
  rwa [taps_map _ M.zero.2, hv] at this

theorem machine_clamp (M : Machine α) {x : α} (h : M.Num x) :
    M.Num (clamp01 x) ∧ M.val (clamp01 x) = max 0 (min 1 (M.val x)) := by
  rw [← clamp01_real]
  unfold clamp01
  have h1 := M.lt x zero h M.zero.1
  have h2 := M.lt one x M.one.1 h
  rw [M.zero.2] at h1
  rw [M.one.2] at h2
  simp only [h1, h2]
  simp only [Arith.lt, Arith.zero, Arith.one, decide_eq_true_eq]
  split
  · exact M.zero
  · split
    · exact M.one
    · exact ⟨h, rfl⟩

/-- One cell of one step, in any arithmetic. -/
theorem any_cell {ca : CCA α 1 1} {g p : α → α} {w : α} (hg : ca.genesis = [g])
    (hp : ca.persistence = [p]) (hw : ca.weights = .functional fun _ _ => w)
    {u : Univ α N 1 H W} {r : Univ α N 1 H W × CCA α 1 1} (h : ca.forward u = .ok r) :
    r.2 = { ca with t := add ca.t ca.dt } ∧
    ∀ n i j, r.1 n 0 i j =
      let c := dot (ca.idL.taps (u n) 0 i j)
      let x := dot (ca.nbL.taps (u n) 0 i j)
      clamp01 (add (u n 0 i j) (mul ca.dt
        (dot [(w, add (mul (sub one c) (g x)) (mul c (p x)))]))) := by
  obtain ⟨idn, nb, upd, h1, h2, h3, rfl⟩ := CCA.forward_ok h
  obtain ⟨_, rfl⟩ := apply_ok h1
  obtain ⟨_, rfl⟩ := apply_ok h2
  unfold CCA.updateUniverse at h3
  obtain ⟨G, h4, h3⟩ := bind_ok h3
  obtain ⟨P, h5, h3⟩ := bind_ok h3
  rw [hg] at h4
  rw [hp] at h5
  cases h3
  cases h4
  cases h5
  refine ⟨rfl, fun n i j => ?_⟩
  simp only [eulerClamp, hw, Weights.apply, conv1x1, maskIf_small (by norm_num : 1 < 4)]
  rfl

theorem machine_growth {M : Machine α} {l : List Nat} (hl : RuleList l) {g : α → α}
    (hg : M.Growth l g) {x : α} {k : Nat} (hk : k ≤ 8) (hx : M.Num x)
    (hc : |M.val x - k / 8| ≤ 1 / 32) :
    M.Num (g x) ∧ |M.val (g x) - (if decide (k ∈ l) then 1 else -1)| ≤ 6 / 1000 := by
  obtain ⟨h1, h2⟩ := hg x k hk hx hc
  have h3 := rule_growth32 hl hc
  refine ⟨h1, ?_⟩
  simp only [decide_eq_true_eq]
  rw [abs_le] at *
  constructor <;> linarith [h2.1, h2.2, h3.1, h3.2]

theorem abs_le_of_near {x y ε b : ℝ} (h : |x - y| ≤ ε) (hy : |y| ≤ b) : |x| ≤ b + ε := by
  rw [abs_le] at *
  constructor <;> linarith [h.1, h.2, hy.1, hy.2]

theorem sign_abs (b : Bool) : |(if b then 1 else -1 : ℝ)| ≤ 1 := by
  cases b <;> simp

theorem machine_step {M : Machine α} {birth survival : List Nat} {ca : CCA α 1 1}
    (L : M.Life birth survival ca) (hB : RuleList birth) (hS : RuleList survival)
    (hsub : birth ⊆ survival) {u : Univ α N 1 H W} {s : Fin N → Fin H → Fin W → Bool}
    (hs : M.Near (1 / 50) u s) {r : Univ α N 1 H W × CCA α 1 1} (h : ca.forward u = .ok r) :
    r.2 = { ca with t := add ca.t ca.dt } ∧
      M.Near (1 / 50) r.1 (fun n => lifeStep birth survival (s n)) := by
  obtain ⟨hr, hc⟩ := any_cell L.genesis L.persistence L.weights h
  refine ⟨hr, fun n i j => ?_⟩
  rw [hc]
  simp only [L.idL, L.nbL, identityLayer]
  obtain ⟨u1, u2, u3, u4⟩ := hs n i j
  have hx : ∀ i j, M.Num (u n 0 i j) ∧ 0 ≤ M.val (u n 0 i j) := fun i j =>
    ⟨(hs n i j).1, (hs n i j).2.1⟩
  -- the identity convolution
  have hidk : (fun a b => M.val (identityKernel a b : α)) = (identityKernel : Fin 3 → Fin 3 → ℝ) := by
    funext a b; unfold identityKernel
    split
    · exact M.one.2
    · exact M.zero.2
  obtain ⟨c1, c2⟩ := machine_conv M (κ := identityKernel) (x := u n)
    (by intro a b; unfold identityKernel; split; exacts [M.one.1, M.zero.1])
    (by intro a b; unfold identityKernel; split
        · rw [M.one.2]; norm_num
        · rw [M.zero.2]) hx i j (v := M.val (u n 0 i j))
    (by
      rw [hidk]
      exact identity_taps_dvd one_pos (dvd_refl 1) .circular (fun c i j => M.val (u n c i j)) 0 i j)
    (by linarith)
  -- the neighbourhood
  have hmk : (fun a b => M.val (L.κ a b)) = mooreLike 1 := by
    funext a b; rw [(L.kernel a b).2, mooreLike_one]
  have hk8 : aliveNeighbours (s n) i j ≤ 8 := List.countP_le_length
  have hmc := moore_close (x := fun c i j => M.val (u n c i j)) (s := s n)
    (fun i j => (hs n i j).2.2.2) 0 i j
  have hk8' : (aliveNeighbours (s n) i j : ℝ) ≤ 8 := by exact_mod_cast hk8
  obtain ⟨x1, x2⟩ := machine_conv M (κ := L.κ) (x := u n) (fun a b => (L.kernel a b).1)
    (by intro a b; rw [(L.kernel a b).2]; split <;> norm_num) hx i j rfl
    (by
      rw [hmk]
      have := (abs_le.1 hmc).2
      linarith)
  rw [hmk] at x2
  have x3 : |M.val (dot ((ConvLayer.ofKernel 1 1 .circular 3 L.κ).taps (u n) 0 i j)) -
      (aliveNeighbours (s n) i j : ℕ) / 8| ≤ 1 / 32 := by
    rw [abs_le] at *
    constructor <;> linarith [x2.1, x2.2, hmc.1, hmc.2]
  generalize dot ((ConvLayer.ofKernel 1 1 .circular 3 identityKernel).taps (u n) 0 i j) = c at *
  generalize dot ((ConvLayer.ofKernel 1 1 .circular 3 L.κ).taps (u n) 0 i j) = x at *
  obtain ⟨g1, g2⟩ := machine_growth hB L.growth hk8 x1 x3
  obtain ⟨p1, p2⟩ := machine_growth hS L.persist hk8 x1 x3
  have gA := abs_le_of_near g2 (sign_abs _)
  have pA := abs_le_of_near p2 (sign_abs _)
  have uA : |M.val (u n 0 i j)| ≤ 1 := abs_le.2 ⟨by linarith, u3⟩
  have cA := abs_le_of_near c2 uA
  have c3 := abs_le.1 c2
  obtain ⟨a1, a2⟩ := M.sub one c M.one.1 c1 (by rw [M.one.2]; norm_num) (by linarith)
  rw [M.one.2] at a2
  have aA : |M.val (sub one c)| ≤ 1 - M.val (u n 0 i j) + 3 / 1000 := by
    rw [abs_le] at a2 ⊢
    constructor <;> linarith [a2.1, a2.2, c3.1, c3.2]
  have cB : |M.val c| ≤ M.val (u n 0 i j) + 2 / 1000 := by
    rw [abs_le]
    constructor <;> linarith [c3.1, c3.2]
  obtain ⟨m1, m2⟩ := M.mul _ _ a1 g1 (by linarith) (by linarith)
  obtain ⟨q1, q2⟩ := M.mul _ _ c1 p1 (by linarith) (by linarith)
  have mA : |M.val (mul (sub one c) (L.g x))| ≤
      (1 - M.val (u n 0 i j) + 3 / 1000) * (1 + 6 / 1000) + 1 / 1000 := by
    refine abs_le_of_near m2 ?_
    rw [abs_mul]
    exact mul_le_mul aA gA (abs_nonneg _) (by linarith)
  have qA : |M.val (mul c (L.p x))| ≤
      (M.val (u n 0 i j) + 2 / 1000) * (1 + 6 / 1000) + 1 / 1000 := by
    refine abs_le_of_near q2 ?_
    rw [abs_mul]
    exact mul_le_mul cB pA (abs_nonneg _) (by linarith)
  obtain ⟨d1, d2⟩ := M.add _ _ m1 q1 (by linarith) (by linarith)
  have dA : |M.val (add (mul (sub one c) (L.g x)) (mul c (L.p x)))| ≤ 3 / 2 := by
    have h1 := abs_add_le (M.val (mul (sub one c) (L.g x))) (M.val (mul c (L.p x)))
    have h2 := abs_le_of_near d2 h1
    linarith
  obtain ⟨e1, e2⟩ := M.dot [(L.w, add (mul (sub one c) (L.g x)) (mul c (L.p x)))] (by simp)
    (by simpa using ⟨L.weight.1, d1⟩)
    (by
      simp only [List.map_cons, List.map_nil, List.sum_cons, List.sum_nil, L.weight.2, one_mul,
        add_zero]
      linarith)
  simp only [List.map_cons, List.map_nil, List.sum_cons, List.sum_nil, L.weight.2, one_mul,
    add_zero] at e2
  have eA := abs_le_of_near e2 dA
  obtain ⟨f1, f2⟩ := M.mul _ _ L.dt.1 e1 (by rw [L.dt.2]; norm_num) (by linarith)
  rw [L.dt.2, one_mul] at f2
  have fA := abs_le_of_near f2 eA
  obtain ⟨v1, v2⟩ := M.add _ _ u1 f1 (by linarith) (by linarith)
  obtain ⟨w1, w2⟩ := machine_clamp M v1
  refine ⟨w1, ?_, ?_, ?_⟩
  · rw [w2]; exact le_max_left _ _
  · rw [w2]; exact max_le (by norm_num) (min_le_left _ _)
  · rw [w2]
    have := cell_rounded (s := s n i j) (inB := decide (aliveNeighbours (s n) i j ∈ birth))
      (inS := decide (aliveNeighbours (s n) i j ∈ survival))
      (by simpa using fun h => hsub h) u2 u3 u4 c2 g2 p2 a2 m2 q2 d2 e2 f2 v2
    unfold lifeStep
    exact this

theorem machine_runs {M : Machine α} {birth survival : List Nat} {ca : CCA α 1 1}
    (L : M.Life birth survival ca) (u : Univ α N 1 H W) (hH : 1 ≤ H) (hW : 1 ≤ W) :
    ∃ r, ca.forward u = .ok r := by
  refine (cca_runs_iff _ u).2 ⟨?_, ?_, ?_, ?_⟩
  · simp [Fits, L.idL, identityLayer, ConvLayer.ofKernel, ConvLayer.pad, padOK, hH, hW]
  · simp [Fits, L.nbL, ConvLayer.ofKernel, ConvLayer.pad, padOK, hH, hW]
  · rw [L.genesis]; rfl
  · rw [L.persistence]; rfl

/-- C90: on every machine whose arithmetic is accurate enough, a life-like rule whose birth set is
contained in its survival set is simulated for ever: from every universe within 1/50 of a 0/1
state the automaton runs for any number of steps, every cell stays a number, and the universe is
within 1/50 of the true generation.  Rounding errors do not add up. -/
theorem machine_life_forever {M : Machine α} {birth survival : List Nat} (hB : RuleList birth)
    (hS : RuleList survival) (hsub : birth ⊆ survival) (hH : 1 ≤ H) (hW : 1 ≤ W) (n : Nat) :
    ∀ {ca : CCA α 1 1} (_ : M.Life birth survival ca) (u : Univ α N 1 H W)
      (s : Fin N → Fin H → Fin W → Bool), M.Near (1 / 50) u s →
      ∃ r, iterate CCA.forward n ca u = .ok r ∧
        M.Near (1 / 50) r.1 (fun m => (lifeStep birth survival)^[n] (s m)) := by
  induction n with
  | zero => intro ca _ u s hs; exact ⟨_, rfl, hs⟩
  | succ n ih =>
    intro ca L u s hs
    obtain ⟨⟨u', ca'⟩, h1⟩ := machine_runs L u hH hW
    obtain ⟨h2, h3⟩ := machine_step L hB hS hsub hs h1
    simp only at h2
    subst h2
    obtain ⟨r, h4, h5⟩ := ih (ca := { ca with t := add ca.t ca.dt })
      ⟨L.κ, L.g, L.p, L.w, L.idL, L.nbL, L.genesis, L.persistence, L.weights, L.kernel, L.growth,
        L.persist, L.weight, L.dt⟩ u' _ h3
    exact ⟨r, by simp only [iterate, h1, bind, Except.bind]; exact h4, h5⟩

/-- The 0/1 universe of a state, in machine numbers. -/
def Spec.machineBits (s : Fin N → Fin H → Fin W → Bool) : Univ α N 1 H W :=
  fun n _ i j => if s n i j then one else zero

theorem machineBits_near (M : Machine α) (s : Fin N → Fin H → Fin W → Bool) :
    M.Near (1 / 50) (machineBits s) s := by
  intro n i j
  simp only [machineBits, bit]
  split
  · refine ⟨M.one.1, ?_, ?_, ?_⟩ <;> rw [M.one.2] <;> norm_num
  · refine ⟨M.zero.1, ?_, ?_, ?_⟩ <;> rw [M.zero.2] <;> norm_num

/-- C90: cutting the machine's universe at one half gives the true generation exactly, for ever. -/
theorem machine_life_exact {M : Machine α} {birth survival : List Nat} (hB : RuleList birth)
    (hS : RuleList survival) (hsub : birth ⊆ survival) (hH : 1 ≤ H) (hW : 1 ≤ W) {ca : CCA α 1 1}
    (L : M.Life birth survival ca) (s : Fin N → Fin H → Fin W → Bool) (n : Nat) :
    ∃ r, iterate CCA.forward n ca (machineBits s) = .ok r ∧
      ∀ m i j, M.Num (r.1 m 0 i j) ∧
        ((lifeStep birth survival)^[n] (s m) i j = true ↔ 1 / 2 < M.val (r.1 m 0 i j)) := by
  obtain ⟨r, h1, h2⟩ := machine_life_forever hB hS hsub hH hW n L _ s (machineBits_near M s)
  refine ⟨r, h1, fun m i j => ?_⟩
  obtain ⟨h3, _, _, h4⟩ := h2 m i j
  refine ⟨h3, ?_⟩
  rw [abs_le] at h4
  simp only at h4
  cases h : (lifeStep birth survival)^[n] (s m) i j <;> simp only [h, bit] at h4 ⊢ <;>
    simp at h4 ⊢ <;> linarith

/-- C90: a machine's glider flies for ever. -/
theorem machine_glider {M : Machine α} {ca : CCA α 1 1} (L : M.Life [3] [2, 3] ca) (hH : 8 ≤ H)
    (hW : 8 ≤ W) (a b : ℤ) (k : Nat) (m : Fin 4) :
    ∃ r, iterate CCA.forward (4 * k + m.val) ca
        (machineBits fun _ : Fin N => (onTorus (gliderPhase 0) a b : Fin H → Fin W → Bool)) = .ok r ∧
      M.Near (1 / 50) r.1 fun _ => onTorus (gliderPhase m) (a - k) (b - k) := by
  obtain ⟨r, h1, h2⟩ := machine_life_forever (by simp [RuleList]) (by simp [RuleList]) (by simp)
    (by omega) (by omega) (4 * k + m.val) L _ _ (machineBits_near M
      fun _ : Fin N => (onTorus (gliderPhase 0) a b : Fin H → Fin W → Bool))
  refine ⟨r, h1, ?_⟩
  simpa only [life_glider (by omega : 6 ≤ H) (by omega : 6 ≤ W)] using h2

/-! ## Double precision is such a machine -/

theorem double_idem (q : ℚ) : double (double q) = double q := by
  by_cases h : q = 0
  · subst h; simp [double]
  have hq : 0 < |q| := abs_pos.2 h
  have hlt := Int.lt_zpow_succ_log_self (b := 2) (by norm_num) |q|
  have e : double q = nearestEven (q / 2 ^ (Int.log 2 |q| - 52)) * 2 ^ (Int.log 2 |q| - 52) := by
    unfold double; rw [if_neg h]
  rw [e]
  generalize Int.log 2 |q| = l at *
  apply double_exact
  have h1 := nearestEven_err (q / 2 ^ (l - 52))
  have hp : (0 : ℚ) < 2 ^ (l - 52) := by positivity
  have h2 : |q / 2 ^ (l - 52)| < 2 ^ 53 := by
    rw [abs_div, abs_of_pos hp, div_lt_iff₀ hp]
    have : (2 : ℚ) ^ 53 * 2 ^ (l - 52) = 2 ^ (l + 1) := by
      rw [← zpow_natCast, ← zpow_add₀ (by norm_num)]
      congr 1; push_cast; ring
    rw [this]
    exact_mod_cast hlt
  generalize nearestEven (q / 2 ^ (l - 52)) = n at *
  rw [abs_le] at h1
  rw [abs_lt] at h2
  have h3 : ((n : ℤ) : ℚ) < ((2 ^ 53 + 1 : ℤ) : ℚ) := by push_cast; linarith [h1.2, h2.2]
  have h4 : ((-(2 ^ 53) - 1 : ℤ) : ℚ) < ((n : ℤ) : ℚ) := by push_cast; linarith [h1.1, h2.1]
  have h3 := Int.cast_lt.1 h3
  have h4 := Int.cast_lt.1 h4
  rw [abs_le]
  constructor <;> omega

namespace Witness

/-- The numbers with 53 significant bits. -/
def Dbl : Type := { q : ℚ // double q = q }

def Dbl.rnd (q : ℚ) : Dbl := ⟨double q, double_idem q⟩

/-- Every operation rounds; inner products are summed from left to right. -/
instance : Arith Dbl where
  zero := .rnd 0
  one := .rnd 1
  add x y := .rnd (x.1 + y.1)
  sub x y := .rnd (x.1 - y.1)
  mul x y := .rnd (x.1 * y.1)
  div x y := .rnd (x.1 / y.1)
  lt x y := decide (x.1 < y.1)
  le x y := decide (x.1 ≤ y.1)
  abs x := .rnd |x.1|
  lit q := .rnd q
  dot l := l.foldl (fun a p => .rnd (a.1 + (Dbl.rnd (p.1.1 * p.2.1)).1)) (.rnd 0)

theorem rnd_err {q b : ℚ} (h : |q| ≤ b) : |(Dbl.rnd q).1 - q| ≤ b / 1000000 := by
  refine (double_err q).trans ?_
  have : (2⁻¹ : ℚ) ^ 53 ≤ 1 / 1000000 := by norm_num
  calc |q| * 2⁻¹ ^ 53 ≤ b * (1 / 1000000) := mul_le_mul h this (by positivity) ((abs_nonneg q).trans h)
    _ = _ := by ring

theorem rnd_real {q b : ℚ} (h : |q| ≤ b) : |(((Dbl.rnd q).1 : ℚ) : ℝ) - (q : ℝ)| ≤ (b : ℝ) / 1000000 := by
  have := rnd_err h
  exact_mod_cast this

theorem fold_err (l : List (Dbl × Dbl)) : ∀ (a : Dbl) (e : ℚ), 0 ≤ e → e + l.length ≤ 9 →
    ∀ t : ℚ, |a.1 - t| ≤ e / 10000 → |t| + (l.map fun p => |p.1.1 * p.2.1|).sum ≤ 2 →
    |(l.foldl (fun a p => Dbl.rnd (a.1 + (Dbl.rnd (p.1.1 * p.2.1)).1)) a).1 -
      (t + (l.map fun p => p.1.1 * p.2.1).sum)| ≤ 9 / 10000 := by
  induction l with
  | nil =>
    intro a e h0 he t ha _
    simp only [List.length_nil, Nat.cast_zero, add_zero] at he
    simp only [List.foldl_nil, List.map_nil, List.sum_nil, add_zero]
    linarith
  | cons p l ih =>
    intro a e h0 he t ha ht
    simp only [List.length_cons, Nat.cast_add, Nat.cast_one] at he
    simp only [List.map_cons, List.sum_cons] at ht ⊢
    simp only [List.foldl_cons]
    have hs : 0 ≤ (l.map fun p => |p.1.1 * p.2.1|).sum :=
      List.sum_nonneg (by simp only [List.mem_map]; rintro _ ⟨q, _, rfl⟩; exact abs_nonneg _)
    have hl : (0 : ℚ) ≤ l.length := by positivity
    have t0 := abs_nonneg t
    have p0 := abs_nonneg (p.1.1 * p.2.1)
    have hp : |p.1.1 * p.2.1| ≤ 2 := by linarith
    have e1 := rnd_err hp
    generalize hx : (Dbl.rnd (p.1.1 * p.2.1)).1 = x at *
    have hsum : |a.1 + x| ≤ 5 := by
      have := abs_le.1 ha
      have := abs_le.1 e1
      have := abs_le.1 hp
      have := abs_le.1 (show |t| ≤ 2 by linarith)
      rw [abs_le]
      constructor <;> linarith
    have e2 := rnd_err hsum
    have := ih (Dbl.rnd (a.1 + x)) (e + 1) (by linarith) (by linarith) (t + p.1.1 * p.2.1)
      (by
        rw [abs_le] at *
        constructor <;> linarith)
      (by linarith [abs_add_le t (p.1.1 * p.2.1)])
    rwa [← add_assoc]

/-- Double precision. -/
noncomputable def dblMachine : Spec.Machine Dbl where
  Num _ := True
  val x := (x.1 : ℝ)
  zero := by simp [Arith.zero, Dbl.rnd, double]
  one := ⟨trivial, by
    have := double_int 1 (by norm_num)
    simp only [Arith.one, Dbl.rnd]
    rw [show (1 : ℚ) = ((1 : ℤ) : ℚ) by norm_num, this]; norm_num⟩
  lt x y _ _ := by simp [Arith.lt]
  add x y _ _ hx hy := ⟨trivial, by
    have hx : |x.1| ≤ 2 := by exact_mod_cast hx
    have hy : |y.1| ≤ 2 := by exact_mod_cast hy
    have := rnd_real (q := x.1 + y.1) (b := 4) (by linarith [abs_add_le x.1 y.1])
    push_cast at this
    exact this.trans (by norm_num)⟩
  sub x y _ _ hx hy := ⟨trivial, by
    have hx : |x.1| ≤ 2 := by exact_mod_cast hx
    have hy : |y.1| ≤ 2 := by exact_mod_cast hy
    have := rnd_real (q := x.1 - y.1) (b := 4) (by linarith [abs_sub x.1 y.1])
    push_cast at this
    exact this.trans (by norm_num)⟩
  mul x y _ _ hx hy := ⟨trivial, by
    have hx : |x.1| ≤ 2 := by exact_mod_cast hx
    have hy : |y.1| ≤ 2 := by exact_mod_cast hy
    have := rnd_real (q := x.1 * y.1) (b := 4) (by
      rw [abs_mul]; nlinarith [abs_nonneg x.1, abs_nonneg y.1])
    push_cast at this
    exact this.trans (by norm_num)⟩
  dot l hl _ hs := ⟨trivial, by
    have hs' : (l.map fun p => |p.1.1 * p.2.1|).sum ≤ 2 := by
      have : (((l.map fun p => |p.1.1 * p.2.1|).sum : ℚ) : ℝ) =
          (l.map fun p => |(p.1.1 : ℝ) * (p.2.1 : ℝ)|).sum := by
        rw [← Rat.coe_castHom, map_list_sum]
        simp [Function.comp_def]
      rw [← this] at hs
      exact_mod_cast hs
    have hl' : (l.length : ℚ) ≤ 9 := by exact_mod_cast hl
    have h := fold_err l (.rnd 0) 0 le_rfl (by linarith) 0 (by simp [Dbl.rnd, double]) (by simpa using hs')
    rw [zero_add] at h
    have h2 : |(((dot l : Dbl).1 : ℚ) : ℝ) - (((l.map fun p => p.1.1 * p.2.1).sum : ℚ) : ℝ)| ≤
        ((9 / 10000 : ℚ) : ℝ) := by
      have h : |(dot l : Dbl).1 - (l.map fun p => p.1.1 * p.2.1).sum| ≤ 9 / 10000 := h
      rw [← Rat.cast_sub, ← Rat.cast_abs, Rat.cast_le]
      exact h
    have h3 : (((l.map fun p => p.1.1 * p.2.1).sum : ℚ) : ℝ) =
        (l.map fun p => (p.1.1 : ℝ) * (p.2.1 : ℝ)).sum := by
      rw [← Rat.coe_castHom, map_list_sum]
      simp [Function.comp_def]
    rw [h3] at h2
    exact h2.trans (by norm_num)⟩

/-- A growth function in double precision, correct to three digits. -/
noncomputable def dblGrowth (rules : List Nat) (x : Dbl) : Dbl :=
  .rnd (exists_rat_btwn (show (Act.smoothIntervals (smoothInterval rules) 0.0125 true).eval (x.1 : ℝ) <
    (Act.smoothIntervals (smoothInterval rules) 0.0125 true).eval (x.1 : ℝ) + 1 / 1000 by linarith)).choose

theorem dblGrowth_ok {rules : List Nat} (h : RuleList rules) : dblMachine.Growth rules (dblGrowth rules) := by
  intro x k _ _ hx
  refine ⟨trivial, ?_⟩
  have hs := (exists_rat_btwn (show (Act.smoothIntervals (smoothInterval rules) 0.0125 true).eval
    (x.1 : ℝ) < (Act.smoothIntervals (smoothInterval rules) 0.0125 true).eval (x.1 : ℝ) + 1 / 1000 by
    linarith)).choose_spec
  show |(((dblGrowth rules x).1 : ℚ) : ℝ) -
    (Act.smoothIntervals (smoothInterval rules) 0.0125 true).eval (x.1 : ℝ)| ≤ _
  unfold dblGrowth
  generalize (exists_rat_btwn (show (Act.smoothIntervals (smoothInterval rules) 0.0125 true).eval
    (x.1 : ℝ) < (Act.smoothIntervals (smoothInterval rules) 0.0125 true).eval (x.1 : ℝ) + 1 / 1000 by
    linarith)).choose = q at hs
  have h1 := rule_growth32 h hx
  change |(Act.smoothIntervals (smoothInterval rules) 0.0125 true).eval (x.1 : ℝ) - _| ≤ _ at h1
  have h2 := abs_le_of_near h1 (b := 1) (by split <;> simp)
  rw [abs_le] at h2
  have hq : |q| ≤ 2 := by
    have : |(q : ℝ)| ≤ 2 := by rw [abs_le]; constructor <;> linarith [hs.1, hs.2, h2.1, h2.2]
    exact_mod_cast this
  have h3 := rnd_real hq
  rw [abs_le] at h3 ⊢
  norm_num at h3
  constructor <;> linarith [h3.1, h3.2, hs.1, hs.2]

/-- Conway's Life in double precision. -/
noncomputable def dblLife : CCA Dbl 1 1 where
  idL := identityLayer 1 1 .circular
  nbL := .ofKernel 1 1 .circular 3 fun a b => if a.val = 1 ∧ b.val = 1 then zero else .rnd (1 / 8)
  genesis := [dblGrowth [3]]
  persistence := [dblGrowth [2, 3]]
  weights := .functional fun _ _ => one
  thr := .rnd (1 / 10)
  dt := one
  t := zero

noncomputable def dblLife_ok : dblMachine.Life [3] [2, 3] dblLife where
  κ := _
  g := _
  p := _
  w := _
  idL := rfl
  nbL := rfl
  genesis := rfl
  persistence := rfl
  weights := rfl
  kernel a b := ⟨trivial, by
    split
    · exact dblMachine.zero.2
    · have := double_exact 1 (-3) (by norm_num)
      show (((Dbl.rnd (1 / 8)).1 : ℚ) : ℝ) = 1 / 8
      simp only [Dbl.rnd]
      rw [show (1 / 8 : ℚ) = ((1 : ℤ) : ℚ) * 2 ^ (-3 : ℤ) by norm_num, this]
      norm_num⟩
  growth := dblGrowth_ok (by simp [RuleList])
  persist := dblGrowth_ok (by simp [RuleList])
  weight := dblMachine.one
  dt := dblMachine.one

end Witness

/-- The hypotheses can be met: Conway's Life in double precision, any pattern on any torus. -/
example (hH : 1 ≤ H) (hW : 1 ≤ W) (s : Fin N → Fin H → Fin W → Bool) (n : Nat) :
    ∃ r, iterate CCA.forward n Witness.dblLife (machineBits s) = .ok r ∧
      ∀ m i j, (lifeStep [3] [2, 3])^[n] (s m) i j = true ↔ (1 / 2 : ℝ) < (r.1 m 0 i j).1 := by
  obtain ⟨r, h1, h2⟩ := machine_life_exact (by simp [RuleList]) (by simp [RuleList]) (by simp) hH hW
    Witness.dblLife_ok s n
  exact ⟨r, h1, fun m i j => (h2 m i j).2⟩

/-- Rounding does happen there: a third is not a double. -/
example : (Witness.Dbl.rnd (1 / 3)).1 ≠ 1 / 3 := by
  have h := double_of_log (q := 1 / 3) (e := -2) (by norm_num) (by norm_num)
  simp only [Witness.Dbl.rnd]
  rw [h]
  intro h2
  have h3 : (nearestEven (1 / 3 / 2 ^ (-2 - 52 : ℤ)) : ℚ) * 3 = 2 ^ 54 := by
    have h4 : (2 : ℚ) ^ (-2 - 52 : ℤ) * 2 ^ 54 = 1 := by norm_num
    linear_combination 3 * 2 ^ 54 * h2 - 3 * (nearestEven (1 / 3 / 2 ^ (-2 - 52 : ℤ)) : ℚ) * h4
  have h5 : nearestEven (1 / 3 / 2 ^ (-2 - 52 : ℤ)) * 3 = 2 ^ 54 := by exact_mod_cast h3
  omega

end Yuca
