import Verif.Props.Life
import Verif.Props.Neural
import Verif.Model.LeniaLife
import Mathlib.Tactic.IntervalCases

/-!
# C133: which Life-like rules Lenia can run

Exact real arithmetic.
-/

namespace Yuca

open Arith Spec

variable {N H W int : Nat}

/-! ## Kernels that leave the cell out -/

/-- No weight of the layer is on the cell itself. -/
def Spec.Hollow (L : ConvLayer ℝ 1 int) : Prop :=
  ∀ o c (a b : Fin L.k), a.val = L.pad → b.val = L.pad → L.w o c a b = 0

theorem cyc_self_iff {n : Nat} (i : Fin n) {d : Int} (h1 : -(n : Int) < d) (h2 : d < n) :
    cyc i d = i ↔ d = 0 := by
  constructor
  · intro h
    have h3 := cyc_val i d
    rw [h] at h3
    have hi := i.isLt
    have h4 : ((i.val : Int) + d) % n = (i.val : Int) % n := by
      rw [← h3, Int.emod_eq_of_lt (by omega) (by omega)]
    have h6 : (n : Int) ∣ d := by
      have := Int.emod_eq_emod_iff_emod_sub_eq_zero.1 h4
      rw [show (i.val : Int) + d - i.val = d by ring] at this
      exact Int.dvd_of_emod_eq_zero this
    obtain ⟨q, rfl⟩ := h6
    have hn : (0 : Int) < n := by omega
    have : q < 1 := by
      by_contra hq
      nlinarith
    have : -1 < q := by
      by_contra hq
      nlinarith
    have : q = 0 := by omega
    rw [this]; simp
  · rintro rfl
    exact cyc_zero i

/-- What such a layer gives at a cell does not depend on the value of the cell. -/
theorem hollow_taps {L : ConvLayer ℝ 1 int} (hm : L.mode = .circular) (hh : Hollow L)
    (hH : L.k ≤ H) (hW : L.k ≤ W) {x y : Fin 1 → Grid ℝ H W} {i : Fin H} {j : Fin W}
    (hxy : ∀ i' j', (i', j') ≠ (i, j) → x 0 i' j' = y 0 i' j') (o : Fin int) :
    dot (L.taps x o i j) = dot (L.taps y o i j) := by
  rw [conv_sum L hm, conv_sum L hm]
  refine Finset.sum_congr rfl fun c _ => Finset.sum_congr rfl fun a _ =>
    Finset.sum_congr rfl fun b _ => ?_
  have ha := a.isLt
  have hb := b.isLt
  have hp : L.pad = (L.k - 1) / 2 := rfl
  by_cases h : a.val = L.pad ∧ b.val = L.pad
  · rw [hh o c a b h.1 h.2, zero_mul, zero_mul]
  · have e : ∀ z : Fin 1 → Grid ℝ H W, z (inChan o c) = z 0 := fun z => by
      rw [Subsingleton.elim (inChan o c) (0 : Fin 1)]
    rw [e x, e y, hxy]
    intro h2
    rw [Prod.mk.injEq, cyc_self_iff i (by omega) (by omega),
      cyc_self_iff j (by omega) (by omega)] at h2
    exact h (by omega)

/-- One cell of a Lenia step: the cell plus something that only depends on what the neighborhood
layer gives there. -/
theorem lenia_same_growth (ca : CCA ℝ 1 int) (n : Fin N) (i : Fin H) (j : Fin W) :
    ∀ u v : Univ ℝ N 1 H W,
      (∀ o, dot (ca.nbL.taps (u n) o i j) = dot (ca.nbL.taps (v n) o i j)) →
      ∀ r r' : Univ ℝ N 1 H W × CCA ℝ 1 int, ca.leniaForward u = .ok r →
        ca.leniaForward v = .ok r' →
        ∃ G : ℝ, r.1 n 0 i j = clamp01 (u n 0 i j + G) ∧
          r'.1 n 0 i j = clamp01 (v n 0 i j + G) := by
  intro u v hd r r' h h'
  obtain ⟨_, nb, upd, _, h2, h3, rfl⟩ := CCA.leniaForward_ok h
  obtain ⟨_, nb', upd', _, h2', h3', rfl⟩ := CCA.leniaForward_ok h'
  rw [maskIf_small (by norm_num)] at h2 h2'
  obtain ⟨_, rfl⟩ := apply_ok h2
  obtain ⟨_, rfl⟩ := apply_ok h2'
  unfold CCA.leniaUpdateUniverse at h3 h3'
  obtain ⟨g, h4, h3⟩ := bind_ok h3
  obtain ⟨g', h4', h3'⟩ := bind_ok h3'
  obtain ⟨hg, rfl⟩ := perChannel_ok h4
  obtain ⟨_, rfl⟩ := perChannel_ok h4'
  cases h3
  cases h3'
  rw [maskIf_small (by norm_num), maskIf_small (by norm_num)]
  refine ⟨ca.dt * ca.weights.apply (fun n o i j => ca.genesis.get (Fin.cast hg.symm o)
    (dot (ca.nbL.taps (u n) o i j))) n 0 i j, rfl, ?_⟩
  show clamp01 (v n 0 i j + ca.dt * ca.weights.apply (fun n o i j =>
    ca.genesis.get (Fin.cast hg.symm o) (dot (ca.nbL.taps (v n) o i j))) n 0 i j) = _
  congr 3
  cases ca.weights with
  | functional w => simp only [Weights.apply, conv1x1, hd]
  | sequential w₁ w₂ => simp only [Weights.apply, conv1x1, hd]

/-- C133: in Lenia with a kernel that leaves the cell out, a cell that is turned up is not lower
in the next state, whatever the growth functions, the weights and the step size are. -/
theorem lenia_monotone (ca : CCA ℝ 1 int) (hm : ca.nbL.mode = .circular) (hh : Hollow ca.nbL)
    (hH : ca.nbL.k ≤ H) (hW : ca.nbL.k ≤ W) (n : Fin N) (i : Fin H) (j : Fin W)
    (u v : Univ ℝ N 1 H W) (hxy : ∀ i' j', (i', j') ≠ (i, j) → u n 0 i' j' = v n 0 i' j')
    (hle : u n 0 i j ≤ v n 0 i j) (r r' : Univ ℝ N 1 H W × CCA ℝ 1 int)
    (h : ca.leniaForward u = .ok r) (h' : ca.leniaForward v = .ok r') :
    r.1 n 0 i j ≤ r'.1 n 0 i j := by
  obtain ⟨G, h1, h2⟩ := lenia_same_growth ca n i j u v (fun o => hollow_taps hm hh hH hW hxy o) r r' h h'
  rw [h1, h2]
  exact clamp01_mono (by linarith)

/-! ## A cell with a given number of live neighbours -/

/-- The cell (1, 1) in state `b`, with the first `k` of the eight cells around it alive. -/
def Spec.cluster (H W k : Nat) (b : Bool) : Fin H → Fin W → Bool := fun i j =>
  if i.val = 1 ∧ j.val = 1 then b
  else decide (i.val < 3 ∧ j.val < 3 ∧
    (if 3 * i.val + j.val < 4 then 3 * i.val + j.val else 3 * i.val + j.val - 1) < k)

theorem rollIdx_one {n : Nat} (hn : 3 ≤ n) :
    (rollIdx (⟨1, by omega⟩ : Fin n) (-1)).val = 2 ∧ (rollIdx (⟨1, by omega⟩ : Fin n) 0).val = 1 ∧
      (rollIdx (⟨1, by omega⟩ : Fin n) 1).val = 0 := by
  unfold rollIdx
  refine ⟨?_, ?_, ?_⟩
  · show (((1 : Int) - -1) % n).toNat = 2
    rw [Int.emod_eq_of_lt (by omega) (by omega)]; rfl
  · show (((1 : Int) - 0) % n).toNat = 1
    rw [Int.emod_eq_of_lt (by omega) (by omega)]; rfl
  · show (((1 : Int) - 1) % n).toNat = 0
    rw [Int.emod_eq_of_lt (by omega) (by omega)]; rfl

theorem cluster_count {k : Nat} (hk : k ≤ 8) (b : Bool) (hH : 3 ≤ H) (hW : 3 ≤ W) :
    aliveNeighbours (cluster H W k b) ⟨1, by omega⟩ ⟨1, by omega⟩ = k := by
  obtain ⟨a1, a2, a3⟩ := rollIdx_one hH
  obtain ⟨b1, b2, b3⟩ := rollIdx_one hW
  simp only [aliveNeighbours, mooreOffsets, List.countP_cons, List.countP_nil, cluster, a1, a2, a3,
    b1, b2, b3]
  norm_num
  interval_cases k <;> rfl

/-- C133: a Life-like rule with a count that is in B but not in S is not run by any Lenia with a
kernel that leaves the cell out: some 0/1 grid has a cell whose next value is at least 1/2 off.
Any radius, number of internal channels, growth functions, weight layer and step size. -/
theorem lenia_rule_refuted (ca : CCA ℝ 1 int) (hm : ca.nbL.mode = .circular)
    (hh : Hollow ca.nbL) (hH : ca.nbL.k ≤ H) (hW : ca.nbL.k ≤ W) (h3 : 3 ≤ H) (h3' : 3 ≤ W)
    (hruns : ∀ u : Univ ℝ 1 1 H W, ∃ r, ca.leniaForward u = .ok r)
    {birth survival : List Nat} {k : Nat} (hk : k ≤ 8) (hb : k ∈ birth) (hs : k ∉ survival) :
    ∃ (s : Fin 1 → Fin H → Fin W → Bool) (r : Univ ℝ 1 1 H W × CCA ℝ 1 int) (i : Fin H) (j : Fin W),
      ca.leniaForward (ofBits s) = .ok r ∧
        1 / 2 ≤ |r.1 0 0 i j - bit (lifeStep birth survival (s 0) i j)| := by
  obtain ⟨r, h⟩ := hruns (ofBits fun _ => cluster H W k false)
  obtain ⟨r', h'⟩ := hruns (ofBits fun _ => cluster H W k true)
  set i : Fin H := ⟨1, by omega⟩ with hi
  set j : Fin W := ⟨1, by omega⟩ with hj
  have c0 : cluster H W k false i j = false := by simp [cluster, hi, hj]
  have c1 : cluster H W k true i j = true := by simp [cluster, hi, hj]
  have l0 : lifeStep birth survival (cluster H W k false) i j = true := by
    unfold lifeStep
    rw [c0, cluster_count hk false h3 h3']
    simp [hb]
  have l1 : lifeStep birth survival (cluster H W k true) i j = false := by
    unfold lifeStep
    rw [c1, cluster_count hk true h3 h3']
    simp [hs]
  have hle := lenia_monotone ca hm hh hH hW 0 i j _ _ (by
      intro i' j' hne
      show bit (cluster H W k false i' j') = bit (cluster H W k true i' j')
      have : ¬ (i'.val = 1 ∧ j'.val = 1) := by
        intro hc
        apply hne
        rw [Prod.mk.injEq]
        exact ⟨Fin.ext hc.1, Fin.ext hc.2⟩
      simp only [cluster, if_neg this])
    (by
      show bit (cluster H W k false i j) ≤ bit (cluster H W k true i j)
      rw [c0, c1]; simp [bit]) r r' h h'
  rcases le_total (r.1 0 0 i j) (1 / 2) with hr | hr
  · refine ⟨fun _ => cluster H W k false, r, i, j, h, ?_⟩
    rw [show (fun _ : Fin 1 => cluster H W k false) 0 = cluster H W k false from rfl, l0, abs_sub_comm]
    have : bit true = 1 := rfl
    rw [this]
    exact (by linarith : (1 : ℝ) / 2 ≤ 1 - r.1 0 0 i j).trans (le_abs_self _)
  · refine ⟨fun _ => cluster H W k true, r', i, j, h', ?_⟩
    rw [show (fun _ : Fin 1 => cluster H W k true) 0 = cluster H W k true from rfl, l1]
    have : bit false = 0 := rfl
    rw [this, sub_zero]
    exact (by linarith : (1 : ℝ) / 2 ≤ r'.1 0 0 i j).trans (le_abs_self _)

/-- Morley (B368/S245) is such a rule, and the kernel of its config leaves the cell out. -/
theorem lifeCA_hollow (birth survival : List Nat) :
    Hollow (lifeCA birth survival).nbL ∧ (lifeCA birth survival).nbL.mode = .circular ∧
      (lifeCA birth survival).nbL.k = 3 ∧
      (1 ≤ H → 1 ≤ W → ∀ u : Univ ℝ N 1 H W,
        ∃ r, (lifeCA birth survival).leniaForward u = .ok r) := by
  refine ⟨?_, rfl, rfl, fun hH hW u => ?_⟩
  · intro o c a b ha hb
    have hp : (lifeCA birth survival).nbL.pad = 1 := by simp [lifeCA, ConvLayer.ofKernel, ConvLayer.pad]
    rw [hp] at ha hb
    exact (mooreLike_one a b).trans (if_pos ⟨ha, hb⟩)
  · obtain ⟨r, hr⟩ := life_runs birth survival 0 u hH hW
    obtain ⟨idn, nb, upd, h1, h2, h3, _⟩ := CCA.forward_ok hr
    obtain ⟨g, h4, _⟩ := bind_ok h3
    have e : ({ lifeCA birth survival with t := 0 } : CCA ℝ 1 1) = lifeCA birth survival := rfl
    rw [e] at h1 h2 h4
    simp only [CCA.leniaForward, h1, h2, bind, Except.bind, CCA.leniaUpdateUniverse, h4]
    exact ⟨_, rfl⟩

example : 6 ∈ [3, 6, 8] ∧ 6 ∉ [2, 4, 5] := by decide

/-- C133: `yuca.lenia.Lenia` with Morley's own config does not run Morley, on any torus of at
least 3 by 3 cells. -/
theorem lenia_morley_refuted (h3 : 3 ≤ H) (h3' : 3 ≤ W) :
    ∃ (s : Fin 1 → Fin H → Fin W → Bool) (r : Univ ℝ 1 1 H W × CCA ℝ 1 1) (i : Fin H) (j : Fin W),
      (lifeCA [3, 6, 8] [2, 4, 5]).leniaForward (ofBits s) = .ok r ∧
        1 / 2 ≤ |r.1 0 0 i j - bit (lifeStep [3, 6, 8] [2, 4, 5] (s 0) i j)| := by
  obtain ⟨a, b, c, d⟩ := lifeCA_hollow (N := 1) (H := H) (W := W) [3, 6, 8] [2, 4, 5]
  exact lenia_rule_refuted _ b a (by omega) (by omega) h3 h3' (d (by omega) (by omega))
    (k := 6) (by norm_num) (by decide) (by decide)

/-! ## The rules with B ⊆ S -/

theorem leniaWith_runs (κ : Grid ℝ 3 3) (g : ℝ → ℝ) (t : ℝ) (hH : 1 ≤ H) (hW : 1 ≤ W)
    (u : Univ ℝ N 1 H W) : ∃ r, CCA.leniaForward { leniaWith κ g with t := t } u = .ok r := by
  obtain ⟨idn, h1⟩ := (apply_ok_iff (identityLayer 1 1 .circular : ConvLayer ℝ 1 1) u).2 (by
    simp [Fits, identityLayer, ConvLayer.ofKernel, ConvLayer.pad, padOK, hH, hW])
  obtain ⟨nb, h2⟩ := (apply_ok_iff (ConvLayer.ofKernel 1 1 .circular 3 κ) u).2 (by
    simp [Fits, ConvLayer.ofKernel, ConvLayer.pad, padOK, hH, hW])
  obtain ⟨y, h3⟩ := (perChannel_ok_iff (int := 1) [g] nb).2 rfl
  simp only [CCA.leniaForward, leniaWith, lifeCA, maskIf_small (by norm_num : 1 < 4), h1, h2, bind,
    Except.bind, CCA.leniaUpdateUniverse, h3]
  exact ⟨_, rfl⟩

theorem leniaWith_cell {κ : Grid ℝ 3 3} {g : ℝ → ℝ} {t : ℝ} {u : Univ ℝ N 1 H W}
    {r : Univ ℝ N 1 H W × CCA ℝ 1 1}
    (h : CCA.leniaForward { leniaWith κ g with t := t } u = .ok r) :
    (∃ t', r.2 = { leniaWith κ g with t := t' }) ∧
    ∀ n i j, r.1 n 0 i j = clamp01 (u n 0 i j +
      g (dot ((ConvLayer.ofKernel 1 1 .circular 3 κ).taps (u n) 0 i j))) := by
  obtain ⟨_, hs, hc⟩ := lenia_cell (w := fun _ _ => 1) rfl h
  refine ⟨⟨_, hs⟩, fun n i j => ?_⟩
  rw [hc, maskIf_small (by norm_num)]
  simp only [leniaWith, lifeCA, Fin.sum_univ_one, chanFn, Fin.val_eq_zero, List.getD_cons_zero,
    one_mul]

theorem moore_bits (s : Fin N → Fin H → Fin W → Bool) (n : Fin N) (i : Fin H) (j : Fin W) :
    dot ((ConvLayer.ofKernel 1 1 .circular 3 (mooreLike 1)).taps (ofBits s n) 0 i j) =
      (aliveNeighbours (s n) i j : ℕ) / 8 := by
  rw [moore_taps]
  unfold aliveNeighbours
  rw [← bits_sum]
  rfl

/-- A growth function for a rule: 1 at the counts of B, 0 at the other counts of S, -1 elsewhere. -/
noncomputable def Spec.ruleGrowth (birth survival : List Nat) (x : ℝ) : ℝ :=
  open Classical in
  if ∃ k ∈ birth, x = (k : ℝ) / 8 then 1 else if ∃ k ∈ survival, x = (k : ℝ) / 8 then 0 else -1

theorem ruleGrowth_count (birth survival : List Nat) (k : Nat) :
    ruleGrowth birth survival ((k : ℝ) / 8) =
      if k ∈ birth then 1 else if k ∈ survival then 0 else -1 := by
  have h : ∀ l : List Nat, (∃ b ∈ l, ((k : ℝ) / 8) = (b : ℝ) / 8) ↔ k ∈ l := by
    intro l
    constructor
    · rintro ⟨b, hb, e⟩
      have : (k : ℝ) = b := by linarith
      have : k = b := by exact_mod_cast this
      rwa [this]
    · intro hk
      exact ⟨k, hk, rfl⟩
  unfold ruleGrowth
  simp only [h]

theorem lenia_rule_step {birth survival : List Nat} (hsub : birth ⊆ survival) {t : ℝ}
    {s : Fin N → Fin H → Fin W → Bool} {r : Univ ℝ N 1 H W × CCA ℝ 1 1}
    (h : CCA.leniaForward { leniaWith (mooreLike 1) (ruleGrowth birth survival) with t := t }
      (ofBits s) = .ok r) :
    r.1 = ofBits fun m => lifeStep birth survival (s m) := by
  obtain ⟨_, hc⟩ := leniaWith_cell h
  funext n c i j
  obtain rfl : c = 0 := Subsingleton.elim _ _
  rw [hc, moore_bits, ruleGrowth_count]
  simp only [ofBits, lifeStep]
  set k := aliveNeighbours (s n) i j
  have e0 : clamp01 (0 : ℝ) = 0 := clamp01_of_mem (by norm_num) (by norm_num)
  have e1 : clamp01 (1 : ℝ) = 1 := clamp01_of_mem (by norm_num) (by norm_num)
  have e2 : clamp01 (1 + 1 : ℝ) = 1 := by rw [clamp01_real]; norm_num
  have e3 : clamp01 (-1 : ℝ) = 0 := by rw [clamp01_real]; norm_num
  by_cases hb : k ∈ birth
  · have hs := hsub hb
    cases s n i j <;> simp [bit, hb, hs, e1, e2]
  · by_cases hs : k ∈ survival <;> cases s n i j <;> simp [bit, hb, hs, e0, e1, e3]

/-- C133: every rule with B ⊆ S is run exactly, for ever, by a Lenia with the Moore kernel, on
every torus and from every 0/1 grid. -/
theorem lenia_rule_forever {birth survival : List Nat} (hsub : birth ⊆ survival) (hH : 1 ≤ H)
    (hW : 1 ≤ W) (s : Fin N → Fin H → Fin W → Bool) (n : Nat) :
    ∃ r, iterate CCA.leniaForward n (leniaWith (mooreLike 1) (ruleGrowth birth survival))
        (ofBits s) = .ok r ∧
      r.1 = ofBits fun m => (lifeStep birth survival)^[n] (s m) := by
  have main : ∀ (n : Nat) (t : ℝ) (s : Fin N → Fin H → Fin W → Bool),
      ∃ r, iterate CCA.leniaForward n
          { leniaWith (mooreLike 1) (ruleGrowth birth survival) with t := t } (ofBits s) = .ok r ∧
        r.1 = ofBits fun m => (lifeStep birth survival)^[n] (s m) := by
    intro n
    induction n with
    | zero => intro t s; exact ⟨_, rfl, rfl⟩
    | succ n ih =>
      intro t s
      obtain ⟨⟨u', c'⟩, h1⟩ := leniaWith_runs (mooreLike 1) (ruleGrowth birth survival) t hH hW
        (ofBits s)
      obtain ⟨⟨t', ht⟩, _⟩ := leniaWith_cell h1
      have h2 := lenia_rule_step hsub h1
      simp only at ht h2
      subst ht h2
      obtain ⟨r, h3, h4⟩ := ih t' (fun m => lifeStep birth survival (s m))
      exact ⟨r, by simp only [iterate, h1, bind, Except.bind]; exact h3, h4⟩
  exact main n 0 s

/-- Conway's Life is such a rule. -/
example : [3] ⊆ [2, 3] := by simp

/-- C133: with the Moore kernel and `dt = 1`, some growth function makes Lenia run a rule exactly if
and only if every birth count is a survival count. -/
theorem lenia_rule_iff {birth survival : List Nat} (hB : RuleList birth) (hH : 3 ≤ H)
    (hW : 3 ≤ W) :
    (∃ g : ℝ → ℝ, ∀ s : Fin 1 → Fin H → Fin W → Bool,
      ∃ r, (leniaWith (mooreLike 1) g).leniaForward (ofBits s) = .ok r ∧
        r.1 = ofBits fun m => lifeStep birth survival (s m)) ↔ birth ⊆ survival := by
  constructor
  · rintro ⟨g, hg⟩ k hk
    by_contra hs
    have hp : (leniaWith (mooreLike 1) g).nbL.pad = 1 := by
      simp [leniaWith, ConvLayer.ofKernel, ConvLayer.pad]
    have hh : Hollow (leniaWith (mooreLike 1) g).nbL := by
      intro o c a b ha hb
      rw [hp] at ha hb
      exact (mooreLike_one a b).trans (if_pos ⟨ha, hb⟩)
    obtain ⟨s, r, i, j, h1, h2⟩ := lenia_rule_refuted (leniaWith (mooreLike 1) g) rfl hh
      (show 3 ≤ H from hH) (show 3 ≤ W from hW) hH hW
      (fun u => leniaWith_runs (mooreLike 1) g 0 (by omega) (by omega) u) (hB.2 k hk) hk hs
    obtain ⟨r', h3, h4⟩ := hg s
    rw [h1] at h3
    cases h3
    rw [h4] at h2
    simp only [ofBits, sub_self, abs_zero] at h2
    norm_num at h2
  · intro hsub
    refine ⟨ruleGrowth birth survival, fun s => ?_⟩
    obtain ⟨r, h⟩ := leniaWith_runs (mooreLike 1) (ruleGrowth birth survival) 0
      (by omega : 1 ≤ H) (by omega : 1 ≤ W) (ofBits s)
    exact ⟨r, h, lenia_rule_step hsub h⟩

example : RuleList [3, 6, 8] ∧ RuleList [3] := by simp [RuleList]

/-! ## A kernel that weighs the cell -/

/-- The Moore kernel with a weight of 9/8 on the cell itself. -/
noncomputable def Spec.heavyMoore : Grid ℝ 3 3 := fun a b =>
  if a.val = 1 ∧ b.val = 1 then 9 / 8 else 1 / 8

/-- The counts of the rule as sums: a live cell counts as nine. -/
def Spec.heavyRules (birth survival : List Nat) : List Nat := birth ++ survival.map (· + 9)

theorem heavy_taps (x : Fin 1 → Grid ℝ H W) (i : Fin H) (j : Fin W) :
    dot ((ConvLayer.ofKernel 1 1 .circular 3 heavyMoore).taps x 0 i j) =
      dot ((ConvLayer.ofKernel 1 1 .circular 3 (mooreLike 1)).taps x 0 i j) + 9 / 8 * x 0 i j := by
  rw [moore_taps, conv_sum_one]
  simp only [Fin.sum_univ_three, heavyMoore, mooreOffsets, List.map_cons, List.map_nil,
    List.sum_cons, List.sum_nil, rollIdx_eq_cyc]
  norm_num
  have hi : cyc i 0 = i := cyc_zero i
  have hj : cyc j 0 = j := cyc_zero j
  rw [hi, hj]
  ring

/-- The sum a live or dead cell with `k` live neighbours has, and what the rule makes of it. -/
theorem heavy_mem {birth survival : List Nat} (hB : RuleList birth) {k : Nat} (hk : k ≤ 8)
    (b : Bool) :
    (k + if b then 9 else 0) ∈ heavyRules birth survival ↔
      if b then k ∈ survival else k ∈ birth := by
  unfold heavyRules
  rw [List.mem_append, List.mem_map]
  cases b
  · simp only [Bool.false_eq_true, if_false, add_zero]
    constructor
    · rintro (h | ⟨a, _, h⟩)
      · exact h
      · omega
    · exact .inl
  · simp only [if_true]
    constructor
    · rintro (h | ⟨a, ha, h⟩)
      · have := hB.2 _ h
        omega
      · have : a = k := by omega
        rwa [← this]
    · intro h
      exact .inr ⟨k, h, rfl⟩

theorem heavy_growth {birth survival : List Nat} (hB : RuleList birth) (hS : RuleList survival)
    {k : Nat} {x : ℝ} (hx : |x - k / 8| ≤ 1 / 1000) :
    (k ∈ heavyRules birth survival →
      1 - 4 * leak ≤ cellGrowth (heavyRules birth survival) x) ∧
    (k ∉ heavyRules birth survival →
      cellGrowth (heavyRules birth survival) x ≤ -1 + 36 * leak) := by
  unfold cellGrowth
  rw [smoothInterval_eval]
  constructor
  · intro hk
    have := ivSum_ge hx hk
    linarith
  · intro hk
    have h1 := ivSum_le hx (heavyRules birth survival)
    rw [List.count_eq_zero_of_not_mem hk] at h1
    have h3 : ((heavyRules birth survival).length : ℝ) ≤ 18 := by
      have a := ruleList_length hB
      have b := ruleList_length hS
      have : (heavyRules birth survival).length ≤ 18 := by
        simp only [heavyRules, List.length_append, List.length_map]; omega
      exact_mod_cast this
    have h4 := leak_pos
    have h5 : ((heavyRules birth survival).length : ℝ) * leak ≤ 18 * leak :=
      mul_le_mul_of_nonneg_right h3 h4.le
    push_cast at h1
    linarith

theorem alive_le_eight (s : Fin H → Fin W → Bool) (i : Fin H) (j : Fin W) :
    aliveNeighbours s i j ≤ 8 := by
  unfold aliveNeighbours
  exact List.countP_le_length.trans (by simp [mooreOffsets])

theorem heavy_step {birth survival : List Nat} (hB : RuleList birth) (hS : RuleList survival)
    {t : ℝ} {u : Univ ℝ N 1 H W} (hu : InUnit u) {s : Fin N → Fin H → Fin W → Bool}
    (hs : Near (37 * leak) u s) {r : Univ ℝ N 1 H W × CCA ℝ 1 1}
    (h : CCA.leniaForward
      { leniaWith heavyMoore (cellGrowth (heavyRules birth survival)) with t := t } u = .ok r) :
    InUnit r.1 ∧ Near (37 * leak) r.1 (fun n => lifeStep birth survival (s n)) := by
  obtain ⟨_, hc⟩ := leniaWith_cell h
  have hl := leak_pos
  have hl2 := leak_le
  refine ⟨fun n c i j => ?_, fun n i j => ?_⟩
  · obtain rfl : c = 0 := Subsingleton.elim _ _
    rw [hc]
    exact clamp01_mem _
  · rw [hc, heavy_taps]
    have h1 := moore_close (hs n) 0 i j
    have h2 := hs n i j
    set x := dot ((ConvLayer.ofKernel 1 1 .circular 3 (mooreLike 1)).taps (u n) 0 i j)
    set k := aliveNeighbours (s n) i j with hk
    have hx : |x + 9 / 8 * u n 0 i j - ((k + if s n i j then 9 else 0 : ℕ) : ℝ) / 8| ≤ 1 / 1000 := by
      have e : ((k + if s n i j then 9 else 0 : ℕ) : ℝ) / 8 = k / 8 + 9 / 8 * bit (s n i j) := by
        cases s n i j <;> (simp [bit]; try ring)
      rw [e]
      rw [abs_le] at h1 h2 ⊢
      constructor <;> linarith
    obtain ⟨g1, g0⟩ := heavy_growth hB hS hx
    have hm := heavy_mem (survival := survival) hB (alive_le_eight (s n) i j) (s n i j)
    rw [← hk] at hm
    have hstep : lifeStep birth survival (s n) i j =
        decide ((k + if s n i j then 9 else 0) ∈ heavyRules birth survival) := by
      unfold lifeStep
      rw [← hk]
      cases hb : s n i j <;> simp only [hb] at hm ⊢ <;> simp at hm ⊢ <;>
        exact hm.symm
    have hu0 := (hu n 0 i j).1
    have hu1 := (hu n 0 i j).2
    simp only [hstep]
    by_cases hin : (k + if s n i j then 9 else 0) ∈ heavyRules birth survival
    · rw [decide_eq_true hin]
      exact clamp_near_one (by linarith) (by linarith [g1 hin])
    · rw [decide_eq_false hin]
      show |clamp01 _ - 0| ≤ _
      rw [sub_zero]
      exact clamp_near_zero (by linarith) (by linarith [g0 hin])

/-- C133: with 9/8 on the cell itself every Life-like rule, Morley among them, is run for ever by
a Lenia with one `SmoothIntervals` growth function: after every number of steps, on every torus
and from every 0/1 grid, it is within `10⁻⁶` of the rule. -/
theorem lenia_heavy_forever {birth survival : List Nat} (hB : RuleList birth)
    (hS : RuleList survival) (hH : 1 ≤ H) (hW : 1 ≤ W) (s : Fin N → Fin H → Fin W → Bool)
    (n : Nat) :
    ∃ r, iterate CCA.leniaForward n
        (leniaWith heavyMoore (cellGrowth (heavyRules birth survival))) (ofBits s) = .ok r ∧
      Near (1 / 1000000) r.1 (fun m => (lifeStep birth survival)^[n] (s m)) := by
  have hl := leak_pos
  have hl2 := leak_le
  have main : ∀ (n : Nat) (t : ℝ) (u : Univ ℝ N 1 H W) (s : Fin N → Fin H → Fin W → Bool),
      InUnit u → Near (37 * leak) u s →
      ∃ r, iterate CCA.leniaForward n
          { leniaWith heavyMoore (cellGrowth (heavyRules birth survival)) with t := t } u = .ok r ∧
        Near (37 * leak) r.1 (fun m => (lifeStep birth survival)^[n] (s m)) := by
    intro n
    induction n with
    | zero => intro t u s _ hs; exact ⟨_, rfl, hs⟩
    | succ n ih =>
      intro t u s hu hs
      obtain ⟨⟨u', c'⟩, h1⟩ := leniaWith_runs heavyMoore (cellGrowth (heavyRules birth survival)) t
        hH hW u
      obtain ⟨⟨t', ht⟩, _⟩ := leniaWith_cell h1
      obtain ⟨h2, h3⟩ := heavy_step hB hS hu hs h1
      simp only at ht
      subst ht
      obtain ⟨r, h4, h5⟩ := ih t' u' _ h2 h3
      exact ⟨r, by simp only [iterate, h1, bind, Except.bind]; exact h4, h5⟩
  obtain ⟨r, h2, h3⟩ := main n 0 (ofBits s) s
    (by intro n e i j; simp only [ofBits, bit]; split <;> norm_num)
    (by intro n i j; simp only [ofBits, sub_self, abs_zero]; linarith)
  exact ⟨r, h2, fun m i j => (h3 m i j).trans (by linarith)⟩

example : RuleList [3, 6, 8] ∧ RuleList [2, 4, 5] ∧
    heavyRules [3, 6, 8] [2, 4, 5] = [3, 6, 8, 11, 13, 14] := by
  refine ⟨by simp [RuleList], by simp [RuleList], rfl⟩

end Yuca
