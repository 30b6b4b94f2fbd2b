import Verif.Props.Locality
import Verif.Props.Symmetry
import Verif.Props.Rules

/-!
# C114: the walls of the universe — the padding modes other than the torus

`conv_mode` may be `zeros`, `reflect` or `replicate` as well (yuca/ca/common.py:52,
yuca/evolve.py:212-214).
-/

namespace Yuca

open Arith Spec

variable {α : Type} {ext int N H W : Nat}

namespace Spec

/-- `e` shows what an automaton with this `conv_mode` sees beyond the edges of the grid `g`:
on the torus everything repeats; behind `zeros` there is nothing; `reflect` is a mirror through the
middle of the outermost cells; with `replicate` the outermost cells go on for ever. -/
def Extends {β : Type} (nothing : β) (m : PadMode) (g : Grid β H W) (e : ℤ → ℤ → β) : Prop :=
  (∀ (i : Fin H) (j : Fin W), e i.val j.val = g i j) ∧
  match m with
  | .circular => ∀ i j, e (i + H) j = e i j ∧ e i (j + W) = e i j
  | .zeros => ∀ i j, i < 0 ∨ (H : ℤ) ≤ i ∨ j < 0 ∨ (W : ℤ) ≤ j → e i j = nothing
  | .reflect => ∀ i j, e (-i) j = e i j ∧ e i (-j) = e i j ∧
      e ((H : ℤ) - 1 + i) j = e ((H : ℤ) - 1 - i) j ∧ e i ((W : ℤ) - 1 + j) = e i ((W : ℤ) - 1 - j)
  | .replicate => ∀ i j, (i ≤ 0 → e i j = e 0 j) ∧ (j ≤ 0 → e i j = e i 0) ∧
      ((H : ℤ) ≤ i + 1 → e i j = e ((H : ℤ) - 1) j) ∧ ((W : ℤ) ≤ j + 1 → e i j = e i ((W : ℤ) - 1))

/-- A padding of `p` is accepted on an axis of length `n`. -/
def PadFits (m : PadMode) (p n : Nat) : Prop :=
  1 ≤ n ∧ (m = .circular → p ≤ n) ∧ (m = .reflect → p < n)

/-- What a kernel of radius `r` gathers around `(i, j)` of an endless plane. -/
noncomputable def gatheredFrom {r : Nat} (κ : Fin (2 * r + 1) → Fin (2 * r + 1) → ℝ)
    (e : ℤ → ℤ → ℝ) (i j : ℤ) : ℝ :=
  ∑ a : Fin (2 * r + 1), ∑ b : Fin (2 * r + 1), κ a b * e (i + (a.val - r)) (j + (b.val - r))

end Spec

/-! ## What is read beyond the edges -/

theorem padIdx_inside (m : PadMode) {n : Nat} {i : ℤ} (h0 : 0 ≤ i) (h1 : i < n) :
    padIdx m n i = some ⟨i.toNat, by omega⟩ := by
  have := padIdx_self m (⟨i.toNat, by omega⟩ : Fin n)
  rwa [show (((⟨i.toNat, by omega⟩ : Fin n).val : ℕ) : ℤ) = i by simp [h0]] at this

/-- The two extensions of one axis at a time. -/
theorem extends_row [Arith α] {m : PadMode} {g : Grid α H W} {e : ℤ → ℤ → α}
    (he : Extends zero m g e) {p : Nat} (hp : PadFits m p H) {i : ℤ} (h0 : -p ≤ i)
    (h1 : i < H + p) (j : ℤ) :
    (padIdx m H i = none ∧ m = .zeros ∧ (i < 0 ∨ (H : ℤ) ≤ i)) ∨
      ∃ r, padIdx m H i = some r ∧ e i j = e r.val j := by
  obtain ⟨hn, hc, hr⟩ := hp
  obtain ⟨_, hm⟩ := he
  by_cases hin : 0 ≤ i ∧ i < H
  · exact Or.inr ⟨_, padIdx_inside m hin.1 hin.2, by simp [hin.1]⟩
  cases m with
  | circular =>
    have hp := hc rfl
    right
    simp only at hm
    simp only [padIdx, dif_pos (show 0 < H by omega)]
    refine ⟨_, rfl, ?_⟩
    by_cases hneg : i < 0
    · have : i % (H : ℤ) = i + H := by
        rw [← Int.add_emod_right, Int.emod_eq_of_lt (by omega) (by omega)]
      rw [show (((i % (H : ℤ)).toNat : ℕ) : ℤ) = i + H by rw [this]; omega]
      exact ((hm i j).1).symm
    · have : i - H = 0 ∨ 0 < i - H := by omega
      by_cases hlt : i - H < H
      · have : i % (H : ℤ) = i - H := by
          rw [← Int.sub_emod_right, Int.emod_eq_of_lt (by omega) (by omega)]
        rw [show (((i % (H : ℤ)).toNat : ℕ) : ℤ) = i - H by rw [this]; omega]
        have := (hm (i - H) j).1
        rwa [sub_add_cancel] at this
      · omega
  | zeros =>
    left
    exact ⟨by simp only [padIdx]; rw [dif_neg hin], rfl, by omega⟩
  | reflect =>
    have hp := hr rfl
    right
    simp only at hm
    simp only [padIdx]
    by_cases hneg : i < 0
    · simp only [if_pos hneg]
      rw [dif_pos ⟨by omega, by omega⟩]
      refine ⟨_, rfl, ?_⟩
      rw [show (((-i).toNat : ℕ) : ℤ) = -i by omega]
      exact ((hm i j).1).symm
    · have hge : (H : ℤ) ≤ i := by omega
      simp only [if_neg hneg, if_pos hge]
      rw [dif_pos ⟨by omega, by omega⟩]
      refine ⟨_, rfl, ?_⟩
      rw [show (((2 * ((H : ℤ) - 1) - i).toNat : ℕ) : ℤ) = 2 * ((H : ℤ) - 1) - i by omega]
      have := (hm (i - ((H : ℤ) - 1)) j).2.2.1
      rwa [add_sub_cancel, show (H : ℤ) - 1 - (i - (H - 1)) = 2 * (H - 1) - i by ring] at this
  | replicate =>
    right
    simp only at hm
    simp only [padIdx, dif_pos (show 0 < H by omega)]
    refine ⟨_, rfl, ?_⟩
    by_cases hneg : i < 0
    · rw [show (((min (max i 0) ((H : ℤ) - 1)).toNat : ℕ) : ℤ) = 0 by omega]
      exact (hm i j).1 (by omega)
    · rw [show (((min (max i 0) ((H : ℤ) - 1)).toNat : ℕ) : ℤ) = (H : ℤ) - 1 by omega]
      exact (hm i j).2.2.1 (by omega)

theorem extends_transpose {β : Type} {z : β} {m : PadMode} {g : Grid β H W} {e : ℤ → ℤ → β}
    (he : Extends z m g e) : Extends z m (fun j i => g i j) (fun j i => e i j) := by
  obtain ⟨h1, h2⟩ := he
  refine ⟨fun i j => h1 j i, ?_⟩
  cases m with
  | circular => exact fun i j => (h2 j i).symm
  | zeros => exact fun i j h => h2 j i (by omega)
  | reflect => exact fun i j => ⟨(h2 j i).2.1, (h2 j i).1, (h2 j i).2.2.2, (h2 j i).2.2.1⟩
  | replicate => exact fun i j => ⟨(h2 j i).2.1, (h2 j i).1, (h2 j i).2.2.2, (h2 j i).2.2.1⟩

/-- C114: what is read at a position beyond the edge is what the mode shows there. -/
theorem padRead_extends [Arith α] {m : PadMode} {g : Grid α H W} {e : ℤ → ℤ → α}
    (he : Extends zero m g e) {p : Nat} (hpH : PadFits m p H) (hpW : PadFits m p W) {i j : ℤ}
    (hi0 : -p ≤ i) (hi1 : i < H + p) (hj0 : -p ≤ j) (hj1 : j < W + p) :
    padRead m g i j = e i j := by
  unfold padRead
  rcases extends_row he hpH hi0 hi1 j with ⟨hr, hm, hi⟩ | ⟨r, hr, er⟩
  · subst hm
    rw [hr]
    exact (he.2 i j (by omega)).symm
  · rcases extends_row (extends_transpose he) hpW hj0 hj1 r.val with ⟨hs, hm, hj⟩ | ⟨s, hs, es⟩
    · subst hm
      rw [hr, hs]
      exact (he.2 i j (by omega)).symm
    · rw [hr, hs, er]
      exact (he.1 r s).symm.trans es.symm

/-- The cell of an axis of length `n ≥ 1` a mirror shows at any place. -/
def foldInt (n : Nat) (i : ℤ) : ℤ :=
  let q := i % (2 * ((n : ℤ) - 1))
  if q < n then q else 2 * ((n : ℤ) - 1) - q

theorem foldInt_range {n : Nat} (h : 2 ≤ n) (i : ℤ) : 0 ≤ foldInt n i ∧ foldInt n i < n := by
  unfold foldInt
  have h1 := Int.emod_nonneg i (b := 2 * ((n : ℤ) - 1)) (by omega)
  have h2 := Int.emod_lt_of_pos i (b := 2 * ((n : ℤ) - 1)) (by omega)
  dsimp only
  split <;> omega

theorem foldInt_neg {n : Nat} (h : 2 ≤ n) (i : ℤ) : foldInt n (-i) = foldInt n i := by
  have h1 := Int.emod_nonneg i (b := 2 * ((n : ℤ) - 1)) (by omega)
  have h2 := Int.emod_lt_of_pos i (b := 2 * ((n : ℤ) - 1)) (by omega)
  unfold foldInt
  dsimp only
  rw [Int.neg_emod]
  by_cases hd : (2 * ((n : ℤ) - 1)) ∣ i
  · rw [if_pos hd, Int.emod_eq_zero_of_dvd hd]
  · rw [if_neg hd]
    have h3 : i % (2 * ((n : ℤ) - 1)) ≠ 0 := fun h => hd (Int.dvd_of_emod_eq_zero h)
    rw [show ((2 * ((n : ℤ) - 1)).natAbs : ℤ) = 2 * ((n : ℤ) - 1) by omega]
    split <;> split <;> omega

theorem foldInt_add {n : Nat} (i : ℤ) : foldInt n (i + 2 * ((n : ℤ) - 1)) = foldInt n i := by
  unfold foldInt; rw [Int.add_emod_right]

theorem foldInt_self {n : Nat} (h : 2 ≤ n) {i : ℤ} (h0 : 0 ≤ i) (h1 : i < n) :
    foldInt n i = i := by
  unfold foldInt
  dsimp only
  by_cases h2 : i = 2 * ((n : ℤ) - 1)
  · omega
  · rw [Int.emod_eq_of_lt h0 (by omega), if_pos h1]

theorem cell_eq {β : Type} (g : Grid β H W) {r r' : Fin H} {s s' : Fin W} (hr : r.val = r'.val)
    (hs : s.val = s'.val) : g r s = g r' s' := by
  rw [Fin.ext hr, Fin.ext hs]

/-- C114: every grid has such an extension (with at least two cells a side for `reflect`). -/
theorem extends_exists {β : Type} (z : β) (m : PadMode) (g : Grid β H W) (hH : 2 ≤ H)
    (hW : 2 ≤ W) : ∃ e, Extends z m g e := by
  have pos : ∀ {n : Nat} (k : ℤ), 2 ≤ n → (k % (n : ℤ)).toNat < n := by
    intro n k hn
    have := Int.emod_nonneg k (b := (n : ℤ)) (by omega)
    have := Int.emod_lt_of_pos k (b := (n : ℤ)) (by omega)
    omega
  cases m with
  | circular =>
    refine ⟨fun i j => g ⟨(i % (H : ℤ)).toNat, pos i hH⟩ ⟨(j % (W : ℤ)).toNat, pos j hW⟩,
      fun i j => ?_, fun i j => ?_⟩
    · exact cell_eq _ (by dsimp only; rw [Int.emod_eq_of_lt (by omega) (by omega)]; simp)
        (by dsimp only; rw [Int.emod_eq_of_lt (by omega) (by omega)]; simp)
    · simp
  | zeros =>
    refine ⟨fun i j => if h : (0 ≤ i ∧ i < H) ∧ 0 ≤ j ∧ j < W then
      g ⟨i.toNat, by omega⟩ ⟨j.toNat, by omega⟩ else z, fun i j => ?_, fun i j h => ?_⟩
    · dsimp only
      rw [dif_pos ⟨⟨by omega, by omega⟩, by omega, by omega⟩]
      exact cell_eq _ (by simp) (by simp)
    · dsimp only
      rw [dif_neg (by omega)]
  | reflect =>
    have rH := fun i => foldInt_range hH i
    have rW := fun i => foldInt_range hW i
    refine ⟨fun i j => g ⟨(foldInt H i).toNat, by have := rH i; omega⟩
      ⟨(foldInt W j).toNat, by have := rW j; omega⟩, fun i j => ?_, fun i j => ?_⟩
    · exact cell_eq _ (by simp [foldInt_self hH (i := (i.val : ℤ)) (by omega) (by omega)])
        (by simp [foldInt_self hW (i := (j.val : ℤ)) (by omega) (by omega)])
    · have flip : ∀ {n : Nat} (_ : 2 ≤ n) (k : ℤ),
          foldInt n ((n : ℤ) - 1 + k) = foldInt n ((n : ℤ) - 1 - k) := by
        intro n hn k
        rw [← foldInt_neg hn ((n : ℤ) - 1 - k), ← foldInt_add (-((n : ℤ) - 1 - k))]
        congr 1; ring
      refine ⟨?_, ?_, ?_, ?_⟩ <;> simp only [foldInt_neg hH, foldInt_neg hW, flip hH, flip hW]
  | replicate =>
    refine ⟨fun i j => g ⟨(min (max i 0) ((H : ℤ) - 1)).toNat, by omega⟩
      ⟨(min (max j 0) ((W : ℤ) - 1)).toNat, by omega⟩, fun i j => ?_, fun i j => ?_⟩
    · exact cell_eq _ (by dsimp only; omega) (by dsimp only; omega)
    · exact ⟨fun h => cell_eq _ (by dsimp only; omega) rfl,
        fun h => cell_eq _ rfl (by dsimp only; omega),
        fun h => cell_eq _ (by dsimp only; omega) rfl,
        fun h => cell_eq _ rfl (by dsimp only; omega)⟩

/-! ## The rule with walls -/

theorem padFits_iff (m : PadMode) (p : Nat) {n : Nat} (hn : 1 ≤ n) :
    PadFits m p n ↔ padOK m p n = true := by
  unfold PadFits padOK
  cases m <;> simp [hn]

theorem wall_taps {r : Nat} (hext : 0 < ext) (hd : ext ∣ int) (m : PadMode)
    (κ : Fin (2 * r + 1) → Fin (2 * r + 1) → ℝ) (x : Fin ext → Grid ℝ H W)
    {e : Fin ext → ℤ → ℤ → ℝ} (he : ∀ c, Extends 0 m (x c) (e c)) (hH : PadFits m r H)
    (hW : PadFits m r W) (o : Fin int) (i : Fin H) (j : Fin W) :
    dot ((ConvLayer.ofKernel ext int m (2 * r + 1) κ).taps x o i j) =
      gatheredFrom κ (e (Spec.source hext hd o)) i.val j.val := by
  have hg : groups ext int = ext := by simp [groups, Nat.mod_eq_zero_of_dvd hd]
  have h1 : ext / groups ext int = 1 := by rw [hg, Nat.div_self hext]
  rw [conv_sum_pad_ofKernel, sum_fin_one h1]
  unfold gatheredFrom
  have hr : (2 * r + 1 - 1) / 2 = r := by omega
  refine Finset.sum_congr rfl fun a _ => Finset.sum_congr rfl fun b _ => ?_
  have ha := a.isLt
  have hb := b.isLt
  have hi := i.isLt
  have hj := j.isLt
  rw [inChan_dvd hext hd, hr, padRead_extends (he _) hH hW (by omega) (by omega) (by omega) (by omega),
    add_sub_assoc, add_sub_assoc]

theorem wall_apply {r : Nat} (hext : 0 < ext) (hd : ext ∣ int) (m : PadMode)
    (κ : Fin (2 * r + 1) → Fin (2 * r + 1) → ℝ) (u : Univ ℝ N ext H W)
    {e : Fin N → Fin ext → ℤ → ℤ → ℝ} (he : ∀ n c, Extends 0 m (u n c) (e n c))
    (hH : PadFits m r H) (hW : PadFits m r W) :
    (ConvLayer.ofKernel ext int m (2 * r + 1) κ).apply u =
      .ok fun n o i j => gatheredFrom κ (e n (Spec.source hext hd o)) i.val j.val := by
  unfold ConvLayer.apply
  have hr : (2 * r + 1 - 1) / 2 = r := by omega
  rw [if_pos]
  · congr 1
    funext n o i j
    exact wall_taps hext hd m κ (u n) (he n) hH hW o i j
  · refine ⟨by show (2 * r + 1) % 2 = 1; omega, ?_, ?_⟩
    · show padOK m ((2 * r + 1 - 1) / 2) H = true
      rw [hr]; exact (padFits_iff m r hH.1).1 hH
    · show padOK m ((2 * r + 1 - 1) / 2) W = true
      rw [hr]; exact (padFits_iff m r hW.1).1 hW

theorem wall_identity (hext : 0 < ext) (hd : ext ∣ int) (m : PadMode) (u : Univ ℝ N ext H W)
    (hH : PadFits m 1 H) (hW : PadFits m 1 W) :
    (ConvLayer.ofKernel ext int m (2 * 1 + 1) identityKernel).apply u =
      .ok fun n o i j => u n (Spec.source hext hd o) i j := by
  unfold ConvLayer.apply
  have h1 := (padFits_iff m 1 hH.1).1 hH
  have h2 := (padFits_iff m 1 hW.1).1 hW
  rw [if_pos ⟨by show (2 * 1 + 1) % 2 = 1; norm_num, by
      show padOK m ((2 * 1 + 1 - 1) / 2) H = true; exact h1, by
      show padOK m ((2 * 1 + 1 - 1) / 2) W = true; exact h2⟩]
  congr 1
  funext n o i j
  exact identity_taps_dvd hext hd m (u n) o i j

/-- C114: one step of a `CCA` (functional mode, default identity kernel) with any padding: as on the
torus, except that the neighbourhoods reach into what the mode shows beyond the edges. -/
theorem cca_wall_rule (d : CCADyn) (t : ℝ) (hid : d.idLayer = ⟨1, identityKernel⟩)
    (hw : d.seqWeights = none) (hext : 0 < d.ext) (hd : d.ext ∣ d.int)
    (hg : d.genesis.length = d.int) (hp : d.persistence.length = d.int)
    (u : Univ ℝ N d.ext H W) (hH : PadFits d.mode 1 H ∧ PadFits d.mode d.nbLayer.1 H)
    (hW : PadFits d.mode 1 W ∧ PadFits d.mode d.nbLayer.1 W)
    (e : Fin N → Fin d.ext → ℤ → ℤ → ℝ)
    (he : ∀ n c, Extends 0 d.mode (Spec.alive d.thr u n c) (e n c)) :
    ∃ u', (d.toCCA t).forward u = .ok (u', d.toCCA (t + d.dt)) ∧
      ∀ n c i j,
        let x := Spec.alive d.thr u n
        u' n c i j = Spec.clip (x c i j + d.dt * (1 / (d.ext * d.int) * ∑ o : Fin d.int,
          ((1 - x (Spec.source hext hd o) i j) * (d.genesis.get (Fin.cast hg.symm o)).eval
              (gatheredFrom d.nbLayer.2 (e n (Spec.source hext hd o)) i.val j.val) +
            x (Spec.source hext hd o) i j * (d.persistence.get (Fin.cast hp.symm o)).eval
              (gatheredFrom d.nbLayer.2 (e n (Spec.source hext hd o)) i.val j.val)))) := by
  have hg' : (d.genesis.map Act.eval).length = d.int := by simpa using hg
  have hp' : (d.persistence.map Act.eval).length = d.int := by simpa using hp
  have hga : ∀ o : Fin d.int, chanFn (d.genesis.map Act.eval) o =
      (d.genesis.get (Fin.cast hg.symm o)).eval := by
    intro o; rw [← chanFn_get hg']; simp
  have hpa : ∀ o : Fin d.int, chanFn (d.persistence.map Act.eval) o =
      (d.persistence.get (Fin.cast hp.symm o)).eval := by
    intro o; rw [← chanFn_get hp']; simp
  have hidn : (d.toCCA t).idL.apply (maskIf d.thr u) =
      .ok fun n o i j => maskIf d.thr u n (Spec.source hext hd o) i j := by
    show (ConvLayer.ofKernel d.ext d.int d.mode (2 * d.idLayer.1 + 1) d.idLayer.2).apply _ = _
    rw [hid]
    exact wall_identity hext hd _ _ hH.1 hW.1
  have hnb : (d.toCCA t).nbL.apply (maskIf d.thr u) =
      .ok fun n o i j => gatheredFrom d.nbLayer.2 (e n (Spec.source hext hd o)) i.val j.val := by
    show (ConvLayer.ofKernel d.ext d.int d.mode (2 * d.nbLayer.1 + 1) d.nbLayer.2).apply _ = _
    exact wall_apply hext hd _ _ _ (by rw [maskIf_alive]; exact he) hH.2 hW.2
  refine ⟨?w, ?step, ?cell⟩
  case step =>
    unfold CCA.forward
    show (do
      let idn ← (d.toCCA t).idL.apply (maskIf d.thr u)
      let nb ← (d.toCCA t).nbL.apply (maskIf d.thr u)
      let upd ← (d.toCCA t).updateUniverse idn nb
      return (eulerClamp d.dt (maskIf d.thr u) upd, d.toCCA (t + d.dt))) = _
    rw [hidn, hnb]
    simp only [bind, Except.bind, CCA.updateUniverse, CCADyn.toCCA, perChannel_eq hg',
      perChannel_eq hp', pure, Except.pure]
    rfl
  case cell =>
    intro n c i j
    simp only [eulerClamp, clamp01_real, hw, Weights.apply, conv1x1, dot_finRange, maskIf_alive,
      hga, hpa]
    unfold Spec.clip
    rw [Finset.mul_sum]
    rfl

/-- C114: the same for `Lenia`. -/
theorem lenia_wall_rule (d : CCADyn) (t : ℝ) (hid : d.idLayer = ⟨1, identityKernel⟩)
    (hw : d.seqWeights = none) (hext : 0 < d.ext) (hd : d.ext ∣ d.int)
    (hg : d.genesis.length = d.int)
    (u : Univ ℝ N d.ext H W) (hH : PadFits d.mode 1 H ∧ PadFits d.mode d.nbLayer.1 H)
    (hW : PadFits d.mode 1 W ∧ PadFits d.mode d.nbLayer.1 W)
    (e : Fin N → Fin d.ext → ℤ → ℤ → ℝ)
    (he : ∀ n c, Extends 0 d.mode (Spec.alive d.thr u n c) (e n c)) :
    ∃ u', (d.toCCA t).leniaForward u = .ok (u', d.toCCA (t + d.dt)) ∧
      ∀ n c i j,
        let x := Spec.alive d.thr u n
        u' n c i j = Spec.clip (x c i j + d.dt * (1 / (d.ext * d.int) * ∑ o : Fin d.int,
          (d.genesis.get (Fin.cast hg.symm o)).eval
            (gatheredFrom d.nbLayer.2 (e n (Spec.source hext hd o)) i.val j.val))) := by
  have hg' : (d.genesis.map Act.eval).length = d.int := by simpa using hg
  have hga : ∀ o : Fin d.int, chanFn (d.genesis.map Act.eval) o =
      (d.genesis.get (Fin.cast hg.symm o)).eval := by
    intro o; rw [← chanFn_get hg']; simp
  have hidn : (d.toCCA t).idL.apply (maskIf d.thr u) =
      .ok fun n o i j => maskIf d.thr u n (Spec.source hext hd o) i j := by
    show (ConvLayer.ofKernel d.ext d.int d.mode (2 * d.idLayer.1 + 1) d.idLayer.2).apply _ = _
    rw [hid]
    exact wall_identity hext hd _ _ hH.1 hW.1
  have hnb : (d.toCCA t).nbL.apply (maskIf d.thr u) =
      .ok fun n o i j => gatheredFrom d.nbLayer.2 (e n (Spec.source hext hd o)) i.val j.val := by
    show (ConvLayer.ofKernel d.ext d.int d.mode (2 * d.nbLayer.1 + 1) d.nbLayer.2).apply _ = _
    exact wall_apply hext hd _ _ _ (by rw [maskIf_alive]; exact he) hH.2 hW.2
  refine ⟨?w, ?step, ?cell⟩
  case step =>
    unfold CCA.leniaForward
    show (do
      let _ ← (d.toCCA t).idL.apply (maskIf d.thr u)
      let nb ← (d.toCCA t).nbL.apply (maskIf d.thr u)
      let upd ← (d.toCCA t).leniaUpdateUniverse nb
      return (eulerClamp d.dt (maskIf d.thr u) upd, d.toCCA (t + d.dt))) = _
    rw [hidn, hnb]
    simp only [bind, Except.bind, CCA.leniaUpdateUniverse, CCADyn.toCCA, perChannel_eq hg',
      pure, Except.pure]
    rfl
  case cell =>
    intro n c i j
    simp only [eulerClamp, clamp01_real, hw, Weights.apply, conv1x1, dot_finRange, maskIf_alive,
      hga]
    unfold Spec.clip
    rw [Finset.mul_sum]
    rfl

theorem rxn_wall_apply {r : Nat} (m : PadMode) (κ : Fin (2 * r + 1) → Fin (2 * r + 1) → ℝ)
    (u : Univ ℝ N 2 H W) {e : Fin N → Fin 2 → ℤ → ℤ → ℝ}
    (he : ∀ n c, Extends 0 m (u n c) (e n c)) (hH : PadFits m r H) (hW : PadFits m r W) :
    (ConvLayer.ofKernel 2 2 m (2 * r + 1) κ).apply u =
      .ok fun n o i j => gatheredFrom κ (e n o) i.val j.val := by
  rw [wall_apply (by decide) (dvd_refl 2) m κ u he hH hW]
  have : ∀ o : Fin 2, Spec.source (by decide) (dvd_refl 2) o = o := by
    intro o; apply Fin.ext; simp [Spec.source]
  simp only [this]

/-- C114: the Gray-Scott step with walls. -/
theorem rxn_wall_rule {r : Nat} (ca : RxnDfn ℝ) (m : PadMode)
    (κ : Fin (2 * r + 1) → Fin (2 * r + 1) → ℝ) (hid : ca.idL = identityLayer 2 2 m)
    (hnb : ca.nbL = .ofKernel 2 2 m (2 * r + 1) κ) (x : Univ ℝ N 2 H W)
    (hH : PadFits m 1 H ∧ PadFits m r H) (hW : PadFits m 1 W ∧ PadFits m r W)
    (e : Fin N → Fin 2 → ℤ → ℤ → ℝ) (he : ∀ n c, Extends 0 m (x n c) (e n c)) :
    ∃ x', ca.forward x = .ok (x', { ca with t := ca.t + ca.dt }) ∧
      ∀ n i j,
        let u := x n 0 i j
        let v := x n 1 i j
        x' n 0 i j = Spec.clip (u + ca.dt * (ca.diffU * (gatheredFrom κ (e n 0) i.val j.val /
            ca.dx ^ 2) - u * v ^ 2 + ca.f * (1 - u))) ∧
          x' n 1 i j = Spec.clip (v + ca.dt * (ca.diffV * (gatheredFrom κ (e n 1) i.val j.val /
            ca.dx ^ 2) + u * v ^ 2 - (ca.f + ca.k) * v)) := by
  have hsrc : ∀ e : Fin 2, Spec.source two_pos (dvd_refl 2) e = e := by decide
  have h1 : ca.idL.apply x = .ok fun n o i j => x n o i j := by
    rw [hid]
    refine (wall_identity two_pos (dvd_refl 2) m _ hH.1 hW.1).trans ?_
    simp only [hsrc]
  have h2 : ca.nbL.apply x = .ok fun n o i j => gatheredFrom κ (e n o) i.val j.val := by
    rw [hnb]; exact rxn_wall_apply m κ x he hH.2 hW.2
  refine ⟨?w, ?step, ?cell⟩
  case step =>
    unfold RxnDfn.forward
    simp only [h1, h2, bind, Except.bind, pure, Except.pure]
    rfl
  case cell =>
    intro n i j
    simp only [eulerClamp, clamp01_real, RxnDfn.updateUniverse, Arith.mul, Arith.add, Arith.sub,
      Arith.div, Arith.one, Spec.clip, if_true, if_neg (by decide : ¬ (1 : Fin 2) = 0), pow_two,
      mul_assoc, and_self]

/-! ## Symmetries that need no torus -/

theorem inside_rev {n : Nat} {x y : ℤ} (h : y = (n : ℤ) - 1 - x) :
    (if h : 0 ≤ y ∧ y < n then some (⟨y.toNat, by omega⟩ : Fin n) else none) =
      (if h : 0 ≤ x ∧ x < n then some (⟨x.toNat, by omega⟩ : Fin n) else none).map Fin.rev := by
  by_cases hx : 0 ≤ x ∧ x < n
  · rw [dif_pos hx, dif_pos ⟨by omega, by omega⟩]
    simp only [Option.map_some, Option.some.injEq]
    apply Fin.ext
    rw [Fin.val_rev]
    dsimp only; omega
  · rw [dif_neg hx, dif_neg (by omega)]; rfl

/-- Every mode treats both ends of an axis alike. -/
theorem padIdx_rev (m : PadMode) {n : Nat} (hn : 0 < n) (i : ℤ) :
    padIdx m n ((n : ℤ) - 1 - i) = (padIdx m n i).map Fin.rev := by
  cases m with
  | circular =>
    simp only [padIdx, dif_pos hn, Option.map_some, Option.some.injEq]
    apply Fin.ext
    rw [Fin.val_rev]
    dsimp only
    have h1 := Int.emod_nonneg i (b := (n : ℤ)) (by omega)
    have h2 := Int.emod_lt_of_pos i (b := (n : ℤ)) (by omega)
    have : ((n : ℤ) - 1 - i) % n = n - 1 - i % n := by
      have : (n : ℤ) - 1 - i = ((n : ℤ) - 1 - i % n) + n * (-(i / n)) := by
        have := Int.emod_add_mul_ediv i n
        linarith [mul_neg (n : ℤ) (i / n)]
      rw [this, Int.add_mul_emod_self_left, Int.emod_eq_of_lt (by omega) (by omega)]
    omega
  | zeros => exact inside_rev rfl
  | reflect => exact inside_rev (by split <;> split <;> (try split) <;> omega)
  | replicate =>
    simp only [padIdx, dif_pos hn, Option.map_some, Option.some.injEq]
    apply Fin.ext
    rw [Fin.val_rev]
    dsimp only; omega

theorem padRead_flip [Arith α] (m : PadMode) (g : Grid α H W) (hH : 0 < H) (i j : ℤ) :
    padRead m (fun r s => g r.rev s) i j = padRead m g ((H : ℤ) - 1 - i) j := by
  unfold padRead
  rw [padIdx_rev m hH]
  cases padIdx m H i <;> cases padIdx m W j <;> rfl

theorem padRead_transpose [Arith α] (m : PadMode) (g : Grid α H W) (i j : ℤ) :
    padRead m (fun s r => g r s) j i = padRead m g i j := by
  unfold padRead
  cases padIdx m H i <;> cases padIdx m W j <;> rfl

theorem wall_flipRows (m : PadMode) {k : Nat} {κ : Fin k → Fin k → ℝ} (hκ : Dihedral κ) :
    Commutes (N' := N) (H' := H) (W' := W) (ConvLayer.ofKernel ext int m k κ)
      (fun p => (p.1, p.2.1.rev, p.2.2)) := by
  intro u
  unfold ConvLayer.apply
  split
  · rename_i hk
    simp only [Functor.map, Except.map]
    congr 1
    funext n o i j
    simp only [reindex]
    rw [conv_sum_pad_ofKernel, conv_sum_pad_ofKernel]
    refine Finset.sum_congr rfl fun c _ => ?_
    rw [← sum_rev]
    refine Finset.sum_congr rfl fun a _ => Finset.sum_congr rfl fun b _ => ?_
    have hk1 : k % 2 = 1 := hk.1
    have hi := i.isLt
    rw [hκ.2]
    congr 1
    refine (padRead_flip m (u n (inChan o c)) (by omega) _ _).trans ?_
    congr 1
    have := rev_offset hk1 a
    rw [Fin.val_rev i]
    omega
  · rfl

theorem wall_transpose (m : PadMode) {k : Nat} {κ : Fin k → Fin k → ℝ} (hκ : Dihedral κ) :
    Commutes (N := N) (H := H) (W := W) (N' := N) (H' := W) (W' := H)
      (ConvLayer.ofKernel ext int m k κ) (fun p => (p.1, p.2.2, p.2.1)) := by
  intro u
  unfold ConvLayer.apply
  split
  · rename_i hk
    rw [if_pos ⟨hk.1, hk.2.2, hk.2.1⟩]
    simp only [Functor.map, Except.map]
    congr 1
    funext n o i j
    simp only [reindex]
    rw [conv_sum_pad_ofKernel, conv_sum_pad_ofKernel]
    refine Finset.sum_congr rfl fun c _ => ?_
    rw [Finset.sum_comm]
    refine Finset.sum_congr rfl fun a _ => Finset.sum_congr rfl fun b _ => ?_
    rw [hκ.1]
    congr 1
    exact padRead_transpose m (u n (inChan o c)) _ _
  · rename_i hk
    rw [if_neg fun h => hk ⟨h.1, h.2.2, h.2.1⟩]
    rfl

/-- The layers come from kernels with the symmetries of the square, under any padding. -/
def Spec.Radial (idL nbL : ConvLayer ℝ ext int) : Prop :=
  (∃ m k κ, Dihedral κ ∧ idL = .ofKernel ext int m k κ) ∧
    ∃ m k κ, Dihedral κ ∧ nbL = .ofKernel ext int m k κ

theorem Spec.Radial.flip {idL nbL : ConvLayer ℝ ext int} (h : Spec.Radial idL nbL) :
    Commutes (N' := N) (H' := H) (W' := W) idL (fun p => (p.1, p.2.1.rev, p.2.2)) ∧
      Commutes (N' := N) (H' := H) (W' := W) nbL (fun p => (p.1, p.2.1.rev, p.2.2)) := by
  obtain ⟨⟨m₁, k₁, κ₁, h1, rfl⟩, m₂, k₂, κ₂, h2, rfl⟩ := h
  exact ⟨wall_flipRows m₁ h1, wall_flipRows m₂ h2⟩

theorem Spec.Radial.transpose {idL nbL : ConvLayer ℝ ext int} (h : Spec.Radial idL nbL) :
    Commutes (N := N) (H := H) (W := W) (N' := N) (H' := W) (W' := H) idL
        (fun p => (p.1, p.2.2, p.2.1)) ∧
      Commutes (N := N) (H := H) (W := W) (N' := N) (H' := W) (W' := H) nbL
        (fun p => (p.1, p.2.2, p.2.1)) := by
  obtain ⟨⟨m₁, k₁, κ₁, h1, rfl⟩, m₂, k₂, κ₂, h2, rfl⟩ := h
  exact ⟨wall_transpose m₁ h1, wall_transpose m₂ h2⟩

theorem wall_symmetry {σ : Type} {C : Nat}
    (f : ∀ {H W : Nat}, σ → Univ ℝ N C H W → Except PyErr (Univ ℝ N C H W × σ)) (P : σ → Prop)
    (inv : ∀ {H W : Nat} (s : σ) (b b' : Univ ℝ N C H W) s', P s → f s b = .ok (b', s') → P s')
    (tr : ∀ {H W : Nat} (s : σ) (b : Univ ℝ N C H W), P s →
      f s (transpose b) = Prod.map transpose id <$> f s b)
    (fl : ∀ {H W : Nat} (s : σ) (b : Univ ℝ N C H W), P s →
      f s (flipRows b) = Prod.map flipRows id <$> f s b)
    (n : Nat) (s : σ) (hs : P s) (u : Univ ℝ N C H W) :
    iterate f n s (transpose u) = Prod.map transpose id <$> iterate f n s u ∧
      iterate f n s (flipRows u) = Prod.map flipRows id <$> iterate f n s u ∧
      iterate f n s (flipCols u) = Prod.map flipCols id <$> iterate f n s u := by
  have tr' : ∀ {H W : Nat} (u : Univ ℝ N C H W), iterate f n s (transpose u) =
      Prod.map transpose id <$> iterate f n s u := fun u =>
    iterate_map transpose f f P inv (fun s b hs => tr s b hs) n s u hs
  have fl' : ∀ {H W : Nat} (u : Univ ℝ N C H W), iterate f n s (flipRows u) =
      Prod.map flipRows id <$> iterate f n s u := fun u =>
    iterate_map flipRows f f P inv (fun s b hs => fl s b hs) n s u hs
  refine ⟨tr' u, fl' u, ?_⟩
  have h : flipCols u = transpose (flipRows (transpose u)) := rfl
  rw [h, tr', fl', tr', map_map_prod, map_map_prod]
  rfl

/-- C114: with radial kernels and any walls, `CCA` runs commute with transposition and with
mirroring rows or columns. -/
theorem cca_wall_symmetry (ca : CCA ℝ ext int) (hr : Spec.Radial ca.idL ca.nbL) (n : Nat)
    (u : Univ ℝ N ext H W) :
    iterate CCA.forward n ca (transpose u) = Prod.map transpose id <$> iterate CCA.forward n ca u ∧
      iterate CCA.forward n ca (flipRows u) = Prod.map flipRows id <$> iterate CCA.forward n ca u ∧
      iterate CCA.forward n ca (flipCols u) =
        Prod.map flipCols id <$> iterate CCA.forward n ca u :=
  wall_symmetry (fun s b => CCA.forward s b) (fun s => Spec.Radial s.idL s.nbL)
    (fun s b b' s' hs h => by obtain ⟨_, _, _, _, _, _, h⟩ := CCA.forward_ok h; cases h; exact hs)
    (fun s b hs => cca_forward_reindex _ s hs.transpose.1 hs.transpose.2 b)
    (fun s b hs => cca_forward_reindex _ s hs.flip.1 hs.flip.2 b) n ca hr u

/-- C114: so do `Lenia` runs. -/
theorem lenia_wall_symmetry (ca : CCA ℝ ext int) (hr : Spec.Radial ca.idL ca.nbL) (n : Nat)
    (u : Univ ℝ N ext H W) :
    iterate CCA.leniaForward n ca (transpose u) =
        Prod.map transpose id <$> iterate CCA.leniaForward n ca u ∧
      iterate CCA.leniaForward n ca (flipRows u) =
        Prod.map flipRows id <$> iterate CCA.leniaForward n ca u ∧
      iterate CCA.leniaForward n ca (flipCols u) =
        Prod.map flipCols id <$> iterate CCA.leniaForward n ca u :=
  wall_symmetry (fun s b => CCA.leniaForward s b) (fun s => Spec.Radial s.idL s.nbL)
    (fun s b b' s' hs h => by
      obtain ⟨_, _, _, _, _, _, h⟩ := CCA.leniaForward_ok h; cases h; exact hs)
    (fun s b hs => lenia_forward_reindex _ s hs.transpose.1 hs.transpose.2 b)
    (fun s b hs => lenia_forward_reindex _ s hs.flip.1 hs.flip.2 b) n ca hr u

/-- C114: and Gray-Scott runs. -/
theorem rxn_wall_symmetry (ca : RxnDfn ℝ) (hr : Spec.Radial ca.idL ca.nbL) (n : Nat)
    (u : Univ ℝ N 2 H W) :
    iterate RxnDfn.forward n ca (transpose u) =
        Prod.map transpose id <$> iterate RxnDfn.forward n ca u ∧
      iterate RxnDfn.forward n ca (flipRows u) =
        Prod.map flipRows id <$> iterate RxnDfn.forward n ca u ∧
      iterate RxnDfn.forward n ca (flipCols u) =
        Prod.map flipCols id <$> iterate RxnDfn.forward n ca u :=
  wall_symmetry (fun s b => RxnDfn.forward s b) (fun s => Spec.Radial s.idL s.nbL)
    (fun s b b' s' hs h => by obtain ⟨_, _, _, _, h⟩ := RxnDfn.forward_ok h; cases h; exact hs)
    (fun s b hs => rxn_forward_reindex _ s hs.transpose.1 hs.transpose.2 b)
    (fun s b hs => rxn_forward_reindex _ s hs.flip.1 hs.flip.2 b) n ca hr u

/-- C114: and neural automata in evaluation mode. -/
theorem nca_wall_symmetry {hid : Nat} (ca : NCA ℝ ext int hid) (hr : Spec.Radial ca.idL ca.nbL)
    (n : Nat) (u : Univ ℝ N ext H W) :
    iterate (fun s b => NCA.forward s none b) n ca (transpose u) =
        Prod.map transpose id <$> iterate (fun s b => NCA.forward s none b) n ca u ∧
      iterate (fun s b => NCA.forward s none b) n ca (flipRows u) =
        Prod.map flipRows id <$> iterate (fun s b => NCA.forward s none b) n ca u ∧
      iterate (fun s b => NCA.forward s none b) n ca (flipCols u) =
        Prod.map flipCols id <$> iterate (fun s b => NCA.forward s none b) n ca u :=
  wall_symmetry (fun s b => NCA.forward s none b) (fun s => Spec.Radial s.idL s.nbL)
    (fun s b b' s' hs h => by
      obtain ⟨_, _, _, _, _, _, h⟩ := NCA.forward_ok h; cases h; exact hs)
    (fun s b hs => nca_forward_reindex _ s hs.transpose.1 hs.transpose.2 none b)
    (fun s b hs => nca_forward_reindex _ s hs.flip.1 hs.flip.2 none b) n ca hr u

/-! ## Other walls for the same automaton -/

/-- The layer with another padding mode. -/
def ConvLayer.walled (m : PadMode) (L : ConvLayer α ext int) : ConvLayer α ext int :=
  { L with mode := m }

/-- The automaton with another `conv_mode`. -/
def CCA.walled (m : PadMode) (ca : CCA α ext int) : CCA α ext int :=
  { ca with
    idL := ca.idL.walled m
    nbL := ca.nbL.walled m }

/-- The automaton with another `conv_mode`. -/
def RxnDfn.walled (m : PadMode) (ca : RxnDfn α) : RxnDfn α :=
  { ca with
    idL := ca.idL.walled m
    nbL := ca.nbL.walled m }

/-- The automaton with another `conv_mode`. -/
def NCA.walled {hid : Nat} (m : PadMode) (ca : NCA α ext int hid) : NCA α ext int hid :=
  { ca with
    idL := ca.idL.walled m
    nbL := ca.nbL.walled m }

/-- This is what another `conv_mode` makes of an automaton. -/
theorem walled_mode (d : CCADyn) (m : PadMode) (t : ℝ) :
    ({ d with mode := m } : CCADyn).toCCA t = (d.toCCA t).walled m := rfl

section Two

variable [Arith α] {N' H' W' : Nat} (e : Fin N' × Fin H' × Fin W' → Fin N × Fin H × Fin W)

/-- On this universe the layer with walls `m` does to the reindexed cells what it does itself. -/
def Matches (m : PadMode) (L : ConvLayer α ext int) (u : Univ α N ext H W) : Prop :=
  (L.walled m).apply (reindex e u) = reindex e <$> L.apply u

variable {e}

theorem cca_forward_walled {m : PadMode} (ca : CCA α ext int) (u : Univ α N ext H W)
    (h1 : Matches e m ca.idL (maskIf ca.thr u)) (h2 : Matches e m ca.nbL (maskIf ca.thr u)) :
    (ca.walled m).forward (reindex e u) = Prod.map (reindex e) (CCA.walled m) <$> ca.forward u := by
  have hu : ∀ idn nb : Univ α N int H W, (ca.walled m).updateUniverse (reindex e idn) (reindex e nb) =
    reindex e <$> ca.updateUniverse idn nb := fun idn nb => updateUniverse_reindex e ca idn nb
  unfold CCA.forward Matches at *
  simp only [CCA.walled] at hu ⊢
  simp only [maskIf_reindex, h1, h2]
  cases ca.idL.apply (maskIf ca.thr u) with
  | error _ => rfl
  | ok idn =>
    cases ca.nbL.apply (maskIf ca.thr u) with
    | error _ => rfl
    | ok nb =>
      simp only [bind, Except.bind, Functor.map, Except.map, pure, Except.pure]
      rw [hu]
      cases ca.updateUniverse idn nb with
      | error _ => rfl
      | ok upd => rfl

theorem lenia_forward_walled {m : PadMode} (ca : CCA α ext int) (u : Univ α N ext H W)
    (h1 : Matches e m ca.idL (maskIf ca.thr u)) (h2 : Matches e m ca.nbL (maskIf ca.thr u)) :
    (ca.walled m).leniaForward (reindex e u) =
      Prod.map (reindex e) (CCA.walled m) <$> ca.leniaForward u := by
  have hu : ∀ nb : Univ α N int H W, (ca.walled m).leniaUpdateUniverse (reindex e nb) =
    reindex e <$> ca.leniaUpdateUniverse nb := fun nb => leniaUpdate_reindex e ca nb
  unfold CCA.leniaForward Matches at *
  simp only [CCA.walled] at hu ⊢
  simp only [maskIf_reindex, h1, h2]
  cases ca.idL.apply (maskIf ca.thr u) with
  | error _ => rfl
  | ok idn =>
    cases ca.nbL.apply (maskIf ca.thr u) with
    | error _ => rfl
    | ok nb =>
      simp only [bind, Except.bind, Functor.map, Except.map, pure, Except.pure]
      rw [hu]
      cases ca.leniaUpdateUniverse nb with
      | error _ => rfl
      | ok upd => rfl

theorem rxn_forward_walled {m : PadMode} (ca : RxnDfn α) (u : Univ α N 2 H W)
    (h1 : Matches e m ca.idL u) (h2 : Matches e m ca.nbL u) :
    (ca.walled m).forward (reindex e u) =
      Prod.map (reindex e) (RxnDfn.walled m) <$> ca.forward u := by
  unfold RxnDfn.forward Matches at *
  simp only [RxnDfn.walled, h1, h2]
  cases ca.idL.apply u with
  | error _ => rfl
  | ok idn =>
    cases ca.nbL.apply u with
    | error _ => rfl
    | ok nb => rfl

theorem nca_forward_walled [Transc α] {hid : Nat} {m : PadMode} (ca : NCA α ext int hid)
    (u : Univ α N ext H W)
    (h1 : Matches e m ca.idL (maskIf ca.thr u)) (h2 : Matches e m ca.nbL (maskIf ca.thr u)) :
    (ca.walled m).forward none (reindex e u) =
      Prod.map (reindex e) (NCA.walled m) <$> ca.forward none u := by
  have hu : ∀ idn nb : Univ α N int H W,
      (ca.walled m).updateUniverse none (reindex e idn) (reindex e nb) =
        Except.map (reindex e) (ca.updateUniverse none idn nb) := by
    intro idn nb
    unfold NCA.updateUniverse
    split <;> rfl
  unfold NCA.forward Matches at *
  simp only [NCA.walled] at hu ⊢
  simp only [maskIf_reindex, h1, h2]
  cases ca.idL.apply (maskIf ca.thr u) with
  | error _ => rfl
  | ok idn =>
    cases ca.nbL.apply (maskIf ca.thr u) with
    | error _ => rfl
    | ok nb =>
      simp only [bind, Except.bind, Functor.map, Except.map, pure, Except.pure]
      rw [hu]
      cases ca.updateUniverse none idn nb with
      | error _ => rfl
      | ok upd => rfl

end Two

/-! ## The reflecting wall is a mirror -/

/-- Where a cell of the doubled torus lies on the board between two mirrors. -/
def foldFin {n : Nat} (h : 2 ≤ n) (i : Fin (2 * (n - 1))) : Fin n :=
  if h' : i.val < n then ⟨i.val, h'⟩ else ⟨2 * (n - 1) - i.val, by omega⟩

/-- The board and its mirror images: a universe of `2(H-1) × 2(W-1)` cells. -/
def Spec.mirrored {C : Nat} (hH : 2 ≤ H) (hW : 2 ≤ W) (u : Univ α N C H W) :
    Univ α N C (2 * (H - 1)) (2 * (W - 1)) :=
  fun n c i j => u n c (foldFin hH i) (foldFin hW j)

/-- On one axis: walking on the doubled torus looks like walking to a mirror and back. -/
theorem fold_walk {n : Nat} (h : 2 ≤ n) (i : Fin (2 * (n - 1))) {r : Nat} (hr : r < n) :
    ∃ s : ℤ, (s = 1 ∨ s = -1) ∧ ∀ d : ℤ, |d| ≤ r →
      padIdx .reflect n ((foldFin h i).val + s * d) = some (foldFin h (cyc i d)) := by
  have hi := i.isLt
  have key : ∀ d : ℤ, |d| ≤ r → (((cyc i d).val : ℕ) : ℤ) = i.val + d ∨
      (((cyc i d).val : ℕ) : ℤ) = i.val + d + 2 * (n - 1) ∧ (i.val : ℤ) + d < 0 ∨
      (((cyc i d).val : ℕ) : ℤ) = i.val + d - 2 * (n - 1) ∧ 2 * ((n : ℤ) - 1) ≤ i.val + d := by
    intro d hd
    rw [abs_le] at hd
    rw [cyc_val]
    have hP : ((2 * (n - 1) : ℕ) : ℤ) = 2 * ((n : ℤ) - 1) := by omega
    rw [hP]
    by_cases h0 : (i.val : ℤ) + d < 0
    · right; left
      refine ⟨?_, h0⟩
      rw [← Int.add_emod_right, Int.emod_eq_of_lt (by omega) (by omega)]
    · by_cases h1 : (i.val : ℤ) + d < 2 * ((n : ℤ) - 1)
      · left; rw [Int.emod_eq_of_lt (by omega) (by omega)]
      · right; right
        refine ⟨?_, by omega⟩
        rw [← Int.sub_emod_right, Int.emod_eq_of_lt (by omega) (by omega)]
  by_cases hlt : i.val < n
  · refine ⟨1, Or.inl rfl, fun d hd => ?_⟩
    have hk := key d hd
    rw [abs_le] at hd
    have hc := (cyc i d).isLt
    have hf : ((foldFin h i).val : ℤ) = i.val := by unfold foldFin; rw [dif_pos hlt]
    have hg : (((foldFin h (cyc i d)).val : ℕ) : ℤ) =
        if ((cyc i d).val : ℤ) < n then ((cyc i d).val : ℤ) else 2 * (n - 1) - (cyc i d).val := by
      unfold foldFin
      split
      · rw [if_pos (by omega)]
      · rw [if_neg (by omega)]; dsimp only; omega
    rw [hf, one_mul]
    simp only [padIdx]
    rw [dif_pos (by split <;> (try split) <;> omega)]
    congr 1
    apply Fin.ext
    dsimp only
    split at hg <;> split <;> (try split) <;> omega
  · refine ⟨-1, Or.inr rfl, fun d hd => ?_⟩
    have hk := key d hd
    rw [abs_le] at hd
    have hc := (cyc i d).isLt
    have hf : ((foldFin h i).val : ℤ) = 2 * (n - 1) - i.val := by
      unfold foldFin; rw [dif_neg hlt]; dsimp only; omega
    have hg : (((foldFin h (cyc i d)).val : ℕ) : ℤ) =
        if ((cyc i d).val : ℤ) < n then ((cyc i d).val : ℤ) else 2 * (n - 1) - (cyc i d).val := by
      unfold foldFin
      split
      · rw [if_pos (by omega)]
      · rw [if_neg (by omega)]; dsimp only; omega
    rw [hf, neg_one_mul]
    simp only [padIdx]
    rw [dif_pos (by split <;> (try split) <;> omega)]
    congr 1
    apply Fin.ext
    dsimp only
    split at hg <;> split <;> (try split) <;> omega

/-- A kernel that is its own mirror image. -/
def Spec.Mirror {k : Nat} (κ : Fin k → Fin k → ℝ) : Prop :=
  (∀ a b, κ a.rev b = κ a b) ∧ ∀ a b, κ a b.rev = κ a b

theorem Spec.Dihedral.mirror {k : Nat} {κ : Fin k → Fin k → ℝ} (h : Dihedral κ) : Spec.Mirror κ :=
  ⟨h.2, h.rev_right⟩

theorem mirror_sum {r : Nat} {κ : Fin (2 * r + 1) → Fin (2 * r + 1) → ℝ} (hκ : Spec.Mirror κ)
    (F : ℤ → ℤ → ℝ) {s t : ℤ} (hs : s = 1 ∨ s = -1) (ht : t = 1 ∨ t = -1) :
    ∑ a, ∑ b, κ a b * F (s * ((a.val : ℤ) - r)) (t * ((b.val : ℤ) - r)) =
      ∑ a, ∑ b, κ a b * F ((a.val : ℤ) - r) ((b.val : ℤ) - r) := by
  have ho : ∀ a : Fin (2 * r + 1), ((a.rev.val : ℤ) - r) = -1 * ((a.val : ℤ) - r) := by
    intro a; have := a.isLt; rw [Fin.val_rev]; omega
  have row : ∀ (F : ℤ → ℤ → ℝ), ∑ a, ∑ b, κ a b * F (-1 * ((a.val : ℤ) - r)) ((b.val : ℤ) - r) =
      ∑ a, ∑ b, κ a b * F ((a.val : ℤ) - r) ((b.val : ℤ) - r) := by
    intro F
    rw [← sum_rev (fun a => ∑ b, κ a b * F ((a.val : ℤ) - r) ((b.val : ℤ) - r))]
    simp only [hκ.1, ho]
  have col : ∀ (F : ℤ → ℤ → ℝ), ∑ a, ∑ b, κ a b * F ((a.val : ℤ) - r) (-1 * ((b.val : ℤ) - r)) =
      ∑ a, ∑ b, κ a b * F ((a.val : ℤ) - r) ((b.val : ℤ) - r) := by
    intro F
    refine Finset.sum_congr rfl fun a _ => ?_
    rw [← sum_rev (fun b => κ a b * F ((a.val : ℤ) - r) ((b.val : ℤ) - r))]
    simp only [hκ.2, ho]
  rcases hs with rfl | rfl <;> rcases ht with rfl | rfl <;> (try simp only [one_mul])
  · exact col F
  · exact row F
  · rw [row fun x y => F x (-1 * y)]; exact col F

theorem mirror_matches {r : Nat} {κ : Fin (2 * r + 1) → Fin (2 * r + 1) → ℝ} (hκ : Spec.Mirror κ)
    (hH : 2 ≤ H) (hW : 2 ≤ W) (hrH : r < H) (hrW : r < W) (u : Univ ℝ N ext H W) :
    Matches (fun p : Fin N × Fin (2 * (H - 1)) × Fin (2 * (W - 1)) =>
      (p.1, foldFin hH p.2.1, foldFin hW p.2.2)) .circular
      (.ofKernel ext int .reflect (2 * r + 1) κ) u := by
  have hr : (2 * r + 1 - 1) / 2 = r := by omega
  unfold Matches ConvLayer.apply
  rw [if_pos, if_pos]
  · simp only [Functor.map, Except.map]
    congr 1
    funext n o i j
    simp only [reindex]
    show dot ((ConvLayer.ofKernel ext int .circular (2 * r + 1) κ).taps _ o i j) = _
    rw [conv_sum_ofKernel, conv_sum_pad_ofKernel]
    refine Finset.sum_congr rfl fun c _ => ?_
    obtain ⟨s, hs, h1⟩ := fold_walk hH i hrH
    obtain ⟨t, ht, h2⟩ := fold_walk hW j hrW
    rw [hr]
    simp only [add_sub_assoc]
    have hb : ∀ a : Fin (2 * r + 1), |(a.val : ℤ) - r| ≤ r := by
      intro a; have := a.isLt; rw [abs_le]; omega
    rw [← mirror_sum hκ (fun x y => padRead .reflect (u n (inChan o c)) ((foldFin hH i).val + x)
      ((foldFin hW j).val + y)) hs ht]
    refine Finset.sum_congr rfl fun a _ => Finset.sum_congr rfl fun b _ => ?_
    congr 1
    unfold padRead
    rw [h1 _ (hb a), h2 _ (hb b)]
    rfl
  · refine ⟨by show (2 * r + 1) % 2 = 1; omega, ?_, ?_⟩
    · show decide ((2 * r + 1 - 1) / 2 < H) = true; rw [hr]; simpa using hrH
    · show decide ((2 * r + 1 - 1) / 2 < W) = true; rw [hr]; simpa using hrW
  · refine ⟨by show (2 * r + 1) % 2 = 1; omega, ?_, ?_⟩
    · show decide ((2 * r + 1 - 1) / 2 ≤ 2 * (H - 1)) = true
      rw [hr]; exact decide_eq_true (by omega)
    · show decide ((2 * r + 1 - 1) / 2 ≤ 2 * (W - 1)) = true
      rw [hr]; exact decide_eq_true (by omega)

/-- Layers made from mirror-symmetric kernels, with reflecting walls the board has room for. -/
def Spec.BetweenMirrors (H W : Nat) (idL nbL : ConvLayer ℝ ext int) : Prop :=
  ∃ (r₁ r₂ : Nat) (κ₁ : Fin (2 * r₁ + 1) → Fin (2 * r₁ + 1) → ℝ)
    (κ₂ : Fin (2 * r₂ + 1) → Fin (2 * r₂ + 1) → ℝ), Spec.Mirror κ₁ ∧ Spec.Mirror κ₂ ∧
    (r₁ < H ∧ r₁ < W ∧ r₂ < H ∧ r₂ < W) ∧ idL = .ofKernel ext int .reflect (2 * r₁ + 1) κ₁ ∧
    nbL = .ofKernel ext int .reflect (2 * r₂ + 1) κ₂

theorem Spec.BetweenMirrors.same {idL nbL : ConvLayer ℝ ext int}
    (h : Spec.BetweenMirrors H W idL nbL) (hH : 2 ≤ H) (hW : 2 ≤ W) (u : Univ ℝ N ext H W) :
    Matches (fun p : Fin N × Fin (2 * (H - 1)) × Fin (2 * (W - 1)) =>
        (p.1, foldFin hH p.2.1, foldFin hW p.2.2)) .circular idL u ∧
      Matches (fun p : Fin N × Fin (2 * (H - 1)) × Fin (2 * (W - 1)) =>
        (p.1, foldFin hH p.2.1, foldFin hW p.2.2)) .circular nbL u := by
  obtain ⟨r₁, r₂, κ₁, κ₂, m1, m2, ⟨a1, a2, a3, a4⟩, rfl, rfl⟩ := h
  exact ⟨mirror_matches m1 hH hW a1 a2 u, mirror_matches m2 hH hW a3 a4 u⟩

/-- C114: a run between reflecting walls is the run on the torus twice as wide and high, of the board
together with its mirror images. -/
theorem cca_mirror_run (ca : CCA ℝ ext int) (hH : 2 ≤ H) (hW : 2 ≤ W)
    (h : Spec.BetweenMirrors H W ca.idL ca.nbL) (n : Nat) (u : Univ ℝ N ext H W) :
    iterate CCA.forward n (ca.walled .circular) (Spec.mirrored hH hW u) =
      Prod.map (Spec.mirrored hH hW) (CCA.walled .circular) <$> iterate CCA.forward n ca u := by
  refine iterate_map₂ (Spec.mirrored hH hW) (CCA.walled .circular) CCA.forward CCA.forward
    (fun s => Spec.BetweenMirrors H W s.idL s.nbL) (fun s b b' s' hs h => ?_) (fun s b hs => ?_)
    n ca u h
  · obtain ⟨_, _, _, _, _, _, h⟩ := CCA.forward_ok h; cases h; exact hs
  · obtain ⟨h1, h2⟩ := hs.same hH hW (maskIf s.thr b)
    exact cca_forward_walled s b h1 h2

/-- C114: the same for `Lenia`. -/
theorem lenia_mirror_run (ca : CCA ℝ ext int) (hH : 2 ≤ H) (hW : 2 ≤ W)
    (h : Spec.BetweenMirrors H W ca.idL ca.nbL) (n : Nat) (u : Univ ℝ N ext H W) :
    iterate CCA.leniaForward n (ca.walled .circular) (Spec.mirrored hH hW u) =
      Prod.map (Spec.mirrored hH hW) (CCA.walled .circular) <$> iterate CCA.leniaForward n ca u := by
  refine iterate_map₂ (Spec.mirrored hH hW) (CCA.walled .circular) CCA.leniaForward
    CCA.leniaForward (fun s => Spec.BetweenMirrors H W s.idL s.nbL) (fun s b b' s' hs h => ?_)
    (fun s b hs => ?_) n ca u h
  · obtain ⟨_, _, _, _, _, _, h⟩ := CCA.leniaForward_ok h; cases h; exact hs
  · obtain ⟨h1, h2⟩ := hs.same hH hW (maskIf s.thr b)
    exact lenia_forward_walled s b h1 h2

/-- C114: the same for Gray-Scott automata. -/
theorem rxn_mirror_run (ca : RxnDfn ℝ) (hH : 2 ≤ H) (hW : 2 ≤ W)
    (h : Spec.BetweenMirrors H W ca.idL ca.nbL) (n : Nat) (u : Univ ℝ N 2 H W) :
    iterate RxnDfn.forward n (ca.walled .circular) (Spec.mirrored hH hW u) =
      Prod.map (Spec.mirrored hH hW) (RxnDfn.walled .circular) <$>
        iterate RxnDfn.forward n ca u := by
  refine iterate_map₂ (Spec.mirrored hH hW) (RxnDfn.walled .circular) RxnDfn.forward
    RxnDfn.forward (fun s => Spec.BetweenMirrors H W s.idL s.nbL) (fun s b b' s' hs h => ?_)
    (fun s b hs => ?_) n ca u h
  · obtain ⟨_, _, _, _, h⟩ := RxnDfn.forward_ok h; cases h; exact hs
  · obtain ⟨h1, h2⟩ := hs.same hH hW b
    exact rxn_forward_walled s b h1 h2

/-- C114: the same for neural automata in evaluation mode. -/
theorem nca_mirror_run {hid : Nat} (ca : NCA ℝ ext int hid) (hH : 2 ≤ H) (hW : 2 ≤ W)
    (h : Spec.BetweenMirrors H W ca.idL ca.nbL) (n : Nat) (u : Univ ℝ N ext H W) :
    iterate (fun s b => NCA.forward s none b) n (ca.walled .circular) (Spec.mirrored hH hW u) =
      Prod.map (Spec.mirrored hH hW) (NCA.walled .circular) <$>
        iterate (fun s b => NCA.forward s none b) n ca u := by
  refine iterate_map₂ (Spec.mirrored hH hW) (NCA.walled .circular) (fun s b => NCA.forward s none b)
    (fun s b => NCA.forward s none b) (fun s => Spec.BetweenMirrors H W s.idL s.nbL)
    (fun s b b' s' hs h => ?_) (fun s b hs => ?_) n ca u h
  · obtain ⟨_, _, _, _, _, _, h⟩ := NCA.forward_ok h; cases h; exact hs
  · obtain ⟨h1, h2⟩ := hs.same hH hW (maskIf s.thr b)
    exact nca_forward_walled s b h1 h2

end Yuca
