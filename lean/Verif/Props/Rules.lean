import Verif.Lemmas.Cell
import Verif.Lemmas.ConvReal
import Verif.Model.Object
import Verif.Model.GrayScott
import Verif.Props.Kernels

/-!
# The rules the automata follow, written out (C76, C77, C78)

Over exact reals, on the torus.
-/

namespace Yuca

open Arith

variable {N H W : Nat}

namespace Spec

/-- What a kernel of radius `r` gathers around `(i, j)` on the torus: kernel entry `(a, b)` weighs
the cell `a - r` rows below and `b - r` columns right of it. -/
noncomputable def gathered {r : Nat} (κ : Fin (2 * r + 1) → Fin (2 * r + 1) → ℝ) (x : Grid ℝ H W)
    (i : Fin H) (j : Fin W) : ℝ :=
  ∑ a, ∑ b, κ a b * x (rollIdx i ((r : Int) - a.val)) (rollIdx j ((r : Int) - b.val))

/-- The external channel internal channel `o` belongs to: the internal channels are shared out in
equal blocks. -/
def source {ext int : Nat} (hext : 0 < ext) (hd : ext ∣ int) (o : Fin int) : Fin ext :=
  ⟨o.val / (int / ext), by
    have ho := o.isLt
    rw [Nat.div_lt_iff_lt_mul (Nat.div_pos (Nat.le_of_dvd (by omega) hd) hext),
      Nat.mul_div_cancel' hd]
    exact ho⟩

/-- Cut off below 0 and above 1. -/
noncomputable def clip (x : ℝ) : ℝ := max 0 (min 1 x)

/-- Cells whose channel 3 is not above the threshold count as empty (from four channels on). -/
noncomputable def alive {ext : Nat} (thr : ℝ) (u : Univ ℝ N ext H W) : Univ ℝ N ext H W :=
  open Classical in
  fun n e i j => if h : 4 ≤ ext then if thr < u n ⟨3, by omega⟩ i j then u n e i j else 0
    else u n e i j

end Spec

theorem maskIf_alive {ext : Nat} (thr : ℝ) (u : Univ ℝ N ext H W) :
    maskIf thr u = Spec.alive thr u := by
  funext n e i j
  unfold maskIf Spec.alive
  by_cases h : 4 ≤ ext
  · simp only [dif_pos h, aliveMask, Arith.lt, Arith.mul, Arith.one, Arith.zero, decide_eq_true_eq]
    split <;> simp
  · simp only [dif_neg h]

theorem inChan_dvd {ext int : Nat} (hext : 0 < ext) (hd : ext ∣ int) (o : Fin int)
    (c : Fin (ext / groups ext int)) : inChan o c = Spec.source hext hd o := by
  have hg : groups ext int = ext := by simp [groups, Nat.mod_eq_zero_of_dvd hd]
  have h1 : ext / groups ext int = 1 := by rw [hg, Nat.div_self hext]
  apply Fin.ext
  have : c.val = 0 := by have := c.isLt; omega
  simp only [inChan, hg, this, Spec.source, Nat.div_self hext]; omega

theorem gathered_taps {ext int r : Nat} (hext : 0 < ext) (hd : ext ∣ int)
    (κ : Fin (2 * r + 1) → Fin (2 * r + 1) → ℝ) (x : Fin ext → Grid ℝ H W) (o : Fin int) (i : Fin H)
    (j : Fin W) :
    dot ((ConvLayer.ofKernel ext int .circular (2 * r + 1) κ).taps x o i j) =
      Spec.gathered κ (x (Spec.source hext hd o)) i j := by
  have hg : groups ext int = ext := by simp [groups, Nat.mod_eq_zero_of_dvd hd]
  have h1 : ext / groups ext int = 1 := by rw [hg, Nat.div_self hext]
  rw [conv_sum_ofKernel, sum_fin_one h1]
  unfold Spec.gathered
  refine Finset.sum_congr rfl fun a _ => Finset.sum_congr rfl fun b _ => ?_
  rw [inChan_dvd hext hd, rollIdx_eq_cyc, rollIdx_eq_cyc]
  have hr : (2 * r + 1 - 1) / 2 = r := by omega
  rw [hr]
  congr 3 <;> omega

theorem apply_torus {ext int r : Nat} (κ : Fin (2 * r + 1) → Fin (2 * r + 1) → ℝ)
    (u : Univ ℝ N ext H W) (hH : r ≤ H) (hW : r ≤ W) :
    (ConvLayer.ofKernel ext int .circular (2 * r + 1) κ).apply u =
      .ok fun n o i j => dot ((ConvLayer.ofKernel ext int .circular (2 * r + 1) κ).taps (u n) o i j) := by
  unfold ConvLayer.apply
  have hr : (2 * r + 1 - 1) / 2 = r := by omega
  rw [if_pos]
  refine ⟨by show (2 * r + 1) % 2 = 1; omega, ?_, ?_⟩
  · show decide ((2 * r + 1 - 1) / 2 ≤ H) = true; rw [hr]; simpa using hH
  · show decide ((2 * r + 1 - 1) / 2 ≤ W) = true; rw [hr]; simpa using hW

theorem perChannel_eq {int : Nat} {fns : List (ℝ → ℝ)} (hl : fns.length = int)
    (x : Univ ℝ N int H W) :
    perChannel fns x = .ok fun n o i j => chanFn fns o (x n o i j) := by
  unfold perChannel
  rw [dif_pos hl]
  congr 1
  funext n o i j
  rw [chanFn_get hl]

theorem identity_apply {ext int : Nat} (hext : 0 < ext) (hd : ext ∣ int) (u : Univ ℝ N ext H W)
    (hH : 1 ≤ H) (hW : 1 ≤ W) :
    (ConvLayer.ofKernel ext int .circular (2 * 1 + 1) identityKernel).apply u =
      .ok fun n o i j => u n (Spec.source hext hd o) i j := by
  rw [apply_torus _ _ hH hW]
  congr 1
  funext n o i j
  exact identity_taps_dvd hext hd .circular (u n) o i j

theorem relu_real (x : ℝ) : relu x = max 0 x := by
  unfold relu
  simp only [Arith.lt, Arith.zero, decide_eq_true_eq]
  split
  · rw [max_eq_left]; linarith
  · rw [max_eq_right]; linarith

/-! ## CCA and Lenia -/

/-- C76: one step of a `CCA` in functional mode with the default identity kernel.  Internal channel
`o` sees external channel `o / (int / ext)`; its growth is genesis where there is room and
persistence where there is something; every external channel gets the mean growth divided by the
number of external channels. -/
theorem cca_rule (d : CCADyn) (t : ℝ) (hm : d.mode = .circular) (hid : d.idLayer = ⟨1, identityKernel⟩)
    (hw : d.seqWeights = none) (hext : 0 < d.ext) (hd : d.ext ∣ d.int)
    (hg : d.genesis.length = d.int) (hp : d.persistence.length = d.int)
    (u : Univ ℝ N d.ext H W) (hH : 1 ≤ H ∧ d.nbLayer.1 ≤ H) (hW : 1 ≤ W ∧ d.nbLayer.1 ≤ W) :
    ∃ u', (d.toCCA t).forward u = .ok (u', d.toCCA (t + d.dt)) ∧
      ∀ n e i j,
        let x := Spec.alive d.thr u n
        u' n e i j = Spec.clip (x e i j + d.dt * (1 / (d.ext * d.int) * ∑ o : Fin d.int,
          ((1 - x (Spec.source hext hd o) i j) * (d.genesis.get (Fin.cast hg.symm o)).eval
              (Spec.gathered d.nbLayer.2 (x (Spec.source hext hd o)) i j) +
            x (Spec.source hext hd o) i j * (d.persistence.get (Fin.cast hp.symm o)).eval
              (Spec.gathered d.nbLayer.2 (x (Spec.source hext hd o)) i j)))) := by
  have hg' : (d.genesis.map Act.eval).length = d.int := by simpa using hg
  have hp' : (d.persistence.map Act.eval).length = d.int := by simpa using hp
  have hga : ∀ o : Fin d.int, chanFn (d.genesis.map Act.eval) o =
      (d.genesis.get (Fin.cast hg.symm o)).eval := by
    intro o; rw [← chanFn_get hg']; simp
  have hpa : ∀ o : Fin d.int, chanFn (d.persistence.map Act.eval) o =
      (d.persistence.get (Fin.cast hp.symm o)).eval := by
    intro o; rw [← chanFn_get hp']; simp
  have hidn : (d.toCCA t).idL.apply (maskIf d.thr u) =
      .ok fun n o i j => maskIf d.thr u n (Spec.source hext hd o) i j := by
    show (ConvLayer.ofKernel d.ext d.int d.mode (2 * d.idLayer.1 + 1) d.idLayer.2).apply _ = _
    rw [hid, hm]
    exact identity_apply hext hd _ hH.1 hW.1
  have hnb : (d.toCCA t).nbL.apply (maskIf d.thr u) =
      .ok fun n o i j => Spec.gathered d.nbLayer.2 (maskIf d.thr u n (Spec.source hext hd o)) i j := by
    show (ConvLayer.ofKernel d.ext d.int d.mode (2 * d.nbLayer.1 + 1) d.nbLayer.2).apply _ = _
    rw [hm, apply_torus _ _ hH.2 hW.2]
    congr 1
    funext n o i j
    rw [gathered_taps hext hd]
  refine ⟨?w, ?step, ?cell⟩
  case step =>
    unfold CCA.forward
    show (do
      let idn ← (d.toCCA t).idL.apply (maskIf d.thr u)
      let nb ← (d.toCCA t).nbL.apply (maskIf d.thr u)
      let upd ← (d.toCCA t).updateUniverse idn nb
      return (eulerClamp d.dt (maskIf d.thr u) upd, d.toCCA (t + d.dt))) = _
    rw [hidn, hnb]
    simp only [bind, Except.bind, CCA.updateUniverse, CCADyn.toCCA, perChannel_eq hg',
      perChannel_eq hp', pure, Except.pure]
    rfl
  case cell =>
    intro n e i j
    simp only [eulerClamp, clamp01_real, hw, Weights.apply, conv1x1, dot_finRange, maskIf_alive,
      hga, hpa]
    unfold Spec.clip
    rw [Finset.mul_sum]
    rfl

/-- Two external and four internal channels, a kernel of radius 1 that only looks right. -/
noncomputable def Witness.twoFour : CCADyn where
  ext := 2
  int := 4
  mode := .circular
  idLayer := ⟨1, identityKernel⟩
  nbLayer := ⟨1, fun a b => if a = 1 ∧ b = 2 then 1 else 0⟩
  genesis := List.replicate 4 .identity
  persistence := List.replicate 4 .identity
  seqWeights := none
  thr := 0.1
  dt := 0.5

/-- The hypotheses of C76 can be met on any non-empty grid. -/
example (u : Univ ℝ 3 2 8 8) : ∃ u', (Witness.twoFour.toCCA 0).forward u =
    .ok (u', Witness.twoFour.toCCA (0 + 0.5)) :=
  let ⟨u', h, _⟩ := cca_rule Witness.twoFour 0 rfl rfl rfl (by decide) (by decide : (2 : Nat) ∣ 4)
    (by simp [Witness.twoFour]) (by simp [Witness.twoFour]) u (by decide : 1 ≤ 8 ∧ 1 ≤ 8)
    (by decide : 1 ≤ 8 ∧ 1 ≤ 8)
  ⟨u', h⟩

/-- C76: the same for `Lenia`, where only the genesis functions count. -/
theorem lenia_rule (d : CCADyn) (t : ℝ) (hm : d.mode = .circular) (hid : d.idLayer = ⟨1, identityKernel⟩)
    (hw : d.seqWeights = none) (hext : 0 < d.ext) (hd : d.ext ∣ d.int)
    (hg : d.genesis.length = d.int)
    (u : Univ ℝ N d.ext H W) (hH : 1 ≤ H ∧ d.nbLayer.1 ≤ H) (hW : 1 ≤ W ∧ d.nbLayer.1 ≤ W) :
    ∃ u', (d.toCCA t).leniaForward u = .ok (u', d.toCCA (t + d.dt)) ∧
      ∀ n e i j,
        let x := Spec.alive d.thr u n
        u' n e i j = Spec.clip (x e i j + d.dt * (1 / (d.ext * d.int) * ∑ o : Fin d.int,
          (d.genesis.get (Fin.cast hg.symm o)).eval
            (Spec.gathered d.nbLayer.2 (x (Spec.source hext hd o)) i j))) := by
  have hg' : (d.genesis.map Act.eval).length = d.int := by simpa using hg
  have hga : ∀ o : Fin d.int, chanFn (d.genesis.map Act.eval) o =
      (d.genesis.get (Fin.cast hg.symm o)).eval := by
    intro o; rw [← chanFn_get hg']; simp
  have hidn : (d.toCCA t).idL.apply (maskIf d.thr u) =
      .ok fun n o i j => maskIf d.thr u n (Spec.source hext hd o) i j := by
    show (ConvLayer.ofKernel d.ext d.int d.mode (2 * d.idLayer.1 + 1) d.idLayer.2).apply _ = _
    rw [hid, hm]
    exact identity_apply hext hd _ hH.1 hW.1
  have hnb : (d.toCCA t).nbL.apply (maskIf d.thr u) =
      .ok fun n o i j => Spec.gathered d.nbLayer.2 (maskIf d.thr u n (Spec.source hext hd o)) i j := by
    show (ConvLayer.ofKernel d.ext d.int d.mode (2 * d.nbLayer.1 + 1) d.nbLayer.2).apply _ = _
    rw [hm, apply_torus _ _ hH.2 hW.2]
    congr 1
    funext n o i j
    rw [gathered_taps hext hd]
  refine ⟨?w, ?step, ?cell⟩
  case step =>
    unfold CCA.leniaForward
    show (do
      let _ ← (d.toCCA t).idL.apply (maskIf d.thr u)
      let nb ← (d.toCCA t).nbL.apply (maskIf d.thr u)
      let upd ← (d.toCCA t).leniaUpdateUniverse nb
      return (eulerClamp d.dt (maskIf d.thr u) upd, d.toCCA (t + d.dt))) = _
    rw [hidn, hnb]
    simp only [bind, Except.bind, CCA.leniaUpdateUniverse, CCADyn.toCCA, perChannel_eq hg',
      pure, Except.pure]
    rfl
  case cell =>
    intro n e i j
    simp only [eulerClamp, clamp01_real, hw, Weights.apply, conv1x1, dot_finRange, maskIf_alive,
      hga]
    unfold Spec.clip
    rw [Finset.mul_sum]
    rfl

/-- C76: the one-channel case, the textbook continuous automaton. -/
theorem cca_rule_one (d : CCADyn) (t : ℝ) (hm : d.mode = .circular)
    (hid : d.idLayer = ⟨1, identityKernel⟩) (hw : d.seqWeights = none)
    (he : d.ext = 1) (hi : d.int = 1) (g p : Act ℝ) (hg : d.genesis = [g]) (hp : d.persistence = [p])
    (u : Univ ℝ N d.ext H W) (hH : 1 ≤ H ∧ d.nbLayer.1 ≤ H) (hW : 1 ≤ W ∧ d.nbLayer.1 ≤ W) :
    ∃ u', (d.toCCA t).forward u = .ok (u', d.toCCA (t + d.dt)) ∧
      ∀ n e i j, u' n e i j = Spec.clip (u n e i j + d.dt *
        ((1 - u n e i j) * g.eval (Spec.gathered d.nbLayer.2 (u n e) i j) +
          u n e i j * p.eval (Spec.gathered d.nbLayer.2 (u n e) i j))) := by
  obtain ⟨ext, int, mode, idl, nbl, gen, per, sw, thr, dt⟩ := d
  simp only at hm hid hw he hi hg hp
  subst hm hid hw he hi hg hp
  obtain ⟨u', h1, h2⟩ := cca_rule (N := N) (H := H) (W := W)
    ⟨1, 1, .circular, ⟨1, identityKernel⟩, nbl, [g], [p], none, thr, dt⟩ t rfl rfl rfl
    Nat.one_pos (dvd_refl 1) rfl rfl u hH hW
  refine ⟨u', h1, fun n e i j => ?_⟩
  rw [h2 n e i j]
  have ha : Spec.alive thr u = u := by
    funext n e i j; unfold Spec.alive; rw [dif_neg (show ¬ 4 ≤ 1 by decide)]
  simp [ha, Subsingleton.elim (Spec.source _ _ _) e]

/-- C76: the one-channel case of Lenia. -/
theorem lenia_rule_one (d : CCADyn) (t : ℝ) (hm : d.mode = .circular)
    (hid : d.idLayer = ⟨1, identityKernel⟩) (hw : d.seqWeights = none)
    (he : d.ext = 1) (hi : d.int = 1) (g : Act ℝ) (hg : d.genesis = [g])
    (u : Univ ℝ N d.ext H W) (hH : 1 ≤ H ∧ d.nbLayer.1 ≤ H) (hW : 1 ≤ W ∧ d.nbLayer.1 ≤ W) :
    ∃ u', (d.toCCA t).leniaForward u = .ok (u', d.toCCA (t + d.dt)) ∧
      ∀ n e i j, u' n e i j = Spec.clip (u n e i j +
        d.dt * g.eval (Spec.gathered d.nbLayer.2 (u n e) i j)) := by
  obtain ⟨ext, int, mode, idl, nbl, gen, per, sw, thr, dt⟩ := d
  simp only at hm hid hw he hi hg
  subst hm hid hw he hi hg
  obtain ⟨u', h1, h2⟩ := lenia_rule (N := N) (H := H) (W := W)
    ⟨1, 1, .circular, ⟨1, identityKernel⟩, nbl, [g], per, none, thr, dt⟩ t rfl rfl rfl
    Nat.one_pos (dvd_refl 1) rfl u hH hW
  refine ⟨u', h1, fun n e i j => ?_⟩
  rw [h2 n e i j]
  have ha : Spec.alive thr u = u := by
    funext n e i j; unfold Spec.alive; rw [dif_neg (show ¬ 4 ≤ 1 by decide)]
  simp [ha, Subsingleton.elim (Spec.source _ _ _) e]

/-- C78: in functional mode every external channel of a cell is moved by the same amount; channels
only differ in what they already hold. -/
theorem cca_channels_move_together (d : CCADyn) (t : ℝ) (hm : d.mode = .circular)
    (hid : d.idLayer = ⟨1, identityKernel⟩) (hw : d.seqWeights = none) (hext : 0 < d.ext)
    (hd : d.ext ∣ d.int) (hg : d.genesis.length = d.int) (hp : d.persistence.length = d.int)
    (u : Univ ℝ N d.ext H W) (hH : 1 ≤ H ∧ d.nbLayer.1 ≤ H) (hW : 1 ≤ W ∧ d.nbLayer.1 ≤ W) :
    ∃ u', (d.toCCA t).forward u = .ok (u', d.toCCA (t + d.dt)) ∧
      ∃ move : Fin N → Grid ℝ H W,
        ∀ n e i j, u' n e i j = Spec.clip (Spec.alive d.thr u n e i j + move n i j) := by
  obtain ⟨u', h1, h2⟩ := cca_rule d t hm hid hw hext hd hg hp u hH hW
  exact ⟨u', h1, _, fun n e i j => h2 n e i j⟩

/-- C78: hence two channels that agree in a cell go on agreeing there. -/
theorem cca_equal_channels (d : CCADyn) (t : ℝ) (hm : d.mode = .circular)
    (hid : d.idLayer = ⟨1, identityKernel⟩) (hw : d.seqWeights = none) (hext : 0 < d.ext)
    (hd : d.ext ∣ d.int) (hg : d.genesis.length = d.int) (hp : d.persistence.length = d.int)
    (u : Univ ℝ N d.ext H W) (hH : 1 ≤ H ∧ d.nbLayer.1 ≤ H) (hW : 1 ≤ W ∧ d.nbLayer.1 ≤ W)
    (e e' : Fin d.ext) (n : Fin N) (i : Fin H) (j : Fin W) (he : u n e i j = u n e' i j) :
    ∃ u', (d.toCCA t).forward u = .ok (u', d.toCCA (t + d.dt)) ∧ u' n e i j = u' n e' i j := by
  obtain ⟨u', h1, mv, h2⟩ := cca_channels_move_together d t hm hid hw hext hd hg hp u hH hW
  refine ⟨u', h1, ?_⟩
  rw [h2, h2]
  have : Spec.alive d.thr u n e i j = Spec.alive d.thr u n e' i j := by
    unfold Spec.alive; rw [he]
  rw [this]

/-- C76: sequential mode replaces the mean by a perceptron with one hidden ReLU layer. -/
theorem cca_rule_sequential (d : CCADyn) (t : ℝ) (hm : d.mode = .circular)
    (hid : d.idLayer = ⟨1, identityKernel⟩) (w : (Nat → Nat → ℝ) × (Nat → Nat → ℝ))
    (hw : d.seqWeights = some w) (hext : 0 < d.ext) (hd : d.ext ∣ d.int)
    (hg : d.genesis.length = d.int) (hp : d.persistence.length = d.int)
    (u : Univ ℝ N d.ext H W) (hH : 1 ≤ H ∧ d.nbLayer.1 ≤ H) (hW : 1 ≤ W ∧ d.nbLayer.1 ≤ W) :
    ∃ u', (d.toCCA t).forward u = .ok (u', d.toCCA (t + d.dt)) ∧
      ∀ n e i j,
        let x := Spec.alive d.thr u n
        u' n e i j = Spec.clip (x e i j + d.dt * ∑ h : Fin d.int, w.2 e h * max 0 (∑ o : Fin d.int,
          w.1 h o *
          ((1 - x (Spec.source hext hd o) i j) * (d.genesis.get (Fin.cast hg.symm o)).eval
              (Spec.gathered d.nbLayer.2 (x (Spec.source hext hd o)) i j) +
            x (Spec.source hext hd o) i j * (d.persistence.get (Fin.cast hp.symm o)).eval
              (Spec.gathered d.nbLayer.2 (x (Spec.source hext hd o)) i j)))) := by
  have hg' : (d.genesis.map Act.eval).length = d.int := by simpa using hg
  have hp' : (d.persistence.map Act.eval).length = d.int := by simpa using hp
  have hga : ∀ o : Fin d.int, chanFn (d.genesis.map Act.eval) o =
      (d.genesis.get (Fin.cast hg.symm o)).eval := by
    intro o; rw [← chanFn_get hg']; simp
  have hpa : ∀ o : Fin d.int, chanFn (d.persistence.map Act.eval) o =
      (d.persistence.get (Fin.cast hp.symm o)).eval := by
    intro o; rw [← chanFn_get hp']; simp
  have hidn : (d.toCCA t).idL.apply (maskIf d.thr u) =
      .ok fun n o i j => maskIf d.thr u n (Spec.source hext hd o) i j := by
    show (ConvLayer.ofKernel d.ext d.int d.mode (2 * d.idLayer.1 + 1) d.idLayer.2).apply _ = _
    rw [hid, hm]
    exact identity_apply hext hd _ hH.1 hW.1
  have hnb : (d.toCCA t).nbL.apply (maskIf d.thr u) =
      .ok fun n o i j => Spec.gathered d.nbLayer.2 (maskIf d.thr u n (Spec.source hext hd o)) i j := by
    show (ConvLayer.ofKernel d.ext d.int d.mode (2 * d.nbLayer.1 + 1) d.nbLayer.2).apply _ = _
    rw [hm, apply_torus _ _ hH.2 hW.2]
    congr 1
    funext n o i j
    rw [gathered_taps hext hd]
  refine ⟨?w, ?step, ?cell⟩
  case step =>
    unfold CCA.forward
    show (do
      let idn ← (d.toCCA t).idL.apply (maskIf d.thr u)
      let nb ← (d.toCCA t).nbL.apply (maskIf d.thr u)
      let upd ← (d.toCCA t).updateUniverse idn nb
      return (eulerClamp d.dt (maskIf d.thr u) upd, d.toCCA (t + d.dt))) = _
    rw [hidn, hnb]
    simp only [bind, Except.bind, CCA.updateUniverse, CCADyn.toCCA, perChannel_eq hg',
      perChannel_eq hp', pure, Except.pure]
    rfl
  case cell =>
    intro n e i j
    simp only [eulerClamp, clamp01_real, hw, Weights.apply, conv1x1, dot_finRange, maskIf_alive,
      hga, hpa, relu_real]
    rfl

/-! ## Base class, NCA -/

/-- C76: the base class adds cell and neighbourhood. -/
theorem base_rule {ext r : Nat} (ca : BaseCA ℝ ext) (κ : Fin (2 * r + 1) → Fin (2 * r + 1) → ℝ)
    (hid : ca.idL = identityLayer ext ext .circular)
    (hnb : ca.nbL = .ofKernel ext ext .circular (2 * r + 1) κ) (hext : 0 < ext)
    (u : Univ ℝ N ext H W) (hH : 1 ≤ H ∧ r ≤ H) (hW : 1 ≤ W ∧ r ≤ W) :
    ∃ u', ca.forward u = .ok (u', { ca with t := ca.t + ca.dt }) ∧
      ∀ n e i j,
        let x := Spec.alive ca.thr u n
        u' n e i j = Spec.clip (x e i j + ca.dt * (x e i j + Spec.gathered κ (x e) i j)) := by
  have hsrc : ∀ e : Fin ext, Spec.source hext (dvd_refl ext) e = e := by
    intro e; apply Fin.ext; simp [Spec.source, Nat.div_self hext]
  have h1 : ca.idL.apply (maskIf ca.thr u) = .ok fun n o i j => maskIf ca.thr u n o i j := by
    rw [hid]
    refine (identity_apply hext (dvd_refl ext) _ hH.1 hW.1).trans ?_
    simp only [hsrc]
  have h2 : ca.nbL.apply (maskIf ca.thr u) =
      .ok fun n o i j => Spec.gathered κ (maskIf ca.thr u n o) i j := by
    rw [hnb, apply_torus _ _ hH.2 hW.2]
    congr 1
    funext n o i j
    rw [gathered_taps hext (dvd_refl ext), hsrc]
  refine ⟨?w, ?step, ?cell⟩
  case step =>
    unfold BaseCA.forward
    simp only [h1, h2, bind, Except.bind, pure, Except.pure]
    rfl
  case cell =>
    intro n e i j
    simp only [eulerClamp, clamp01_real, BaseCA.updateUniverse, maskIf_alive]
    rfl

/-- C76: an `NCA` feeds cell contents and neighbourhoods through a three-layer perceptron.  In
evaluation mode; the input of the first layer is all cell channels followed by all
neighbourhoods. -/
theorem nca_rule {ext hid r : Nat} (ca : NCA ℝ ext ext hid)
    (κ : Fin (2 * r + 1) → Fin (2 * r + 1) → ℝ)
    (hid' : ca.idL = identityLayer ext ext .circular)
    (hnb : ca.nbL = .ofKernel ext ext .circular (2 * r + 1) κ) (hext : 0 < ext)
    (u : Univ ℝ N ext H W) (hH : 1 ≤ H ∧ r ≤ H) (hW : 1 ≤ W ∧ r ≤ W) :
    ∃ u', ca.forward none u = .ok (u', { ca with t := ca.t + ca.dt }) ∧
      ∀ n e i j,
        let x := Spec.alive ca.thr u n
        let first (p : Fin hid) : ℝ := ca.act₁ (∑ c : Fin ext, ca.w₁ p (Fin.castAdd ext c) * x c i j +
          ∑ c : Fin ext, ca.w₁ p (Fin.natAdd ext c) * Spec.gathered κ (x c) i j)
        let second (q : Fin hid) : ℝ := ca.act₂ (∑ p, ca.w₂ q p * first p)
        u' n e i j = Spec.clip (x e i j + ca.dt * Real.tanh (∑ q, ca.w₃ e q * second q)) := by
  have hsrc : ∀ e : Fin ext, Spec.source hext (dvd_refl ext) e = e := by
    intro e; apply Fin.ext; simp [Spec.source, Nat.div_self hext]
  have h1 : ca.idL.apply (maskIf ca.thr u) = .ok fun n o i j => maskIf ca.thr u n o i j := by
    rw [hid']
    refine (identity_apply hext (dvd_refl ext) _ hH.1 hW.1).trans ?_
    simp only [hsrc]
  have h2 : ca.nbL.apply (maskIf ca.thr u) =
      .ok fun n o i j => Spec.gathered κ (maskIf ca.thr u n o) i j := by
    rw [hnb, apply_torus _ _ hH.2 hW.2]
    congr 1
    funext n o i j
    rw [gathered_taps hext (dvd_refl ext), hsrc]
  refine ⟨?w, ?step, ?cell⟩
  case step =>
    unfold NCA.forward
    simp only [h1, h2, bind, Except.bind, pure, Except.pure, NCA.updateUniverse, dite_true]
    rfl
  case cell =>
    intro n e i j
    simp only [eulerClamp, clamp01_real, conv1x1, dot_finRange, maskIf_alive, catChannels,
      Fin.sum_univ_add, Fin.addCases_left, Fin.addCases_right]
    rfl

/-- The hypotheses of `nca_rule` and `base_rule` can be met. -/
example (u : Univ ℝ 1 5 8 8) (w₁ : Fin 7 → Fin 10 → ℝ) (w₂ : Fin 7 → Fin 7 → ℝ)
    (w₃ : Fin 5 → Fin 7 → ℝ) : ∃ r r', (NCA.mk (identityLayer 5 5 .circular)
      (.ofKernel 5 5 .circular 3 laplacian9) w₁ Real.tanh w₂ Real.tanh w₃ 0.1 0.5 0).forward none u = .ok r ∧
      (BaseCA.mk (identityLayer 5 5 .circular) (.ofKernel 5 5 .circular 3 laplacian9)
        0.1 0.5 0).forward u = .ok r' :=
  let ⟨_, h, _⟩ := nca_rule (r := 1) _ _ rfl rfl (by decide) u (by decide) (by decide)
  let ⟨_, h', _⟩ := base_rule (r := 1) _ _ rfl rfl (by decide) u (by decide) (by decide)
  ⟨_, _, h, h'⟩

/-! ## Gray-Scott -/

/-- C77: one step of `RxnDfn` is one explicit Euler step of the Gray-Scott equations, with the
kernel divided by `dx²` as the Laplacian. -/
theorem rxn_rule {r : Nat} (ca : RxnDfn ℝ) (κ : Fin (2 * r + 1) → Fin (2 * r + 1) → ℝ)
    (hid : ca.idL = identityLayer 2 2 .circular)
    (hnb : ca.nbL = .ofKernel 2 2 .circular (2 * r + 1) κ)
    (x : Univ ℝ N 2 H W) (hH : 1 ≤ H ∧ r ≤ H) (hW : 1 ≤ W ∧ r ≤ W) :
    ∃ x', ca.forward x = .ok (x', { ca with t := ca.t + ca.dt }) ∧
      ∀ n i j,
        let u := x n 0 i j
        let v := x n 1 i j
        x' n 0 i j = Spec.clip (u + ca.dt *
          (ca.diffU * (Spec.gathered κ (x n 0) i j / ca.dx ^ 2) - u * v ^ 2 + ca.f * (1 - u))) ∧
        x' n 1 i j = Spec.clip (v + ca.dt *
          (ca.diffV * (Spec.gathered κ (x n 1) i j / ca.dx ^ 2) + u * v ^ 2 - (ca.f + ca.k) * v)) := by
  have hsrc : ∀ e : Fin 2, Spec.source two_pos (dvd_refl 2) e = e := by decide
  have h1 : ca.idL.apply x = .ok fun n o i j => x n o i j := by
    rw [hid]
    refine (identity_apply two_pos (dvd_refl 2) _ hH.1 hW.1).trans ?_
    simp only [hsrc]
  have h2 : ca.nbL.apply x = .ok fun n o i j => Spec.gathered κ (x n o) i j := by
    rw [hnb, apply_torus _ _ hH.2 hW.2]
    congr 1
    funext n o i j
    rw [gathered_taps two_pos (dvd_refl 2), hsrc]
  refine ⟨?w, ?step, ?cell⟩
  case step =>
    unfold RxnDfn.forward
    simp only [h1, h2, bind, Except.bind, pure, Except.pure]
    rfl
  case cell =>
    intro n i j
    simp only [eulerClamp, clamp01_real, RxnDfn.updateUniverse, Arith.mul, Arith.add, Arith.sub,
      Arith.div, Arith.one, Spec.clip, if_true, if_neg (by decide : ¬ (1 : Fin 2) = 0), pow_two,
      mul_assoc, and_self]

/-- C77: the parameters of the default automaton, which meets the hypotheses with `r = 1`. -/
theorem rxn_default_rule (x : Univ ℝ N 2 H W) (hH : 1 ≤ H) (hW : 1 ≤ W) :
    ∃ κ : Fin 3 → Fin 3 → ℝ, ∃ x' ca', (∑ a, ∑ b, κ a b = 0) ∧
      RxnDfn.default.forward x = .ok (x', ca') ∧
      ∀ n i j,
        let u := x n 0 i j
        let v := x n 1 i j
        x' n 0 i j = Spec.clip (u + 0.5 * (2e-5 * (Spec.gathered (r := 1) κ (x n 0) i j * 330 ^ 2) -
          u * v ^ 2 + 0.062 * (1 - u))) ∧
        x' n 1 i j = Spec.clip (v + 0.5 * (1e-5 * (Spec.gathered (r := 1) κ (x n 1) i j * 330 ^ 2) +
          u * v ^ 2 - 0.1229 * v)) := by
  obtain ⟨x', h1, h2⟩ := rxn_rule (r := 1) RxnDfn.default _ rfl rfl x ⟨hH, hH⟩ ⟨hW, hW⟩
  refine ⟨_, x', _, log_sum (r := 1) 0.5 (radialGrid 1), h1, fun n i j => ?_⟩
  have e1 : ∀ y : ℝ, y / RxnDfn.default.dx ^ 2 = y * 330 ^ 2 := by
    intro y; show y / (1 / 330 : ℝ) ^ 2 = _; ring
  have e2 : RxnDfn.default.f + RxnDfn.default.k = 0.1229 := by norm_num [RxnDfn.default]
  have := h2 n i j
  have e3 : RxnDfn.default.f = 0.062 := by norm_num [RxnDfn.default]
  simp only [e1, e2] at this
  rw [e3] at this
  exact this

end Yuca
