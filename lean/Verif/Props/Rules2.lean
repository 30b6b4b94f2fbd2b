import Verif.Props.Rules

/-!
# The rules of RandomStepCA, CODE and MetaCA, and what get_frame returns (C80, C81)

Over exact reals, on the torus.
-/

namespace Yuca

open Arith

variable {N H W : Nat}

/-- An automaton in functional mode on the torus with the default identity kernel and one growth
function of each kind per internal channel. -/
structure Spec.Plain (d : CCADyn) : Prop where
  mode : d.mode = .circular
  idLayer : d.idLayer = ⟨1, identityKernel⟩
  functional : d.seqWeights = none
  ext_pos : 0 < d.ext
  dvd : d.ext ∣ d.int
  gen : d.genesis.length = d.int
  per : d.persistence.length = d.int

/-- The growth of a cell: the mean over internal channels of genesis where there is room and
persistence where there is something, divided by the number of external channels. -/
noncomputable def Spec.growth {d : CCADyn} (p : Spec.Plain d) (x : Fin d.ext → Grid ℝ H W)
    (i : Fin H) (j : Fin W) : ℝ :=
  1 / (d.ext * d.int) * ∑ o : Fin d.int,
    ((1 - x (Spec.source p.ext_pos p.dvd o) i j) * (d.genesis.get (Fin.cast p.gen.symm o)).eval
        (Spec.gathered d.nbLayer.2 (x (Spec.source p.ext_pos p.dvd o)) i j) +
      x (Spec.source p.ext_pos p.dvd o) i j * (d.persistence.get (Fin.cast p.per.symm o)).eval
        (Spec.gathered d.nbLayer.2 (x (Spec.source p.ext_pos p.dvd o)) i j))

section

variable {d : CCADyn} (p : Spec.Plain d) (t : ℝ)

theorem plain_identity (u : Univ ℝ N d.ext H W) (hH : 1 ≤ H) (hW : 1 ≤ W) :
    (d.toCCA t).idL.apply u = .ok fun n o i j => u n (Spec.source p.ext_pos p.dvd o) i j := by
  show (ConvLayer.ofKernel d.ext d.int d.mode (2 * d.idLayer.1 + 1) d.idLayer.2).apply _ = _
  rw [p.idLayer, p.mode]
  exact identity_apply p.ext_pos p.dvd _ hH hW

theorem plain_neighborhood (u : Univ ℝ N d.ext H W) (hH : d.nbLayer.1 ≤ H) (hW : d.nbLayer.1 ≤ W) :
    (d.toCCA t).nbL.apply u =
      .ok fun n o i j => Spec.gathered d.nbLayer.2 (u n (Spec.source p.ext_pos p.dvd o)) i j := by
  show (ConvLayer.ofKernel d.ext d.int d.mode (2 * d.nbLayer.1 + 1) d.nbLayer.2).apply _ = _
  rw [p.mode, apply_torus _ _ hH hW]
  congr 1
  funext n o i j
  rw [gathered_taps p.ext_pos p.dvd]

theorem plain_update (u : Univ ℝ N d.ext H W) :
    (d.toCCA t).updateUniverse (fun n o i j => u n (Spec.source p.ext_pos p.dvd o) i j)
      (fun n o i j => Spec.gathered d.nbLayer.2 (u n (Spec.source p.ext_pos p.dvd o)) i j) =
      .ok fun n _ i j => Spec.growth p (u n) i j := by
  have hg' : (d.genesis.map Act.eval).length = d.int := by simpa using p.gen
  have hp' : (d.persistence.map Act.eval).length = d.int := by simpa using p.per
  have hga : ∀ o : Fin d.int, chanFn (d.genesis.map Act.eval) o =
      (d.genesis.get (Fin.cast p.gen.symm o)).eval := by
    intro o; rw [← chanFn_get hg']; simp
  have hpa : ∀ o : Fin d.int, chanFn (d.persistence.map Act.eval) o =
      (d.persistence.get (Fin.cast p.per.symm o)).eval := by
    intro o; rw [← chanFn_get hp']; simp
  simp only [bind, Except.bind, CCA.updateUniverse, CCADyn.toCCA, perChannel_eq hg',
    perChannel_eq hp', pure, Except.pure]
  congr 1
  funext n e i j
  simp only [p.functional, Weights.apply, conv1x1, dot_finRange, hga, hpa]
  unfold Spec.growth
  rw [Finset.mul_sum]
  rfl

end

/-- C80: one step of `RandomStepCA`: the rule of a `CCA` with a step size drawn anew, between
`min_dt` and `max_dt`, which simulated time advances by. -/
theorem randomStep_rule {d : CCADyn} (p : Spec.Plain d) (t : ℝ) (prev mx mn r : ℝ)
    (u : Univ ℝ N d.ext H W) (hH : 1 ≤ H ∧ d.nbLayer.1 ≤ H) (hW : 1 ≤ W ∧ d.nbLayer.1 ≤ W) :
    let dt := mn + r * (mx - mn)
    ∃ u', RandomStepCA.forward ⟨d.toCCA t, prev, mx, mn⟩ r u =
        .ok (u', ⟨{ d.toCCA (t + dt) with dt := dt }, dt, mx, mn⟩) ∧
      ∀ n e i j, u' n e i j = Spec.clip (Spec.alive d.thr u n e i j +
        dt * Spec.growth p (Spec.alive d.thr u n) i j) := by
  intro dt
  have hdt : add (mul r (sub mx mn)) mn = dt := by
    show r * (mx - mn) + mn = _; simp only [dt]; ring
  refine ⟨?w, ?step, ?cell⟩
  case step =>
    show (do
      let idn ← (d.toCCA t).idL.apply (maskIf d.thr u)
      let nb ← (d.toCCA t).nbL.apply (maskIf d.thr u)
      let upd ← (d.toCCA t).updateUniverse idn nb
      let dt' := add (mul r (sub mx mn)) mn
      return (eulerClamp dt' (maskIf d.thr u) upd, (⟨{ d.toCCA (add t dt') with dt := dt' },
        mul one dt', mx, mn⟩ : RandomStepCA ℝ d.ext d.int))) = _
    rw [plain_identity p t _ hH.1 hW.1, plain_neighborhood p t _ hH.2 hW.2]
    simp only [bind, Except.bind]
    rw [plain_update p t]
    simp only [hdt, pure, Except.pure]
    have : mul one dt = dt := one_mul dt
    rw [this]
    rfl
  case cell =>
    intro n e i j
    simp only [eulerClamp, clamp01_real, maskIf_alive]
    rfl

/-- C80: the grid `CODE` computes for one candidate step size. -/
theorem code_grid_rule {d : CCADyn} (p : Spec.Plain d) (t prev mx mn thr dt : ℝ)
    (u : Univ ℝ N d.ext H W) (hH : 1 ≤ H ∧ d.nbLayer.1 ≤ H) (hW : 1 ≤ W ∧ d.nbLayer.1 ≤ W) :
    ∃ u', CODE.getNewGrid ⟨d.toCCA t, prev, mx, mn, thr⟩ dt u = .ok u' ∧
      ∀ n e i j, u' n e i j = Spec.clip (Spec.alive d.thr u n e i j +
        dt * Spec.growth p (Spec.alive d.thr u n) i j) := by
  refine ⟨?w, ?step, ?cell⟩
  case step =>
    show (do
      let idn ← (d.toCCA t).idL.apply (maskIf d.thr u)
      let nb ← (d.toCCA t).nbL.apply (maskIf d.thr u)
      let upd ← (d.toCCA t).updateUniverse idn nb
      return (eulerClamp dt (maskIf d.thr u) upd)) = _
    rw [plain_identity p t _ hH.1 hW.1, plain_neighborhood p t _ hH.2 hW.2]
    simp only [bind, Except.bind]
    rw [plain_update p t]
    rfl
  case cell =>
    intro n e i j
    simp only [eulerClamp, clamp01_real, maskIf_alive]
    rfl

/-- C80: one step of `MetaCA`: growth changes the momentum, the momentum the universe.  The
momentum is the one left by the last call on a universe of the same shape, else zero; simulated
time does not advance. -/
theorem meta_rule {d : CCADyn} (p : Spec.Plain d) (t ddt : ℝ) (m : Momentum ℝ d.ext)
    (u : Univ ℝ N d.ext H W) (hH : 1 ≤ H ∧ d.nbLayer.1 ≤ H) (hW : 1 ≤ W ∧ d.nbLayer.1 ≤ W)
    (v : Univ ℝ N d.ext H W)
    (hv : m = some ⟨(N, H, W), v⟩ ∨ (v = fun _ _ _ _ => 0) ∧ ∀ w, m ≠ some ⟨(N, H, W), w⟩) :
    ∃ u' v', MetaCA.forward ⟨d.toCCA t, ddt, m⟩ u =
        .ok (u', ⟨d.toCCA t, ddt, some ⟨(N, H, W), v'⟩⟩) ∧
      (∀ n e i j, v' n e i j = v n e i j + ddt * Spec.growth p (Spec.alive d.thr u n) i j) ∧
      ∀ n e i j, u' n e i j = Spec.clip (Spec.alive d.thr u n e i j + d.dt * v' n e i j) := by
  have hm : Momentum.forShape m N H W = v := by
    rcases hv with rfl | ⟨rfl, hne⟩
    · simp [Momentum.forShape]
    · unfold Momentum.forShape
      cases m with
      | none => rfl
      | some q =>
        obtain ⟨s, w⟩ := q
        have : s ≠ (N, H, W) := by rintro rfl; exact hne w rfl
        simp only [dif_neg this]
        rfl
  refine ⟨?w, ?v, ?step, ?mom, ?cell⟩
  case step =>
    show (do
      let idn ← (d.toCCA t).idL.apply (maskIf d.thr u)
      let nb ← (d.toCCA t).nbL.apply (maskIf d.thr u)
      let upd ← (d.toCCA t).updateUniverse idn nb
      let d' : Univ ℝ N d.ext H W := fun n c i j =>
        add (Momentum.forShape m N H W n c i j) (mul ddt (upd n c i j))
      return (eulerClamp d.dt (maskIf d.thr u) d',
        (⟨d.toCCA t, ddt, some ⟨(N, H, W), d'⟩⟩ : MetaCA ℝ d.ext d.int))) = _
    rw [plain_identity p t _ hH.1 hW.1, plain_neighborhood p t _ hH.2 hW.2]
    simp only [bind, Except.bind]
    rw [plain_update p t, hm]
    rfl
  case mom =>
    intro n e i j
    simp only [maskIf_alive]
    rfl
  case cell =>
    intro n e i j
    simp only [eulerClamp, clamp01_real, maskIf_alive]
    rfl

/-- C80: after `reset()` the first step of `MetaCA` is a `CCA` step with step size `dt * ddt`. -/
theorem meta_first_step {d : CCADyn} (p : Spec.Plain d) (t ddt : ℝ) (m : Momentum ℝ d.ext)
    (u : Univ ℝ N d.ext H W) (hH : 1 ≤ H ∧ d.nbLayer.1 ≤ H) (hW : 1 ≤ W ∧ d.nbLayer.1 ≤ W) :
    ∃ u' s', MetaCA.forward (MetaCA.reset ⟨d.toCCA t, ddt, m⟩) u = .ok (u', s') ∧
      ∀ n e i j, u' n e i j = Spec.clip (Spec.alive d.thr u n e i j +
        d.dt * ddt * Spec.growth p (Spec.alive d.thr u n) i j) := by
  obtain ⟨u', v', h1, h2, h3⟩ := meta_rule p t ddt none u hH hW (fun _ _ _ _ => 0)
    (.inr ⟨rfl, fun w h => by cases h⟩)
  refine ⟨u', _, h1, fun n e i j => ?_⟩
  rw [h3, h2]
  congr 1
  ring

/-- C80: inertia.  A `MetaCA` universe can go on changing where there is no growth at all: a cell
with non-zero momentum and zero growth moves by `dt` times the momentum. -/
theorem meta_inertia {d : CCADyn} (p : Spec.Plain d) (t ddt : ℝ)
    (u v : Univ ℝ N d.ext H W) (hH : 1 ≤ H ∧ d.nbLayer.1 ≤ H) (hW : 1 ≤ W ∧ d.nbLayer.1 ≤ W)
    (n : Fin N) (i : Fin H) (j : Fin W) (hz : Spec.growth p (Spec.alive d.thr u n) i j = 0) :
    ∃ u' s', MetaCA.forward ⟨d.toCCA t, ddt, some ⟨(N, H, W), v⟩⟩ u = .ok (u', s') ∧
      ∀ e, u' n e i j = Spec.clip (Spec.alive d.thr u n e i j + d.dt * v n e i j) := by
  obtain ⟨u', v', h1, h2, h3⟩ := meta_rule p t ddt (some ⟨(N, H, W), v⟩) u hH hW v (.inl rfl)
  refine ⟨u', _, h1, fun e => ?_⟩
  rw [h3, h2, hz]
  simp

/-- C81: what `CCA.get_frame` returns in each mode: the next universe (without the alive mask),
with the neighborhoods and the growth as asked for.  Other modes give nothing. -/
theorem frame_rule {d : CCADyn} (p : Spec.Plain d) (t : ℝ) (u : Univ ℝ N d.ext H W)
    (hH : 1 ≤ H ∧ d.nbLayer.1 ≤ H) (hW : 1 ≤ W ∧ d.nbLayer.1 ≤ W) :
    ∃ (new : Univ ℝ N d.ext H W) (nb : Univ ℝ N d.int H W) (upd : Univ ℝ N d.ext H W),
      (∀ n o i j, nb n o i j =
        Spec.gathered d.nbLayer.2 (u n (Spec.source p.ext_pos p.dvd o)) i j) ∧
      (∀ n e i j, upd n e i j = Spec.growth p (u n) i j) ∧
      (∀ n e i j, new n e i j = Spec.clip (u n e i j + d.dt * upd n e i j)) ∧
      (d.toCCA t).getFrame u 0 = .ok (.new new) ∧
      (d.toCCA t).getFrame u 1 = .ok (.newNb new nb) ∧
      (d.toCCA t).getFrame u 2 = .ok (.newUpd new upd) ∧
      (d.toCCA t).getFrame u 3 = .ok (.newNbUpd new nb upd) ∧
      (d.toCCA t).getFrame u 4 = .ok (.all new u nb upd) ∧
      ∀ mode : Int, mode < 0 ∨ 4 < mode → (d.toCCA t).getFrame u mode = .ok .none := by
  have h : ∀ mode, (d.toCCA t).getFrame u mode = .ok (
      let nb : Univ ℝ N d.int H W := fun n o i j =>
        Spec.gathered d.nbLayer.2 (u n (Spec.source p.ext_pos p.dvd o)) i j
      let upd : Univ ℝ N d.ext H W := fun n _ i j => Spec.growth p (u n) i j
      let new := eulerClamp d.dt u upd
      if mode = 0 then .new new
      else if mode = 1 then .newNb new nb
      else if mode = 2 then .newUpd new upd
      else if mode = 3 then .newNbUpd new nb upd
      else if mode = 4 then .all new u nb upd
      else .none) := by
    intro mode
    unfold CCA.getFrame
    rw [plain_identity p t _ hH.1 hW.1, plain_neighborhood p t _ hH.2 hW.2]
    simp only [bind, Except.bind]
    rw [plain_update p t]
    rfl
  refine ⟨eulerClamp d.dt u fun n _ i j => Spec.growth p (u n) i j,
    fun n o i j => Spec.gathered d.nbLayer.2 (u n (Spec.source p.ext_pos p.dvd o)) i j,
    fun n _ i j => Spec.growth p (u n) i j, fun _ _ _ _ => rfl, fun _ _ _ _ => rfl, ?_, ?_, ?_, ?_,
    ?_, ?_, ?_⟩
  · intro n e i j
    simp only [eulerClamp, clamp01_real]
    rfl
  · rw [h]; rfl
  · rw [h]; rfl
  · rw [h]; rfl
  · rw [h]; rfl
  · rw [h]; rfl
  · intro mode hmode
    rw [h]
    simp only
    rw [if_neg (by omega), if_neg (by omega), if_neg (by omega), if_neg (by omega),
      if_neg (by omega)]

/-- C81: what `Lenia.get_frame` returns in mode 0, again without the alive mask. -/
theorem lenia_frame_rule {d : CCADyn} (p : Spec.Plain d) (t : ℝ) (u : Univ ℝ N d.ext H W)
    (hH : 1 ≤ H ∧ d.nbLayer.1 ≤ H) (hW : 1 ≤ W ∧ d.nbLayer.1 ≤ W) :
    ∃ new, (d.toCCA t).leniaGetFrame0 u = .ok new ∧
      ∀ n e i j, new n e i j = Spec.clip (u n e i j + d.dt * (1 / (d.ext * d.int) *
        ∑ o : Fin d.int, (d.genesis.get (Fin.cast p.gen.symm o)).eval
          (Spec.gathered d.nbLayer.2 (u n (Spec.source p.ext_pos p.dvd o)) i j))) := by
  have hg' : (d.genesis.map Act.eval).length = d.int := by simpa using p.gen
  have hga : ∀ o : Fin d.int, chanFn (d.genesis.map Act.eval) o =
      (d.genesis.get (Fin.cast p.gen.symm o)).eval := by
    intro o; rw [← chanFn_get hg']; simp
  refine ⟨?w, ?step, ?cell⟩
  case step =>
    unfold CCA.leniaGetFrame0
    rw [plain_identity p t _ hH.1 hW.1, plain_neighborhood p t _ hH.2 hW.2]
    simp only [bind, Except.bind, CCA.leniaUpdateUniverse, CCADyn.toCCA, perChannel_eq hg',
      pure, Except.pure]
    rfl
  case cell =>
    intro n e i j
    simp only [eulerClamp, clamp01_real, p.functional, Weights.apply, conv1x1, dot_finRange, hga]
    unfold Spec.clip
    rw [Finset.mul_sum]
    rfl

/-- C81: what `NCA.get_frame` returns in mode 0 (evaluation mode). -/
theorem nca_frame_rule {ext hid r : Nat} (ca : NCA ℝ ext ext hid)
    (κ : Fin (2 * r + 1) → Fin (2 * r + 1) → ℝ)
    (hid' : ca.idL = identityLayer ext ext .circular)
    (hnb : ca.nbL = .ofKernel ext ext .circular (2 * r + 1) κ) (hext : 0 < ext)
    (u : Univ ℝ N ext H W) (hH : 1 ≤ H ∧ r ≤ H) (hW : 1 ≤ W ∧ r ≤ W) :
    ∃ new, ca.getFrame0 none u = .ok new ∧
      ∀ n e i j,
        let first (p : Fin hid) : ℝ := ca.act₁ (∑ c : Fin ext, ca.w₁ p (Fin.castAdd ext c) * u n c i j +
          ∑ c : Fin ext, ca.w₁ p (Fin.natAdd ext c) * Spec.gathered κ (u n c) i j)
        let second (q : Fin hid) : ℝ := ca.act₂ (∑ p, ca.w₂ q p * first p)
        new n e i j = Spec.clip (u n e i j + ca.dt * Real.tanh (∑ q, ca.w₃ e q * second q)) := by
  have hsrc : ∀ e : Fin ext, Spec.source hext (dvd_refl ext) e = e := by
    intro e; apply Fin.ext; simp [Spec.source, Nat.div_self hext]
  have h1 : ca.idL.apply u = .ok u := by
    rw [hid']
    refine (identity_apply hext (dvd_refl ext) _ hH.1 hW.1).trans ?_
    simp only [hsrc]
  have h2 : ca.nbL.apply u = .ok fun n o i j => Spec.gathered κ (u n o) i j := by
    rw [hnb, apply_torus _ _ hH.2 hW.2]
    congr 1
    funext n o i j
    rw [gathered_taps hext (dvd_refl ext), hsrc]
  refine ⟨?w, ?step, ?cell⟩
  case step =>
    unfold NCA.getFrame0
    simp only [h1, h2, bind, Except.bind, pure, Except.pure, NCA.updateUniverse, dite_true]
    rfl
  case cell =>
    intro n e i j
    simp only [eulerClamp, clamp01_real, conv1x1, dot_finRange, catChannels,
      Fin.sum_univ_add, Fin.addCases_left, Fin.addCases_right]
    rfl

/-- The two-by-four automaton of C76 is of this kind. -/
theorem Witness.twoFour_plain : Spec.Plain Witness.twoFour :=
  ⟨rfl, rfl, rfl, by decide, (by decide : (2 : Nat) ∣ 4), by simp [Witness.twoFour],
    by simp [Witness.twoFour]⟩

example (u : Univ ℝ 3 2 8 8) : ∃ u' s', RandomStepCA.forward
    ⟨Witness.twoFour.toCCA 0, 0.3, 0.25, 0.05⟩ 0.5 u = .ok (u', s') :=
  let ⟨u', h, _⟩ := randomStep_rule Witness.twoFour_plain 0 0.3 0.25 0.05 0.5 u
    (by decide : 1 ≤ 8 ∧ 1 ≤ 8) (by decide : 1 ≤ 8 ∧ 1 ≤ 8)
  ⟨u', _, h⟩

example (u : Univ ℝ 3 2 8 8) : ∃ u' s', MetaCA.forward
    (MetaCA.reset ⟨Witness.twoFour.toCCA 0, 0.25, none⟩) u = .ok (u', s') :=
  let ⟨u', s', h, _⟩ := meta_first_step Witness.twoFour_plain 0 0.25 none u
    (by decide : 1 ≤ 8 ∧ 1 ≤ 8) (by decide : 1 ≤ 8 ∧ 1 ≤ 8)
  ⟨u', s', h⟩

example (u : Univ ℝ 3 2 8 8) : ∃ v, (Witness.twoFour.toCCA 0).leniaGetFrame0 u = .ok v :=
  let ⟨v, h, _⟩ := lenia_frame_rule Witness.twoFour_plain 0 u
    (by decide : 1 ≤ 8 ∧ 1 ≤ 8) (by decide : 1 ≤ 8 ∧ 1 ≤ 8)
  ⟨v, h⟩

example (u : Univ ℝ 1 5 8 8) (w₁ : Fin 7 → Fin 10 → ℝ) (w₂ : Fin 7 → Fin 7 → ℝ)
    (w₃ : Fin 5 → Fin 7 → ℝ) : ∃ r, (NCA.mk (identityLayer 5 5 .circular)
      (.ofKernel 5 5 .circular 3 laplacian9) w₁ Real.tanh w₂ Real.tanh w₃ 0.1 0.5 0).getFrame0 none u = .ok r :=
  let ⟨_, h, _⟩ := nca_frame_rule (r := 1) _ _ rfl rfl (by decide) u (by decide) (by decide)
  ⟨_, h⟩

end Yuca
