import Verif.Props.Mirror
import Verif.Props.Onward

/-!
# Patterns of a pattern network under every automaton (C79)
-/

namespace Yuca

open Arith Spec

variable {ext int hid N H W : Nat}

theorem mirror_of_flip {s : Type} {x : Except PyErr (Univ ℝ N ext H W × s)}
    (h : x = Prod.map flipRows id <$> x) {r : Univ ℝ N ext H W × s} (hr : x = .ok r) :
    MirrorRows r.1 := by
  rw [hr] at h
  simp only [Functor.map, Except.map, Except.ok.injEq] at h
  exact (mirrorRows_iff _).2 (congrArg Prod.fst h).symm

/-- C79: Lenia, the base CA, the neural automaton in evaluation mode and RandomStepCA, whatever it
draws, keep a universe whose top and bottom are mirror images so for ever. -/
theorem mirror_forever (u : Univ ℝ N ext H W) (hu : MirrorRows u) (n : Nat) :
    (∀ ca : CCA ℝ ext int, IsoLayer ca.idL → IsoLayer ca.nbL → ∀ r,
      iterate CCA.leniaForward n ca u = .ok r → MirrorRows r.1) ∧
    (∀ ca : BaseCA ℝ ext, IsoLayer ca.idL → IsoLayer ca.nbL → ∀ r,
      iterate BaseCA.forward n ca u = .ok r → MirrorRows r.1) ∧
    (∀ ca : NCA ℝ ext int hid, IsoLayer ca.idL → IsoLayer ca.nbL → ∀ r,
      iterate (fun s b => NCA.forward s none b) n ca u = .ok r → MirrorRows r.1) ∧
    (∀ (s : RandomStepCA ℝ ext int) (draws : Nat → ℝ), IsoLayer s.ca.idL → IsoLayer s.ca.nbL →
      ∀ r, iterate (drawnStep draws) n (0, s) u = .ok r → MirrorRows r.1) := by
  have hf := (mirrorRows_iff u).1 hu
  refine ⟨fun ca h1 h2 r hr => ?_, fun ca h1 h2 r hr => ?_, fun ca h1 h2 r hr => ?_,
    fun s draws h1 h2 r hr => ?_⟩
  · have := (lenia_isotropic ca h1 h2 n u).2.1
    rw [hf] at this
    exact mirror_of_flip this hr
  · have := (base_isotropic ca h1 h2 n u).2.1
    rw [hf] at this
    exact mirror_of_flip this hr
  · have := (nca_isotropic ca h1 h2 n u).2.1
    rw [hf] at this
    exact mirror_of_flip this hr
  · have := (randomSteps_isotropic s h1 h2 draws n u).2.1
    rw [hf] at this
    exact mirror_of_flip this hr

/-- C79: so do Gray-Scott automata. -/
theorem rxn_mirror_forever (u : Univ ℝ N 2 H W) (hu : MirrorRows u) (n : Nat) (ca : RxnDfn ℝ)
    (h1 : IsoLayer ca.idL) (h2 : IsoLayer ca.nbL) (r : Univ ℝ N 2 H W × RxnDfn ℝ)
    (hr : iterate RxnDfn.forward n ca u = .ok r) : MirrorRows r.1 := by
  have := (rxn_isotropic ca h1 h2 n u).2.1
  rw [(mirrorRows_iff u).1 hu] at this
  exact mirror_of_flip this hr

/-- C79: so does MetaCA after a reset, whose momentum is made of the steps it has taken. -/
theorem meta_mirror_forever (u : Univ ℝ N ext H W) (hu : MirrorRows u) (n : Nat)
    (s : MetaCA ℝ ext int) (h1 : IsoLayer s.ca.idL) (h2 : IsoLayer s.ca.nbL)
    (r : Univ ℝ N ext H W × MetaCA ℝ ext int)
    (hr : iterate MetaCA.forward n s.reset u = .ok r) : MirrorRows r.1 := by
  have := (meta_isotropic s h1 h2 n u).2.1
  rw [(mirrorRows_iff u).1 hu, hr] at this
  simp only [Functor.map, Except.map, Except.ok.injEq] at this
  exact (mirrorRows_iff _).2 this.symm

/-- C79: so does CODE, whichever step sizes it settles on. -/
theorem code_mirror_forever {n : Nat} {s s' : CODE ℝ ext int} {u u' : Univ ℝ N ext H W}
    (h1 : IsoLayer s.ca.idL) (h2 : IsoLayer s.ca.nbL) (hu : MirrorRows u)
    (h : CodeSteps n s u s' u') : MirrorRows u' := by
  induction h with
  | zero s u => exact hu
  | @succ n s u s1 u1 s'' u'' fuel hf _ ih =>
    obtain ⟨_, _, _, _, hs1⟩ := CODE.forward_ok hf
    have e : s1 = _ := hs1
    refine ih (by rw [e]; exact h1) (by rw [e]; exact h2) ?_
    have := (code_isotropic s h1 h2 fuel u).2.1
    rw [(mirrorRows_iff u).1 hu, hf] at this
    exact mirror_of_flip (Option.some.inj this) rfl

/-- C79: whatever the weights, under each of these automata and for every number of steps the rows
of a pattern made by a pattern network balance around the middle of the grid. -/
theorem cppn_never_moves_vertically_rest {channels dim : Nat} {m : CppnScale}
    {layers : List CppnLayer} (h2 : 2 ≤ dim) {u : Univ ℝ 1 channels dim dim}
    (h : IsCppnPattern channels dim m layers u) (n : Nat) (v : Univ ℝ 1 channels dim dim)
    (hv : (∃ ca ca' : CCA ℝ channels int, IsoLayer ca.idL ∧ IsoLayer ca.nbL ∧
        iterate CCA.leniaForward n ca u = .ok (v, ca')) ∨
      (∃ ca ca' : BaseCA ℝ channels, IsoLayer ca.idL ∧ IsoLayer ca.nbL ∧
        iterate BaseCA.forward n ca u = .ok (v, ca')) ∨
      (∃ ca ca' : NCA ℝ channels int hid, IsoLayer ca.idL ∧ IsoLayer ca.nbL ∧
        iterate (fun s b => NCA.forward s none b) n ca u = .ok (v, ca')) ∨
      (∃ (s : RandomStepCA ℝ channels int) (draws : Nat → ℝ) (k : Nat × RandomStepCA ℝ channels int),
        IsoLayer s.ca.idL ∧ IsoLayer s.ca.nbL ∧ iterate (drawnStep draws) n (0, s) u = .ok (v, k)) ∨
      (∃ s s' : MetaCA ℝ channels int, IsoLayer s.ca.idL ∧ IsoLayer s.ca.nbL ∧
        iterate MetaCA.forward n s.reset u = .ok (v, s')) ∨
      (∃ s s' : CODE ℝ channels int, IsoLayer s.ca.idL ∧ IsoLayer s.ca.nbL ∧
        CodeSteps n s u s' v)) :
    MirrorRows v ∧ rowMoment v = ((dim : ℝ) - 1) / 2 * mass v := by
  have hu := cppn_mirrorRows h2 h
  have key : MirrorRows v := by
    rcases hv with ⟨_, _, a, b, e⟩ | ⟨_, _, a, b, e⟩ | ⟨_, _, a, b, e⟩ | ⟨_, _, _, a, b, e⟩ |
      ⟨_, _, a, b, e⟩ | ⟨_, _, a, b, e⟩
    · exact (mirror_forever (hid := hid) u hu n).1 _ a b _ e
    · exact (mirror_forever (int := int) (hid := hid) u hu n).2.1 _ a b _ e
    · exact (mirror_forever u hu n).2.2.1 _ a b _ e
    · exact (mirror_forever (hid := hid) u hu n).2.2.2 _ _ a b _ e
    · exact meta_mirror_forever u hu n _ a b _ e
    · exact code_mirror_forever a b hu e
  exact ⟨key, mirrorRows_moment v key⟩

/-- C79: Gray-Scott automata started from a two-channel pattern of a network. -/
theorem cppn_rxn_never_moves_vertically {dim : Nat} {m : CppnScale} {layers : List CppnLayer}
    (h2 : 2 ≤ dim) {u : Univ ℝ 1 2 dim dim} (h : IsCppnPattern 2 dim m layers u) (n : Nat)
    (ca : RxnDfn ℝ) (h3 : IsoLayer ca.idL) (h4 : IsoLayer ca.nbL) (r : Univ ℝ 1 2 dim dim × RxnDfn ℝ)
    (hr : iterate RxnDfn.forward n ca u = .ok r) :
    MirrorRows r.1 ∧ rowMoment r.1 = ((dim : ℝ) - 1) / 2 * mass r.1 := by
  have := rxn_mirror_forever u (cppn_mirrorRows h2 h) n ca h3 h4 r hr
  exact ⟨this, mirrorRows_moment _ this⟩

/-- C79: if such a pattern is a moved copy of itself after `n` steps of an automaton that commutes
with moves, mirrors and turns (`automata_fair`), then after `2 n` steps it has moved along its rows
only. -/
theorem cppn_glides_sideways {channels dim : Nat} {m : CppnScale} {layers : List CppnLayer}
    (h2 : 2 ≤ dim) {u : Univ ℝ 1 channels dim dim} (h : IsCppnPattern channels dim m layers u)
    {run : Nat → Univ ℝ 1 channels dim dim → Except PyErr (Univ ℝ 1 channels dim dim)}
    (hF : Fair run) {n : Nat} {dy dx : Int} (hr : run n u = .ok (roll dy dx u)) :
    roll (2 * dy) 0 u = u ∧ run (2 * n) u = .ok (roll 0 (2 * dx) u) :=
  mirror_moves_along hF ⟨0, by
    rw [(mirrorRows_iff u).1 (cppn_mirrorRows h2 h), roll_zero_zero]⟩ hr

/-- The hypotheses can be met: a flat network, a 16 by 16 grid, five steps of CODE. -/
example : ∃ (u v : Univ ℝ 1 1 16 16) (s s' : CODE ℝ 1 1),
    IsCppnPattern 1 16 ⟨1, 1, 1, 1, 1, 1⟩
      [flatLayer 16 8, flatLayer 8 8, flatLayer 8 8, flatLayer 8 1] u ∧
    IsoLayer s.ca.idL ∧ IsoLayer s.ca.nbL ∧ CodeSteps 5 s u s' v := by
  have hs : ∀ i o, (flatLayer i o).Sized i o := by
    intro i o
    refine ⟨by simp [flatLayer], by simp [flatLayer], ?_, ?_⟩
    · intro row hrow
      unfold flatLayer at hrow
      rw [(List.mem_replicate.1 hrow).2]; simp
    · unfold flatLayer eps9; norm_num
  obtain ⟨u, hu, _⟩ := cppn_pattern_exists (channels := 1) (hidden := 8) (dim := 16)
    (layers := [flatLayer 16 8, flatLayer 8 8, flatLayer 8 8, flatLayer 8 1])
    ⟨_, _, _, _, rfl, hs 16 8, hs 8 8, hs 8 8, hs 8 1⟩ ⟨1, 1, 1, 1, 1, 1⟩ (by norm_num)
    (Or.inl rfl)
  let s : CODE ℝ 1 1 := ⟨Witness.mooreOne.toCCA 0, 0.1, 0.2, 0.001, 0.1⟩
  have hf : Fits s.ca.idL 16 16 ∧ Fits s.ca.nbL 16 16 := by
    refine ⟨⟨?_, ?_, ?_⟩, ?_, ?_, ?_⟩ <;>
      simp [s, CCADyn.toCCA, Witness.mooreOne, ConvLayer.ofKernel, ConvLayer.pad, padOK]
  obtain ⟨s', v, h⟩ := code_runs_forever (N := 1) (H := 16) (W := 16) 5 s
    (by norm_num [s, StepReady])
    ⟨hf.1, hf.2, rfl, rfl⟩ u
  exact ⟨u, v, s, s', hu, isoLayer_identity, isoLayer_config (K := ⟨1, mooreLike 1⟩)
    (cfg := ⟨"MooreLike", some 1, none⟩) (by simp [getKernel]), h⟩

end Yuca
