import Verif.Props.Symmetry
import Verif.Props.Cppn
import Verif.Props.Rules

/-!
# Patterns of a pattern network under an isotropic automaton (C79)
-/

namespace Yuca

open Arith Spec

variable {ext int N H W : Nat}

namespace Spec

/-- Top and bottom are mirror images. -/
def MirrorRows {α : Type} (u : Univ α N ext H W) : Prop :=
  ∀ n c (i i' : Fin H) j, i.val + i'.val + 1 = H → u n c i j = u n c i' j

/-- Sum of all cells. -/
noncomputable def mass (u : Univ ℝ N ext H W) : ℝ := ∑ n, ∑ c, ∑ i, ∑ j, u n c i j

/-- Sum of all cells, each weighted with its row. -/
noncomputable def rowMoment (u : Univ ℝ N ext H W) : ℝ :=
  ∑ n, ∑ c, ∑ i : Fin H, ∑ j, (i.val : ℝ) * u n c i j

end Spec

theorem mirrorRows_iff {α : Type} (u : Univ α N ext H W) : MirrorRows u ↔ flipRows u = u := by
  constructor
  · intro h
    funext n c i j
    refine h n c _ _ j ?_
    have := i.isLt
    rw [Fin.val_rev]; omega
  · intro h n c i i' j hi
    have : i' = i.rev := by apply Fin.ext; rw [Fin.val_rev]; omega
    rw [this]
    exact (congrFun (congrFun (congrFun (congrFun h n) c) i) j).symm

/-- C79: under an isotropic automaton a universe whose top and bottom are mirror images stays so
for ever. -/
theorem cca_mirror_forever (ca : CCA ℝ ext int) (hi : Isotropic ca) (n : Nat)
    (u : Univ ℝ N ext H W) (hu : MirrorRows u) (r : Univ ℝ N ext H W × CCA ℝ ext int)
    (h : iterate CCA.forward n ca u = .ok r) : MirrorRows r.1 := by
  rw [mirrorRows_iff] at hu ⊢
  have := cca_flipRows ca hi n u
  rw [hu, h] at this
  simp only [Functor.map, Except.map, Except.ok.injEq] at this
  exact (congrArg Prod.fst this).symm

/-- The rows of such a universe balance around the middle. -/
theorem mirrorRows_moment (u : Univ ℝ N ext H W) (hu : MirrorRows u) :
    rowMoment u = ((H : ℝ) - 1) / 2 * mass u := by
  have key : ∀ n c, ∑ i : Fin H, ∑ j, (i.val : ℝ) * u n c i j =
      ((H : ℝ) - 1) / 2 * ∑ i, ∑ j, u n c i j := by
    intro n c
    have h1 : ∑ i : Fin H, ∑ j, (i.val : ℝ) * u n c i j =
        ∑ i : Fin H, ∑ j, ((H : ℝ) - 1 - i.val) * u n c i j := by
      rw [← sum_rev fun i : Fin H => ∑ j, (i.val : ℝ) * u n c i j]
      refine Finset.sum_congr rfl fun i _ => Finset.sum_congr rfl fun j _ => ?_
      have hlt := i.isLt
      have hr : (i.rev.val : ℝ) = (H : ℝ) - 1 - i.val := by
        rw [Fin.val_rev, Nat.cast_sub (by omega)]
        push_cast; ring
      rw [hr, hu n c i.rev i j (by rw [Fin.val_rev]; omega)]
    have h2 : ∑ i : Fin H, ∑ j, (i.val : ℝ) * u n c i j +
        ∑ i : Fin H, ∑ j, ((H : ℝ) - 1 - i.val) * u n c i j =
        ((H : ℝ) - 1) * ∑ i, ∑ j, u n c i j := by
      rw [← Finset.sum_add_distrib, Finset.mul_sum]
      refine Finset.sum_congr rfl fun i _ => ?_
      rw [← Finset.sum_add_distrib, Finset.mul_sum]
      exact Finset.sum_congr rfl fun j _ => by ring
    linarith
  unfold rowMoment mass
  simp only [key, Finset.mul_sum]

/-- What `get_action` returns as a universe of one sample (yuca/cppn.py:151-163). -/
def IsCppnPattern (channels dim : Nat) (m : CppnScale) (layers : List CppnLayer)
    (u : Univ ℝ 1 channels dim dim) : Prop :=
  ∀ i j : Fin dim, cppnAction channels dim m layers i j = .ok (List.ofFn fun c => u 0 c i j)

/-- C79: whatever the weights, a pattern made by a pattern network is top-bottom symmetric. -/
theorem cppn_mirrorRows {channels dim : Nat} {m : CppnScale} {layers : List CppnLayer}
    (h2 : 2 ≤ dim) {u : Univ ℝ 1 channels dim dim} (h : IsCppnPattern channels dim m layers u) :
    MirrorRows u := by
  intro n c i i' j hi
  have h1 := h i j
  have h3 := h i' j
  have : i'.val = dim - 1 - i.val := by omega
  rw [this, cppnAction_mirror channels layers m h2 i.isLt, h1] at h3
  have h4 := List.ofFn_injective (Except.ok.inj h3)
  have : n = 0 := Subsingleton.elim _ _
  subst this
  exact congrFun h4 c

/-- C79: under every isotropic automaton, for ever, it neither loses that symmetry nor moves up or
down: the rows balance around the middle of the grid. -/
theorem cppn_never_moves_vertically {channels dim : Nat} {m : CppnScale} {layers : List CppnLayer}
    (h2 : 2 ≤ dim) {u : Univ ℝ 1 channels dim dim} (h : IsCppnPattern channels dim m layers u)
    (ca : CCA ℝ channels int) (hi : Isotropic ca) (n : Nat)
    (r : Univ ℝ 1 channels dim dim × CCA ℝ channels int)
    (hr : iterate CCA.forward n ca u = .ok r) :
    MirrorRows r.1 ∧ rowMoment r.1 = ((dim : ℝ) - 1) / 2 * mass r.1 := by
  have := cca_mirror_forever ca hi n u (cppn_mirrorRows h2 h) r hr
  exact ⟨this, mirrorRows_moment _ this⟩

/-- Every sized network makes such a pattern. -/
theorem cppn_pattern_exists {channels hidden dim : Nat} {layers : List CppnLayer}
    (h : CppnSized channels hidden layers) (m : CppnScale) (h2 : 2 ≤ dim)
    (hc : channels = 1 ∨ channels = 2) :
    ∃ u : Univ ℝ 1 channels dim dim, IsCppnPattern channels dim m layers u ∧
      ∀ n c i j, 0 ≤ u n c i j ∧ u n c i j ≤ 1 := by
  choose v hv using fun (i j : Fin dim) => cppnAction_range h m h2 i.isLt j.isLt hc
  refine ⟨fun _ c i j => (v i j).get (Fin.cast (hv i j).2.1.symm c), ?_, ?_⟩
  · intro i j
    rw [(hv i j).1]
    congr 1
    apply List.ext_get
    · simp [(hv i j).2.1]
    · intro k h1 h2
      simp
  · intro n c i j
    have := (hv i j).2.2 _ (List.get_mem (v i j) (Fin.cast (hv i j).2.1.symm c))
    exact ⟨this.1, this.2.1⟩

/-- A Life-like automaton on the Moore neighbourhood. -/
noncomputable def Witness.mooreOne : CCADyn where
  ext := 1
  int := 1
  mode := .circular
  idLayer := ⟨1, identityKernel⟩
  nbLayer := ⟨1, mooreLike 1⟩
  genesis := [.gaussian 0.3 0.05 true]
  persistence := [.gaussian 0.2 0.05 true]
  seqWeights := none
  thr := 0.1
  dt := 0.5

/-- The hypotheses of C79 can be met: a flat network, a 16 by 16 grid, one step. -/
example : ∃ (u : Univ ℝ 1 1 16 16) (r : Univ ℝ 1 1 16 16 × CCA ℝ 1 1),
    IsCppnPattern 1 16 ⟨1, 1, 1, 1, 1, 1⟩
      [flatLayer 16 8, flatLayer 8 8, flatLayer 8 8, flatLayer 8 1] u ∧
    Isotropic (Witness.mooreOne.toCCA 0) ∧
    iterate CCA.forward 1 (Witness.mooreOne.toCCA 0) u = .ok r := by
  have hs : ∀ i o, (flatLayer i o).Sized i o := by
    intro i o
    refine ⟨by simp [flatLayer], by simp [flatLayer], ?_, ?_⟩
    · intro row hrow
      unfold flatLayer at hrow
      rw [(List.mem_replicate.1 hrow).2]; simp
    · unfold flatLayer eps9; norm_num
  obtain ⟨u, hu, _⟩ := cppn_pattern_exists (channels := 1) (hidden := 8) (dim := 16)
    (layers := [flatLayer 16 8, flatLayer 8 8, flatLayer 8 8, flatLayer 8 1])
    ⟨_, _, _, _, rfl, hs 16 8, hs 8 8, hs 8 8, hs 8 1⟩ ⟨1, 1, 1, 1, 1, 1⟩ (by norm_num)
    (Or.inl rfl)
  obtain ⟨u', h1, _⟩ := cca_rule_one Witness.mooreOne 0 rfl rfl rfl rfl rfl _ _ rfl rfl u
    (by decide : 1 ≤ 16 ∧ 1 ≤ 16) (by decide : 1 ≤ 16 ∧ 1 ≤ 16)
  refine ⟨u, (u', Witness.mooreOne.toCCA (0 + Witness.mooreOne.dt)), hu, cca_isotropic_of_config _ ⟨"MooreLike", some 1, none⟩ ⟨1, mooreLike 1⟩
    (by simp [getKernel]) rfl rfl, ?_⟩
  show (CCA.forward (Witness.mooreOne.toCCA 0) u >>= fun x => .ok (x.1, x.2)) = _
  rw [h1]; rfl

end Yuca
