import Verif.Props.Symmetry

/-!
# C14 for the other automata, C107 symmetric patterns do not glide across their symmetry
-/

namespace Yuca

open Arith Spec

variable {ext int hid N H W N' H' W' : Nat}

/-! ## C14: isotropy of every automaton -/

/-- A layer on the torus made from a kernel with the symmetries of the square, as
`initialize_neighborhood_layer` makes it from any kernel of `get_kernel`. -/
def IsoLayer (L : ConvLayer ℝ ext int) : Prop :=
  ∃ k κ, Dihedral κ ∧ L = .ofKernel ext int .circular k κ

/-- A map of cells with which every such layer commutes. -/
def IsoMap (e : Fin N' × Fin H' × Fin W' → Fin N × Fin H × Fin W) : Prop :=
  ∀ {ext int : Nat} {L : ConvLayer ℝ ext int}, IsoLayer L → Commutes L e

theorem IsoLayer.circular {L : ConvLayer ℝ ext int} (h : IsoLayer L) : L.mode = .circular := by
  obtain ⟨_, _, _, rfl⟩ := h; rfl

theorem isoLayer_identity : IsoLayer (identityLayer (α := ℝ) ext int .circular) :=
  ⟨3, identityKernel, identityKernel_dihedral, rfl⟩

theorem isoLayer_config {cfg : KernelConfig} {K : AnyKernel} (hk : getKernel cfg = .ok K) :
    IsoLayer (ConvLayer.ofKernel ext int .circular (2 * K.1 + 1) K.2) :=
  ⟨_, _, getKernel_dihedral cfg K hk, rfl⟩

/-- Exchange rows and columns. -/
def transposeMap (N H W : Nat) (p : Fin N × Fin W × Fin H) : Fin N × Fin H × Fin W :=
  (p.1, p.2.2, p.2.1)

/-- Reverse the rows. -/
def flipMap (N H W : Nat) (p : Fin N × Fin H × Fin W) : Fin N × Fin H × Fin W :=
  (p.1, p.2.1.rev, p.2.2)

/-- Reverse the columns. -/
def flipColsMap (N H W : Nat) (p : Fin N × Fin H × Fin W) : Fin N × Fin H × Fin W :=
  (p.1, p.2.1, p.2.2.rev)

/-- Quarter turn of a square. -/
def turnMap (N H : Nat) (p : Fin N × Fin H × Fin H) : Fin N × Fin H × Fin H :=
  (p.1, p.2.2, p.2.1.rev)

theorem isoMap_comp {N'' H'' W'' : Nat} {e : Fin N' × Fin H' × Fin W' → Fin N × Fin H × Fin W}
    {e' : Fin N'' × Fin H'' × Fin W'' → Fin N' × Fin H' × Fin W'} (h : IsoMap e)
    (h' : IsoMap e') : IsoMap (e ∘ e') := by
  intro ext int L hL u
  have h1 : ∀ {C : Nat} (v : Univ ℝ N C H W), reindex (e ∘ e') v = reindex e' (reindex e v) :=
    fun _ => rfl
  rw [h1, h' hL, h hL]
  cases L.apply u <;> rfl

theorem isoMap_transpose : IsoMap (transposeMap N H W) := by
  rintro ext int L ⟨k, κ, hκ, rfl⟩
  exact commutes_transpose hκ

theorem isoMap_flip : IsoMap (flipMap N H W) := by
  rintro ext int L ⟨k, κ, hκ, rfl⟩
  exact commutes_flipRows hκ

theorem isoMap_flipCols : IsoMap (flipColsMap N H W) :=
  isoMap_comp isoMap_transpose (isoMap_comp isoMap_flip isoMap_transpose)

theorem isoMap_turn : IsoMap (turnMap N H) :=
  isoMap_comp isoMap_transpose isoMap_flip

theorem isoMap_roll (dy dx : Int) : IsoMap (rollMap N H W dy dx) := by
  rintro ext int L hL
  exact commutes_roll L hL.circular dy dx

theorem lenia_iso {e : Fin N' × Fin H' × Fin W' → Fin N × Fin H × Fin W} (he : IsoMap e)
    (ca : CCA ℝ ext int) (h1 : IsoLayer ca.idL) (h2 : IsoLayer ca.nbL) (n : Nat)
    (u : Univ ℝ N ext H W) :
    iterate CCA.leniaForward n ca (reindex e u) =
      Prod.map (reindex e) id <$> iterate CCA.leniaForward n ca u := by
  refine iterate_map (reindex e) _ _ (fun s => IsoLayer s.idL ∧ IsoLayer s.nbL)
    (fun s b b' s' hs h => ?_) (fun s b hs => ?_) n ca u ⟨h1, h2⟩
  · obtain ⟨_, _, _, _, _, _, h⟩ := CCA.leniaForward_ok h
    cases h; exact hs
  · exact lenia_forward_reindex e s (he hs.1) (he hs.2) b

theorem cca_iso {e : Fin N' × Fin H' × Fin W' → Fin N × Fin H × Fin W} (he : IsoMap e)
    (ca : CCA ℝ ext int) (h1 : IsoLayer ca.idL) (h2 : IsoLayer ca.nbL) (n : Nat)
    (u : Univ ℝ N ext H W) :
    iterate CCA.forward n ca (reindex e u) =
      Prod.map (reindex e) id <$> iterate CCA.forward n ca u := by
  refine iterate_map (reindex e) _ _ (fun s => IsoLayer s.idL ∧ IsoLayer s.nbL)
    (fun s b b' s' hs h => ?_) (fun s b hs => ?_) n ca u ⟨h1, h2⟩
  · obtain ⟨_, _, _, _, _, _, h⟩ := CCA.forward_ok h
    cases h; exact hs
  · exact cca_forward_reindex e s (he hs.1) (he hs.2) b

theorem base_iso {e : Fin N' × Fin H' × Fin W' → Fin N × Fin H × Fin W} (he : IsoMap e)
    (ca : BaseCA ℝ ext) (h1 : IsoLayer ca.idL) (h2 : IsoLayer ca.nbL) (n : Nat)
    (u : Univ ℝ N ext H W) :
    iterate BaseCA.forward n ca (reindex e u) =
      Prod.map (reindex e) id <$> iterate BaseCA.forward n ca u := by
  refine iterate_map (reindex e) _ _ (fun s => IsoLayer s.idL ∧ IsoLayer s.nbL)
    (fun s b b' s' hs h => ?_) (fun s b hs => ?_) n ca u ⟨h1, h2⟩
  · obtain ⟨_, _, _, _, h⟩ := BaseCA.forward_ok h
    cases h; exact hs
  · exact base_forward_reindex e s (he hs.1) (he hs.2) b

theorem rxn_iso {e : Fin N' × Fin H' × Fin W' → Fin N × Fin H × Fin W} (he : IsoMap e)
    (ca : RxnDfn ℝ) (h1 : IsoLayer ca.idL) (h2 : IsoLayer ca.nbL) (n : Nat)
    (u : Univ ℝ N 2 H W) :
    iterate RxnDfn.forward n ca (reindex e u) =
      Prod.map (reindex e) id <$> iterate RxnDfn.forward n ca u := by
  refine iterate_map (reindex e) _ _ (fun s => IsoLayer s.idL ∧ IsoLayer s.nbL)
    (fun s b b' s' hs h => ?_) (fun s b hs => ?_) n ca u ⟨h1, h2⟩
  · obtain ⟨_, _, _, _, h⟩ := RxnDfn.forward_ok h
    cases h; exact hs
  · exact rxn_forward_reindex e s (he hs.1) (he hs.2) b

theorem nca_iso {e : Fin N' × Fin H' × Fin W' → Fin N × Fin H × Fin W} (he : IsoMap e)
    (ca : NCA ℝ ext int hid) (h1 : IsoLayer ca.idL) (h2 : IsoLayer ca.nbL) (n : Nat)
    (u : Univ ℝ N ext H W) :
    iterate (fun s b => NCA.forward s none b) n ca (reindex e u) =
      Prod.map (reindex e) id <$> iterate (fun s b => NCA.forward s none b) n ca u := by
  refine iterate_map (reindex e) _ _ (fun s => IsoLayer s.idL ∧ IsoLayer s.nbL)
    (fun s b b' s' hs h => ?_) (fun s b hs => ?_) n ca u ⟨h1, h2⟩
  · obtain ⟨_, _, _, _, _, _, h⟩ := NCA.forward_ok h
    cases h; exact hs
  · exact nca_forward_reindex e s (he hs.1) (he hs.2) none b

/-- C14 for `Lenia`: transposition, mirroring rows, mirroring columns. -/
theorem lenia_isotropic (ca : CCA ℝ ext int) (h1 : IsoLayer ca.idL) (h2 : IsoLayer ca.nbL)
    (n : Nat) (u : Univ ℝ N ext H W) :
    iterate CCA.leniaForward n ca (transpose u) =
      Prod.map transpose id <$> iterate CCA.leniaForward n ca u ∧
    iterate CCA.leniaForward n ca (flipRows u) =
      Prod.map flipRows id <$> iterate CCA.leniaForward n ca u ∧
    iterate CCA.leniaForward n ca (flipCols u) =
      Prod.map flipCols id <$> iterate CCA.leniaForward n ca u :=
  ⟨lenia_iso isoMap_transpose ca h1 h2 n u, lenia_iso isoMap_flip ca h1 h2 n u,
    lenia_iso isoMap_flipCols ca h1 h2 n u⟩

/-- C14 for the base class `CA`. -/
theorem base_isotropic (ca : BaseCA ℝ ext) (h1 : IsoLayer ca.idL) (h2 : IsoLayer ca.nbL)
    (n : Nat) (u : Univ ℝ N ext H W) :
    iterate BaseCA.forward n ca (transpose u) =
      Prod.map transpose id <$> iterate BaseCA.forward n ca u ∧
    iterate BaseCA.forward n ca (flipRows u) =
      Prod.map flipRows id <$> iterate BaseCA.forward n ca u ∧
    iterate BaseCA.forward n ca (flipCols u) =
      Prod.map flipCols id <$> iterate BaseCA.forward n ca u :=
  ⟨base_iso isoMap_transpose ca h1 h2 n u, base_iso isoMap_flip ca h1 h2 n u,
    base_iso isoMap_flipCols ca h1 h2 n u⟩

/-- C14 for `RxnDfn`. -/
theorem rxn_isotropic (ca : RxnDfn ℝ) (h1 : IsoLayer ca.idL) (h2 : IsoLayer ca.nbL)
    (n : Nat) (u : Univ ℝ N 2 H W) :
    iterate RxnDfn.forward n ca (transpose u) =
      Prod.map transpose id <$> iterate RxnDfn.forward n ca u ∧
    iterate RxnDfn.forward n ca (flipRows u) =
      Prod.map flipRows id <$> iterate RxnDfn.forward n ca u ∧
    iterate RxnDfn.forward n ca (flipCols u) =
      Prod.map flipCols id <$> iterate RxnDfn.forward n ca u :=
  ⟨rxn_iso isoMap_transpose ca h1 h2 n u, rxn_iso isoMap_flip ca h1 h2 n u,
    rxn_iso isoMap_flipCols ca h1 h2 n u⟩

/-- C14 for `NCA` in evaluation mode. -/
theorem nca_isotropic (ca : NCA ℝ ext int hid) (h1 : IsoLayer ca.idL) (h2 : IsoLayer ca.nbL)
    (n : Nat) (u : Univ ℝ N ext H W) :
    iterate (fun s b => NCA.forward s none b) n ca (transpose u) =
      Prod.map transpose id <$> iterate (fun s b => NCA.forward s none b) n ca u ∧
    iterate (fun s b => NCA.forward s none b) n ca (flipRows u) =
      Prod.map flipRows id <$> iterate (fun s b => NCA.forward s none b) n ca u ∧
    iterate (fun s b => NCA.forward s none b) n ca (flipCols u) =
      Prod.map flipCols id <$> iterate (fun s b => NCA.forward s none b) n ca u :=
  ⟨nca_iso isoMap_transpose ca h1 h2 n u, nca_iso isoMap_flip ca h1 h2 n u,
    nca_iso isoMap_flipCols ca h1 h2 n u⟩

/-- C14 for `RandomStepCA`: one step, for every draw. -/
theorem randomStep_isotropic (s : RandomStepCA ℝ ext int) (h1 : IsoLayer s.ca.idL)
    (h2 : IsoLayer s.ca.nbL) (draw : ℝ) (u : Univ ℝ N ext H W) :
    s.forward draw (transpose u) = Prod.map transpose id <$> s.forward draw u ∧
    s.forward draw (flipRows u) = Prod.map flipRows id <$> s.forward draw u ∧
    s.forward draw (flipCols u) = Prod.map flipCols id <$> s.forward draw u :=
  ⟨rnd_forward_reindex _ s (isoMap_transpose h1) (isoMap_transpose h2) draw u,
    rnd_forward_reindex _ s (isoMap_flip h1) (isoMap_flip h2) draw u,
    rnd_forward_reindex _ s (isoMap_flipCols h1) (isoMap_flipCols h2) draw u⟩

/-- C14 for `CODE`: one adaptive step, which also picks the same step size. -/
theorem code_isotropic (s : CODE ℝ ext int) (h1 : IsoLayer s.ca.idL)
    (h2 : IsoLayer s.ca.nbL) (fuel : Nat) (u : Univ ℝ N ext H W) :
    s.forward fuel (transpose u) =
      (s.forward fuel u).map (fun r => Prod.map transpose id <$> r) ∧
    s.forward fuel (flipRows u) =
      (s.forward fuel u).map (fun r => Prod.map flipRows id <$> r) ∧
    s.forward fuel (flipCols u) =
      (s.forward fuel u).map (fun r => Prod.map flipCols id <$> r) := by
  refine ⟨code_forward_reindex (transposeMap N H W) ?_ s (isoMap_transpose h1)
      (isoMap_transpose h2) fuel u,
    code_forward_reindex (flipMap N H W) ?_ s (isoMap_flip h1) (isoMap_flip h2) fuel u,
    code_forward_reindex (flipColsMap N H W) ?_ s (isoMap_flipCols h1) (isoMap_flipCols h2)
      fuel u⟩
  · rintro ⟨n, i, j⟩; exact ⟨(n, j, i), rfl⟩
  · rintro ⟨n, i, j⟩; exact ⟨(n, i.rev, j), by simp [flipMap]⟩
  · rintro ⟨n, i, j⟩; exact ⟨(n, i, j.rev), by simp [flipColsMap]⟩

/-- C14 for quarter turns of square universes. -/
theorem turns_isotropic :
    (∀ (ca : CCA ℝ ext int), IsoLayer ca.idL → IsoLayer ca.nbL → ∀ n (u : Univ ℝ N ext H H),
      iterate CCA.leniaForward n ca (rot90 u) =
        Prod.map rot90 id <$> iterate CCA.leniaForward n ca u) ∧
    (∀ (ca : RxnDfn ℝ), IsoLayer ca.idL → IsoLayer ca.nbL → ∀ n (u : Univ ℝ N 2 H H),
      iterate RxnDfn.forward n ca (rot90 u) =
        Prod.map rot90 id <$> iterate RxnDfn.forward n ca u) ∧
    (∀ (ca : NCA ℝ ext int hid), IsoLayer ca.idL → IsoLayer ca.nbL → ∀ n (u : Univ ℝ N ext H H),
      iterate (fun s b => NCA.forward s none b) n ca (rot90 u) =
        Prod.map rot90 id <$> iterate (fun s b => NCA.forward s none b) n ca u) :=
  ⟨fun ca h1 h2 n u => lenia_iso isoMap_turn ca h1 h2 n u,
    fun ca h1 h2 n u => rxn_iso isoMap_turn ca h1 h2 n u,
    fun ca h1 h2 n u => nca_iso isoMap_turn ca h1 h2 n u⟩

example : IsoLayer realCA.idL ∧ IsoLayer realCA.nbL :=
  ⟨isoLayer_identity, isoLayer_config (K := ⟨2, mooreLike 2⟩)
    (cfg := ⟨"MooreLike", some 2, none⟩) (by simp [getKernel])⟩

/-! ## C107 -/

namespace Spec

/-- What is needed of an automaton: running `m + n` steps is running `m` and then `n`, and
running commutes with moving the universe around the torus and with mirroring it. -/
structure Fair (run : Nat → Univ ℝ N ext H W → Except PyErr (Univ ℝ N ext H W)) : Prop where
  add : ∀ m n u, run (m + n) u = run m u >>= run n
  moved : ∀ n dy dx u, run n (roll dy dx u) = roll dy dx <$> run n u
  mirrored : ∀ n u, run n (flipRows u) = flipRows <$> run n u
  turned : ∀ n u, run n (flipRows (flipCols u)) = (fun v => flipRows (flipCols v)) <$> run n u

/-- On square universes also with exchanging rows and columns. -/
structure FairSquare (run : Nat → Univ ℝ N ext H H → Except PyErr (Univ ℝ N ext H H)) : Prop
    extends Fair run where
  exchanged : ∀ n u, run n (transpose u) = transpose <$> run n u

/-- Looks the same after a half turn about some point. -/
def HalfTurn (u : Univ ℝ N ext H W) : Prop := ∃ a b, roll a b (flipRows (flipCols u)) = u

/-- Looks the same in a mirror along some row. -/
def RowMirror (u : Univ ℝ N ext H W) : Prop := ∃ a, roll a 0 (flipRows u) = u

/-- Looks the same in a mirror along some falling diagonal. -/
def DiagonalMirror (u : Univ ℝ N ext H H) : Prop := ∃ a, roll a (-a) (transpose u) = u

end Spec

/-! ### Shifts and mirrors -/

theorem roll_roll {α : Type} (a b c d : Int) (u : Univ α N ext H W) :
    roll a b (roll c d u) = roll (a + c) (b + d) u := by
  funext n k i j
  simp only [roll, rollIdx_eq_cyc, cyc_cyc]
  congr 2 <;> ring

theorem roll_zero_zero {α : Type} (u : Univ α N ext H W) : roll 0 0 u = u := by
  funext n k i j
  simp [roll, rollIdx_eq_cyc, cyc_zero]

theorem flipRows_roll {α : Type} (a b : Int) (u : Univ α N ext H W) :
    flipRows (roll a b u) = roll (-a) b (flipRows u) := by
  funext n k i j
  simp only [roll, flipRows, rollIdx_eq_cyc, cyc_rev]

theorem flipCols_roll {α : Type} (a b : Int) (u : Univ α N ext H W) :
    flipCols (roll a b u) = roll a (-b) (flipCols u) := by
  funext n k i j
  simp only [roll, flipCols, rollIdx_eq_cyc, cyc_rev]

theorem transpose_roll {α : Type} (a b : Int) (u : Univ α N ext H W) :
    transpose (roll a b u) = roll b a (transpose u) := rfl

theorem roll_cancel {α : Type} {a b : Int} {u v : Univ α N ext H W}
    (h : roll a b u = roll a b v) : u = v := by
  have := congrArg (roll (-a) (-b)) h
  simpa [roll_roll, roll_zero_zero] using this

theorem map_ok {β γ : Type} {f : β → γ} {x : Except PyErr β} {y : γ}
    (h : f <$> x = .ok y) : ∃ z, x = .ok z ∧ f z = y := by
  cases x with
  | error e => cases h
  | ok z => exact ⟨z, rfl, by cases h; rfl⟩

theorem fair_twice {run : Nat → Univ ℝ N ext H W → Except PyErr (Univ ℝ N ext H W)}
    (hF : Fair run) {n : Nat} {u : Univ ℝ N ext H W} {dy dx : Int}
    (h : run n u = .ok (roll dy dx u)) : run (n + n) u = .ok (roll (dy + dy) (dx + dx) u) := by
  rw [hF.add, h]
  show run n (roll dy dx u) = _
  rw [hF.moved, h]
  show Except.ok (roll dy dx (roll dy dx u)) = _
  rw [roll_roll]

/-- C107: if a universe that looks the same after a half turn is after `n` steps a moved copy of
itself, moving it twice that far is not moving it at all, and after `2 n` steps it is back where
it was. -/
theorem half_turn_stays {run : Nat → Univ ℝ N ext H W → Except PyErr (Univ ℝ N ext H W)}
    (hF : Fair run) {u : Univ ℝ N ext H W} (hu : HalfTurn u) {n : Nat} {dy dx : Int}
    (h : run n u = .ok (roll dy dx u)) :
    roll (2 * dy) (2 * dx) u = u ∧ run (2 * n) u = .ok u := by
  obtain ⟨a, b, hu⟩ := hu
  have key : roll (dy + dy) (dx + dx) u = u := by
    have h1 : run n (roll a b (flipRows (flipCols u))) = .ok (roll dy dx u) := by rw [hu, h]
    rw [hF.moved, hF.turned, h] at h1
    simp only [Functor.map, Except.map, Except.ok.injEq] at h1
    rw [flipCols_roll, flipRows_roll, roll_roll] at h1
    have h2 : roll (a + -dy) (b + -dx) (flipRows (flipCols u)) = roll (-dy) (-dx) u := by
      rw [add_comm a, add_comm b, ← roll_roll, hu]
    rw [h2] at h1
    have := congrArg (roll dy dx) h1
    rw [roll_roll, roll_roll, add_neg_cancel, add_neg_cancel, roll_zero_zero] at this
    exact this.symm
  refine ⟨by rw [two_mul, two_mul, key], ?_⟩
  rw [two_mul, fair_twice hF h, key]

/-- C107: if no shift other than those around the whole torus leaves such a universe as it is,
it can only have jumped by half the height, half the width, or both. -/
theorem half_turn_jumps {run : Nat → Univ ℝ N ext H W → Except PyErr (Univ ℝ N ext H W)}
    (hF : Fair run) {u : Univ ℝ N ext H W} (hu : HalfTurn u)
    (hp : ∀ a b, roll a b u = u → (H : Int) ∣ a ∧ (W : Int) ∣ b) {n : Nat} {dy dx : Int}
    (h : run n u = .ok (roll dy dx u)) : (H : Int) ∣ 2 * dy ∧ (W : Int) ∣ 2 * dx :=
  hp _ _ (half_turn_stays hF hu h).1

/-- C107: if a universe that looks the same in a mirror along a row is after `n` steps a moved
copy of itself, then over `2 n` steps it has moved along the row only. -/
theorem mirror_moves_along {run : Nat → Univ ℝ N ext H W → Except PyErr (Univ ℝ N ext H W)}
    (hF : Fair run) {u : Univ ℝ N ext H W} (hu : RowMirror u) {n : Nat} {dy dx : Int}
    (h : run n u = .ok (roll dy dx u)) :
    roll (2 * dy) 0 u = u ∧ run (2 * n) u = .ok (roll 0 (2 * dx) u) := by
  obtain ⟨a, hu⟩ := hu
  have key : roll (dy + dy) 0 u = u := by
    have h1 : run n (roll a 0 (flipRows u)) = .ok (roll dy dx u) := by rw [hu, h]
    rw [hF.moved, hF.mirrored, h] at h1
    simp only [Functor.map, Except.map, Except.ok.injEq] at h1
    rw [flipRows_roll, roll_roll] at h1
    have h2 : roll (a + -dy) (0 + dx) (flipRows u) = roll (-dy) dx u := by
      rw [add_comm a, add_comm 0, ← roll_roll, hu]
    rw [h2] at h1
    have := congrArg (roll dy (-dx)) h1
    rw [roll_roll, roll_roll, add_neg_cancel, neg_add_cancel, roll_zero_zero] at this
    exact this.symm
  refine ⟨by rw [two_mul, key], ?_⟩
  rw [two_mul, fair_twice hF h]
  congr 1
  rw [two_mul]
  calc roll (dy + dy) (dx + dx) u = roll 0 (dx + dx) (roll (dy + dy) 0 u) := by
        rw [roll_roll]; congr 1 <;> ring
    _ = _ := by rw [key]

/-- C107: if a universe that looks the same in a mirror along a diagonal is after `n` steps a
moved copy of itself, then over `2 n` steps it has moved along the diagonal only. -/
theorem diagonal_moves_along
    {run : Nat → Univ ℝ N ext H H → Except PyErr (Univ ℝ N ext H H)}
    (hF : FairSquare run) {u : Univ ℝ N ext H H} (hu : DiagonalMirror u) {n : Nat} {dy dx : Int}
    (h : run n u = .ok (roll dy dx u)) :
    roll (dy - dx) (dx - dy) u = u ∧ run (2 * n) u = .ok (roll (dy + dx) (dy + dx) u) := by
  obtain ⟨a, hu⟩ := hu
  have key : roll (dy - dx) (dx - dy) u = u := by
    have h1 : run n (roll a (-a) (transpose u)) = .ok (roll dy dx u) := by rw [hu, h]
    rw [hF.moved, hF.exchanged, h] at h1
    simp only [Functor.map, Except.map, Except.ok.injEq] at h1
    rw [transpose_roll, roll_roll] at h1
    have h2 : roll (a + dx) (-a + dy) (transpose u) = roll dx dy u := by
      rw [add_comm a, add_comm (-a), ← roll_roll, hu]
    rw [h2] at h1
    have := congrArg (roll (-dx) (-dy)) h1
    rw [roll_roll, roll_roll, neg_add_cancel, neg_add_cancel, roll_zero_zero] at this
    rw [sub_eq_neg_add, sub_eq_neg_add]
    exact this.symm
  refine ⟨key, ?_⟩
  rw [two_mul, fair_twice hF.toFair h]
  congr 1
  calc roll (dy + dy) (dx + dx) u = roll (dy + dx) (dy + dx) (roll (dy - dx) (dx - dy) u) := by
        rw [roll_roll]; congr 1 <;> ring
    _ = _ := by rw [key]

/-! ### Which automata are fair -/

/-- The universes of a run, without the automaton state. -/
def universes {σ β : Type} (f : σ → β → Except PyErr (β × σ)) (s : σ) (n : Nat) (u : β) :
    Except PyErr β := Prod.fst <$> iterate f n s u

theorem universes_add {σ β : Type} {f : σ → β → Except PyErr (β × σ)} {ψ : σ → σ}
    (h1 : ∀ s b, Prod.map id ψ <$> f (ψ s) b = Prod.map id ψ <$> f s b)
    (h2 : ∀ s b b' s', f s b = .ok (b', s') → ψ s' = ψ s) (s : σ) (m n : Nat) (u : β) :
    universes f s (m + n) u = universes f s m u >>= universes f s n := by
  have same : ∀ n s s' u, ψ s = ψ s' → universes f s n u = universes f s' n u := by
    intro n s s' u h
    have key : ∀ s, universes f s n u =
        Prod.fst <$> iterate (fun s b => Prod.map id ψ <$> f s b) n (ψ s) u := by
      intro s
      have h0 := iterate_map₂ id ψ f (fun s b => Prod.map id ψ <$> f s b) (fun _ => True)
        (fun _ _ _ _ _ _ => trivial) (fun s b _ => h1 s b) n s u trivial
      rw [id_eq] at h0
      rw [h0]
      unfold universes
      cases iterate f n s u <;> rfl
    rw [key, key, h]
  induction m generalizing s u with
  | zero => rw [Nat.zero_add]; rfl
  | succ m ih =>
    rw [Nat.succ_add]
    unfold universes
    simp only [iterate]
    cases hf : f s u with
    | error e => rfl
    | ok r =>
      obtain ⟨b', s'⟩ := r
      have h3 := ih s' b'
      unfold universes at h3
      simp only [bind, Except.bind] at h3 ⊢
      rw [h3]
      cases iterate f m s' b' with
      | error e => rfl
      | ok q =>
        simp only [Functor.map, Except.map]
        exact same n s' s q.1 (h2 s u b' s' hf)

theorem universes_map {σ β : Type} {f : σ → β → Except PyErr (β × σ)} {φ : β → β} {s : σ}
    {n : Nat} {u : β} (h : iterate f n s (φ u) = Prod.map φ id <$> iterate f n s u) :
    universes f s n (φ u) = φ <$> universes f s n u := by
  unfold universes
  rw [h]
  cases iterate f n s u <;> rfl

/-- A run with isotropic layers is fair as soon as its clock does not matter. -/
theorem fair_of_iso {σ : Type}
    {f : σ → Univ ℝ N ext H W → Except PyErr (Univ ℝ N ext H W × σ)} {s : σ} {ψ : σ → σ}
    (h1 : ∀ s b, Prod.map id ψ <$> f (ψ s) b = Prod.map id ψ <$> f s b)
    (h2 : ∀ s b b' s', f s b = .ok (b', s') → ψ s' = ψ s)
    (h3 : ∀ (e : Fin N × Fin H × Fin W → Fin N × Fin H × Fin W), IsoMap e → ∀ n u,
      iterate f n s (reindex e u) = Prod.map (reindex e) id <$> iterate f n s u) :
    Fair (universes f s) where
  add := universes_add h1 h2 s
  moved n dy dx u := by
    have hr : (roll dy dx : Univ ℝ N ext H W → _) = reindex (rollMap N H W dy dx) := by
      funext u; exact roll_eq_reindex dy dx u
    rw [hr]
    exact universes_map (h3 _ (isoMap_roll dy dx) n u)
  mirrored n u := universes_map (φ := flipRows) (h3 _ isoMap_flip n u)
  turned n u := universes_map (φ := fun v => flipRows (flipCols v))
    (h3 _ (isoMap_comp isoMap_flipCols isoMap_flip) n u)

theorem fairSquare_of_iso {σ : Type}
    {f : σ → Univ ℝ N ext H H → Except PyErr (Univ ℝ N ext H H × σ)} {s : σ} {ψ : σ → σ}
    (h1 : ∀ s b, Prod.map id ψ <$> f (ψ s) b = Prod.map id ψ <$> f s b)
    (h2 : ∀ s b b' s', f s b = .ok (b', s') → ψ s' = ψ s)
    (h3 : ∀ (e : Fin N × Fin H × Fin H → Fin N × Fin H × Fin H), IsoMap e → ∀ n u,
      iterate f n s (reindex e u) = Prod.map (reindex e) id <$> iterate f n s u) :
    FairSquare (universes f s) where
  toFair := fair_of_iso h1 h2 h3
  exchanged n u := universes_map (φ := transpose) (h3 _ isoMap_transpose n u)

theorem cca_clock (s : CCA ℝ ext int) (b : Univ ℝ N ext H W) :
    Prod.map id (fun s : CCA ℝ ext int => { s with t := 0 }) <$>
      CCA.forward { s with t := 0 } b =
    Prod.map id (fun s : CCA ℝ ext int => { s with t := 0 }) <$> CCA.forward s b := by
  unfold CCA.forward
  dsimp only
  cases s.idL.apply (maskIf s.thr b) with
  | error e => rfl
  | ok idn =>
    cases s.nbL.apply (maskIf s.thr b) with
    | error e => rfl
    | ok nb =>
      have : CCA.updateUniverse { s with t := 0 } idn nb = s.updateUniverse idn nb := rfl
      simp only [bind, Except.bind, this]
      cases s.updateUniverse idn nb <;> rfl

theorem lenia_clock (s : CCA ℝ ext int) (b : Univ ℝ N ext H W) :
    Prod.map id (fun s : CCA ℝ ext int => { s with t := 0 }) <$>
      CCA.leniaForward { s with t := 0 } b =
    Prod.map id (fun s : CCA ℝ ext int => { s with t := 0 }) <$> CCA.leniaForward s b := by
  unfold CCA.leniaForward
  dsimp only
  cases s.idL.apply (maskIf s.thr b) with
  | error e => rfl
  | ok idn =>
    cases s.nbL.apply (maskIf s.thr b) with
    | error e => rfl
    | ok nb =>
      have : CCA.leniaUpdateUniverse { s with t := 0 } nb = s.leniaUpdateUniverse nb := rfl
      simp only [bind, Except.bind, this]
      cases s.leniaUpdateUniverse nb <;> rfl

theorem nca_clock (s : NCA ℝ ext int hid) (b : Univ ℝ N ext H W) :
    Prod.map id (fun s : NCA ℝ ext int hid => { s with t := 0 }) <$>
      NCA.forward { s with t := 0 } none b =
    Prod.map id (fun s : NCA ℝ ext int hid => { s with t := 0 }) <$> NCA.forward s none b := by
  unfold NCA.forward
  dsimp only
  cases s.idL.apply (maskIf s.thr b) with
  | error e => rfl
  | ok idn =>
    cases s.nbL.apply (maskIf s.thr b) with
    | error e => rfl
    | ok nb =>
      have : NCA.updateUniverse { s with t := 0 } none idn nb = s.updateUniverse none idn nb := rfl
      simp only [bind, Except.bind, this]
      cases s.updateUniverse none idn nb <;> rfl

theorem rxn_clock (s : RxnDfn ℝ) (b : Univ ℝ N 2 H W) :
    Prod.map id (fun s : RxnDfn ℝ => { s with t := 0 }) <$>
      RxnDfn.forward { s with t := 0 } b =
    Prod.map id (fun s : RxnDfn ℝ => { s with t := 0 }) <$> RxnDfn.forward s b := by
  unfold RxnDfn.forward
  dsimp only
  cases s.idL.apply b with
  | error e => rfl
  | ok idn => cases s.nbL.apply b <;> rfl

theorem cca_unclocked (s : CCA ℝ ext int) (b b' : Univ ℝ N ext H W) (s' : CCA ℝ ext int)
    (h : s.forward b = .ok (b', s')) :
    ({ s' with t := 0 } : CCA ℝ ext int) = { s with t := 0 } := by
  obtain ⟨_, _, _, _, _, _, h⟩ := CCA.forward_ok h
  cases h; rfl

theorem lenia_unclocked (s : CCA ℝ ext int) (b b' : Univ ℝ N ext H W) (s' : CCA ℝ ext int)
    (h : s.leniaForward b = .ok (b', s')) :
    ({ s' with t := 0 } : CCA ℝ ext int) = { s with t := 0 } := by
  obtain ⟨_, _, _, _, _, _, h⟩ := CCA.leniaForward_ok h
  cases h; rfl

theorem nca_unclocked (s : NCA ℝ ext int hid) (b b' : Univ ℝ N ext H W) (s' : NCA ℝ ext int hid)
    (h : s.forward none b = .ok (b', s')) :
    ({ s' with t := 0 } : NCA ℝ ext int hid) = { s with t := 0 } := by
  obtain ⟨_, _, _, _, _, _, h⟩ := NCA.forward_ok h
  cases h; rfl

theorem rxn_unclocked (s : RxnDfn ℝ) (b b' : Univ ℝ N 2 H W) (s' : RxnDfn ℝ)
    (h : s.forward b = .ok (b', s')) :
    ({ s' with t := 0 } : RxnDfn ℝ) = { s with t := 0 } := by
  obtain ⟨_, _, _, _, h⟩ := RxnDfn.forward_ok h
  cases h; rfl

/-- C107: `CCA`, `Lenia`, `NCA` (evaluation mode) and `RxnDfn` with kernels from `get_kernel` are
fair. -/
theorem automata_fair :
    (∀ ca : CCA ℝ ext int, IsoLayer ca.idL → IsoLayer ca.nbL →
      Fair (N := N) (H := H) (W := W) (universes CCA.forward ca)) ∧
    (∀ ca : CCA ℝ ext int, IsoLayer ca.idL → IsoLayer ca.nbL →
      Fair (N := N) (H := H) (W := W) (universes CCA.leniaForward ca)) ∧
    (∀ ca : NCA ℝ ext int hid, IsoLayer ca.idL → IsoLayer ca.nbL →
      Fair (N := N) (H := H) (W := W) (universes (fun s b => NCA.forward s none b) ca)) ∧
    (∀ ca : RxnDfn ℝ, IsoLayer ca.idL → IsoLayer ca.nbL →
      Fair (N := N) (H := H) (W := W) (universes RxnDfn.forward ca)) :=
  ⟨fun ca h1 h2 => fair_of_iso cca_clock cca_unclocked fun _ he => cca_iso he ca h1 h2,
    fun ca h1 h2 => fair_of_iso lenia_clock lenia_unclocked fun _ he => lenia_iso he ca h1 h2,
    fun ca h1 h2 => fair_of_iso nca_clock nca_unclocked fun _ he => nca_iso he ca h1 h2,
    fun ca h1 h2 => fair_of_iso rxn_clock rxn_unclocked fun _ he => rxn_iso he ca h1 h2⟩

/-- C107: likewise for diagonal mirrors on square universes. -/
theorem automata_fairSquare :
    (∀ ca : CCA ℝ ext int, IsoLayer ca.idL → IsoLayer ca.nbL →
      FairSquare (N := N) (H := H) (universes CCA.forward ca)) ∧
    (∀ ca : CCA ℝ ext int, IsoLayer ca.idL → IsoLayer ca.nbL →
      FairSquare (N := N) (H := H) (universes CCA.leniaForward ca)) ∧
    (∀ ca : NCA ℝ ext int hid, IsoLayer ca.idL → IsoLayer ca.nbL →
      FairSquare (N := N) (H := H) (universes (fun s b => NCA.forward s none b) ca)) ∧
    (∀ ca : RxnDfn ℝ, IsoLayer ca.idL → IsoLayer ca.nbL →
      FairSquare (N := N) (H := H) (universes RxnDfn.forward ca)) :=
  ⟨fun ca h1 h2 => fairSquare_of_iso cca_clock cca_unclocked fun _ he => cca_iso he ca h1 h2,
    fun ca h1 h2 => fairSquare_of_iso lenia_clock lenia_unclocked
      fun _ he => lenia_iso he ca h1 h2,
    fun ca h1 h2 => fairSquare_of_iso nca_clock nca_unclocked fun _ he => nca_iso he ca h1 h2,
    fun ca h1 h2 => fairSquare_of_iso rxn_clock rxn_unclocked fun _ he => rxn_iso he ca h1 h2⟩

/-! ### The limits of the claim -/

/-- An automaton that turns every cell into `1 - cell`. -/
noncomputable def flicker : CCA ℝ 1 1 where
  idL := identityLayer 1 1 .circular
  nbL := .ofKernel 1 1 .circular 3 (mooreLike 1)
  genesis := [fun _ => 1]
  persistence := [fun _ => -1]
  weights := .functional fun _ _ => 1
  thr := 0.1
  dt := 1
  t := 0

/-- An automaton with a lopsided kernel that moves everything down one row. -/
noncomputable def conveyor : CCA ℝ 1 1 where
  idL := identityLayer 1 1 .circular
  nbL := .ofKernel 1 1 .circular 3 fun a b => if a = 0 ∧ b = 1 then 1 else 0
  genesis := [fun x => x]
  persistence := [fun x => x - 1]
  weights := .functional fun _ _ => 1
  thr := 0.1
  dt := 1
  t := 0

theorem flicker_step (u : Univ ℝ 1 1 H W) (hH : 1 ≤ H) (hW : 1 ≤ W)
    (hu : ∀ n c i j, 0 ≤ u n c i j ∧ u n c i j ≤ 1) :
    universes CCA.forward flicker 1 u = .ok fun n c i j => 1 - u n c i j := by
  obtain ⟨r, hr⟩ := (cca_runs_iff flicker u).2 ⟨by
      simp [Fits, flicker, identityLayer, ConvLayer.ofKernel, ConvLayer.pad, padOK]; omega, by
      simp [Fits, flicker, ConvLayer.ofKernel, ConvLayer.pad, padOK]; omega, rfl, rfl⟩
  have h1 : universes CCA.forward flicker 1 u = .ok r.1 := by
    unfold universes
    simp only [iterate, hr]
    rfl
  rw [h1]
  congr 1
  obtain ⟨_, _, _, hc⟩ := cca_cell (w := fun _ _ => 1) rfl hr
  funext n c i j
  have hn : n = 0 := Subsingleton.elim _ _
  have hc0 : c = 0 := Subsingleton.elim _ _
  subst hn hc0
  rw [hc, maskIf_small (by norm_num)]
  simp only [flicker, Fin.sum_univ_one, identity_taps_dvd one_pos (dvd_refl 1), chanFn,
    Fin.val_eq_zero, List.getD_cons_zero]
  have := hu 0 0 i j
  rw [show (srcChan (ext := 1) (int := 1) one_pos (dvd_refl 1) 0) = 0 from Subsingleton.elim _ _]
  rw [show u 0 0 i j + 1 * (1 * ((1 - u 0 0 i j) * 1 + u 0 0 i j * -1)) = 1 - u 0 0 i j by ring]
  exact clamp01_of_mem (by linarith) (by linarith)

/-- Alternating rows. -/
noncomputable def stripes : Univ ℝ 1 1 4 4 := fun _ _ i _ => if i.val % 2 = 0 then 1 else 0

/-- C107: the factor 2 is needed.  Alternating rows look the same after a half turn and in both
mirrors, and an automaton with radially symmetric kernels moves them by one row in every step
(and back in the next). -/
theorem half_turn_jump_refuted :
    IsoLayer flicker.idL ∧ IsoLayer flicker.nbL ∧ HalfTurn stripes ∧ RowMirror stripes ∧
      universes CCA.forward flicker 1 stripes = .ok (roll 1 0 stripes) ∧
      roll 1 0 stripes ≠ stripes := by
  have e : ∀ i : Fin 4, (i.rev.val % 2 = 0) ↔ ¬ i.val % 2 = 0 := by decide
  have e2 : ∀ i : Fin 4, ((rollIdx i 1).val % 2 = 0) ↔ ¬ i.val % 2 = 0 := by decide
  refine ⟨isoLayer_identity, isoLayer_config (K := ⟨1, mooreLike 1⟩)
    (cfg := ⟨"MooreLike", some 1, none⟩) (by simp [getKernel]), ⟨1, 0, ?_⟩, ⟨1, ?_⟩, ?_, ?_⟩
  · funext n c i j
    simp only [roll, flipRows, flipCols, stripes]
    simp only [e, e2, not_not]
  · funext n c i j
    simp only [roll, flipRows, stripes]
    simp only [e, e2, not_not]
  · rw [flicker_step _ (by norm_num) (by norm_num)]
    · congr 1
      funext n c i j
      simp only [roll, stripes]
      have := e2 i
      by_cases h : i.val % 2 = 0 <;> simp [*]
    · intro n c i j
      unfold stripes
      split <;> norm_num
  · intro h
    have := congrFun (congrFun (congrFun (congrFun h 0) 0) 0) 0
    have h0 := e2 0
    simp only [roll, stripes] at this
    simp [h0] at this

/-- One live cell. -/
noncomputable def oneCell : Univ ℝ 1 1 5 5 :=
  fun _ _ i j => if i.val = 2 ∧ j.val = 2 then 1 else 0

/-- C107: the symmetry of the kernel is needed.  With a lopsided kernel (which only
`add_neighborhood_kernel` can install) a single cell, as symmetric as can be, glides one row per
step. -/
theorem lopsided_glides_refuted :
    HalfTurn oneCell ∧ universes CCA.forward conveyor 1 oneCell = .ok (roll 1 0 oneCell) ∧
      roll 2 0 oneCell ≠ oneCell := by
  refine ⟨⟨0, 0, ?_⟩, ?_, ?_⟩
  · rw [roll_zero_zero]
    funext n c i j
    simp only [flipRows, flipCols, oneCell]
    have e : ∀ i : Fin 5, i.rev.val = 2 ↔ i.val = 2 := by decide
    simp only [e]
  · obtain ⟨r, hr⟩ := (cca_runs_iff conveyor oneCell).2 ⟨by
        simp [Fits, conveyor, identityLayer, ConvLayer.ofKernel, ConvLayer.pad, padOK], by
        simp [Fits, conveyor, ConvLayer.ofKernel, ConvLayer.pad, padOK], rfl, rfl⟩
    have h1 : universes CCA.forward conveyor 1 oneCell = .ok r.1 := by
      unfold universes
      simp only [iterate, hr]
      rfl
    rw [h1]
    congr 1
    obtain ⟨_, _, _, hc⟩ := cca_cell (w := fun _ _ => 1) rfl hr
    funext n c i j
    have hn : n = 0 := Subsingleton.elim _ _
    have hc0 : c = 0 := Subsingleton.elim _ _
    subst hn hc0
    rw [hc, maskIf_small (by norm_num)]
    simp only [conveyor, Fin.sum_univ_one, identity_taps_dvd one_pos (dvd_refl 1), chanFn,
      Fin.val_eq_zero, List.getD_cons_zero, conv_sum_one]
    have hk : ∑ a : Fin 3, ∑ b : Fin 3, (if a = 0 ∧ b = 1 then (1 : ℝ) else 0) *
        oneCell 0 0 (cyc i ((a.val : Int) - ((3 - 1) / 2 : ℕ)))
          (cyc j ((b.val : Int) - ((3 - 1) / 2 : ℕ))) = roll 1 0 oneCell 0 0 i j := by
      simp [Fin.sum_univ_three, roll, rollIdx_eq_cyc]
    rw [hk]
    rw [show (srcChan (ext := 1) (int := 1) one_pos (dvd_refl 1) 0) = 0 from Subsingleton.elim _ _]
    rw [show ∀ x y : ℝ, x + 1 * (1 * ((1 - x) * y + x * (y - 1))) = y by intro x y; ring]
    unfold roll oneCell
    split
    · exact clamp01_of_mem (by norm_num) (by norm_num)
    · exact clamp01_of_mem (by norm_num) (by norm_num)
  · intro h
    have := congrFun (congrFun (congrFun (congrFun h 0) 0) 2) 2
    have e : (rollIdx (2 : Fin 5) 2).val = 0 := by decide
    simp [roll, oneCell, e] at this

/-- The hypotheses of `half_turn_stays` are met by the stripes, with a shift that does move
them. -/
example : Fair (N := 1) (H := 4) (W := 4) (universes CCA.forward flicker) ∧ HalfTurn stripes ∧
    universes CCA.forward flicker 1 stripes = .ok (roll 1 0 stripes) :=
  have h := half_turn_jump_refuted
  ⟨automata_fair (hid := 0).1 flicker h.1 h.2.1, h.2.2.1, h.2.2.2.2.1⟩

end Yuca
