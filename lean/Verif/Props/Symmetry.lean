import Verif.Props.Dynamics

/-!
# C13 homogeneous states, C14 isotropy
-/

namespace Yuca

open Arith Spec

variable {α : Type} {ext int N H W : Nat}

/-! ## C13 -/

theorem homogeneous_iff_roll (u : Univ α N ext H W) :
    Homogeneous u ↔ ∀ dy dx, roll dy dx u = u := by
  constructor
  · intro h dy dx
    funext n c i j
    exact h n c _ _ _ _
  · intro h n c i j i' j'
    have hi : rollIdx i ((i.val : Int) - i'.val) = i' := by
      apply Fin.ext
      have h1 := i'.isLt
      have : ((i.val : Int) - ((i.val : Int) - i'.val)) % (H : Int) = i'.val := by
        rw [sub_sub_cancel, Int.emod_eq_of_lt (by omega) (by omega)]
      simp only [rollIdx, this, Int.toNat_natCast]
    have hj : rollIdx j ((j.val : Int) - j'.val) = j' := by
      apply Fin.ext
      have h1 := j'.isLt
      have : ((j.val : Int) - ((j.val : Int) - j'.val)) % (W : Int) = j'.val := by
        rw [sub_sub_cancel, Int.emod_eq_of_lt (by omega) (by omega)]
      simp only [rollIdx, this, Int.toNat_natCast]
    have := congrFun (congrFun (congrFun (congrFun
      (h ((i.val : Int) - i'.val) ((j.val : Int) - j'.val)) n) c) i) j
    simp only [roll, hi, hj] at this
    exact this.symm

theorem homogeneous_of_equivariant {σ : Type}
    {F : Univ α N ext H W → Except PyErr (Univ α N ext H W × σ)}
    (hF : ∀ dy dx u, F (roll dy dx u) = Prod.map (roll dy dx) id <$> F u)
    {u : Univ α N ext H W} (hu : Homogeneous u) {r : Univ α N ext H W × σ} (h : F u = .ok r) :
    Homogeneous r.1 := by
  rw [homogeneous_iff_roll] at hu ⊢
  intro dy dx
  have := hF dy dx u
  rw [hu, h] at this
  simp only [Functor.map, Except.map, Except.ok.injEq] at this
  exact (congrArg Prod.fst this).symm

section
variable [Arith α]

/-- C13: on the torus a spatially constant universe stays spatially constant under `CCA`
stepping, in any (also rounding) arithmetic. -/
theorem cca_homogeneous (ca : CCA α ext int) (h1 : ca.idL.mode = .circular)
    (h2 : ca.nbL.mode = .circular) (n : Nat) (u : Univ α N ext H W) (hu : Homogeneous u)
    (r : Univ α N ext H W × CCA α ext int) (h : iterate CCA.forward n ca u = .ok r) :
    Homogeneous r.1 :=
  homogeneous_of_equivariant (fun dy dx u => cca_roll ca h1 h2 dy dx n u) hu h

/-- C13 for `Lenia`. -/
theorem lenia_homogeneous (ca : CCA α ext int) (h1 : ca.idL.mode = .circular)
    (h2 : ca.nbL.mode = .circular) (n : Nat) (u : Univ α N ext H W) (hu : Homogeneous u)
    (r : Univ α N ext H W × CCA α ext int) (h : iterate CCA.leniaForward n ca u = .ok r) :
    Homogeneous r.1 :=
  homogeneous_of_equivariant (fun dy dx u => lenia_roll ca h1 h2 dy dx n u) hu h

/-- C13 for `RxnDfn`. -/
theorem rxn_homogeneous (ca : RxnDfn α) (h1 : ca.idL.mode = .circular)
    (h2 : ca.nbL.mode = .circular) (n : Nat) (u : Univ α N 2 H W) (hu : Homogeneous u)
    (r : Univ α N 2 H W × RxnDfn α) (h : iterate RxnDfn.forward n ca u = .ok r) :
    Homogeneous r.1 :=
  homogeneous_of_equivariant (fun dy dx u => rxn_roll ca h1 h2 dy dx n u) hu h

/-- C13 for `NCA` in evaluation mode. -/
theorem nca_homogeneous [Transc α] {hid : Nat} (ca : NCA α ext int hid)
    (h1 : ca.idL.mode = .circular) (h2 : ca.nbL.mode = .circular) (n : Nat)
    (u : Univ α N ext H W) (hu : Homogeneous u) (r : Univ α N ext H W × NCA α ext int hid)
    (h : iterate (fun s b => NCA.forward s none b) n ca u = .ok r) : Homogeneous r.1 :=
  homogeneous_of_equivariant (fun dy dx u => nca_roll ca h1 h2 dy dx n u) hu h

/-- C13 for one step of `RandomStepCA`. -/
theorem randomStep_homogeneous (s : RandomStepCA α ext int) (h1 : s.ca.idL.mode = .circular)
    (h2 : s.ca.nbL.mode = .circular) (draw : α) (u : Univ α N ext H W) (hu : Homogeneous u)
    (r : Univ α N ext H W × RandomStepCA α ext int) (h : s.forward draw u = .ok r) :
    Homogeneous r.1 :=
  homogeneous_of_equivariant (fun dy dx u => randomStep_roll s h1 h2 dy dx draw u) hu h

/-- C13 for one step of `CODE`. -/
theorem code_homogeneous (s : CODE α ext int) (h1 : s.ca.idL.mode = .circular)
    (h2 : s.ca.nbL.mode = .circular) (fuel : Nat) (u : Univ α N ext H W) (hu : Homogeneous u)
    (r : Univ α N ext H W × CODE α ext int) (h : s.forward fuel u = some (.ok r)) :
    Homogeneous r.1 := by
  rw [homogeneous_iff_roll] at hu ⊢
  intro dy dx
  have := code_roll s h1 h2 dy dx fuel u
  rw [hu, h] at this
  simp only [Functor.map, Except.map, Option.map_some, Option.some.injEq, Except.ok.injEq] at this
  exact (congrArg Prod.fst this).symm

/-- C13 for `MetaCA` after a reset. -/
theorem meta_homogeneous (s : MetaCA α ext int) (h1 : s.ca.idL.mode = .circular)
    (h2 : s.ca.nbL.mode = .circular) (hd : s.dgrid = none) (n : Nat) (u : Univ α N ext H W)
    (hu : Homogeneous u) (r : Univ α N ext H W × MetaCA α ext int)
    (h : iterate MetaCA.forward n s u = .ok r) : Homogeneous r.1 := by
  rw [homogeneous_iff_roll] at hu ⊢
  intro dy dx
  have := meta_roll s h1 h2 dy dx n u
  have hs : rollMeta dy dx s = s := by
    cases s; simp only at hd; subst hd; rfl
  rw [hs, hu, h] at this
  simp only [Functor.map, Except.map, Except.ok.injEq] at this
  exact (congrArg Prod.fst this).symm

end

example : Homogeneous (fun _ _ _ _ => 1/3 : Univ ℚ 1 1 3 3) ∧
    ∃ r, iterate CCA.forward 2 Witness.ca1 (fun _ _ _ _ => 1/3 : Univ ℚ 1 1 3 3) = .ok r :=
  ⟨fun _ _ _ _ _ _ => rfl, _, rfl⟩

/-- One step of the scalar map a spatially constant one-channel universe follows:
`κ` is the sum of the neighborhood kernel. -/
noncomputable def Spec.meanField (dt w κ : ℝ) (g p : ℝ → ℝ) (c : ℝ) : ℝ :=
  min 1 (max 0 (c + dt * (w * ((1 - c) * g (c * κ) + c * p (c * κ)))))

/-- C13, scalar recurrence: a one-channel CCA on the torus takes the constant universe `c` in
`n` steps to the constant universe obtained by `n` applications of the scalar map. -/
theorem cca_mean_field (k : Nat) (κ : Fin k → Fin k → ℝ) (g p : ℝ → ℝ) (w thr dt : ℝ) (n : Nat) :
    ∀ (t c : ℝ) (r : Univ ℝ N 1 H W × CCA ℝ 1 1),
    iterate CCA.forward n
      { idL := identityLayer 1 1 .circular, nbL := .ofKernel 1 1 .circular k κ, genesis := [g],
        persistence := [p], weights := .functional fun _ _ => w, thr := thr, dt := dt, t := t }
      (fun _ _ _ _ => c) = .ok r →
    r.1 = fun _ _ _ _ => (Spec.meanField dt w (∑ a, ∑ b, κ a b) g p)^[n] c := by
  induction n with
  | zero => intro t c r h; cases h; rfl
  | succ n ih =>
    intro t c r h
    obtain ⟨⟨u', s'⟩, h1, h2⟩ := bind_ok h
    obtain ⟨_, _, hs, hc⟩ := cca_cell rfl h1
    have hu' : u' = fun _ _ _ _ => Spec.meanField dt w (∑ a, ∑ b, κ a b) g p c := by
      funext m e i j
      have := hc m e i j
      simp only at this
      rw [this, maskIf_small (by norm_num)]
      simp only [Fin.sum_univ_one, identity_taps_dvd one_pos (dvd_refl 1), conv_sum_one,
        ← Finset.sum_mul, chanFn, Fin.val_eq_zero, List.getD_cons_zero, clamp01_real,
        Spec.meanField, mul_comm _ c, Finset.mul_sum]
      rcases le_total 0 (c + dt * (w * ((1 - c) * g (∑ a, ∑ b, c * κ a b) +
        c * p (∑ a, ∑ b, c * κ a b)))) with h0 | h0
      · rw [max_eq_right h0, max_eq_right (le_min (by norm_num) h0)]
      · rw [max_eq_left h0, min_eq_right (by linarith), max_eq_left h0, min_eq_right (by norm_num)]
    simp only at hs
    subst hs hu'
    rw [Function.iterate_succ_apply]
    exact ih _ _ r h2

example : ∃ r, iterate CCA.forward 1
    { idL := identityLayer 1 1 .circular, nbL := .ofKernel 1 1 .circular 5 (mooreLike 2),
      genesis := [(Act.gaussian 0.15 0.015 true).eval],
      persistence := [(Act.gaussian 0.3 0.05 true).eval],
      weights := .functional fun _ _ => 1, thr := 0.1, dt := 0.1, t := 0 }
    (fun _ _ _ _ => 0.2 : Univ ℝ 1 1 8 8) = .ok r := by
  obtain ⟨r, hr⟩ := realCA_runs (fun _ _ _ _ => 0.2 : Univ ℝ 1 1 8 8) (by norm_num) (by norm_num)
  refine ⟨r, ?_⟩
  unfold realCA at hr
  simp only [iterate, hr, bind, Except.bind]

/-! ## C14 -/

/-- A square kernel with the symmetries of the square. -/
def Spec.Dihedral {β : Type} {k : Nat} (κ : Fin k → Fin k → β) : Prop :=
  (∀ a b, κ a b = κ b a) ∧ (∀ a b, κ a.rev b = κ a b)

theorem Spec.Dihedral.rev_right {β : Type} {k : Nat} {κ : Fin k → Fin k → β} (h : Dihedral κ)
    (a b : Fin k) : κ a b.rev = κ a b := by
  rw [h.1, h.2, h.1]

theorem radialGrid_symm (r : Nat) : Dihedral (radialGrid r) := by
  constructor
  · intro a b; unfold radialGrid; rw [add_comm]
  · intro a b
    unfold radialGrid
    have : ((a.rev.val : ℝ) - r) ^ 2 = ((a.val : ℝ) - r) ^ 2 := by
      have h1 : (a.rev.val : ℝ) = 2 * r - a.val := by
        have := a.isLt
        rw [Fin.val_rev, show 2 * r + 1 - (a.val + 1) = 2 * r - a.val by omega,
          Nat.cast_sub (by omega)]
        push_cast; ring
      rw [h1]; ring
    rw [this]

theorem Spec.Dihedral.map {β γ : Type} {k : Nat} {κ : Fin k → Fin k → β} (h : Dihedral κ)
    (f : β → γ) : Dihedral fun a b => f (κ a b) :=
  ⟨fun a b => by simp only [h.1 a b], fun a b => by simp only [h.2 a b]⟩

/-- C14: every kernel `get_kernel` returns has the symmetries of the square. -/
theorem getKernel_dihedral (cfg : KernelConfig) (K : AnyKernel) (h : getKernel cfg = .ok K) :
    Dihedral K.2 := by
  unfold getKernel at h
  split at h
  · cases h
    constructor <;> intro a b <;> simp only [identityKernel] <;> revert a b
    · intro a b; simp only [and_comm]
    · intro a b
      have : a.rev = 1 ↔ a = 1 := by revert a; decide
      simp only [this]
  split at h
  · split at h
    · cases h
    · split at h
      · cases h
      · rename_i r _ _
        cases h
        have : Dihedral (mooreOnes r) := by
          constructor
          · intro a b; unfold mooreOnes; simp only [and_comm]
          · intro a b; unfold mooreOnes
            have : a.rev.val = r ↔ a.val = r := by have := a.isLt; rw [Fin.val_rev]; omega
            simp only [this]
        exact this.map (fun x => x / ∑ a, ∑ b, mooreOnes r a b)
  split at h
  · split at h
    · split at h
      · cases h
      · rename_i kw r _ _ _
        cases h
        have hs := radialGrid_symm r
        constructor
        · intro a b; simp only [logKernel, hs.1 a b]
        · intro a b; simp only [logKernel, hs.2 a b]
    · cases h
  split at h
  · split at h
    · split at h
      · cases h
      · split at h
        · cases h
        · rename_i kw r _ _ _ f _ _
          cases h
          have hs := radialGrid_symm r
          constructor
          · intro a b; simp only [normaliseKernel, hs.1 a b]
          · intro a b; simp only [normaliseKernel, hs.2 a b]
    · cases h
  · cases h

theorem sum_rev {k : Nat} (f : Fin k → ℝ) : ∑ a : Fin k, f a.rev = ∑ a, f a :=
  Equiv.sum_comp Fin.revPerm f

/-- Centred offset of a reversed kernel index (odd side). -/
theorem rev_offset {k : Nat} (hk : k % 2 = 1) (a : Fin k) :
    ((a.rev.val : Int) - ((k - 1) / 2 : ℕ)) = -((a.val : Int) - ((k - 1) / 2 : ℕ)) := by
  have := a.isLt
  rw [Fin.val_rev]; omega

theorem commutes_flipRows {k : Nat} {κ : Fin k → Fin k → ℝ} (hκ : Dihedral κ) :
    Commutes (N' := N) (H' := H) (W' := W) (ConvLayer.ofKernel ext int .circular k κ)
      (fun p => (p.1, p.2.1.rev, p.2.2)) := by
  intro u
  unfold ConvLayer.apply
  split
  · rename_i hk
    simp only [Functor.map, Except.map]
    congr 1
    funext n o i j
    simp only [reindex]
    rw [conv_sum_ofKernel, conv_sum_ofKernel]
    refine Finset.sum_congr rfl fun c _ => ?_
    rw [← sum_rev]
    refine Finset.sum_congr rfl fun a _ => Finset.sum_congr rfl fun b _ => ?_
    have hk1 : k % 2 = 1 := hk.1
    rw [hκ.2, rev_offset hk1, cyc_rev]
    simp only [reindex]
  · rfl

theorem commutes_transpose {k : Nat} {κ : Fin k → Fin k → ℝ} (hκ : Dihedral κ) :
    Commutes (N := N) (H := H) (W := W) (N' := N) (H' := W) (W' := H)
      (ConvLayer.ofKernel ext int .circular k κ) (fun p => (p.1, p.2.2, p.2.1)) := by
  intro u
  unfold ConvLayer.apply
  split
  · rename_i hk
    rw [if_pos ⟨hk.1, hk.2.2, hk.2.1⟩]
    simp only [Functor.map, Except.map]
    congr 1
    funext n o i j
    simp only [reindex]
    rw [conv_sum_ofKernel, conv_sum_ofKernel]
    refine Finset.sum_congr rfl fun c _ => ?_
    rw [Finset.sum_comm]
    refine Finset.sum_congr rfl fun a _ => Finset.sum_congr rfl fun b _ => ?_
    rw [hκ.1]
    simp only [reindex]
  · rename_i hk
    rw [if_neg fun h => hk ⟨h.1, h.2.2, h.2.1⟩]
    rfl

/-- A CCA whose layers come from kernels with the symmetries of the square. -/
def Isotropic (ca : CCA ℝ ext int) : Prop :=
  (∃ k κ, Dihedral κ ∧ ca.idL = .ofKernel ext int .circular k κ) ∧
  (∃ k κ, Dihedral κ ∧ ca.nbL = .ofKernel ext int .circular k κ)

theorem isotropic_inv {ca : CCA ℝ ext int} {u : Univ ℝ N ext H W} {b' s'}
    (hs : Isotropic ca) (h : ca.forward u = .ok (b', s')) : Isotropic s' := by
  obtain ⟨_, _, _, _, _, _, h⟩ := CCA.forward_ok h
  cases h; exact hs

/-- C14: with such kernels `CCA` stepping commutes with transposition, for any number of
steps. -/
theorem cca_transpose (ca : CCA ℝ ext int) (hi : Isotropic ca) (n : Nat) (u : Univ ℝ N ext H W) :
    iterate CCA.forward n ca (transpose u) =
      Prod.map transpose id <$> iterate CCA.forward n ca u := by
  refine iterate_map (transpose) _ _ Isotropic (fun _ _ _ _ => isotropic_inv)
    (fun s b hs => ?_) n ca u hi
  obtain ⟨⟨k₁, κ₁, h1, h2⟩, ⟨k₂, κ₂, h3, h4⟩⟩ := hs
  exact cca_forward_reindex (fun p : Fin N × Fin W × Fin H => (p.1, p.2.2, p.2.1)) s
    (h2 ▸ commutes_transpose h1) (h4 ▸ commutes_transpose h3) b

/-- C14: and with mirroring the rows. -/
theorem cca_flipRows (ca : CCA ℝ ext int) (hi : Isotropic ca) (n : Nat) (u : Univ ℝ N ext H W) :
    iterate CCA.forward n ca (flipRows u) =
      Prod.map flipRows id <$> iterate CCA.forward n ca u := by
  refine iterate_map (flipRows) _ _ Isotropic (fun _ _ _ _ => isotropic_inv)
    (fun s b hs => ?_) n ca u hi
  obtain ⟨⟨k₁, κ₁, h1, h2⟩, ⟨k₂, κ₂, h3, h4⟩⟩ := hs
  exact cca_forward_reindex (fun p : Fin N × Fin H × Fin W => (p.1, p.2.1.rev, p.2.2)) s
    (h2 ▸ commutes_flipRows h1) (h4 ▸ commutes_flipRows h3) b

theorem map_map_prod {A B C S : Type} (f : A → B) (g : B → C) (x : Except PyErr (A × S)) :
    Prod.map g id <$> (Prod.map f id <$> x) = Prod.map (g ∘ f) id <$> x := by
  cases x <;> rfl

/-- C14: and with mirroring the columns. -/
theorem cca_flipCols (ca : CCA ℝ ext int) (hi : Isotropic ca) (n : Nat) (u : Univ ℝ N ext H W) :
    iterate CCA.forward n ca (flipCols u) =
      Prod.map flipCols id <$> iterate CCA.forward n ca u := by
  have h : flipCols u = transpose (flipRows (transpose u)) := rfl
  rw [h, cca_transpose ca hi, cca_flipRows ca hi, cca_transpose ca hi, map_map_prod, map_map_prod]
  rfl

/-- C14: and with quarter turns of square universes. -/
theorem cca_rot90 (ca : CCA ℝ ext int) (hi : Isotropic ca) (n : Nat) (u : Univ ℝ N ext H H) :
    iterate CCA.forward n ca (rot90 u) = Prod.map rot90 id <$> iterate CCA.forward n ca u := by
  have h : rot90 u = flipRows (transpose u) := rfl
  rw [h, cca_flipRows ca hi, cca_transpose ca hi, map_map_prod]
  rfl

theorem identityKernel_dihedral : Dihedral (identityKernel (α := ℝ)) := by
  have := getKernel_dihedral ⟨"InnerMoore", none, none⟩ ⟨1, identityKernel⟩ (by
    unfold getKernel; rw [if_pos rfl])
  exact this

/-- C14: in particular for the default identity layer and any kernel from `get_kernel`. -/
theorem cca_isotropic_of_config (ca : CCA ℝ ext int) (cfg : KernelConfig) (K : AnyKernel)
    (hk : getKernel cfg = .ok K) (hid : ca.idL = identityLayer ext int .circular)
    (hnb : ca.nbL = .ofKernel ext int .circular (2 * K.1 + 1) K.2) : Isotropic ca :=
  ⟨⟨3, identityKernel, identityKernel_dihedral, hid⟩, ⟨_, _, getKernel_dihedral cfg K hk, hnb⟩⟩

example : Isotropic realCA :=
  cca_isotropic_of_config realCA ⟨"MooreLike", some 2, none⟩ ⟨2, mooreLike 2⟩
    (by simp [getKernel]) rfl rfl

end Yuca
