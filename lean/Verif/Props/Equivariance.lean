import Verif.Props.Witness

/-!
# C02 torus translation equivariance, C07 batch independence

Both hold for lawless arithmetic, hence bit for bit.
-/

namespace Yuca

open Arith Spec

variable {α : Type} [Arith α] {ext int N H W : Nat}

/-! ## C02 -/

/-- C02 for `CCA`: shifting the start universe shifts the whole trajectory (and raises
exactly when the unshifted run raises). -/
theorem cca_roll (ca : CCA α ext int) (h1 : ca.idL.mode = .circular)
    (h2 : ca.nbL.mode = .circular) (dy dx : Int) (n : Nat) (u : Univ α N ext H W) :
    iterate CCA.forward n ca (roll dy dx u) =
      Prod.map (roll dy dx) id <$> iterate CCA.forward n ca u := by
  have hr : (roll dy dx : Univ α N ext H W → _) = reindex (rollMap N H W dy dx) := by
    funext u; exact roll_eq_reindex dy dx u
  rw [hr]
  refine iterate_map _ _ _ (fun s => s.idL.mode = .circular ∧ s.nbL.mode = .circular)
    ?_ (fun s b hs => ?_) n ca u ⟨h1, h2⟩
  · intro s b b' s' hs h
    obtain ⟨_, _, _, _, _, _, h⟩ := CCA.forward_ok h
    cases h; exact hs
  · exact cca_forward_reindex _ s (commutes_roll _ hs.1 _ _) (commutes_roll _ hs.2 _ _) b

/-- C02 for `Lenia`. -/
theorem lenia_roll (ca : CCA α ext int) (h1 : ca.idL.mode = .circular)
    (h2 : ca.nbL.mode = .circular) (dy dx : Int) (n : Nat) (u : Univ α N ext H W) :
    iterate CCA.leniaForward n ca (roll dy dx u) =
      Prod.map (roll dy dx) id <$> iterate CCA.leniaForward n ca u := by
  have hr : (roll dy dx : Univ α N ext H W → _) = reindex (rollMap N H W dy dx) := by
    funext u; exact roll_eq_reindex dy dx u
  rw [hr]
  refine iterate_map _ _ _ (fun s => s.idL.mode = .circular ∧ s.nbL.mode = .circular)
    ?_ (fun s b hs => ?_) n ca u ⟨h1, h2⟩
  · intro s b b' s' hs h
    obtain ⟨_, _, _, _, _, _, h⟩ := CCA.leniaForward_ok h
    cases h; exact hs
  · exact lenia_forward_reindex _ s (commutes_roll _ hs.1 _ _) (commutes_roll _ hs.2 _ _) b

/-- C02 for the base class. -/
theorem base_roll (ca : BaseCA α ext) (h1 : ca.idL.mode = .circular)
    (h2 : ca.nbL.mode = .circular) (dy dx : Int) (n : Nat) (u : Univ α N ext H W) :
    iterate BaseCA.forward n ca (roll dy dx u) =
      Prod.map (roll dy dx) id <$> iterate BaseCA.forward n ca u := by
  have hr : (roll dy dx : Univ α N ext H W → _) = reindex (rollMap N H W dy dx) := by
    funext u; exact roll_eq_reindex dy dx u
  rw [hr]
  refine iterate_map _ _ _ (fun s => s.idL.mode = .circular ∧ s.nbL.mode = .circular)
    ?_ (fun s b hs => ?_) n ca u ⟨h1, h2⟩
  · intro s b b' s' hs h
    obtain ⟨_, _, _, _, h⟩ := BaseCA.forward_ok h
    cases h; exact hs
  · exact base_forward_reindex _ s (commutes_roll _ hs.1 _ _) (commutes_roll _ hs.2 _ _) b

/-- C02 for `RxnDfn`. -/
theorem rxn_roll (ca : RxnDfn α) (h1 : ca.idL.mode = .circular)
    (h2 : ca.nbL.mode = .circular) (dy dx : Int) (n : Nat) (u : Univ α N 2 H W) :
    iterate RxnDfn.forward n ca (roll dy dx u) =
      Prod.map (roll dy dx) id <$> iterate RxnDfn.forward n ca u := by
  have hr : (roll dy dx : Univ α N 2 H W → _) = reindex (rollMap N H W dy dx) := by
    funext u; exact roll_eq_reindex dy dx u
  rw [hr]
  refine iterate_map _ _ _ (fun s => s.idL.mode = .circular ∧ s.nbL.mode = .circular)
    ?_ (fun s b hs => ?_) n ca u ⟨h1, h2⟩
  · intro s b b' s' hs h
    obtain ⟨_, _, _, _, h⟩ := RxnDfn.forward_ok h
    cases h; exact hs
  · exact rxn_forward_reindex _ s (commutes_roll _ hs.1 _ _) (commutes_roll _ hs.2 _ _) b

/-- C02 for `NCA` in evaluation mode. -/
theorem nca_roll [Transc α] {hid : Nat} (ca : NCA α ext int hid) (h1 : ca.idL.mode = .circular)
    (h2 : ca.nbL.mode = .circular) (dy dx : Int) (n : Nat) (u : Univ α N ext H W) :
    iterate (fun s b => NCA.forward s none b) n ca (roll dy dx u) =
      Prod.map (roll dy dx) id <$> iterate (fun s b => NCA.forward s none b) n ca u := by
  have hr : (roll dy dx : Univ α N ext H W → _) = reindex (rollMap N H W dy dx) := by
    funext u; exact roll_eq_reindex dy dx u
  rw [hr]
  refine iterate_map _ _ _ (fun s => s.idL.mode = .circular ∧ s.nbL.mode = .circular)
    ?_ (fun s b hs => ?_) n ca u ⟨h1, h2⟩
  · intro s b b' s' hs h
    obtain ⟨_, _, _, _, _, _, h⟩ := NCA.forward_ok h
    cases h; exact hs
  · exact nca_forward_reindex _ s (commutes_roll _ hs.1 _ _) (commutes_roll _ hs.2 _ _) none b

/-- C02 for `CODE`: one adaptive step (with the loop cut off after `fuel` tests, for
every `fuel`) commutes with the shift, and picks the same step size. -/
theorem code_roll (s : CODE α ext int) (h1 : s.ca.idL.mode = .circular)
    (h2 : s.ca.nbL.mode = .circular) (dy dx : Int) (fuel : Nat) (u : Univ α N ext H W) :
    s.forward fuel (roll dy dx u) =
      (s.forward fuel u).map (fun r => Prod.map (roll dy dx) id <$> r) := by
  have hr : (roll dy dx : Univ α N ext H W → _) = reindex (rollMap N H W dy dx) := by
    funext u; exact roll_eq_reindex dy dx u
  rw [hr]
  refine code_forward_reindex _ ?_ s (commutes_roll _ h1 _ _) (commutes_roll _ h2 _ _) fuel u
  rintro ⟨n, i, j⟩
  exact ⟨(n, cyc i dy, cyc j dx), by simp [rollMap, cyc_cyc, cyc_zero]⟩

/-- C02 for `RandomStepCA`, for every draw. -/
theorem randomStep_roll (s : RandomStepCA α ext int) (h1 : s.ca.idL.mode = .circular)
    (h2 : s.ca.nbL.mode = .circular) (dy dx : Int) (draw : α) (u : Univ α N ext H W) :
    s.forward draw (roll dy dx u) = Prod.map (roll dy dx) id <$> s.forward draw u := by
  have hr : (roll dy dx : Univ α N ext H W → _) = reindex (rollMap N H W dy dx) := by
    funext u; exact roll_eq_reindex dy dx u
  rw [hr]
  exact rnd_forward_reindex _ s (commutes_roll _ h1 _ _) (commutes_roll _ h2 _ _) draw u

/-- Shift the momentum of a MetaCA. -/
def rollMeta (dy dx : Int) (s : MetaCA α ext int) : MetaCA α ext int :=
  { s with dgrid := s.dgrid.map fun d => ⟨d.1, roll dy dx d.2⟩ }

/-- C02 for `MetaCA`: universe and momentum shift together; in particular a run from
`reset` is equivariant. -/
theorem meta_roll (s : MetaCA α ext int) (h1 : s.ca.idL.mode = .circular)
    (h2 : s.ca.nbL.mode = .circular) (dy dx : Int) (n : Nat) (u : Univ α N ext H W) :
    iterate MetaCA.forward n (rollMeta dy dx s) (roll dy dx u) =
      Prod.map (roll dy dx) (rollMeta dy dx) <$> iterate MetaCA.forward n s u := by
  have hr : (roll dy dx : Univ α N ext H W → _) = reindex (rollMap N H W dy dx) := by
    funext u; exact roll_eq_reindex dy dx u
  refine iterate_map₂ (roll dy dx) (rollMeta dy dx) _ _
    (fun s => s.ca.idL.mode = .circular ∧ s.ca.nbL.mode = .circular)
    ?_ (fun s b hs => ?_) n s u ⟨h1, h2⟩
  · intro s b b' s' hs h
    obtain ⟨_, _, _, _, _, _, _, _, h⟩ := MetaCA.forward_ok h
    cases h; exact hs
  · have hm : Momentum.forShape (rollMeta dy dx s).dgrid N H W =
        roll dy dx (Momentum.forShape s.dgrid N H W) := by
      unfold rollMeta Momentum.forShape
      rcases hd : s.dgrid with _ | ⟨sh, d⟩
      · rfl
      · simp only [Option.map_some]
        split
        · rename_i h; subst h; rfl
        · rfl
    unfold MetaCA.forward
    rw [hm]
    simp only [hr]
    simp only [rollMeta, maskIf_reindex, commutes_roll (N := N) (H := H) (W := W) _ hs.1 dy dx _,
      commutes_roll (N := N) (H := H) (W := W) _ hs.2 dy dx _]
    cases s.ca.idL.apply (maskIf s.ca.thr b) with
    | error _ => rfl
    | ok idn =>
      cases s.ca.nbL.apply (maskIf s.ca.thr b) with
      | error _ => rfl
      | ok nb =>
        simp only [bind, Except.bind, Functor.map, Except.map, pure, Except.pure]
        rw [updateUniverse_reindex]
        cases s.ca.updateUniverse idn nb with
        | error _ => rfl
        | ok upd =>
          simp only [Functor.map, Except.map, Prod.map]
          congr 3

/-- The hypotheses of the theorems above hold for the (circular) witness automata, and
the shift by one row really moves the witness universe. -/
example : Witness.ca1.idL.mode = .circular ∧ Witness.ca1.nbL.mode = .circular ∧
    roll 1 0 Witness.u3 ≠ Witness.u3 := by
  refine ⟨rfl, rfl, fun h => ?_⟩
  have := congrFun (congrFun (congrFun (congrFun h 0) 0) 0) 1
  revert this; decide +kernel

example : Witness.rxn.idL.mode = .circular ∧ Witness.rxn.nbL.mode = .circular := ⟨rfl, rfl⟩
example : Witness.nca.idL.mode = .circular ∧ Witness.nca.nbL.mode = .circular := ⟨rfl, rfl⟩

/-- With `conv_mode='zeros'` equivariance fails: the shifted start universe gives a
different result. -/
theorem roll_zeros_refuted : ∃ (ca : CCA ℚ 1 1) (u : Univ ℚ 1 1 3 3),
    ca.idL.mode = .zeros ∧ ca.nbL.mode = .zeros ∧
    ∃ a b, ca.forward (roll 1 0 u) = .ok a ∧ ca.forward u = .ok b ∧ a.1 ≠ roll 1 0 b.1 := by
  refine ⟨Witness.ca1zeros, Witness.u3, rfl, rfl, _, _, rfl, rfl, fun h => ?_⟩
  have := congrFun (congrFun (congrFun (congrFun h 0) 0) 1) 0
  revert this; decide +kernel

/-! ## C07 -/

/-- C07 for `CCA`: the trajectory of a batch, looked at for one member, is the
trajectory of that member alone. -/
theorem cca_member (ca : CCA α ext int) (m : Fin N) (n : Nat) (u : Univ α N ext H W) :
    iterate CCA.forward n ca (member m u) =
      Prod.map (member m) id <$> iterate CCA.forward n ca u :=
  iterate_map (reindex fun p => (m, p.2)) _ _ (fun _ => True) (fun _ _ _ _ _ _ => trivial)
    (fun s b _ => cca_forward_reindex _ s (commutes_member _ m) (commutes_member _ m) b) n ca u
    trivial

/-- C07 for `Lenia`. -/
theorem lenia_member (ca : CCA α ext int) (m : Fin N) (n : Nat) (u : Univ α N ext H W) :
    iterate CCA.leniaForward n ca (member m u) =
      Prod.map (member m) id <$> iterate CCA.leniaForward n ca u :=
  iterate_map (reindex fun p => (m, p.2)) _ _ (fun _ => True) (fun _ _ _ _ _ _ => trivial)
    (fun s b _ => lenia_forward_reindex _ s (commutes_member _ m) (commutes_member _ m) b) n ca u
    trivial

/-- C07 for `RxnDfn`. -/
theorem rxn_member (ca : RxnDfn α) (m : Fin N) (n : Nat) (u : Univ α N 2 H W) :
    iterate RxnDfn.forward n ca (member m u) =
      Prod.map (member m) id <$> iterate RxnDfn.forward n ca u :=
  iterate_map (reindex fun p => (m, p.2)) _ _ (fun _ => True) (fun _ _ _ _ _ _ => trivial)
    (fun s b _ => rxn_forward_reindex _ s (commutes_member _ m) (commutes_member _ m) b) n ca u
    trivial

/-- C07 for `NCA` in evaluation mode. -/
theorem nca_member [Transc α] {hid : Nat} (ca : NCA α ext int hid) (m : Fin N) (n : Nat)
    (u : Univ α N ext H W) :
    iterate (fun s b => NCA.forward s none b) n ca (member m u) =
      Prod.map (member m) id <$> iterate (fun s b => NCA.forward s none b) n ca u :=
  iterate_map (reindex fun p => (m, p.2)) _ _ (fun _ => True) (fun _ _ _ _ _ _ => trivial)
    (fun s b _ => nca_forward_reindex _ s (commutes_member _ m) (commutes_member _ m) none b) n ca u
    trivial

/-- A CODE automaton with a steep, state-dependent growth function, for which large
steps are inaccurate on member 1 only. -/
def codeW : CODE ℚ 1 1 where
  ca := { Witness.ca1 with
    nbL := ⟨1, .circular, fun _ _ _ _ => 1⟩
    genesis := [fun x => if x < 1/4 then 0 else x]
    persistence := [fun x => if x < 1/4 then 0 else x] }
  prevDt := 3/10
  maxDt := 1/2
  minDt := 1/100
  errThr := 1/100

/-- C07 fails for `CODE`: member 0 stepped alone takes step 1/2, but together with
member 1 a smaller one, so its result differs. -/
theorem code_member_refuted : ∃ (s : CODE ℚ 1 1) (u : Univ ℚ 2 1 1 1) (fuel : Nat) (a b : _),
    s.forward fuel (member 0 u) = some (.ok a) ∧ s.forward fuel u = some (.ok b) ∧
    a.2.ca.dt ≠ b.2.ca.dt := by
  have key : ∀ {N : Nat} (u : Univ ℚ N 1 1 1) (d : ℚ),
      (codeW.forward 40 u).map (fun r => r.toOption.map (fun r => r.2.ca.dt)) = some (some d) →
      ∃ a, codeW.forward 40 u = some (.ok a) ∧ a.2.ca.dt = d := by
    intro N u d h
    rcases hf : codeW.forward 40 u with _ | r
    · rw [hf] at h; simp at h
    · rw [hf] at h
      cases r with
      | error e => simp [Except.toOption] at h
      | ok r => exact ⟨r, rfl, by simpa [Except.toOption] using h⟩
  let u : Univ ℚ 2 1 1 1 := fun n _ _ _ => if n = 0 then 1/8 else 1/2
  obtain ⟨a, ha, hda⟩ := key (member 0 u) (1/2) (by decide +kernel)
  obtain ⟨b, hb, hdb⟩ := key u (1/2 * (3/4) * (3/4) * (3/4)) (by decide +kernel)
  exact ⟨codeW, u, 40, a, b, ha, hb, by rw [hda, hdb]; norm_num⟩

/-- The batch of that counterexample is non-trivial: its members differ. -/
example : (fun n _ _ _ => if n = 0 then 1/8 else 1/2 : Univ ℚ 2 1 1 1) 0 0 0 0 ≠
    (fun n _ _ _ => if n = 0 then 1/8 else 1/2 : Univ ℚ 2 1 1 1) 1 0 0 0 := by norm_num

end Yuca
