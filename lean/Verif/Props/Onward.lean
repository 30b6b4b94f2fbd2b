import Verif.Props.Gliding
import Verif.Props.Everywhere
import Verif.Props.StepControl
import Verif.Props.Params

/-!
# C02, C13, C14 for whole runs of every automaton, C29 for every kind of parameter vector
-/

namespace Yuca

open Arith Spec

variable {ext int hid N H W N' H' W' : Nat}

/-! ## RandomStepCA -/

theorem drawn_iso {e : Fin N' × Fin H' × Fin W' → Fin N × Fin H × Fin W} (he : IsoMap e)
    (s : RandomStepCA ℝ ext int) (h1 : IsoLayer s.ca.idL) (h2 : IsoLayer s.ca.nbL)
    (draws : Nat → ℝ) (n : Nat) (u : Univ ℝ N ext H W) :
    iterate (drawnStep draws) n (0, s) (reindex e u) =
      Prod.map (reindex e) id <$> iterate (drawnStep draws) n (0, s) u := by
  refine iterate_map (reindex e) _ _ (fun s => IsoLayer s.2.ca.idL ∧ IsoLayer s.2.ca.nbL)
    (fun s b b' s' hs h => ?_) (fun s b hs => ?_) n (0, s) u ⟨h1, h2⟩
  · obtain ⟨k', s'⟩ := s'
    obtain ⟨_, _, _, _, _, _, h⟩ := RandomStepCA.forward_ok (drawnStep_ok h).2
    cases h; exact hs
  · unfold drawnStep
    rw [rnd_forward_reindex e s.2 (he hs.1) (he hs.2)]
    cases s.2.forward (draws s.1) b <;> rfl

/-- C13 for `RandomStepCA`: any number of steps, any draws. -/
theorem randomSteps_homogeneous {α : Type} [Arith α] (s : RandomStepCA α ext int)
    (h1 : s.ca.idL.mode = .circular) (h2 : s.ca.nbL.mode = .circular) (draws : Nat → α) (n : Nat)
    (u : Univ α N ext H W) (hu : Homogeneous u)
    (r : Univ α N ext H W × (Nat × RandomStepCA α ext int))
    (h : iterate (drawnStep draws) n (0, s) u = .ok r) : Homogeneous r.1 :=
  homogeneous_of_equivariant (fun dy dx u => randomSteps_roll s h1 h2 draws dy dx n u) hu h

/-- C14 for `RandomStepCA`: any number of steps, any draws. -/
theorem randomSteps_isotropic (s : RandomStepCA ℝ ext int) (h1 : IsoLayer s.ca.idL)
    (h2 : IsoLayer s.ca.nbL) (draws : Nat → ℝ) (n : Nat) (u : Univ ℝ N ext H W) :
    iterate (drawnStep draws) n (0, s) (transpose u) =
      Prod.map transpose id <$> iterate (drawnStep draws) n (0, s) u ∧
    iterate (drawnStep draws) n (0, s) (flipRows u) =
      Prod.map flipRows id <$> iterate (drawnStep draws) n (0, s) u ∧
    iterate (drawnStep draws) n (0, s) (flipCols u) =
      Prod.map flipCols id <$> iterate (drawnStep draws) n (0, s) u :=
  ⟨drawn_iso isoMap_transpose s h1 h2 draws n u, drawn_iso isoMap_flip s h1 h2 draws n u,
    drawn_iso isoMap_flipCols s h1 h2 draws n u⟩

/-! ## CODE -/

theorem codeSteps_map (φ : Univ ℝ N ext H W → Univ ℝ N' ext H' W')
    (P : ConvLayer ℝ ext int → ConvLayer ℝ ext int → Prop)
    (hφ : ∀ s : CODE ℝ ext int, P s.ca.idL s.ca.nbL → ∀ fuel u,
      s.forward fuel (φ u) = (s.forward fuel u).map (fun r => Prod.map φ id <$> r))
    {n : Nat} {s s' : CODE ℝ ext int} {u u' : Univ ℝ N ext H W} (h : CodeSteps n s u s' u')
    (hs : P s.ca.idL s.ca.nbL) : CodeSteps n s (φ u) s' (φ u') := by
  induction h with
  | zero s u => exact .zero s _
  | @succ n s u s1 u1 s'' u'' fuel hf _ ih =>
    obtain ⟨_, _, _, _, hs1⟩ := CODE.forward_ok hf
    refine .succ fuel ?_ (ih (by rw [show s1 = _ from hs1]; exact hs))
    rw [hφ s hs, hf]
    rfl

/-- C02 for `CODE`: a whole run from a shifted universe goes through the shifted universes with the
same step sizes. -/
theorem codeSteps_roll {n : Nat} {s s' : CODE ℝ ext int} {u u' : Univ ℝ N ext H W}
    (h1 : s.ca.idL.mode = .circular) (h2 : s.ca.nbL.mode = .circular) (dy dx : Int)
    (h : CodeSteps n s u s' u') : CodeSteps n s (roll dy dx u) s' (roll dy dx u') :=
  codeSteps_map (roll dy dx) (fun a b => a.mode = .circular ∧ b.mode = .circular)
    (fun s hs fuel u => code_roll s hs.1 hs.2 dy dx fuel u) h ⟨h1, h2⟩

/-- C13 for `CODE`: any number of steps. -/
theorem codeSteps_homogeneous {n : Nat} {s s' : CODE ℝ ext int} {u u' : Univ ℝ N ext H W}
    (h1 : s.ca.idL.mode = .circular) (h2 : s.ca.nbL.mode = .circular) (hu : Homogeneous u)
    (h : CodeSteps n s u s' u') : Homogeneous u' := by
  induction h with
  | zero s u => exact hu
  | @succ n s u s1 u1 s'' u'' fuel hf _ ih =>
    obtain ⟨_, _, _, _, hs1⟩ := CODE.forward_ok hf
    have e : s1 = _ := hs1
    exact ih (by rw [e]; exact h1) (by rw [e]; exact h2)
      (code_homogeneous s h1 h2 fuel u hu (u1, s1) hf)

theorem code_iso {e : Fin N' × Fin H' × Fin W' → Fin N × Fin H × Fin W} (he : IsoMap e)
    (hs : Function.Surjective e) {n : Nat} {s s' : CODE ℝ ext int} {u u' : Univ ℝ N ext H W}
    (h1 : IsoLayer s.ca.idL) (h2 : IsoLayer s.ca.nbL) (h : CodeSteps n s u s' u') :
    CodeSteps n s (reindex e u) s' (reindex e u') :=
  codeSteps_map (reindex e) (fun a b => IsoLayer a ∧ IsoLayer b)
    (fun s hl fuel u => code_forward_reindex e hs s (he hl.1) (he hl.2) fuel u) h ⟨h1, h2⟩

/-- C14 for `CODE`: any number of steps. -/
theorem codeSteps_isotropic {n : Nat} {s s' : CODE ℝ ext int} {u u' : Univ ℝ N ext H W}
    (h1 : IsoLayer s.ca.idL) (h2 : IsoLayer s.ca.nbL) (h : CodeSteps n s u s' u') :
    CodeSteps n s (transpose u) s' (transpose u') ∧ CodeSteps n s (flipRows u) s' (flipRows u') ∧
      CodeSteps n s (flipCols u) s' (flipCols u') :=
  ⟨code_iso (e := transposeMap N H W) isoMap_transpose
      (by rintro ⟨n, i, j⟩; exact ⟨(n, j, i), rfl⟩) h1 h2 h,
    code_iso (e := flipMap N H W) isoMap_flip
      (by rintro ⟨n, i, j⟩; exact ⟨(n, i.rev, j), by simp [flipMap]⟩) h1 h2 h,
    code_iso (e := flipColsMap N H W) isoMap_flipCols
      (by rintro ⟨n, i, j⟩; exact ⟨(n, i, j.rev), by simp [flipColsMap]⟩) h1 h2 h⟩

/-- C14: quarter turns of square universes, for the automata `turns_isotropic` leaves out. -/
theorem turns_isotropic_rest :
    (∀ (ca : BaseCA ℝ ext), IsoLayer ca.idL → IsoLayer ca.nbL → ∀ n (u : Univ ℝ N ext H H),
      iterate BaseCA.forward n ca (rot90 u) =
        Prod.map rot90 id <$> iterate BaseCA.forward n ca u) ∧
    (∀ (s : RandomStepCA ℝ ext int), IsoLayer s.ca.idL → IsoLayer s.ca.nbL → ∀ draws n
      (u : Univ ℝ N ext H H), iterate (drawnStep draws) n (0, s) (rot90 u) =
        Prod.map rot90 id <$> iterate (drawnStep draws) n (0, s) u) ∧
    (∀ n (s s' : CODE ℝ ext int) (u u' : Univ ℝ N ext H H), IsoLayer s.ca.idL →
      IsoLayer s.ca.nbL → CodeSteps n s u s' u' → CodeSteps n s (rot90 u) s' (rot90 u')) :=
  ⟨fun ca h1 h2 n u => base_iso isoMap_turn ca h1 h2 n u,
    fun s h1 h2 draws n u => drawn_iso isoMap_turn s h1 h2 draws n u,
    fun n s s' u u' h1 h2 h => code_iso (e := turnMap N H) isoMap_turn
      (by rintro ⟨n, i, j⟩; exact ⟨(n, j.rev, i), by simp [turnMap]⟩) h1 h2 h⟩

/-! ## MetaCA -/

/-- The automaton with the momentum it has for universes of a shape, moved along with the cells. -/
noncomputable def carriedMeta (N H W : Nat) (e : Fin N' × Fin H' × Fin W' → Fin N × Fin H × Fin W)
    (s : MetaCA ℝ ext int) : MetaCA ℝ ext int :=
  { s with dgrid := some ⟨(N', H', W'), reindex e (s.dgrid.forShape N H W)⟩ }

theorem meta_carried_step {e : Fin N' × Fin H' × Fin W' → Fin N × Fin H × Fin W} (he : IsoMap e)
    (s : MetaCA ℝ ext int) (h1 : IsoLayer s.ca.idL) (h2 : IsoLayer s.ca.nbL)
    (b : Univ ℝ N ext H W) :
    MetaCA.forward (carriedMeta N H W e s) (reindex e b) =
      Prod.map (reindex e) (carriedMeta N H W e) <$> MetaCA.forward s b := by
  unfold MetaCA.forward
  simp only [carriedMeta, forShape_self]
  rw [maskIf_reindex, he h1, he h2]
  cases s.ca.idL.apply (maskIf s.ca.thr b) with
  | error _ => rfl
  | ok idn =>
    cases s.ca.nbL.apply (maskIf s.ca.thr b) with
    | error _ => rfl
    | ok nb =>
      simp only [bind, Except.bind, Functor.map, Except.map, pure, Except.pure]
      rw [updateUniverse_reindex]
      cases s.ca.updateUniverse idn nb with
      | error _ => rfl
      | ok upd =>
        simp only [Functor.map, Except.map, Prod.map, carriedMeta, forShape_self]
        rfl

theorem meta_iso {e : Fin N' × Fin H' × Fin W' → Fin N × Fin H × Fin W} (he : IsoMap e)
    (s : MetaCA ℝ ext int) (h1 : IsoLayer s.ca.idL) (h2 : IsoLayer s.ca.nbL) (n : Nat)
    (u : Univ ℝ N ext H W) :
    Prod.fst <$> iterate MetaCA.forward n s.reset (reindex e u) =
      (fun r => reindex e r.1) <$> iterate MetaCA.forward n s.reset u := by
  cases n with
  | zero => rfl
  | succ n =>
    have key : iterate MetaCA.forward (n + 1) (carriedMeta N H W e s.reset) (reindex e u) =
        Prod.map (reindex e) (carriedMeta N H W e) <$> iterate MetaCA.forward (n + 1) s.reset u :=
      iterate_map₂ (reindex e) (carriedMeta N H W e) _ _
        (fun s => IsoLayer s.ca.idL ∧ IsoLayer s.ca.nbL)
        (fun s b b' s' hs h => by
          obtain ⟨_, _, _, _, _, _, _, _, h⟩ := MetaCA.forward_ok h
          cases h; exact hs)
        (fun s b hs => meta_carried_step he s hs.1 hs.2 b) (n + 1) s.reset u ⟨h1, h2⟩
    have h : MetaCA.forward (carriedMeta N H W e s.reset) (reindex e u) =
        MetaCA.forward s.reset (reindex e u) := by
      unfold MetaCA.forward
      simp only [carriedMeta, forShape_self]
      rfl
    have h' : iterate MetaCA.forward (n + 1) s.reset (reindex e u) =
        iterate MetaCA.forward (n + 1) (carriedMeta N H W e s.reset) (reindex e u) := by
      simp only [iterate, h]
    rw [h', key]
    cases iterate MetaCA.forward (n + 1) s.reset u <;> rfl

/-- C14 for `MetaCA` after `reset`: transposition, mirroring rows, mirroring columns. -/
theorem meta_isotropic (s : MetaCA ℝ ext int) (h1 : IsoLayer s.ca.idL) (h2 : IsoLayer s.ca.nbL)
    (n : Nat) (u : Univ ℝ N ext H W) :
    Prod.fst <$> iterate MetaCA.forward n s.reset (transpose u) =
      (fun r => transpose r.1) <$> iterate MetaCA.forward n s.reset u ∧
    Prod.fst <$> iterate MetaCA.forward n s.reset (flipRows u) =
      (fun r => flipRows r.1) <$> iterate MetaCA.forward n s.reset u ∧
    Prod.fst <$> iterate MetaCA.forward n s.reset (flipCols u) =
      (fun r => flipCols r.1) <$> iterate MetaCA.forward n s.reset u :=
  ⟨meta_iso isoMap_transpose s h1 h2 n u, meta_iso isoMap_flip s h1 h2 n u,
    meta_iso isoMap_flipCols s h1 h2 n u⟩

/-- C14 for `MetaCA` after `reset`: quarter turns. -/
theorem meta_turns (s : MetaCA ℝ ext int) (h1 : IsoLayer s.ca.idL) (h2 : IsoLayer s.ca.nbL)
    (n : Nat) (u : Univ ℝ N ext H H) :
    Prod.fst <$> iterate MetaCA.forward n s.reset (rot90 u) =
      (fun r => rot90 r.1) <$> iterate MetaCA.forward n s.reset u :=
  meta_iso isoMap_turn s h1 h2 n u

example : ∃ s : MetaCA ℝ 1 1, IsoLayer s.ca.idL ∧ IsoLayer s.ca.nbL ∧ s.dgrid.isSome :=
  ⟨⟨realCA, 0.1, some ⟨(1, 3, 3), fun _ _ _ _ => 1⟩⟩, isoLayer_identity,
    isoLayer_config (K := ⟨2, mooreLike 2⟩) (cfg := ⟨"MooreLike", some 2, none⟩)
      (by simp [getKernel]), rfl⟩

/-! ## C29 -/

/-- C29: entries beyond those the tensors of a `CPPN` take are not read. -/
theorem tensors_params_longer {K : Type} (ts : List (List K)) (v extra : List K)
    (hv : (readTensors ts).length ≤ v.length) :
    writeTensors ts (v ++ extra) =
      ((writeTensors ts v).1, .ok (v.drop (readTensors ts).length ++ extra)) := by
  rw [readTensors_length] at hv ⊢
  induction ts generalizing v with
  | nil => simp [writeTensors, Spec.size]
  | cons t ts ih =>
    have hs : Spec.size (t :: ts) = t.length + Spec.size ts := by simp [Spec.size]
    rw [hs] at hv ⊢
    have h1 : ((v ++ extra).take t.length).length = t.length := by simp; omega
    have h2 : (v.take t.length).length = t.length := by simp; omega
    rw [writeTensors, if_pos h1, writeTensors, if_pos h2,
      List.drop_append_of_le_length (by omega), ih _ (by rw [List.length_drop]; omega),
      List.take_append_of_le_length (by omega), List.drop_drop]

theorem acts_longer (as : List (Act ℝ)) (v extra : List ℝ) (hv : (readActs as).length ≤ v.length) :
    writeActs as (v ++ extra) =
      ((writeActs as v).1, .ok (v.drop (readActs as).length ++ extra)) := by
  induction as generalizing v with
  | nil => simp [writeActs, readActs]
  | cons a as ih =>
    rw [readActs_cons, List.length_append] at hv
    have hr := readTensors_length a.tensors
    obtain ⟨ts', e1, _, _⟩ := writeTensors_enough a.tensors v (by omega)
    rw [writeActs, tensors_params_longer _ _ _ (by omega), writeActs, e1]
    simp only
    rw [hr, ih _ (by rw [List.length_drop]; omega), readActs_cons, List.length_append, hr,
      List.drop_drop]

/-- C29: a vector longer than needed is accepted and its tail ignored (`Lenia`). -/
theorem lenia_params_longer (o : CCAObj) (v extra : List ℝ)
    (hv : v.length = o.leniaGetParams.length) :
    o.leniaSetParams (v ++ extra) = o.leniaSetParams v ∧ (o.leniaSetParams v).2 = none := by
  have h : (readActs o.genesis).length ≤ v.length := hv.ge
  obtain ⟨gs, g1, _, _⟩ := writeActs_enough o.genesis v h
  rw [CCAObj.leniaSetParams, CCAObj.leniaSetParams, acts_longer _ _ _ h, g1]
  exact ⟨rfl, rfl⟩

/-- C29: a vector too short for the growth functions of a `Lenia` raises ValueError; the tensors
before the one that could not be filled have been overwritten. -/
theorem lenia_params_short (o : CCAObj) (v : List ℝ) (hv : v.length < o.leniaGetParams.length) :
    ∃ (k : Nat) (o' : CCAObj), o.leniaSetParams v = (o', some .value) ∧
      Spec.size ((Spec.layout o.genesis).take k) ≤ v.length ∧
      v.length < Spec.size ((Spec.layout o.genesis).take (k + 1)) ∧
      o'.leniaGetParams = v.take (Spec.size ((Spec.layout o.genesis).take k)) ++
        o.leniaGetParams.drop (Spec.size ((Spec.layout o.genesis).take k)) ∧
      o' = { o with genesis := o'.genesis } := by
  obtain ⟨k, gs, _, h2, h3, h4, _, h6⟩ := writeActs_short o.genesis v hv
  exact ⟨k, { o with genesis := gs }, by rw [CCAObj.leniaSetParams, h4], h2, h3, h6, rfl⟩

/-- C29: a vector longer than needed is accepted and its tail ignored (`NCA`). -/
theorem nca_params_longer (o : NCAObj) (hk : ∀ x, o.kernelParams ≠ .scalar x) (v extra : List ℝ)
    (hv : v.length = o.getParams.length) : o.setParams (v ++ extra) = o.setParams v := by
  have hr := readTensors_length o.tensors
  have h : (readTensors o.tensors).length ≤ v.length := by
    rw [hv, NCAObj.getParams, List.length_append]; omega
  obtain ⟨ts, e1, _, _⟩ := writeTensors_enough o.tensors v (by omega)
  rw [NCAObj.setParams, NCAObj.setParams, tensors_params_longer _ _ _ h, e1]
  cases hp : o.kernelParams with
  | none => rfl
  | scalar x => exact absurd hp (hk x)
  | vec l =>
    have hl : l.length = (v.drop (readTensors o.tensors).length).length := by
      rw [List.length_drop, hv, NCAObj.getParams, hp, List.length_append]; simp
    simp only
    rw [List.take_append_of_le_length (by omega), hr]

/-- C29: a vector of an `NCA` that is short only in the kernel part is accepted exactly when what
is left describes a mixture; the weights have been overwritten in any case. -/
theorem nca_params_kernel_short (o : NCAObj) (l : List ℝ) (hk : o.kernelParams = .vec l)
    (hr : o.kernelRadius ≠ 0) (v : List ℝ) (h1 : (readTensors o.tensors).length ≤ v.length)
    (h2 : v.length < o.getParams.length) :
    (o.setParams v).1.getParams = v ∧
      ((o.setParams v).2 = none ↔ Spec.MixtureLength (v.length - (readTensors o.tensors).length)) := by
  have hs := readTensors_length o.tensors
  obtain ⟨ts, e1, _, e3⟩ := writeTensors_enough o.tensors v (by omega)
  rw [NCAObj.getParams, hk, List.length_append] at h2
  simp only at h2
  have ht : (v.drop (Spec.size o.tensors)).take l.length = v.drop (Spec.size o.tensors) :=
    List.take_of_length_le (by rw [List.length_drop]; omega)
  have hm := mixture_kernel_iff o.kernelRadius (v.drop (Spec.size o.tensors))
  rw [List.length_drop, ← hs] at hm
  rw [← hs] at e1 e3 ht
  have hv : readTensors ts ++ v.drop (readTensors o.tensors).length = v := by
    rw [e3, List.take_append_drop]
  rw [NCAObj.setParams, e1]
  simp only [hk, ht]
  cases hg : gaussianMixtureKernel o.kernelRadius (v.drop (readTensors o.tensors).length) with
  | error e =>
    refine ⟨hv, ⟨fun h => by simp at h, fun h => ?_⟩⟩
    obtain ⟨κ, hκ⟩ := hm.2 ⟨h, hr⟩
    rw [hg] at hκ; cases hκ
  | ok κ => exact ⟨hv, ⟨fun _ => (hm.1 ⟨κ, hg⟩).1, fun _ => rfl⟩⟩

/-- C29, exceptions: `CPPNPlus` stores the tail of a longer vector in its parameter agent, and
`ParamsAgent` takes vectors of any length. -/
theorem cppnplus_params_longer_refuted {K : Type} (fil : K → K) (c : CPPNPlus K)
    (hf : c.agent.filter = false) (v extra : List K) (hv : v.length = c.getParams.length) :
    ∃ c', c.setParams fil (v ++ extra) = (c', none) ∧ c'.getParams = v ++ extra ∧
      c'.agent.params.length = c.agent.params.length + extra.length ∧
      (c.agent.setParams fil extra).params = extra := by
  have hs := readTensors_length c.tensors
  have hv' : v.length = (readTensors c.tensors).length + c.agent.params.length := by
    rw [hv, CPPNPlus.getParams, List.length_append]
  obtain ⟨c', h1, h2, h3⟩ := cppnplus_params_roundtrip fil c hf (v ++ extra) (by
    rw [List.length_append]; omega)
  refine ⟨c', h1, h2, ?_, by simp [ParamsAgent.setParams, hf]⟩
  rw [h3, List.length_drop, List.length_append]
  omega

end Yuca
