import Verif.Spec.Dyn
import Mathlib.Tactic.Ring
import Mathlib.Tactic.Linarith

/-! # Lemmas about padding, convolution and reindexing -/

set_option linter.unusedSectionVars false

namespace Yuca

open Arith

variable {α : Type} {ext int N H W N' H' W' : Nat}

/-- `(i + d) mod n`. -/
def cyc {n : Nat} (i : Fin n) (d : Int) : Fin n :=
  ⟨(((i.val : Int) + d) % (n : Int)).toNat, by
    have hn : 0 < (n : Int) := by have := i.isLt; omega
    have h1 := Int.emod_lt_of_pos ((i.val : Int) + d) hn
    have h2 := Int.emod_nonneg ((i.val : Int) + d) (b := (n : Int)) (by omega)
    omega⟩

theorem cyc_val {n : Nat} (i : Fin n) (d : Int) :
    ((cyc i d).val : Int) = ((i.val : Int) + d) % (n : Int) := by
  have hn : 0 < (n : Int) := by have := i.isLt; omega
  have h2 := Int.emod_nonneg ((i.val : Int) + d) (b := (n : Int)) (by omega)
  simp [cyc, Int.toNat_of_nonneg h2]

theorem cyc_cyc {n : Nat} (i : Fin n) (a b : Int) : cyc (cyc i a) b = cyc i (a + b) := by
  apply Fin.ext
  have : ((cyc (cyc i a) b).val : Int) = (cyc i (a + b)).val := by
    rw [cyc_val, cyc_val, cyc_val, Int.emod_add_emod, add_assoc]
  exact_mod_cast this

theorem cyc_zero {n : Nat} (i : Fin n) : cyc i 0 = i := by
  apply Fin.ext
  have : ((cyc i 0).val : Int) = i.val := by
    rw [cyc_val, add_zero, Int.emod_eq_of_lt (by omega) (by have := i.isLt; omega)]
  exact_mod_cast this

theorem rollIdx_eq_cyc {n : Nat} (i : Fin n) (d : Int) : Spec.rollIdx i d = cyc i (-d) := by
  simp [Spec.rollIdx, cyc, sub_eq_add_neg]

theorem cyc_comm {n : Nat} (i : Fin n) (a b : Int) : cyc (cyc i a) b = cyc (cyc i b) a := by
  rw [cyc_cyc, cyc_cyc, add_comm]

theorem cyc_rev {n : Nat} (i : Fin n) (d : Int) : cyc i.rev d = (cyc i (-d)).rev := by
  apply Fin.ext
  have hi := i.isLt
  have hn : 0 < (n : Int) := by omega
  have h1 : ((cyc i.rev d).val : Int) = ((n : Int) - 1 - i.val + d) % n := by
    rw [cyc_val]; congr 1
    rw [Fin.val_rev]; omega
  have h2 := cyc_val i (-d)
  have h3 := (cyc i (-d)).isLt
  have h4 : ((cyc i (-d)).rev.val : Int) = (n : Int) - 1 - (cyc i (-d)).val := by
    rw [Fin.val_rev]; omega
  have : ((cyc i.rev d).val : Int) = ((cyc i (-d)).rev.val : Int) := by
    rw [h1, h4]
    have h5 : ((n : Int) - 1 - i.val + d) % n = ((n : Int) - 1 - (cyc i (-d)).val) % n := by
      rw [h2]
      rw [Int.sub_emod, Int.emod_emod_of_dvd _ (dvd_refl _), ← Int.sub_emod]
      congr 1; ring
    rw [h5, Int.emod_eq_of_lt (by omega) (by omega)]
  exact_mod_cast this

theorem padIdx_circular {n : Nat} (i : Fin n) (d : Int) :
    padIdx .circular n ((i.val : Int) + d) = some (cyc i d) := by
  have hn : 0 < n := by have := i.isLt; omega
  simp [padIdx, hn, cyc]

variable [Arith α]

theorem padRead_circular (g : Grid α H W) (i : Fin H) (j : Fin W) (a b : Int) :
    padRead .circular g ((i.val : Int) + a) ((j.val : Int) + b) = g (cyc i a) (cyc j b) := by
  simp [padRead, padIdx_circular]

theorem taps_circular (L : ConvLayer α ext int) (hm : L.mode = .circular)
    (x : Fin ext → Grid α H W) (o : Fin int) (i : Fin H) (j : Fin W) :
    L.taps x o i j =
      (List.finRange (ext / groups ext int)).flatMap fun c =>
        (List.finRange L.k).flatMap fun a =>
          (List.finRange L.k).map fun b =>
            (L.w o c a b,
              x (inChan o c) (cyc i ((a.val : Int) - L.pad)) (cyc j ((b.val : Int) - L.pad))) := by
  unfold ConvLayer.taps
  simp only [hm, add_sub_assoc, padRead_circular]

/-! ## Reindexing -/

/-- Read each output cell from the input cell a map of cells prescribes. -/
def reindex {C : Nat} (e : Fin N' × Fin H' × Fin W' → Fin N × Fin H × Fin W)
    (u : Univ α N C H W) : Univ α N' C H' W' :=
  fun n c i j => u (e (n, i, j)).1 c (e (n, i, j)).2.1 (e (n, i, j)).2.2

/-- A layer commutes with a reindexing (on inputs of these shapes). -/
def Commutes (L : ConvLayer α ext int)
    (e : Fin N' × Fin H' × Fin W' → Fin N × Fin H × Fin W) : Prop :=
  ∀ u : Univ α N ext H W, L.apply (reindex e u) = reindex e <$> L.apply u

variable (e : Fin N' × Fin H' × Fin W' → Fin N × Fin H × Fin W)

theorem maskIf_reindex (thr : α) (u : Univ α N ext H W) :
    maskIf thr (reindex e u) = reindex e (maskIf thr u) := by
  unfold maskIf
  split <;> rfl

theorem eulerClamp_reindex (dt : α) (u v : Univ α N ext H W) :
    eulerClamp dt (reindex e u) (reindex e v) = reindex e (eulerClamp dt u v) := rfl

theorem perChannel_reindex (fns : List (α → α)) (x : Univ α N int H W) :
    perChannel fns (reindex e x) = reindex e <$> perChannel fns x := by
  unfold perChannel
  split <;> rfl

theorem conv1x1_reindex {a b : Nat} (w : Fin b → Fin a → α) (x : Univ α N a H W) :
    conv1x1 w (reindex e x) = reindex e (conv1x1 w x) := rfl

theorem weights_reindex (l : Weights α ext int) (x : Univ α N int H W) :
    l.apply (reindex e x) = reindex e (l.apply x) := by
  cases l <;> rfl

theorem updateUniverse_reindex (ca : CCA α ext int) (idn nb : Univ α N int H W) :
    ca.updateUniverse (reindex e idn) (reindex e nb) =
      reindex e <$> ca.updateUniverse idn nb := by
  unfold CCA.updateUniverse
  rw [perChannel_reindex, perChannel_reindex]
  cases h1 : perChannel ca.genesis nb with
  | error _ => rfl
  | ok g =>
    cases h2 : perChannel ca.persistence nb with
    | error _ => rfl
    | ok p =>
      simp only [bind, Except.bind, Functor.map, Except.map, pure, Except.pure]
      rw [← weights_reindex]
      rfl

theorem leniaUpdate_reindex (ca : CCA α ext int) (nb : Univ α N int H W) :
    ca.leniaUpdateUniverse (reindex e nb) = reindex e <$> ca.leniaUpdateUniverse nb := by
  unfold CCA.leniaUpdateUniverse
  rw [perChannel_reindex]
  cases h1 : perChannel ca.genesis nb with
  | error _ => rfl
  | ok g =>
    simp only [bind, Except.bind, Functor.map, Except.map, pure, Except.pure]
    rw [← weights_reindex]

theorem cca_forward_reindex (ca : CCA α ext int) (h1 : Commutes ca.idL e)
    (h2 : Commutes ca.nbL e) (u : Univ α N ext H W) :
    ca.forward (reindex e u) = Prod.map (reindex e) id <$> ca.forward u := by
  unfold CCA.forward
  simp only [maskIf_reindex, h1 _, h2 _]
  cases ca.idL.apply (maskIf ca.thr u) with
  | error _ => rfl
  | ok idn =>
    cases ca.nbL.apply (maskIf ca.thr u) with
    | error _ => rfl
    | ok nb =>
      simp only [bind, Except.bind, Functor.map, Except.map, pure, Except.pure]
      rw [updateUniverse_reindex]
      cases ca.updateUniverse idn nb with
      | error _ => rfl
      | ok upd => rfl

theorem lenia_forward_reindex (ca : CCA α ext int) (h1 : Commutes ca.idL e)
    (h2 : Commutes ca.nbL e) (u : Univ α N ext H W) :
    ca.leniaForward (reindex e u) = Prod.map (reindex e) id <$> ca.leniaForward u := by
  unfold CCA.leniaForward
  simp only [maskIf_reindex, h1 _, h2 _]
  cases ca.idL.apply (maskIf ca.thr u) with
  | error _ => rfl
  | ok idn =>
    cases ca.nbL.apply (maskIf ca.thr u) with
    | error _ => rfl
    | ok nb =>
      simp only [bind, Except.bind, Functor.map, Except.map, pure, Except.pure]
      rw [leniaUpdate_reindex]
      cases ca.leniaUpdateUniverse nb with
      | error _ => rfl
      | ok upd => rfl

theorem base_forward_reindex (ca : BaseCA α ext) (h1 : Commutes ca.idL e)
    (h2 : Commutes ca.nbL e) (u : Univ α N ext H W) :
    ca.forward (reindex e u) = Prod.map (reindex e) id <$> ca.forward u := by
  unfold BaseCA.forward
  simp only [maskIf_reindex, h1 _, h2 _]
  cases ca.idL.apply (maskIf ca.thr u) with
  | error _ => rfl
  | ok idn =>
    cases ca.nbL.apply (maskIf ca.thr u) with
    | error _ => rfl
    | ok nb => rfl

theorem rxn_forward_reindex (ca : RxnDfn α) (h1 : Commutes ca.idL e)
    (h2 : Commutes ca.nbL e) (u : Univ α N 2 H W) :
    ca.forward (reindex e u) = Prod.map (reindex e) id <$> ca.forward u := by
  unfold RxnDfn.forward
  simp only [h1 _, h2 _]
  cases ca.idL.apply u with
  | error _ => rfl
  | ok idn =>
    cases ca.nbL.apply u with
    | error _ => rfl
    | ok nb => rfl

theorem nca_forward_reindex [Transc α] {hid : Nat} (ca : NCA α ext int hid)
    (h1 : Commutes ca.idL e) (h2 : Commutes ca.nbL e) (drop : Option (Univ α N hid H W))
    (u : Univ α N ext H W) :
    ca.forward (drop.map (reindex e)) (reindex e u) =
      Prod.map (reindex e) id <$> ca.forward drop u := by
  unfold NCA.forward
  simp only [maskIf_reindex, h1 _, h2 _]
  cases ca.idL.apply (maskIf ca.thr u) with
  | error _ => rfl
  | ok idn =>
    cases ca.nbL.apply (maskIf ca.thr u) with
    | error _ => rfl
    | ok nb =>
      simp only [bind, Except.bind, Functor.map, Except.map, pure, Except.pure]
      have : ca.updateUniverse (drop.map (reindex e)) (reindex e idn) (reindex e nb) =
          Except.map (reindex e) (ca.updateUniverse drop idn nb) := by
        unfold NCA.updateUniverse
        split
        · cases drop <;> rfl
        · rfl
      rw [this]
      cases ca.updateUniverse drop idn nb with
      | error _ => rfl
      | ok upd => rfl

theorem codeGrid_reindex (s : CODE α ext int) (h1 : Commutes s.ca.idL e)
    (h2 : Commutes s.ca.nbL e) (dt : α) (u : Univ α N ext H W) :
    s.getNewGrid dt (reindex e u) = reindex e <$> s.getNewGrid dt u := by
  unfold CODE.getNewGrid
  simp only [maskIf_reindex, h1 _, h2 _]
  cases s.ca.idL.apply (maskIf s.ca.thr u) with
  | error _ => rfl
  | ok idn =>
    cases s.ca.nbL.apply (maskIf s.ca.thr u) with
    | error _ => rfl
    | ok nb =>
      simp only [bind, Except.bind, Functor.map, Except.map, pure, Except.pure]
      rw [updateUniverse_reindex]
      cases s.ca.updateUniverse idn nb with
      | error _ => rfl
      | ok upd => rfl

theorem codeAccept_reindex (he : Function.Surjective e) (s : CODE α ext int)
    (h1 : Commutes s.ca.idL e) (h2 : Commutes s.ca.nbL e) (u : Univ α N ext H W) :
    s.accept (reindex e u) = s.accept u := by
  funext step
  unfold CODE.accept
  dsimp only
  rw [codeGrid_reindex e s h1 h2, codeGrid_reindex e s h1 h2]
  cases s.getNewGrid step u with
  | error _ => rfl
  | ok big =>
    cases h3 : s.getNewGrid (mul step (lit (1/2))) u with
    | error _ => rfl
    | ok small =>
      simp only [bind, Except.bind, Functor.map, Except.map, pure, Except.pure]
      have h4 := codeGrid_reindex e s h1 h2 (mul step (lit (1/2))) small
      rw [h4]
      cases s.getNewGrid (mul step (lit (1/2))) small with
      | error _ => rfl
      | ok sm =>
        simp only [Functor.map, Except.map]
        congr 1
        apply decide_eq_decide.mpr
        constructor
        · intro h n c i j
          obtain ⟨⟨n', i', j'⟩, hp⟩ := he (n, i, j)
          have := h n' c i' j'
          simp only [reindex, hp] at this
          exact this
        · intro h n c i j
          exact h _ c _ _

theorem code_forward_reindex (he : Function.Surjective e) (s : CODE α ext int)
    (h1 : Commutes s.ca.idL e) (h2 : Commutes s.ca.nbL e) (fuel : Nat)
    (u : Univ α N ext H W) :
    s.forward fuel (reindex e u) =
      (s.forward fuel u).map (fun r => Prod.map (reindex e) id <$> r) := by
  unfold CODE.forward
  rw [codeAccept_reindex e he s h1 h2]
  split
  · rfl
  · rfl
  · rename_i keep step tested _
    cases tested with
    | false => rfl
    | true =>
      simp only [if_true, Option.map_some]
      congr 1
      rw [codeGrid_reindex e s h1 h2]
      cases s.getNewGrid _ u <;> rfl

theorem rnd_forward_reindex (s : RandomStepCA α ext int) (h1 : Commutes s.ca.idL e)
    (h2 : Commutes s.ca.nbL e) (d : α) (u : Univ α N ext H W) :
    s.forward d (reindex e u) = Prod.map (reindex e) id <$> s.forward d u := by
  unfold RandomStepCA.forward
  simp only [maskIf_reindex, h1 _, h2 _]
  cases s.ca.idL.apply (maskIf s.ca.thr u) with
  | error _ => rfl
  | ok idn =>
    cases s.ca.nbL.apply (maskIf s.ca.thr u) with
    | error _ => rfl
    | ok nb =>
      simp only [bind, Except.bind, Functor.map, Except.map, pure, Except.pure]
      rw [updateUniverse_reindex]
      cases s.ca.updateUniverse idn nb with
      | error _ => rfl
      | ok upd => rfl

theorem iterate_map₂ {σ σ' β β' : Type} (φ : β → β') (ψ : σ → σ')
    (f : σ → β → Except PyErr (β × σ)) (f' : σ' → β' → Except PyErr (β' × σ'))
    (P : σ → Prop) (hP : ∀ s b b' s', P s → f s b = .ok (b', s') → P s')
    (hf : ∀ s b, P s → f' (ψ s) (φ b) = Prod.map φ ψ <$> f s b) (n : Nat) :
    ∀ s b, P s → iterate f' n (ψ s) (φ b) = Prod.map φ ψ <$> iterate f n s b := by
  induction n with
  | zero => intro s b _; rfl
  | succ n ih =>
    intro s b hs
    simp only [iterate, hf s b hs]
    cases h : f s b with
    | error _ => rfl
    | ok r =>
      obtain ⟨b', s'⟩ := r
      simp only [bind, Except.bind, Functor.map, Except.map, Prod.map]
      exact ih s' b' (hP s b b' s' hs h)

theorem iterate_map {σ β β' : Type} (φ : β → β') (f : σ → β → Except PyErr (β × σ))
    (f' : σ → β' → Except PyErr (β' × σ))
    (P : σ → Prop) (hP : ∀ s b b' s', P s → f s b = .ok (b', s') → P s')
    (hf : ∀ s b, P s → f' s (φ b) = Prod.map φ id <$> f s b) (n : Nat) (s : σ) (b : β)
    (hs : P s) : iterate f' n s (φ b) = Prod.map φ id <$> iterate f n s b :=
  iterate_map₂ φ id f f' P hP hf n s b hs

/-! ## Which reindexings commute with a circular layer -/

/-- Cell map of a torus shift. -/
def rollMap (N H W : Nat) (dy dx : Int) (p : Fin N × Fin H × Fin W) : Fin N × Fin H × Fin W :=
  (p.1, cyc p.2.1 (-dy), cyc p.2.2 (-dx))

theorem roll_eq_reindex {C : Nat} (dy dx : Int) (u : Univ α N C H W) :
    Spec.roll dy dx u = reindex (rollMap N H W dy dx) u := by
  funext n c i j
  simp [Spec.roll, reindex, rollMap, rollIdx_eq_cyc]

theorem commutes_roll (L : ConvLayer α ext int) (hm : L.mode = .circular) (dy dx : Int) :
    Commutes (N' := N) (H' := H) (W' := W) L (rollMap N H W dy dx) := by
  intro u
  unfold ConvLayer.apply
  split
  · simp only [Functor.map, Except.map]
    congr 1
    funext n o i j
    simp only [reindex]
    congr 1
    rw [taps_circular L hm, taps_circular L hm]
    simp only [rollMap, reindex, cyc_cyc, add_comm]
  · rfl

theorem commutes_member (L : ConvLayer α ext int) (m : Fin N) :
    Commutes (N' := 1) (H' := H) (W' := W) L (fun p => (m, p.2)) := by
  intro u
  unfold ConvLayer.apply
  split <;> rfl

end Yuca
