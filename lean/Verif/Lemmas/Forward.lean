import Verif.Lemmas.Conv

/-! # Inversion lemmas: what a successful step returns -/

set_option linter.unusedSectionVars false

namespace Yuca

open Arith

variable {α : Type} [Arith α] {ext int N H W : Nat}

theorem bind_ok {β γ : Type} {x : Except PyErr β} {f : β → Except PyErr γ} {r : γ}
    (h : (x >>= f) = .ok r) : ∃ b, x = .ok b ∧ f b = .ok r := by
  cases x with
  | error e => cases h
  | ok b => exact ⟨b, rfl, h⟩

theorem BaseCA.forward_ok {ca : BaseCA α ext} {u : Univ α N ext H W}
    {r : Univ α N ext H W × BaseCA α ext} (h : ca.forward u = .ok r) :
    ∃ idn nb, ca.idL.apply (maskIf ca.thr u) = .ok idn ∧
      ca.nbL.apply (maskIf ca.thr u) = .ok nb ∧
      r = (eulerClamp ca.dt (maskIf ca.thr u) (BaseCA.updateUniverse idn nb),
           { ca with t := add ca.t ca.dt }) := by
  unfold BaseCA.forward at h
  obtain ⟨idn, h1, h⟩ := bind_ok h
  obtain ⟨nb, h2, h⟩ := bind_ok h
  exact ⟨idn, nb, h1, h2, by cases h; rfl⟩

theorem CCA.forward_ok {ca : CCA α ext int} {u : Univ α N ext H W}
    {r : Univ α N ext H W × CCA α ext int} (h : ca.forward u = .ok r) :
    ∃ idn nb upd, ca.idL.apply (maskIf ca.thr u) = .ok idn ∧
      ca.nbL.apply (maskIf ca.thr u) = .ok nb ∧
      ca.updateUniverse idn nb = .ok upd ∧
      r = (eulerClamp ca.dt (maskIf ca.thr u) upd, { ca with t := add ca.t ca.dt }) := by
  unfold CCA.forward at h
  obtain ⟨idn, h1, h⟩ := bind_ok h
  obtain ⟨nb, h2, h⟩ := bind_ok h
  obtain ⟨upd, h3, h⟩ := bind_ok h
  exact ⟨idn, nb, upd, h1, h2, h3, by cases h; rfl⟩

theorem CCA.leniaForward_ok {ca : CCA α ext int} {u : Univ α N ext H W}
    {r : Univ α N ext H W × CCA α ext int} (h : ca.leniaForward u = .ok r) :
    ∃ idn nb upd, ca.idL.apply (maskIf ca.thr u) = .ok idn ∧
      ca.nbL.apply (maskIf ca.thr u) = .ok nb ∧
      ca.leniaUpdateUniverse nb = .ok upd ∧
      r = (eulerClamp ca.dt (maskIf ca.thr u) upd, { ca with t := add ca.t ca.dt }) := by
  unfold CCA.leniaForward at h
  obtain ⟨idn, h1, h⟩ := bind_ok h
  obtain ⟨nb, h2, h⟩ := bind_ok h
  obtain ⟨upd, h3, h⟩ := bind_ok h
  exact ⟨idn, nb, upd, h1, h2, h3, by cases h; rfl⟩

theorem RandomStepCA.forward_ok {s : RandomStepCA α ext int} {d : α} {u : Univ α N ext H W}
    {r : Univ α N ext H W × RandomStepCA α ext int} (h : s.forward d u = .ok r) :
    ∃ idn nb upd, s.ca.idL.apply (maskIf s.ca.thr u) = .ok idn ∧
      s.ca.nbL.apply (maskIf s.ca.thr u) = .ok nb ∧
      s.ca.updateUniverse idn nb = .ok upd ∧
      r = (eulerClamp (add (mul d (sub s.maxDt s.minDt)) s.minDt) (maskIf s.ca.thr u) upd,
           { s with
             ca := { s.ca with dt := add (mul d (sub s.maxDt s.minDt)) s.minDt,
                               t := add s.ca.t (add (mul d (sub s.maxDt s.minDt)) s.minDt) },
             prevDt := mul one (add (mul d (sub s.maxDt s.minDt)) s.minDt) }) := by
  unfold RandomStepCA.forward at h
  obtain ⟨idn, h1, h⟩ := bind_ok h
  obtain ⟨nb, h2, h⟩ := bind_ok h
  obtain ⟨upd, h3, h⟩ := bind_ok h
  exact ⟨idn, nb, upd, h1, h2, h3, by cases h; rfl⟩

theorem MetaCA.forward_ok {s : MetaCA α ext int} {u : Univ α N ext H W}
    {r : Univ α N ext H W × MetaCA α ext int} (h : s.forward u = .ok r) :
    ∃ idn nb upd, s.ca.idL.apply (maskIf s.ca.thr u) = .ok idn ∧
      s.ca.nbL.apply (maskIf s.ca.thr u) = .ok nb ∧
      s.ca.updateUniverse idn nb = .ok upd ∧
      ∃ d' : Univ α N ext H W,
        d' = (fun n c i j => add (Momentum.forShape s.dgrid N H W n c i j)
          (mul s.ddt (upd n c i j))) ∧
        r = (eulerClamp s.ca.dt (maskIf s.ca.thr u) d', { s with dgrid := some ⟨(N, H, W), d'⟩ }) := by
  unfold MetaCA.forward at h
  obtain ⟨idn, h1, h⟩ := bind_ok h
  obtain ⟨nb, h2, h⟩ := bind_ok h
  obtain ⟨upd, h3, h⟩ := bind_ok h
  exact ⟨idn, nb, upd, h1, h2, h3, _, rfl, by cases h; rfl⟩

theorem CODE.getNewGrid_ok {s : CODE α ext int} {dt : α} {u r : Univ α N ext H W}
    (h : s.getNewGrid dt u = .ok r) :
    ∃ idn nb upd, s.ca.idL.apply (maskIf s.ca.thr u) = .ok idn ∧
      s.ca.nbL.apply (maskIf s.ca.thr u) = .ok nb ∧
      s.ca.updateUniverse idn nb = .ok upd ∧
      r = eulerClamp dt (maskIf s.ca.thr u) upd := by
  unfold CODE.getNewGrid at h
  obtain ⟨idn, h1, h⟩ := bind_ok h
  obtain ⟨nb, h2, h⟩ := bind_ok h
  obtain ⟨upd, h3, h⟩ := bind_ok h
  exact ⟨idn, nb, upd, h1, h2, h3, by cases h; rfl⟩

theorem CODE.forward_ok {s : CODE α ext int} {fuel : Nat} {u : Univ α N ext H W}
    {r : Univ α N ext H W × CODE α ext int} (h : s.forward fuel u = some (.ok r)) :
    ∃ keep step, adaptLoop s.minDt (s.accept u) fuel s.firstStep false = .done keep step true ∧
      s.getNewGrid (if keep then step else s.minDt) u = .ok r.1 ∧
      r.2 = { s with
        ca := { s.ca with dt := if keep then step else s.minDt,
                          t := add s.ca.t (if keep then step else s.minDt) },
        prevDt := if keep then step else s.minDt } := by
  unfold CODE.forward at h
  split at h
  · cases h
  · cases h
  · rename_i keep step tested heq
    cases tested with
    | false => simp at h
    | true =>
      simp only [if_true, Option.some.injEq] at h
      obtain ⟨g, h1, h⟩ := bind_ok h
      cases h
      exact ⟨keep, step, heq, h1, rfl⟩

theorem NCA.forward_ok [Transc α] {hid : Nat} {ca : NCA α ext int hid}
    {drop : Option (Univ α N hid H W)} {u : Univ α N ext H W}
    {r : Univ α N ext H W × NCA α ext int hid} (h : ca.forward drop u = .ok r) :
    ∃ idn nb upd, ca.idL.apply (maskIf ca.thr u) = .ok idn ∧
      ca.nbL.apply (maskIf ca.thr u) = .ok nb ∧
      ca.updateUniverse drop idn nb = .ok upd ∧
      r = (eulerClamp ca.dt (maskIf ca.thr u) upd, { ca with t := add ca.t ca.dt }) := by
  unfold NCA.forward at h
  obtain ⟨idn, h1, h⟩ := bind_ok h
  obtain ⟨nb, h2, h⟩ := bind_ok h
  obtain ⟨upd, h3, h⟩ := bind_ok h
  exact ⟨idn, nb, upd, h1, h2, h3, by cases h; rfl⟩

theorem RxnDfn.forward_ok {ca : RxnDfn α} {u : Univ α N 2 H W}
    {r : Univ α N 2 H W × RxnDfn α} (h : ca.forward u = .ok r) :
    ∃ idn nb, ca.idL.apply u = .ok idn ∧ ca.nbL.apply u = .ok nb ∧
      r = (eulerClamp ca.dt u (ca.updateUniverse idn nb), { ca with t := add ca.t ca.dt }) := by
  unfold RxnDfn.forward at h
  obtain ⟨idn, h1, h⟩ := bind_ok h
  obtain ⟨nb, h2, h⟩ := bind_ok h
  exact ⟨idn, nb, h1, h2, by cases h; rfl⟩

theorem iterate_inv {σ β : Type} {f : σ → β → Except PyErr (β × σ)} (P : σ → β → Prop)
    (hP : ∀ s b b' s', P s b → f s b = .ok (b', s') → P s' b') (n : Nat) :
    ∀ s b r, P s b → iterate f n s b = .ok r → P r.2 r.1 := by
  induction n with
  | zero => intro s b r hp h; cases h; exact hp
  | succ n ih =>
    intro s b r hp h
    obtain ⟨⟨b', s'⟩, h1, h2⟩ := bind_ok h
    exact ih s' b' r (hP s b b' s' hp h1) h2

/-- A property of universes every step establishes holds after `n + 1` steps. -/
theorem iterate_post {σ β : Type} {f : σ → β → Except PyErr (β × σ)} (P : β → Prop)
    (hP : ∀ s b r, f s b = .ok r → P r.1) (n : Nat) :
    ∀ s b r, iterate f (n + 1) s b = .ok r → P r.1 := by
  induction n with
  | zero =>
    intro s b r h
    obtain ⟨⟨b', s'⟩, h1, h2⟩ := bind_ok h
    cases h2; exact hP s b _ h1
  | succ n ih =>
    intro s b r h
    obtain ⟨⟨b', s'⟩, h1, h2⟩ := bind_ok h
    exact ih s' b' r h2

end Yuca
