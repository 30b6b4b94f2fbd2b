import Verif.Props.Everywhere
import Verif.Props.Gliding
import Verif.Props.Range
import Mathlib.SetTheory.Cardinal.Finite
import Mathlib.Data.Fintype.Pigeonhole
import Mathlib.Data.Fintype.EquivFin

/-!
# C109: with finitely many numbers every run ends in a cycle
-/

namespace Yuca

open Arith Spec

variable {α : Type} [Arith α] {N ext int hid H W : Nat}

namespace Spec

/-- A sequence that goes round in circles after at most `K` terms. -/
structure EndsInCycle {β : Type} (K : Nat) (x : Nat → β) : Prop where
  /-- from some term on the sequence repeats with a period, and both together are at most `K` -/
  cycle : ∃ start period, 0 < period ∧ start + period ≤ K ∧
    ∀ n, start ≤ n → x (n + period) = x n
  /-- all that ever happens happens among the first `K` terms -/
  early : ∀ n, ∃ m < K, x m = x n

end Spec

theorem ends_of_repeat {β : Type} {x : Nat → β} {K i j : Nat} (hij : i < j) (hj : j ≤ K)
    (h : ∀ n, x (i + n) = x (j + n)) : EndsInCycle K x := by
  have hp : ∀ n, i ≤ n → x (n + (j - i)) = x n := by
    intro n hn
    have := h (n - i)
    rw [show i + (n - i) = n by omega, show j + (n - i) = n + (j - i) by omega] at this
    exact this.symm
  refine ⟨⟨i, j - i, by omega, by omega, hp⟩, fun n => ?_⟩
  induction n using Nat.strong_induction_on with
  | _ n ih =>
    by_cases hn : n < j
    · exact ⟨n, by omega, rfl⟩
    · obtain ⟨m, hm, e⟩ := ih (n - (j - i)) (by omega)
      refine ⟨m, hm, e.trans ?_⟩
      have := hp (n - (j - i)) (by omega)
      rw [show n - (j - i) + (j - i) = n by omega] at this
      exact this.symm

/-- The successful outcomes lie in a finite set, an exception ends everything, and equal outcomes
have equal successors. -/
theorem ends_of_finite {β F : Type} [Finite F] (x : Nat → Except PyErr β) (ι : F → β)
    (hfin : ∀ n b, x n = .ok b → b ∈ Set.range ι)
    (hstep : ∀ m n, x m = x n → x (m + 1) = x (n + 1))
    (herr : ∀ n e, x n = .error e → x (n + 1) = .error e) : EndsInCycle (Nat.card F + 1) x := by
  have hall : ∀ i j, x i = x j → ∀ n, x (i + n) = x (j + n) := by
    intro i j h n
    induction n with
    | zero => exact h
    | succ n ih => exact hstep _ _ ih
  by_cases hok : ∀ i ≤ Nat.card F, ∃ b, x i = .ok b
  · choose b hb using fun i : Fin (Nat.card F + 1) => hok i.val (by omega)
    choose c hc using fun i => hfin _ _ (hb i)
    have : ¬ Function.Injective c := by
      intro hinj
      have := Nat.card_le_card_of_injective c hinj
      rw [Nat.card_eq_fintype_card, Fintype.card_fin] at this
      omega
    obtain ⟨i, j, hcij, hne⟩ : ∃ i j, c i = c j ∧ i ≠ j := by
      by_contra hn
      push Not at hn
      exact this fun i j h => hn i j h
    have e : x i = x j := by rw [hb i, hb j, ← hc i, ← hc j, hcij]
    have hne' : i.val ≠ j.val := fun h => hne (Fin.ext h)
    rcases Nat.lt_or_ge i.val j.val with h | h
    · exact ends_of_repeat h (by omega) (hall _ _ e)
    · exact ends_of_repeat (show j.val < i.val by omega) (by omega) (hall _ _ e.symm)
  · push Not at hok
    obtain ⟨i, hi, hne⟩ := hok
    have : ∃ e, x i = .error e := by
      cases h : x i with
      | error e => exact ⟨e, rfl⟩
      | ok b => exact absurd h (hne b)
    obtain ⟨e, he⟩ := this
    exact ends_of_repeat (Nat.lt_succ_self i) (by omega)
      (hall _ _ (by rw [he]; exact (herr i e he).symm))

theorem iterate_snoc {σ β : Type} (f : σ → β → Except PyErr (β × σ)) (n : Nat) :
    ∀ s b, iterate f (n + 1) s b = iterate f n s b >>= fun p => f p.2 p.1 := by
  induction n with
  | zero =>
    intro s b
    simp only [iterate, bind, Except.bind]
    cases f s b <;> rfl
  | succ n ih =>
    intro s b
    rw [iterate]
    simp only [bind, Except.bind]
    rw [iterate]
    simp only [bind, Except.bind]
    cases h : f s b with
    | error e => rfl
    | ok p => exact ih p.2 p.1

/-- A run whose state, up to what `ψ` forgets, stays in a finite set. -/
theorem run_ends {σ τ β F : Type} [Finite F] {f : σ → β → Except PyErr (β × σ)} (ψ : σ → τ)
    (ι : F → β × τ) (P : σ → Prop)
    (hf : ∀ s s' b, P s → P s' → ψ s = ψ s' → Prod.map id ψ <$> f s b = Prod.map id ψ <$> f s' b)
    (hP : ∀ s b b' s', P s → f s b = .ok (b', s') → P s')
    (hι : ∀ s b, P s → (b, ψ s) ∈ Set.range ι) (s : σ) (hs : P s) (u : β) :
    EndsInCycle (Nat.card F + 1) fun n => Prod.map id ψ <$> iterate f n s u := by
  have hPn : ∀ n b s', iterate f n s u = .ok (b, s') → P s' := fun n b s' h =>
    iterate_inv (f := f) (fun s _ => P s) (fun s b b' s' h => hP s b b' s' h) n s u (b, s') hs h
  refine ends_of_finite _ ι ?_ ?_ ?_
  · intro n b h
    cases hi : iterate f n s u with
    | error e => rw [hi] at h; cases h
    | ok p =>
      rw [hi] at h
      cases h
      exact hι p.2 p.1 (hPn n p.1 p.2 hi)
  · intro m n h
    rw [iterate_snoc, iterate_snoc]
    cases hm : iterate f m s u with
    | error e =>
      cases hn : iterate f n s u with
      | error e' =>
        rw [hm, hn] at h
        cases h
        rfl
      | ok q => rw [hm, hn] at h; cases h
    | ok p =>
      cases hn : iterate f n s u with
      | error e' => rw [hm, hn] at h; cases h
      | ok q =>
        rw [hm, hn] at h
        obtain ⟨b, t⟩ := p
        obtain ⟨b', t'⟩ := q
        simp only [Functor.map, Except.map, Prod.map, id, Except.ok.injEq, Prod.mk.injEq] at h
        obtain ⟨rfl, h⟩ := h
        exact hf t t' b (hPn m b t hm) (hPn n b t' hn) h
  · intro n e h
    rw [iterate_snoc]
    cases hi : iterate f n s u with
    | error e' => rw [hi] at h; cases h; rfl
    | ok p => rw [hi] at h; cases h

/-- Forgetting part of the outcomes keeps a cycle. -/
theorem Spec.EndsInCycle.map {β γ : Type} {K : Nat} {x : Nat → Except PyErr β} (h : EndsInCycle K x)
    (g : β → γ) : EndsInCycle K fun n => g <$> x n := by
  obtain ⟨⟨i, p, h1, h2, h3⟩, h4⟩ := h
  refine ⟨⟨i, p, h1, h2, fun n hn => by rw [h3 n hn]⟩, fun n => ?_⟩
  obtain ⟨m, hm, e⟩ := h4 n
  exact ⟨m, hm, by rw [e]⟩

omit [Arith α] in
/-- The number of universes with `q` numbers to choose from. -/
theorem card_univ [Finite α] :
    Nat.card (Univ α N ext H W) = Nat.card α ^ (N * ext * H * W) := by
  have : Fintype α := Fintype.ofFinite α
  simp only [Univ, Grid, Nat.card_eq_fintype_card, Fintype.card_pi, Finset.prod_const,
    Finset.card_univ, Fintype.card_fin]
  rw [← pow_mul, ← pow_mul, ← pow_mul]
  congr 1
  ring

omit [Arith α] in
theorem run_ends_unclocked [Finite α] {σ : Type}
    {f : σ → Univ α N ext H W → Except PyErr (Univ α N ext H W × σ)} (ψ : σ → σ)
    (hf : ∀ s b, Prod.map id ψ <$> f (ψ s) b = Prod.map id ψ <$> f s b)
    (hs : ∀ s b b' s', f s b = .ok (b', s') → ψ s' = ψ s) (s : σ) (u : Univ α N ext H W) :
    EndsInCycle (Nat.card α ^ (N * ext * H * W) + 1) fun n => universes f s n u := by
  have := (run_ends (f := f) ψ (fun v : Univ α N ext H W => (v, ψ s)) (fun s' => ψ s' = ψ s)
    (fun s s' b _ _ h => by rw [← hf s, ← hf s', h])
    (fun s₁ b b' s₂ h1 h2 => (hs _ _ _ _ h2).trans h1)
    (fun s' b h => ⟨b, by dsimp only; rw [h]⟩) s rfl u).map Prod.fst
  rw [card_univ] at this
  refine (congrArg (EndsInCycle _) (funext fun n => ?_)).mp this
  unfold universes
  cases iterate f n s u <;> rfl

/-! ## The automata -/

theorem cca_clockless (s : CCA α ext int) (b : Univ α N ext H W) :
    Prod.map id (fun s : CCA α ext int => { s with t := zero }) <$> CCA.forward ({ s with t := zero } : CCA α ext int) b =
    Prod.map id (fun s : CCA α ext int => { s with t := zero }) <$> CCA.forward s b := by
  unfold CCA.forward
  dsimp only
  cases s.idL.apply (maskIf s.thr b) with
  | error e => rfl
  | ok idn =>
    cases s.nbL.apply (maskIf s.thr b) with
    | error e => rfl
    | ok nb =>
      have : CCA.updateUniverse ({ s with t := zero } : CCA α ext int) idn nb = CCA.updateUniverse s idn nb := rfl
      simp only [bind, Except.bind, this]
      cases CCA.updateUniverse s idn nb <;> rfl

theorem lenia_clockless (s : CCA α ext int) (b : Univ α N ext H W) :
    Prod.map id (fun s : CCA α ext int => { s with t := zero }) <$> CCA.leniaForward ({ s with t := zero } : CCA α ext int) b =
    Prod.map id (fun s : CCA α ext int => { s with t := zero }) <$> CCA.leniaForward s b := by
  unfold CCA.leniaForward
  dsimp only
  cases s.idL.apply (maskIf s.thr b) with
  | error e => rfl
  | ok idn =>
    cases s.nbL.apply (maskIf s.thr b) with
    | error e => rfl
    | ok nb =>
      have : CCA.leniaUpdateUniverse ({ s with t := zero } : CCA α ext int) nb = CCA.leniaUpdateUniverse s nb := rfl
      simp only [bind, Except.bind, this]
      cases CCA.leniaUpdateUniverse s nb <;> rfl

theorem nca_clockless [Transc α] (s : NCA α ext int hid) (b : Univ α N ext H W) :
    Prod.map id (fun s : NCA α ext int hid => { s with t := zero }) <$> NCA.forward ({ s with t := zero } : NCA α ext int hid) none b =
    Prod.map id (fun s : NCA α ext int hid => { s with t := zero }) <$> NCA.forward s none b := by
  unfold NCA.forward
  dsimp only
  cases s.idL.apply (maskIf s.thr b) with
  | error e => rfl
  | ok idn =>
    cases s.nbL.apply (maskIf s.thr b) with
    | error e => rfl
    | ok nb =>
      have : NCA.updateUniverse ({ s with t := zero } : NCA α ext int hid) none idn nb = NCA.updateUniverse s none idn nb := rfl
      simp only [bind, Except.bind, this]
      cases NCA.updateUniverse s none idn nb <;> rfl

theorem base_clockless (s : BaseCA α ext) (b : Univ α N ext H W) :
    Prod.map id (fun s : BaseCA α ext => { s with t := zero }) <$> BaseCA.forward ({ s with t := zero } : BaseCA α ext) b =
    Prod.map id (fun s : BaseCA α ext => { s with t := zero }) <$> BaseCA.forward s b := by
  unfold BaseCA.forward
  dsimp only
  cases s.idL.apply (maskIf s.thr b) with
  | error e => rfl
  | ok idn =>
    cases s.nbL.apply (maskIf s.thr b) with
    | error e => rfl
    | ok nb =>
      rfl

theorem rxn_clockless (s : RxnDfn α) (b : Univ α N 2 H W) :
    Prod.map id (fun s : RxnDfn α => { s with t := zero }) <$> RxnDfn.forward ({ s with t := zero } : RxnDfn α) b =
    Prod.map id (fun s : RxnDfn α => { s with t := zero }) <$> RxnDfn.forward s b := by
  unfold RxnDfn.forward
  dsimp only
  cases s.idL.apply b with
  | error e => rfl
  | ok idn =>
    cases s.nbL.apply b with
    | error e => rfl
    | ok nb =>
      rfl

/-- C109: over a carrier with finitely many numbers (any floating point format, whatever its
rounding) every run of a CCA ends in a cycle, and the cycle is closed after at most as many steps
as there are universes. -/
theorem cca_recurs [Finite α] (ca : CCA α ext int) (u : Univ α N ext H W) :
    EndsInCycle (Nat.card α ^ (N * ext * H * W) + 1) fun n => universes CCA.forward ca n u :=
  run_ends_unclocked _ cca_clockless (fun s b b' s' h => by
    obtain ⟨_, _, _, _, _, _, h⟩ := CCA.forward_ok h; cases h; rfl) ca u

/-- C109 for Lenia. -/
theorem lenia_recurs [Finite α] (ca : CCA α ext int) (u : Univ α N ext H W) :
    EndsInCycle (Nat.card α ^ (N * ext * H * W) + 1) fun n => universes CCA.leniaForward ca n u :=
  run_ends_unclocked _ lenia_clockless (fun s b b' s' h => by
    obtain ⟨_, _, _, _, _, _, h⟩ := CCA.leniaForward_ok h; cases h; rfl) ca u

/-- C109 for neural automata in evaluation mode. -/
theorem nca_recurs [Transc α] [Finite α] (ca : NCA α ext int hid) (u : Univ α N ext H W) :
    EndsInCycle (Nat.card α ^ (N * ext * H * W) + 1)
      fun n => universes (fun s b => NCA.forward s none b) ca n u :=
  run_ends_unclocked _ nca_clockless (fun s b b' s' h => by
    obtain ⟨_, _, _, _, _, _, h⟩ := NCA.forward_ok h; cases h; rfl) ca u

/-- C109 for the base class. -/
theorem base_recurs [Finite α] (ca : BaseCA α ext) (u : Univ α N ext H W) :
    EndsInCycle (Nat.card α ^ (N * ext * H * W) + 1) fun n => universes BaseCA.forward ca n u :=
  run_ends_unclocked _ base_clockless (fun s b b' s' h => by
    obtain ⟨_, _, _, _, h⟩ := BaseCA.forward_ok h; cases h; rfl) ca u

/-- C109 for reaction-diffusion. -/
theorem rxn_recurs [Finite α] (ca : RxnDfn α) (u : Univ α N 2 H W) :
    EndsInCycle (Nat.card α ^ (N * 2 * H * W) + 1) fun n => universes RxnDfn.forward ca n u :=
  run_ends_unclocked _ rxn_clockless (fun s b b' s' h => by
    obtain ⟨_, _, _, _, h⟩ := RxnDfn.forward_ok h; cases h; rfl) ca u

/-- The momentum a `MetaCA` will use in universes of this shape. -/
def withMomentum (N H W : Nat) (s : MetaCA α ext int) : MetaCA α ext int :=
  { s with dgrid := some ⟨(N, H, W), Momentum.forShape s.dgrid N H W⟩ }

theorem meta_clockless (s : MetaCA α ext int) (b : Univ α N ext H W) :
    Prod.map id (withMomentum N H W) <$> MetaCA.forward (withMomentum N H W s) b =
    Prod.map id (withMomentum N H W) <$> MetaCA.forward s b := by
  unfold MetaCA.forward withMomentum
  dsimp only
  rw [forShape_self]

/-- C109 for `MetaCA`, whose momentum has as many values as the universe. -/
theorem meta_recurs [Finite α] (ca : MetaCA α ext int) (u : Univ α N ext H W) :
    EndsInCycle (Nat.card α ^ (2 * (N * ext * H * W)) + 1)
      fun n => universes MetaCA.forward ca n u := by
  have := (run_ends (f := MetaCA.forward (N := N) (H := H) (W := W)) (withMomentum N H W)
    (fun v : Univ α N ext H W × Univ α N ext H W =>
      (v.1, ({ ca with dgrid := some ⟨(N, H, W), v.2⟩ } : MetaCA α ext int)))
    (fun s' => ({ s' with dgrid := none } : MetaCA α ext int) = { ca with dgrid := none })
    (fun s s' b _ _ h => by rw [← meta_clockless s, ← meta_clockless s', h])
    (fun s₁ b b' s₂ h1 h2 => by
      obtain ⟨_, _, _, _, _, _, _, _, h⟩ := MetaCA.forward_ok h2
      cases h
      exact h1)
    (fun s' b h => ⟨(b, Momentum.forShape s'.dgrid N H W), by
      obtain ⟨a1, a2, a3⟩ := ca
      obtain ⟨b1, b2, b3⟩ := s'
      cases h
      rfl⟩) ca rfl u).map Prod.fst
  rw [Nat.card_prod, card_univ, ← pow_add, ← two_mul] at this
  refine (congrArg (EndsInCycle _) (funext fun n => ?_)).mp this
  unfold universes
  cases iterate MetaCA.forward n ca u <;> rfl

/-! ## Adaptive steps -/

/-- Candidate steps of `adaptive_euler`: every attempt is three quarters of the one before. -/
def candidate (d : α) (i : Nat) : α := (fun x => mul x (lit (3 / 4)))^[i] d

theorem candidate_succ (d : α) (i : Nat) :
    candidate d (i + 1) = candidate (mul d (lit (3 / 4))) i := rfl

theorem outOfFuel_iff (mn : α) (acc : α → Except PyErr Bool) (fuel : Nat) :
    ∀ (d : α) (t : Bool), adaptLoop mn acc fuel d t = .outOfFuel ↔
      ∀ i < fuel, le mn (candidate d i) = true ∧ acc (candidate d i) = .ok false := by
  induction fuel with
  | zero => intro d t; simp [adaptLoop]
  | succ fuel ih =>
    intro d t
    have hsplit : (∀ i < fuel + 1, le mn (candidate d i) = true ∧ acc (candidate d i) = .ok false) ↔
        (le mn d = true ∧ acc d = .ok false) ∧
        ∀ i < fuel, le mn (candidate (mul d (lit (3 / 4))) i) = true ∧
          acc (candidate (mul d (lit (3 / 4))) i) = .ok false := by
      constructor
      · intro h
        exact ⟨h 0 (by omega), fun i hi => h (i + 1) (by omega)⟩
      · rintro ⟨h0, h⟩ i hi
        cases i with
        | zero => exact h0
        | succ i => exact h i (by omega)
    rw [hsplit, adaptLoop]
    by_cases hle : le mn d = true
    · rw [if_pos hle]
      cases hacc : acc d with
      | error e => simp
      | ok b =>
        cases b
        · simp only [ih, hle, true_and]
        · simp
    · rw [if_neg hle]
      simp [hle]

/-- C109: with finitely many numbers the `while` loop of `adaptive_euler` either ends within as
many rounds as there are numbers or never does. -/
theorem code_hangs_iff [Finite α] (s : CODE α ext int) (u : Univ α N ext H W) :
    (∀ fuel, s.forward fuel u = none) ↔ s.forward (Nat.card α) u = none := by
  have key : ∀ fuel, s.forward fuel u = none ↔
      adaptLoop s.minDt (s.accept u) fuel s.firstStep false = .outOfFuel := by
    intro fuel
    unfold CODE.forward
    cases adaptLoop s.minDt (s.accept u) fuel s.firstStep false with
    | outOfFuel => simp
    | raised e => simp
    | done k x y => cases y <;> simp
  refine ⟨fun h => h _, fun h fuel => ?_⟩
  rw [key, outOfFuel_iff] at h ⊢
  intro i _
  have hrep : ∃ m < Nat.card α, candidate s.firstStep m = candidate s.firstStep i := by
    have : ¬ Function.Injective fun k : Fin (Nat.card α + 1) => candidate s.firstStep k.val := by
      intro hinj
      have := Nat.card_le_card_of_injective _ hinj
      rw [Nat.card_eq_fintype_card, Fintype.card_fin] at this
      omega
    have hall : ∀ a b, candidate s.firstStep a = candidate s.firstStep b → ∀ n,
        candidate s.firstStep (a + n) = candidate s.firstStep (b + n) := by
      intro a b hab n
      unfold candidate at *
      rw [Nat.add_comm a, Nat.add_comm b, Function.iterate_add_apply, Function.iterate_add_apply,
        hab]
    obtain ⟨a, b, hab, hne⟩ : ∃ a b : Fin (Nat.card α + 1),
        candidate s.firstStep a.val = candidate s.firstStep b.val ∧ a ≠ b := by
      by_contra hn
      push Not at hn
      exact this fun a b h => hn a b h
    have hne' : a.val ≠ b.val := fun h => hne (Fin.ext h)
    rcases Nat.lt_or_ge a.val b.val with hlt | hge
    · exact (ends_of_repeat hlt (by omega) (hall _ _ hab)).early i
    · exact (ends_of_repeat (show b.val < a.val by omega) (by omega) (hall _ _ hab.symm)).early i
  obtain ⟨m, hm, e⟩ := hrep
  rw [← e]
  exact h m hm

theorem adaptLoop_fuel (mn : α) (acc : α → Except PyErr Bool) (fuel : Nat) :
    ∀ (d : α) (t : Bool) (k : Nat), adaptLoop mn acc fuel d t ≠ .outOfFuel →
      adaptLoop mn acc (fuel + k) d t = adaptLoop mn acc fuel d t := by
  induction fuel with
  | zero => intro d t k h; exact absurd rfl h
  | succ fuel ih =>
    intro d t k h
    rw [show fuel + 1 + k = (fuel + k) + 1 by omega]
    rw [adaptLoop] at h ⊢
    rw [adaptLoop]
    split
    · rename_i hle
      rw [if_pos hle] at h
      split
      · rfl
      · rfl
      · rename_i hacc
        rw [hacc] at h
        exact ih _ _ k h
    · rfl

theorem code_fuel (s : CODE α ext int) (u : Univ α N ext H W) {a b : Nat}
    {r r' : Except PyErr (Univ α N ext H W × CODE α ext int)}
    (h1 : s.forward a u = some r) (h2 : s.forward b u = some r') : r = r' := by
  have key : ∀ a k r, s.forward a u = some r → s.forward (a + k) u = some r := by
    intro a k r h
    unfold CODE.forward at h ⊢
    rw [adaptLoop_fuel]
    · exact h
    · intro hn
      rw [hn] at h
      cases h
  have e1 := key a b r h1
  have e2 := key b a r' h2
  rw [Nat.add_comm b a, e1] at e2
  cases e2
  rfl

/-- What a step of `CODE` does not read. -/
def codeCore (s : CODE α ext int) : CODE α ext int :=
  { s with ca := { s.ca with dt := zero, t := zero } }

theorem code_clockless (s : CODE α ext int) (fuel : Nat) (b : Univ α N ext H W) :
    Option.map (fun r => Prod.map id codeCore <$> r) ((codeCore s).forward fuel b) =
    Option.map (fun r => Prod.map id codeCore <$> r) (s.forward fuel b) := by
  have hg : ∀ d u, CODE.getNewGrid (N := N) (H := H) (W := W) (codeCore s) d u =
      s.getNewGrid d u := fun _ _ => rfl
  have ha : (codeCore s).accept b = s.accept b := rfl
  have h1 : (codeCore s).firstStep = s.firstStep := rfl
  have hm : (codeCore s).minDt = s.minDt := rfl
  unfold CODE.forward
  rw [ha, h1, hm]
  cases adaptLoop s.minDt (s.accept b) fuel s.firstStep false with
  | outOfFuel => rfl
  | raised e => rfl
  | done k x y =>
    cases y
    · rfl
    · simp only [hg, if_true]
      cases s.getNewGrid (if k = true then x else s.minDt) b <;> rfl

/-- C109 for `CODE`, as long as its steps end: the state is the universe and the last step size. -/
theorem code_recurs [Finite α]
    {f : CODE α ext int → Univ α N ext H W → Except PyErr (Univ α N ext H W × CODE α ext int)}
    (ca : CODE α ext int) (hf : ∀ s b, (∃ d, codeCore s = { codeCore ca with prevDt := d }) →
      ∃ fuel, s.forward fuel b = some (f s b)) (u : Univ α N ext H W) :
    EndsInCycle (Nat.card α ^ (N * ext * H * W + 1) + 1) fun n => universes f ca n u := by
  have hok : ∀ s b b' s', (∃ d, codeCore s = { codeCore ca with prevDt := d }) →
      f s b = .ok (b', s') → ∃ d, codeCore s' = { codeCore s with prevDt := d } := by
    intro s b b' s' hs h
    obtain ⟨fuel, hfuel⟩ := hf s b hs
    rw [h] at hfuel
    obtain ⟨k, x, _, _, hs⟩ := CODE.forward_ok hfuel
    dsimp only at hs
    rw [hs]
    exact ⟨_, rfl⟩
  have hcore : ∀ s b, (∃ d, codeCore s = { codeCore ca with prevDt := d }) →
      Prod.map id codeCore <$> f (codeCore s) b = Prod.map id codeCore <$> f s b := by
    intro s b hs
    obtain ⟨m, hm⟩ := hf (codeCore s) b hs
    obtain ⟨n, hn⟩ := hf s b hs
    have hm' : (codeCore s).forward (m + n) b = some (f (codeCore s) b) := by
      cases h : (codeCore s).forward (m + n) b with
      | none =>
        exfalso
        unfold CODE.forward at h hm
        rw [adaptLoop_fuel] at h
        · rw [h] at hm; cases hm
        · intro ho; rw [ho] at hm; cases hm
      | some r => rw [code_fuel _ _ h hm]
    have hn' : s.forward (m + n) b = some (f s b) := by
      cases h : s.forward (m + n) b with
      | none =>
        exfalso
        unfold CODE.forward at h hn
        rw [Nat.add_comm, adaptLoop_fuel] at h
        · rw [h] at hn; cases hn
        · intro ho; rw [ho] at hn; cases hn
      | some r => rw [code_fuel _ _ h hn]
    have := code_clockless s (m + n) b
    rw [hm', hn'] at this
    exact Option.some.inj this
  have := (run_ends (f := f) codeCore
    (fun v : Univ α N ext H W × α => (v.1, ({ codeCore ca with prevDt := v.2 } : CODE α ext int)))
    (fun s' => ∃ d, codeCore s' = { codeCore ca with prevDt := d })
    (fun s s' b h1 h2 h => by rw [← hcore s b h1, ← hcore s' b h2, h])
    (fun s₁ b b' s₂ h1 h2 => by
      obtain ⟨d, h⟩ := hok _ _ _ _ h1 h2
      obtain ⟨d', h'⟩ := h1
      exact ⟨d, by rw [h, h']⟩)
    (fun s' b h => by
      obtain ⟨d, h⟩ := h
      exact ⟨(b, d), by rw [h]⟩) ca ⟨ca.prevDt, rfl⟩ u).map Prod.fst
  rw [Nat.card_prod, card_univ, ← pow_succ] at this
  refine (congrArg (EndsInCycle _) (funext fun n => ?_)).mp this
  unfold universes
  cases iterate f n ca u <;> rfl

/-! ## What follows -/

/-- C109: whether something ever happens is settled by the first `K` universes: whether the
universe dies, explodes, comes back, or an exception is raised. -/
theorem Spec.EndsInCycle.happens {β : Type} {K : Nat} {x : Nat → β} (h : EndsInCycle K x)
    (P : β → Prop) : (∃ n, P (x n)) ↔ ∃ n < K, P (x n) :=
  ⟨fun ⟨n, hn⟩ => by
    obtain ⟨m, hm, e⟩ := h.early n
    exact ⟨m, hm, by rw [e]; exact hn⟩, fun ⟨n, _, hn⟩ => ⟨n, hn⟩⟩

/-- C109: what holds of all of the first `K` universes holds for ever. -/
theorem Spec.EndsInCycle.always {β : Type} {K : Nat} {x : Nat → β} (h : EndsInCycle K x)
    (P : β → Prop) : (∀ n, P (x n)) ↔ ∀ n < K, P (x n) :=
  ⟨fun hn n _ => hn n, fun hK n => by
    obtain ⟨m, hm, e⟩ := h.early n
    rw [← e]
    exact hK m hm⟩

/-- C109: whether something happens again and again is settled by the second `K` universes. -/
theorem Spec.EndsInCycle.recurs {β : Type} {K : Nat} {x : Nat → β} (h : EndsInCycle K x)
    (P : β → Prop) : (∀ m, ∃ n ≥ m, P (x n)) ↔ ∃ n, K ≤ n ∧ n < 2 * K ∧ P (x n) := by
  obtain ⟨⟨i, p, hp, hK, hper⟩, _⟩ := h
  have hmul : ∀ k n, i ≤ n → x (n + k * p) = x n := by
    intro k
    induction k with
    | zero => intro n _; simp
    | succ k ih =>
      intro n hn
      rw [show n + (k + 1) * p = (n + k * p) + p by ring, hper _ (by omega), ih n hn]
  constructor
  · intro h
    obtain ⟨n, hn, hP⟩ := h K
    refine ⟨K + (n - K) % p, by omega, ?_, ?_⟩
    · have := Nat.mod_lt (n - K) hp
      omega
    · have e := hmul ((n - K) / p) (K + (n - K) % p) (by omega)
      have hd : (n - K) % p + (n - K) / p * p = n - K := by
        rw [Nat.mul_comm]; exact Nat.mod_add_div _ _
      rw [show K + (n - K) % p + (n - K) / p * p = n by omega] at e
      rw [← e]
      exact hP
  · rintro ⟨n, h1, _, hP⟩ m
    refine ⟨n + m * p, ?_, by rw [hmul m n (by omega)]; exact hP⟩
    have : m ≤ m * p := Nat.le_mul_of_pos_right m hp
    omega

/-! ## Exact arithmetic -/

/-- Every cell loses half of its value in every step. -/
noncomputable def halving : CCA ℝ 1 1 where
  idL := identityLayer 1 1 .circular
  nbL := identityLayer 1 1 .circular
  genesis := [fun _ => 0]
  persistence := [fun _ => -(1 / 2)]
  weights := .functional fun _ _ => 1
  thr := 0.1
  dt := 1
  t := 0

theorem halving_step (u : Univ ℝ 1 1 H W) (hH : 1 ≤ H) (hW : 1 ≤ W)
    (hu : ∀ n c i j, 0 ≤ u n c i j ∧ u n c i j ≤ 1) :
    universes CCA.forward halving 1 u = .ok fun n c i j => u n c i j / 2 := by
  obtain ⟨r, hr⟩ := (cca_runs_iff halving u).2 ⟨by
      simp [Fits, halving, identityLayer, ConvLayer.ofKernel, ConvLayer.pad, padOK]; omega, by
      simp [Fits, halving, identityLayer, ConvLayer.ofKernel, ConvLayer.pad, padOK]; omega, rfl, rfl⟩
  have h1 : universes CCA.forward halving 1 u = .ok r.1 := by
    unfold universes
    simp only [iterate, hr]
    rfl
  rw [h1]
  congr 1
  obtain ⟨_, _, _, hc⟩ := cca_cell (w := fun _ _ => 1) rfl hr
  funext n c i j
  have hn : n = 0 := Subsingleton.elim _ _
  have hc0 : c = 0 := Subsingleton.elim _ _
  subst hn hc0
  rw [hc, maskIf_small (by norm_num)]
  simp only [halving, Fin.sum_univ_one, identity_taps_dvd one_pos (dvd_refl 1), chanFn,
    Fin.val_eq_zero, List.getD_cons_zero]
  have := hu 0 0 i j
  rw [show (srcChan (ext := 1) (int := 1) one_pos (dvd_refl 1) 0) = 0 from Subsingleton.elim _ _]
  rw [show u 0 0 i j + 1 * (1 * ((1 - u 0 0 i j) * 0 + u 0 0 i j * -(1 / 2))) = u 0 0 i j / 2 by ring]
  exact clamp01_of_mem (by linarith) (by linarith)

/-- C109: with exact arithmetic a run need not recur: a universe that loses half of its mass in
every step never comes back to anything it was. -/
theorem exact_recurs_refuted (hH : 1 ≤ H) (hW : 1 ≤ W) :
    ∀ K, ¬ EndsInCycle K fun n =>
      universes (β := Univ ℝ 1 1 H W) CCA.forward halving n fun _ _ _ _ => 1 := by
  have hrun : ∀ n, universes (β := Univ ℝ 1 1 H W) CCA.forward halving n (fun _ _ _ _ => 1) =
      .ok fun _ _ _ _ => (1 / 2) ^ n := by
    intro n
    induction n with
    | zero => simp [universes, iterate]
    | succ n ih =>
      rw [universes_add cca_clock cca_unclocked, ih]
      have hp : (0 : ℝ) ≤ (1 / 2) ^ n ∧ ((1 : ℝ) / 2) ^ n ≤ 1 :=
        ⟨by positivity, pow_le_one₀ (by norm_num) (by norm_num)⟩
      simp only [bind, Except.bind]
      rw [halving_step _ hH hW fun _ _ _ _ => hp]
      congr 1
      funext _ _ _ _
      rw [pow_succ]; ring
  rintro K ⟨⟨i, p, hp, _, h⟩, _⟩
  have := h i (Nat.le_refl i)
  simp only [hrun, Except.ok.injEq] at this
  have := congrFun (congrFun (congrFun (congrFun this 0) 0) ⟨0, hH⟩) ⟨0, hW⟩
  have hlt : ((1 : ℝ) / 2) ^ (i + p) < (1 / 2) ^ i :=
    pow_lt_pow_right_of_lt_one₀ (by norm_num) (by norm_num) (by omega)
  linarith

/-! ## Universes without a past -/

/-- C109: if a CCA over finitely many numbers takes two different universes with cells in [0, 1] to
the same one, there is a universe with cells in [0, 1] that it never produces from such universes:
one that can only be a start. -/
theorem cca_eden [ClampLaws α] [Finite α] (ca : CCA α ext int)
    (hrun : ∀ u : Univ α N ext H W, ∃ r, ca.forward u = .ok r) {u v : Univ α N ext H W}
    (hu : NotOutside u) (hv : NotOutside v) (hne : u ≠ v) {r r' : Univ α N ext H W × CCA α ext int}
    (h1 : ca.forward u = .ok r) (h2 : ca.forward v = .ok r') (hsame : r.1 = r'.1) :
    ∃ w : Univ α N ext H W, NotOutside w ∧
      ∀ x r, NotOutside x → ca.forward x = .ok r → r.1 ≠ w := by
  choose f hf using hrun
  have hin : ∀ x, NotOutside (f x).1 := fun x => by
    obtain ⟨_, _, _, _, _, _, h⟩ := CCA.forward_ok (hf x)
    rw [h]
    exact eulerClamp_notOutside _ _ _
  let g : { x : Univ α N ext H W // NotOutside x } → { x : Univ α N ext H W // NotOutside x } :=
    fun x => ⟨(f x.1).1, hin x.1⟩
  have hninj : ¬ Function.Injective g := by
    intro hinj
    have e1 : f u = r := by have := hf u; rw [h1] at this; cases this; rfl
    have e2 : f v = r' := by have := hf v; rw [h2] at this; cases this; rfl
    have : g ⟨u, hu⟩ = g ⟨v, hv⟩ := Subtype.ext (by
      change (f u).1 = (f v).1
      rw [e1, e2, hsame])
    exact hne (congrArg Subtype.val (hinj this))
  rw [Finite.injective_iff_surjective] at hninj
  unfold Function.Surjective at hninj
  push Not at hninj
  obtain ⟨w, hw⟩ := hninj
  refine ⟨w.1, w.2, fun x r hx hr e => hw ⟨x, hx⟩ (Subtype.ext ?_)⟩
  have : f x = r := by have := hf x; rw [hr] at this; cases this; rfl
  change (f x).1 = w.1
  rw [this, e]

/-! ## Examples: quarters between -1 and 1 -/

namespace Witness

/-- The nine multiples of a quarter from -1 to 1. -/
abbrev Quarter := Fin 9

namespace Quarter

/-- Four times the value. -/
def num (a : Quarter) : Int := (a.val : Int) - 4

/-- Saturating. -/
def sat (z : Int) : Quarter := ⟨(max 0 (min 8 (z + 4))).toNat, by omega⟩

end Quarter

open Quarter in
instance : Arith Quarter where
  zero := sat 0
  one := sat 4
  add a b := sat (num a + num b)
  sub a b := sat (num a - num b)
  mul a b := sat (num a * num b / 4)
  div a b := if num b = 0 then sat 4 else sat (4 * num a / num b)
  lt a b := decide (num a < num b)
  le a b := decide (num a ≤ num b)
  abs a := sat (|num a|)
  lit q := sat ⌊q * 4⌋
  dot l := l.foldl (fun s p => sat (num s + num p.1 * num p.2 / 4)) (sat 0)

instance : ClampLaws Quarter where
  not_zero_lt_zero := by decide
  not_one_lt_zero := by decide
  not_one_lt_one := by decide

/-- Grows where there is nothing, shrinks where there is something. -/
def ticking : CCA Quarter 1 1 where
  idL := unitLayer 8
  nbL := unitLayer 8
  genesis := [fun _ => 8]
  persistence := [fun x => if x = 8 then 0 else 8]
  weights := .functional fun _ _ => 8
  thr := 4
  dt := 6
  t := 4

end Witness

open Witness in
/-- A cell that starts empty ends up alternating between a half and one. -/
example : Nat.card Quarter = 9 ∧
    ∀ k ∈ [(0, 4), (1, 6), (2, 8), (3, 6), (4, 8)], ∃ r,
      iterate CCA.forward k.1 ticking (fun _ _ _ _ => 4 : Univ Quarter 1 1 1 1) = .ok r ∧
      r.1 0 0 0 0 = k.2 := by
  refine ⟨by simp, ?_⟩
  intro k hk
  simp only [List.mem_cons, List.not_mem_nil, or_false] at hk
  rcases hk with rfl | rfl | rfl | rfl | rfl <;> exact ⟨_, rfl, by decide +kernel⟩

open Witness in
/-- A half and three quarters both become one. -/
example : (∀ u : Univ Quarter 1 1 1 1, ∃ r, ticking.forward u = .ok r) ∧
    ∃ r r', ticking.forward (fun _ _ _ _ => 6 : Univ Quarter 1 1 1 1) = .ok r ∧
      ticking.forward (fun _ _ _ _ => 7 : Univ Quarter 1 1 1 1) = .ok r' ∧ r.1 = r'.1 := by
  refine ⟨fun u => ⟨_, rfl⟩, _, _, rfl, rfl, ?_⟩
  funext n c i j
  fin_cases n; fin_cases c; fin_cases i; fin_cases j
  decide +kernel

open Witness in
/-- Steps of `CODE` that end, whatever the universe and the last step size. -/
example : ∃ f : CODE Quarter 1 1 → Univ Quarter 1 1 1 1 →
      Except PyErr (Univ Quarter 1 1 1 1 × CODE Quarter 1 1),
    ∀ (s : CODE Quarter 1 1) (b : Univ Quarter 1 1 1 1),
    (∃ d, codeCore s = { codeCore (⟨ticking, 8, 8, 5, 8⟩ : CODE Quarter 1 1) with prevDt := d }) →
      ∃ fuel, s.forward fuel b = some (f s b) := by
  refine ⟨fun s b => (s.forward 9 b).getD (.error .index), fun s b ⟨d, hd⟩ => ⟨9, ?_⟩⟩
  have h : s.forward 9 b ≠ none := by
    intro hn
    have ho : adaptLoop s.minDt (s.accept b) 9 s.firstStep false = .outOfFuel := by
      unfold CODE.forward at hn
      cases hl : adaptLoop s.minDt (s.accept b) 9 s.firstStep false with
      | outOfFuel => rfl
      | raised e => rw [hl] at hn; cases hn
      | done k x y => rw [hl] at hn; cases y <;> cases hn
    rw [outOfFuel_iff] at ho
    have hm : s.minDt = 5 := congrArg CODE.minDt hd
    have hx : s.maxDt = 8 := congrArg CODE.maxDt hd
    have hall : ∀ p : Quarter, ∃ i < 9, le (5 : Quarter) (candidate
        (if lt (8 : Quarter) (mul p (lit 2)) then 8 else mul p (lit 2)) i) = false := by
      decide +kernel
    obtain ⟨i, hi, h⟩ := hall s.prevDt
    have h2 := (ho i hi).1
    rw [hm] at h2
    unfold CODE.firstStep at h2
    rw [hx, h] at h2
    cases h2
  cases hs : s.forward 9 b with
  | none => exact absurd hs h
  | some r => simp only [hs, Option.getD_some]

end Yuca
