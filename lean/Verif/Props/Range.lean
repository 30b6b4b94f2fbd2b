import Verif.Props.Witness

/-!
# C01: every step leaves cells in [0, 1]

Proved over lawless arithmetic: the only facts used are the three comparisons
between the constants 0 and 1 in `ClampLaws`.
-/

namespace Yuca

open Arith Spec

variable {α : Type} [Arith α] [ClampLaws α] {ext int N H W : Nat}

instance : ClampLaws ℝ where
  not_zero_lt_zero := by simp [Arith.lt, Arith.zero]
  not_one_lt_zero := by simp [Arith.lt, Arith.zero, Arith.one]
  not_one_lt_one := by simp [Arith.lt, Arith.one]

instance : ClampLaws ℚ where
  not_zero_lt_zero := by simp [Arith.lt, Arith.zero]
  not_one_lt_zero := by simp [Arith.lt, Arith.zero, Arith.one]
  not_one_lt_one := by simp [Arith.lt, Arith.one]

theorem clamp01_notOutside (x : α) :
    lt (clamp01 x) zero = false ∧ lt one (clamp01 x) = false := by
  unfold clamp01
  split
  · exact ⟨ClampLaws.not_zero_lt_zero, ClampLaws.not_one_lt_zero⟩
  · rename_i h1
    split
    · exact ⟨ClampLaws.not_one_lt_zero, ClampLaws.not_one_lt_one⟩
    · rename_i h2; exact ⟨by simpa using h1, by simpa using h2⟩

theorem eulerClamp_notOutside (dt : α) (u v : Univ α N ext H W) :
    NotOutside (eulerClamp dt u v) := fun _ _ _ _ => clamp01_notOutside _

/-- C01 for the base class `CA`, after any positive number of steps. -/
theorem base_range (ca : BaseCA α ext) (u : Univ α N ext H W) (n : Nat)
    (r : Univ α N ext H W × BaseCA α ext)
    (h : iterate BaseCA.forward (n + 1) ca u = .ok r) : NotOutside r.1 :=
  iterate_post NotOutside (fun _ _ _ h => by
    obtain ⟨_, _, _, _, rfl⟩ := BaseCA.forward_ok h; exact eulerClamp_notOutside _ _ _) n ca u r h

/-- C01 for `CCA`. -/
theorem cca_range (ca : CCA α ext int) (u : Univ α N ext H W) (n : Nat)
    (r : Univ α N ext H W × CCA α ext int)
    (h : iterate CCA.forward (n + 1) ca u = .ok r) : NotOutside r.1 :=
  iterate_post NotOutside (fun _ _ _ h => by
    obtain ⟨_, _, _, _, _, _, rfl⟩ := CCA.forward_ok h
    exact eulerClamp_notOutside _ _ _) n ca u r h

/-- C01 for `Lenia`. -/
theorem lenia_range (ca : CCA α ext int) (u : Univ α N ext H W) (n : Nat)
    (r : Univ α N ext H W × CCA α ext int)
    (h : iterate CCA.leniaForward (n + 1) ca u = .ok r) : NotOutside r.1 :=
  iterate_post NotOutside (fun _ _ _ h => by
    obtain ⟨_, _, _, _, _, _, rfl⟩ := CCA.leniaForward_ok h
    exact eulerClamp_notOutside _ _ _) n ca u r h

/-- C01 for `NCA`, training (any dropout mask) or evaluation mode. -/
theorem nca_range [Transc α] {hid : Nat} (ca : NCA α ext int hid)
    (drop : Option (Univ α N hid H W)) (u : Univ α N ext H W)
    (r : Univ α N ext H W × NCA α ext int hid)
    (h : ca.forward drop u = .ok r) : NotOutside r.1 := by
  obtain ⟨_, _, _, _, _, _, rfl⟩ := NCA.forward_ok h
  exact eulerClamp_notOutside _ _ _

/-- C01 for `RandomStepCA`, whatever number is drawn. -/
theorem randomStep_range (s : RandomStepCA α ext int) (draw : α) (u : Univ α N ext H W)
    (r : Univ α N ext H W × RandomStepCA α ext int)
    (h : s.forward draw u = .ok r) : NotOutside r.1 := by
  obtain ⟨_, _, _, _, _, _, rfl⟩ := RandomStepCA.forward_ok h
  exact eulerClamp_notOutside _ _ _

/-- C01 for `MetaCA`, whatever the momentum. -/
theorem meta_range (s : MetaCA α ext int) (u : Univ α N ext H W) (n : Nat)
    (r : Univ α N ext H W × MetaCA α ext int)
    (h : iterate MetaCA.forward (n + 1) s u = .ok r) : NotOutside r.1 :=
  iterate_post NotOutside (fun _ _ _ h => by
    obtain ⟨_, _, _, _, _, _, _, _, rfl⟩ := MetaCA.forward_ok h
    exact eulerClamp_notOutside _ _ _) n s u r h

/-- C01 for `CODE`, whatever step size its loop settles on. -/
theorem code_range (s : CODE α ext int) (fuel : Nat) (u : Univ α N ext H W)
    (r : Univ α N ext H W × CODE α ext int)
    (h : s.forward fuel u = some (.ok r)) : NotOutside r.1 := by
  obtain ⟨_, _, _, h1, _⟩ := CODE.forward_ok h
  obtain ⟨_, _, _, _, _, _, h2⟩ := CODE.getNewGrid_ok h1
  rw [h2]
  exact eulerClamp_notOutside _ _ _

/-- C01 for `RxnDfn`. -/
theorem rxn_range (ca : RxnDfn α) (u : Univ α N 2 H W) (n : Nat)
    (r : Univ α N 2 H W × RxnDfn α)
    (h : iterate RxnDfn.forward (n + 1) ca u = .ok r) : NotOutside r.1 :=
  iterate_post NotOutside (fun _ _ _ h => by
    obtain ⟨_, _, _, _, rfl⟩ := RxnDfn.forward_ok h
    exact eulerClamp_notOutside _ _ _) n ca u r h

/-- Over the reals `NotOutside` is membership of every cell in `[0, 1]`. -/
theorem notOutside_real (u : Univ ℝ N ext H W) :
    NotOutside u ↔ ∀ n c i j, u n c i j ∈ Set.Icc (0 : ℝ) 1 := by
  simp [NotOutside, Arith.lt, Arith.zero, Arith.one, Set.mem_Icc]

/-! ## Non-vacuity: steps that succeed, on a carrier with rounding and NaN -/

/-- A tiny floating-point-like carrier: `none` is NaN, results are rounded down to
multiples of 1/8. -/
abbrev Toy := Option ℚ

namespace Toy
/-- Round down to a multiple of 1/8. -/
def rnd (q : ℚ) : Toy := some (⌊q * 8⌋ / 8)
def op2 (f : ℚ → ℚ → ℚ) : Toy → Toy → Toy
  | some a, some b => rnd (f a b)
  | _, _ => none
end Toy

instance : Arith Toy where
  zero := some 0
  one := some 1
  add := Toy.op2 (· + ·)
  sub := Toy.op2 (· - ·)
  mul := Toy.op2 (· * ·)
  div a b := if b = some 0 then none else Toy.op2 (· / ·) a b
  lt a b := match a, b with | some a, some b => decide (a < b) | _, _ => false
  le a b := match a, b with | some a, some b => decide (a ≤ b) | _, _ => false
  abs a := a.map (|·|)
  lit q := Toy.rnd q
  dot l := l.foldl (fun s p => Toy.op2 (· + ·) s (Toy.op2 (· * ·) p.1 p.2)) (some 0)

instance : ClampLaws Toy where
  not_zero_lt_zero := by decide
  not_one_lt_zero := by decide
  not_one_lt_one := by decide

/-- A one-channel layer with a 1x1 kernel. -/
def unitLayer {α : Type} (w : α) : ConvLayer α 1 1 := ⟨1, .circular, fun _ _ _ _ => w⟩

/-- A small rounding automaton whose growth function can return NaN. -/
def toyCA : CCA Toy 1 1 where
  idL := unitLayer (some 1)
  nbL := unitLayer (some 1)
  genesis := [fun x => if x = some 0 then none else some 5]
  persistence := [fun _ => some (-7)]
  weights := .functional fun _ _ => some 1
  thr := some (1/8)
  dt := some 1
  t := some 0

/-- The hypothesis of `cca_range` is met: a two-cell universe steps successfully, one
cell becomes NaN, the other saturates at 1. -/
example : ∃ r, iterate CCA.forward 1 toyCA
    (fun _ _ _ (j : Fin 2) => if j = 0 then some 0 else some (1/4) :
      Univ Toy 1 1 1 2) = .ok r ∧
    r.1 0 0 0 0 = none ∧ r.1 0 0 0 1 = some 1 := by
  refine ⟨_, rfl, ?_, ?_⟩ <;> decide +kernel

/-! The other classes: the hypotheses are met by non-constant universes. -/

example : ∃ r, iterate BaseCA.forward 3
    (⟨Witness.idLayer 1 1, Witness.upLayer 1 1, 1/10, 1/2, 0⟩ : BaseCA ℚ 1) Witness.u3 = .ok r :=
  ⟨_, rfl⟩

example : ∃ r, iterate CCA.leniaForward 3 Witness.ca1 Witness.u3 = .ok r := ⟨_, rfl⟩

example : ∃ r, Witness.nca.forward (N := 1) (H := 2) (W := 2) none (fun _ _ i _ => i.val) = .ok r :=
  ⟨_, rfl⟩

example : ∃ r, Witness.rnd1.forward (1/3) Witness.u3 = .ok r := ⟨_, rfl⟩

example : ∃ r, iterate MetaCA.forward 3 Witness.meta1 Witness.u3 = .ok r := ⟨_, rfl⟩

example : ∃ r, iterate RxnDfn.forward 3 Witness.rxn Witness.u2 = .ok r := ⟨_, rfl⟩

/-- CODE accepts a step within a few iterations on a concrete universe. -/
example : ∃ r, Witness.code1.forward 40 Witness.u3 = some (.ok r) := by
  have h : (Witness.code1.forward 40 Witness.u3).isSome = true ∧
      ((Witness.code1.forward 40 Witness.u3).map (·.isOk)) = some true := by decide +kernel
  rcases hf : Witness.code1.forward 40 Witness.u3 with _ | r
  · rw [hf] at h; simp at h
  · cases r with
    | error e => rw [hf] at h; simp [Except.isOk, Except.toBool] at h
    | ok r => exact ⟨r, rfl⟩

end Yuca
