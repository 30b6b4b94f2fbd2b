import Verif.Props.LevelLinear
import Mathlib.Analysis.SpecialFunctions.Complex.Log

/-! # C127: the waves on the torus

A balanced kernel multiplies every wave by a number of its own, and these are all the numbers by
which it multiplies a grid. -/

namespace Yuca

open Arith Spec

variable {N H W : Nat}

namespace Spec

/-- The phase of the wave with `p` crests from top to bottom and `q` from left to right. -/
noncomputable def phase (H W p q : Nat) (y x : ℝ) : ℝ :=
  2 * Real.pi * (p * y / H + q * x / W)

/-- By what a balanced kernel multiplies that wave. -/
noncomputable def waveGain {r : Nat} (κ : Fin (2 * r + 1) → Fin (2 * r + 1) → ℝ)
    (H W p q : Nat) : ℝ :=
  ∑ a : Fin (2 * r + 1), ∑ b : Fin (2 * r + 1),
    κ a b * Real.cos (phase H W p q ((a.val : ℝ) - r) ((b.val : ℝ) - r))

/-- `w` is only multiplied by `g` when gathered. -/
def Mode {r : Nat} (κ : Fin (2 * r + 1) → Fin (2 * r + 1) → ℝ) (w : Grid ℝ H W) (g : ℝ) : Prop :=
  (∃ i j, w i j ≠ 0) ∧ ∀ i j, gathered κ w i j = g * w i j

end Spec

open Spec

theorem roll_phase {n : Nat} (p : Nat) (i : Fin n) (d : ℤ) : ∃ k : ℤ,
    (p : ℝ) * (rollIdx i d).val / n = p * ((i.val : ℝ) - d) / n + k := by
  have hn : 0 < n := by have := i.isLt; omega
  have hv := rollIdx_val i d
  have hd := Int.emod_add_mul_ediv ((i.val : ℤ) - d) n
  refine ⟨-(p * (((i.val : ℤ) - d) / n)), ?_⟩
  have h1 : ((rollIdx i d).val : ℤ) = (i.val : ℤ) - d - n * (((i.val : ℤ) - d) / n) := by
    rw [hv]; omega
  have h2 : ((rollIdx i d).val : ℝ) = (i.val : ℝ) - d - n * ((((i.val : ℤ) - d) / n : ℤ) : ℝ) := by
    exact_mod_cast h1
  have hn' : (n : ℝ) ≠ 0 := by positivity
  rw [h2]
  push_cast
  field_simp
  ring

theorem phase_roll (p q : Nat) (i : Fin H) (j : Fin W) (d e : ℤ) : ∃ k : ℤ,
    phase H W p q (rollIdx i d).val (rollIdx j e).val =
      phase H W p q i.val j.val - phase H W p q d e + k * (2 * Real.pi) := by
  obtain ⟨k, hk⟩ := roll_phase p i d
  obtain ⟨l, hl⟩ := roll_phase q j e
  refine ⟨k + l, ?_⟩
  unfold phase
  rw [hk, hl]
  push_cast
  ring

theorem wave_cos_roll (p q : Nat) (i : Fin H) (j : Fin W) (d e : ℤ) :
    Real.cos (phase H W p q (rollIdx i d).val (rollIdx j e).val) =
      Real.cos (phase H W p q i.val j.val - phase H W p q d e) := by
  obtain ⟨k, hk⟩ := phase_roll p q i j d e
  rw [hk, Real.cos_add_int_mul_two_pi]

theorem wave_sin_roll (p q : Nat) (i : Fin H) (j : Fin W) (d e : ℤ) :
    Real.sin (phase H W p q (rollIdx i d).val (rollIdx j e).val) =
      Real.sin (phase H W p q i.val j.val - phase H W p q d e) := by
  obtain ⟨k, hk⟩ := phase_roll p q i j d e
  rw [hk, Real.sin_add_int_mul_two_pi]

section

variable {r : Nat} {κ : Fin (2 * r + 1) → Fin (2 * r + 1) → ℝ}

/-- Odd contributions of a balanced kernel cancel. -/
theorem balanced_sin (hκ : Balanced κ) (p q : Nat) :
    ∑ a : Fin (2 * r + 1), ∑ b : Fin (2 * r + 1), κ a b *
      Real.sin (phase H W p q ((a.val : ℝ) - r) ((b.val : ℝ) - r)) = 0 := by
  obtain ⟨S, hS⟩ : ∃ S, S = ∑ a : Fin (2 * r + 1), ∑ b : Fin (2 * r + 1), κ a b *
      Real.sin (phase H W p q ((a.val : ℝ) - r) ((b.val : ℝ) - r)) := ⟨_, rfl⟩
  have : S = -S := by
    conv_lhs => rw [hS, ← Equiv.sum_comp Fin.revPerm]
    rw [hS, ← Finset.sum_neg_distrib]
    refine Finset.sum_congr rfl fun a _ => ?_
    rw [← Equiv.sum_comp Fin.revPerm, ← Finset.sum_neg_distrib]
    refine Finset.sum_congr rfl fun b _ => ?_
    have ha : ((a.rev.val : ℕ) : ℝ) - r = -((a.val : ℝ) - r) := by
      have : ((a.rev.val : ℕ) : ℝ) = 2 * r - a.val := by
        rw [Fin.val_rev, Nat.cast_sub (by omega)]; push_cast; ring
      rw [this]; ring
    have hb : ((b.rev.val : ℕ) : ℝ) - r = -((b.val : ℝ) - r) := by
      have : ((b.rev.val : ℕ) : ℝ) = 2 * r - b.val := by
        rw [Fin.val_rev, Nat.cast_sub (by omega)]; push_cast; ring
      rw [this]; ring
    show κ a.rev b.rev * Real.sin (phase H W p q (((a.rev.val : ℕ) : ℝ) - r) (((b.rev.val : ℕ) : ℝ) - r)) = _
    rw [hκ, ha, hb, ← mul_neg, ← Real.sin_neg]
    congr 2
    unfold phase
    ring
  rw [← hS]
  linarith

theorem neg_offset_phase (p q : Nat) (a b : Fin (2 * r + 1)) :
    phase H W p q (((r : ℤ) - a.val : ℤ) : ℝ) (((r : ℤ) - b.val : ℤ) : ℝ) =
      -phase H W p q ((a.val : ℝ) - r) ((b.val : ℝ) - r) := by
  unfold phase
  push_cast
  ring

theorem gathered_cos (hκ : Balanced κ) (p q : Nat) (i : Fin H) (j : Fin W) :
    gathered κ (fun (i : Fin H) (j : Fin W) => Real.cos (phase H W p q i.val j.val)) i j =
      waveGain κ H W p q * Real.cos (phase H W p q i.val j.val) := by
  have h0 := balanced_sin (H := H) (W := W) hκ p q
  simp only [gathered, wave_cos_roll, neg_offset_phase, sub_neg_eq_add, Real.cos_add, mul_sub,
    Finset.sum_sub_distrib]
  have e1 : ∑ a : Fin (2 * r + 1), ∑ b : Fin (2 * r + 1), κ a b * (Real.cos (phase H W p q i.val j.val) *
      Real.cos (phase H W p q ((a.val : ℝ) - r) ((b.val : ℝ) - r))) =
      waveGain κ H W p q * Real.cos (phase H W p q i.val j.val) := by
    simp only [waveGain, Finset.sum_mul]
    exact Finset.sum_congr rfl fun a _ => Finset.sum_congr rfl fun b _ => by ring
  have e2 : ∑ a : Fin (2 * r + 1), ∑ b : Fin (2 * r + 1), κ a b * (Real.sin (phase H W p q i.val j.val) *
      Real.sin (phase H W p q ((a.val : ℝ) - r) ((b.val : ℝ) - r))) = 0 := by
    rw [← mul_zero (Real.sin (phase H W p q i.val j.val)), ← h0]
    simp only [Finset.mul_sum]
    exact Finset.sum_congr rfl fun a _ => Finset.sum_congr rfl fun b _ => by ring
  rw [e1, e2, sub_zero]

theorem gathered_sin (hκ : Balanced κ) (p q : Nat) (i : Fin H) (j : Fin W) :
    gathered κ (fun (i : Fin H) (j : Fin W) => Real.sin (phase H W p q i.val j.val)) i j =
      waveGain κ H W p q * Real.sin (phase H W p q i.val j.val) := by
  have h0 := balanced_sin (H := H) (W := W) hκ p q
  simp only [gathered, wave_sin_roll, neg_offset_phase, sub_neg_eq_add, Real.sin_add, mul_add,
    Finset.sum_add_distrib]
  have e1 : ∑ a : Fin (2 * r + 1), ∑ b : Fin (2 * r + 1), κ a b * (Real.sin (phase H W p q i.val j.val) *
      Real.cos (phase H W p q ((a.val : ℝ) - r) ((b.val : ℝ) - r))) =
      waveGain κ H W p q * Real.sin (phase H W p q i.val j.val) := by
    simp only [waveGain, Finset.sum_mul]
    exact Finset.sum_congr rfl fun a _ => Finset.sum_congr rfl fun b _ => by ring
  have e2 : ∑ a : Fin (2 * r + 1), ∑ b : Fin (2 * r + 1), κ a b * (Real.cos (phase H W p q i.val j.val) *
      Real.sin (phase H W p q ((a.val : ℝ) - r) ((b.val : ℝ) - r))) = 0 := by
    rw [← mul_zero (Real.cos (phase H W p q i.val j.val)), ← h0]
    simp only [Finset.mul_sum]
    exact Finset.sum_congr rfl fun a _ => Finset.sum_congr rfl fun b _ => by ring
  rw [e1, e2, add_zero]

/-- Every wave is a mode. -/
theorem wave_mode (hκ : Balanced κ) (hH : 1 ≤ H) (hW : 1 ≤ W) (p q : Nat) :
    Mode κ (fun (i : Fin H) (j : Fin W) => Real.cos (phase H W p q i.val j.val))
      (waveGain κ H W p q) :=
  ⟨⟨⟨0, hH⟩, ⟨0, hW⟩, by simp [phase]⟩, gathered_cos hκ p q⟩

end

/-- The powers of a root of unity other than 1 sum to 0. -/
theorem root_sum {n : Nat} (hn : 0 < n) (m : ℤ) :
    ∑ p ∈ Finset.range n, Complex.exp (2 * Real.pi * (m / n : ℂ) * Complex.I) ^ p =
      if (n : ℤ) ∣ m then (n : ℂ) else 0 := by
  have hn' : (n : ℂ) ≠ 0 := by exact_mod_cast hn.ne'
  obtain ⟨z, hz⟩ : ∃ z, z = Complex.exp (2 * Real.pi * (m / n : ℂ) * Complex.I) := ⟨_, rfl⟩
  rw [← hz]
  split
  · next h =>
    obtain ⟨k, rfl⟩ := h
    have : z = 1 := by
      rw [hz, Complex.exp_eq_one_iff]
      refine ⟨k, ?_⟩
      push_cast
      field_simp
    simp [this]
  · next h =>
    have h1 : z ≠ 1 := by
      rw [hz]
      intro he
      obtain ⟨k, hk⟩ := Complex.exp_eq_one_iff.1 he
      apply h
      refine ⟨k, ?_⟩
      have hpi : (2 * Real.pi * Complex.I : ℂ) ≠ 0 := Complex.two_pi_I_ne_zero
      have : (m / n : ℂ) = k := by
        apply mul_right_cancel₀ hpi
        linear_combination hk
      rw [div_eq_iff hn'] at this
      have : (m : ℂ) = ((n * k : ℤ) : ℂ) := by rw [this]; push_cast; ring
      exact_mod_cast this
    have h2 : z ^ n = 1 := by
      rw [hz, ← Complex.exp_nat_mul, Complex.exp_eq_one_iff]
      exact ⟨m, by field_simp⟩
    have := mul_geom_sum z n
    rw [h2, sub_self] at this
    exact (mul_eq_zero.1 this).resolve_left (sub_ne_zero.2 h1)

theorem cos_phase_re (p q : Nat) (m l : ℤ) : Real.cos (phase H W p q m l) =
    (Complex.exp (2 * Real.pi * (m / H : ℂ) * Complex.I) ^ p *
      Complex.exp (2 * Real.pi * (l / W : ℂ) * Complex.I) ^ q).re := by
  rw [← Complex.exp_nat_mul, ← Complex.exp_nat_mul, ← Complex.exp_add,
    show (p : ℂ) * (2 * Real.pi * (m / H : ℂ) * Complex.I) + q * (2 * Real.pi * (l / W : ℂ) * Complex.I) =
      ((phase H W p q m l : ℝ) : ℂ) * Complex.I by unfold phase; push_cast; ring,
    Complex.exp_ofReal_mul_I_re]

/-- Summed over all waves only the same place remains. -/
theorem wave_sum (hH : 0 < H) (hW : 0 < W) (m l : ℤ) :
    ∑ p ∈ Finset.range H, ∑ q ∈ Finset.range W, Real.cos (phase H W p q m l) =
      if (H : ℤ) ∣ m ∧ (W : ℤ) ∣ l then (H : ℝ) * W else 0 := by
  simp only [cos_phase_re]
  simp only [← Complex.re_sum, ← Finset.mul_sum]
  rw [← Finset.sum_mul, root_sum hH, root_sum hW]
  by_cases h1 : (H : ℤ) ∣ m <;> by_cases h2 : (W : ℤ) ∣ l <;> simp [h1, h2]

/-- A grid which has no part in any wave is empty. -/
theorem waves_complete {w : Grid ℝ H W}
    (hc : ∀ p < H, ∀ q < W, ∑ i : Fin H, ∑ j : Fin W,
      w i j * Real.cos (phase H W p q i.val j.val) = 0)
    (hs : ∀ p < H, ∀ q < W, ∑ i : Fin H, ∑ j : Fin W,
      w i j * Real.sin (phase H W p q i.val j.val) = 0)
    (k : Fin H) (l : Fin W) : w k l = 0 := by
  have hH : 0 < H := by have := k.isLt; omega
  have hW : 0 < W := by have := l.isLt; omega
  have h1 : ∀ p < H, ∀ q < W, ∑ i : Fin H, ∑ j : Fin W, w i j *
      Real.cos (phase H W p q ((i.val : ℤ) - k.val : ℤ) ((j.val : ℤ) - l.val : ℤ)) = 0 := by
    intro p hp q hq
    have e : ∀ (i : Fin H) (j : Fin W), w i j *
        Real.cos (phase H W p q ((i.val : ℤ) - k.val : ℤ) ((j.val : ℤ) - l.val : ℤ)) =
        Real.cos (phase H W p q k.val l.val) * (w i j * Real.cos (phase H W p q i.val j.val)) +
        Real.sin (phase H W p q k.val l.val) * (w i j * Real.sin (phase H W p q i.val j.val)) := by
      intro i j
      rw [show phase H W p q ((i.val : ℤ) - k.val : ℤ) ((j.val : ℤ) - l.val : ℤ) =
        phase H W p q i.val j.val - phase H W p q k.val l.val by unfold phase; push_cast; ring,
        Real.cos_sub]
      ring
    simp only [e, Finset.sum_add_distrib, ← Finset.mul_sum]
    rw [hc p hp q hq, hs p hp q hq, mul_zero, mul_zero, add_zero]
  have h2 : ∑ i : Fin H, ∑ j : Fin W, w i j * ∑ p ∈ Finset.range H, ∑ q ∈ Finset.range W,
      Real.cos (phase H W p q ((i.val : ℤ) - k.val : ℤ) ((j.val : ℤ) - l.val : ℤ)) = 0 := by
    have : ∑ p ∈ Finset.range H, ∑ q ∈ Finset.range W, ∑ i : Fin H, ∑ j : Fin W, w i j *
        Real.cos (phase H W p q ((i.val : ℤ) - k.val : ℤ) ((j.val : ℤ) - l.val : ℤ)) = 0 :=
      Finset.sum_eq_zero fun p hp => Finset.sum_eq_zero fun q hq =>
        h1 p (Finset.mem_range.1 hp) q (Finset.mem_range.1 hq)
    rw [← this]
    simp only [Finset.mul_sum]
    have s1 : ∀ f : Fin H → Fin W → ℕ → ℕ → ℝ,
        ∑ i, ∑ j, ∑ p ∈ Finset.range H, ∑ q ∈ Finset.range W, f i j p q =
        ∑ p ∈ Finset.range H, ∑ q ∈ Finset.range W, ∑ i, ∑ j, f i j p q := by
      intro f
      rw [Finset.sum_congr rfl fun i _ => Finset.sum_comm, Finset.sum_comm]
      refine Finset.sum_congr rfl fun p _ => ?_
      rw [Finset.sum_congr rfl fun i _ => Finset.sum_comm, Finset.sum_comm]
    exact s1 _
  simp only [wave_sum hH hW] at h2
  rw [Finset.sum_eq_single k, Finset.sum_eq_single l] at h2
  · simp only [sub_self, dvd_zero, and_self, if_true] at h2
    have : (H : ℝ) * W ≠ 0 := by positivity
    exact (mul_eq_zero.1 h2).resolve_right this
  · intro j _ hj
    rw [if_neg, mul_zero]
    rintro ⟨_, hd⟩
    have := Int.eq_zero_of_abs_lt_dvd hd (by
      rw [abs_lt]; constructor <;> have := j.isLt <;> have := l.isLt <;> omega)
    exact hj (Fin.ext (by omega))
  · simp
  · intro i _ hi
    refine Finset.sum_eq_zero fun j _ => ?_
    rw [if_neg, mul_zero]
    rintro ⟨hd, _⟩
    have := Int.eq_zero_of_abs_lt_dvd hd (by
      rw [abs_lt]; constructor <;> have := i.isLt <;> have := k.isLt <;> omega)
    exact hi (Fin.ext (by omega))
  · simp

/-- Every mode has the gain of a wave. -/
theorem mode_gain {r : Nat} {κ : Fin (2 * r + 1) → Fin (2 * r + 1) → ℝ} (hκ : Balanced κ)
    {w : Grid ℝ H W} {g : ℝ} (hw : Mode κ w g) :
    ∃ p < H, ∃ q < W, g = waveGain κ H W p q := by
  by_contra hno
  push Not at hno
  obtain ⟨⟨i, j, hij⟩, hg⟩ := hw
  refine hij (waves_complete (fun p hp q hq => ?_) (fun p hp q hq => ?_) i j)
  · have e := gathered_symm hκ w fun (i : Fin H) (j : Fin W) => Real.cos (phase H W p q i.val j.val)
    simp only [hg, gathered_cos hκ, mul_assoc, mul_left_comm _ (waveGain κ H W p q),
      ← Finset.mul_sum] at e
    have : (g - waveGain κ H W p q) * ∑ i : Fin H, ∑ j : Fin W,
        w i j * Real.cos (phase H W p q i.val j.val) = 0 := by linarith
    exact (mul_eq_zero.1 this).resolve_left (sub_ne_zero.2 (hno p hp q hq))
  · have e := gathered_symm hκ w fun (i : Fin H) (j : Fin W) => Real.sin (phase H W p q i.val j.val)
    simp only [hg, gathered_sin hκ, mul_assoc, mul_left_comm _ (waveGain κ H W p q),
      ← Finset.mul_sum] at e
    have : (g - waveGain κ H W p q) * ∑ i : Fin H, ∑ j : Fin W,
        w i j * Real.sin (phase H W p q i.val j.val) = 0 := by linarith
    exact (mul_eq_zero.1 this).resolve_left (sub_ne_zero.2 (hno p hp q hq))

end Yuca
