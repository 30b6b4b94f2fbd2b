import Verif.Props.Structure
import Verif.Model.Kernels
import Mathlib.Algebra.BigOperators.Field
import Mathlib.Tactic.FieldSimp

/-!
# C16 normalised kernels, C17 Moore kernels, C18 Laplacians, kernel sides (C15)
-/

namespace Yuca

open Arith

/-- The names `get_kernel` normalises. -/
def radialNames : List String :=
  ["Gaussian", "GaussianMixture", "CosOverX2", "DoGaussian", "SmoothLifeKernel"]

theorem eps9_pos : 0 < eps9 := by unfold eps9; norm_num

theorem kernelMin_le {r : Nat} (κ : Fin (2 * r + 1) → Fin (2 * r + 1) → ℝ)
    (a b : Fin (2 * r + 1)) : kernelMin κ ≤ κ a b :=
  Finset.inf'_le (f := fun p : Fin (2 * r + 1) × Fin (2 * r + 1) => κ p.1 p.2)
    (b := (a, b)) (Finset.mem_univ _)

theorem kernelMin_attained {r : Nat} (κ : Fin (2 * r + 1) → Fin (2 * r + 1) → ℝ) :
    ∃ a b, κ a b = kernelMin κ := by
  obtain ⟨p, _, hp⟩ := Finset.exists_mem_eq_inf' (s := Finset.univ)
    ⟨((0, 0) : Fin (2 * r + 1) × Fin (2 * r + 1)), Finset.mem_univ _⟩
    (fun p : Fin (2 * r + 1) × Fin (2 * r + 1) => κ p.1 p.2)
  exact ⟨p.1, p.2, hp.symm⟩

theorem normalise_facts {r : Nat} (κ : Fin (2 * r + 1) → Fin (2 * r + 1) → ℝ) :
    (∀ a b, 0 ≤ normaliseKernel κ a b) ∧ (∃ a b, normaliseKernel κ a b = 0) ∧
      ∑ a, ∑ b, normaliseKernel κ a b =
        (∑ a, ∑ b, (κ a b - kernelMin κ)) / (eps9 + ∑ a, ∑ b, (κ a b - kernelMin κ)) ∧
      0 ≤ ∑ a, ∑ b, (κ a b - kernelMin κ) := by
  have hS : 0 ≤ ∑ a, ∑ b, (κ a b - kernelMin κ) :=
    Finset.sum_nonneg fun a _ => Finset.sum_nonneg fun b _ => sub_nonneg.2 (kernelMin_le κ a b)
  refine ⟨fun a b => ?_, ?_, ?_, hS⟩
  · exact div_nonneg (sub_nonneg.2 (kernelMin_le κ a b)) (by have := eps9_pos; linarith)
  · obtain ⟨a, b, h⟩ := kernelMin_attained κ
    exact ⟨a, b, by simp [normaliseKernel, h]⟩
  · simp only [normaliseKernel, ← Finset.sum_div]

theorem getKernel_radial {cfg : KernelConfig} (hn : cfg.name ∈ radialNames) {K : AnyKernel}
    (h : getKernel cfg = .ok K) :
    ∃ (r : Nat) (f : ℝ → ℝ), cfg.radius = some r ∧ 1 ≤ r ∧
      K = ⟨r, normaliseKernel fun a b => f (radialGrid r a b)⟩ := by
  have h1 : cfg.name ≠ "InnerMoore" := by intro h; rw [h] at hn; revert hn; decide
  have h2 : cfg.name ≠ "MooreLike" := by intro h; rw [h] at hn; revert hn; decide
  have h3 : cfg.name ≠ "LaplacianOfGaussian" := by intro h; rw [h] at hn; revert hn; decide
  unfold getKernel at h
  unfold radialNames at hn
  rw [if_neg h1, if_neg h2, if_neg h3, if_pos hn] at h
  split at h
  · rename_i kw r hk hr
    split at h
    · cases h
    · rename_i f _
      split at h
      · cases h
      · cases h
        exact ⟨r, f, hr, by omega, rfl⟩
  · cases h

/-- C16: a kernel returned for one of the radial names is non-negative, is zero somewhere,
and sums to `S / (S + 1e-9)` for some `S ≥ 0`, hence to a number in `[0, 1)`. -/
theorem kernel_normalised (cfg : KernelConfig) (hn : cfg.name ∈ radialNames) (K : AnyKernel)
    (h : getKernel cfg = .ok K) :
    (∀ a b, 0 ≤ K.2 a b) ∧ (∃ a b, K.2 a b = 0) ∧
      (∃ S : ℝ, 0 ≤ S ∧ ∑ a, ∑ b, K.2 a b = S / (S + 1e-9)) ∧
      0 ≤ ∑ a, ∑ b, K.2 a b ∧ ∑ a, ∑ b, K.2 a b < 1 := by
  obtain ⟨r, f, _, _, rfl⟩ := getKernel_radial hn h
  obtain ⟨h1, h2, h3, h4⟩ := normalise_facts fun a b => f (radialGrid r a b)
  have := eps9_pos
  refine ⟨h1, h2, ⟨_, h4, ?_⟩, ?_, ?_⟩
  · rw [h3, add_comm eps9]; rfl
  · exact Finset.sum_nonneg fun a _ => Finset.sum_nonneg fun b _ => h1 a b
  · rw [h3, div_lt_one (by linarith)]; linarith

/-- C15: kernels of `get_kernel` have the side `2 * radius + 1` that was asked for
(`InnerMoore` has side 3 whatever was asked). -/
theorem kernel_side (cfg : KernelConfig) (K : AnyKernel) (h : getKernel cfg = .ok K) :
    if cfg.name = "InnerMoore" then 2 * K.1 + 1 = 3 else cfg.radius = some K.1 := by
  unfold getKernel at h
  split at h
  · rename_i hn; cases h; simp [hn]
  · rename_i hn
    rw [if_neg hn]
    split at h
    · split at h
      · cases h
      · rename_i r hr
        split at h
        · cases h
        · cases h; exact hr
    · split at h
      · split at h
        · rename_i kw r _ hr
          split at h
          · cases h
          · cases h; exact hr
        · cases h
      · split at h
        · split at h
          · rename_i kw r _ hr
            split at h
            · cases h
            · split at h
              · cases h
              · cases h; exact hr
          · cases h
        · cases h

/-- Hypotheses of `kernel_normalised` and `kernel_side` are met: the orbium kernel. -/
example : ∃ K, getKernel ⟨"Gaussian", some 13, some { mu := some 0.5, sigma := some 0.15 }⟩ = .ok K
    ∧ K.1 = 13 := by
  simp [getKernel, kernelFn]

/-- C16, consequence: with one input channel per group, the neighborhood value of a `[0,1]`
universe under a normalised kernel lies in `[0,1)`. -/
theorem neighborhood_range {ext int N H W : Nat} (cfg : KernelConfig)
    (hn : cfg.name ∈ radialNames) (K : AnyKernel) (h : getKernel cfg = .ok K) (hext : 0 < ext)
    (hd : ext ∣ int) (u : Univ ℝ N ext H W) (hu : ∀ n c i j, 0 ≤ u n c i j ∧ u n c i j ≤ 1)
    (y : Univ ℝ N int H W)
    (hy : (ConvLayer.ofKernel ext int .circular (2 * K.1 + 1) K.2).apply u = .ok y) :
    ∀ n o i j, 0 ≤ y n o i j ∧ y n o i j < 1 := by
  obtain ⟨h1, _, _, _, h5⟩ := kernel_normalised cfg hn K h
  intro n o i j
  obtain ⟨_, rfl⟩ := apply_ok hy
  simp only
  rw [conv_sum_ofKernel]
  have hg : groups ext int = ext := by simp [groups, Nat.mod_eq_zero_of_dvd hd]
  have hc : ext / groups ext int = 1 := by rw [hg, Nat.div_self hext]
  have hsub : Subsingleton (Fin (ext / groups ext int)) := by rw [hc]; infer_instance
  have hne : Nonempty (Fin (ext / groups ext int)) := ⟨⟨0, by omega⟩⟩
  obtain ⟨c0⟩ := hne
  rw [Fintype.sum_subsingleton _ c0]
  constructor
  · exact Finset.sum_nonneg fun a _ => Finset.sum_nonneg fun b _ =>
      mul_nonneg (h1 a b) (hu _ _ _ _).1
  · refine lt_of_le_of_lt ?_ h5
    refine Finset.sum_le_sum fun a _ => Finset.sum_le_sum fun b _ => ?_
    exact mul_le_of_le_one_right (h1 a b) (hu _ _ _ _).2

/-- Its hypotheses are met by the orbium automaton on a 16x16 grid. -/
example : ∃ K, getKernel ⟨"Gaussian", some 13, some { mu := some 0.5, sigma := some 0.15 }⟩ = .ok K
    ∧ ∃ y, (ConvLayer.ofKernel 1 1 .circular (2 * K.1 + 1) K.2).apply
      (fun _ _ _ _ => 1/2 : Univ ℝ 1 1 16 16) = .ok y := by
  simp only [getKernel, kernelFn]
  simp only [apply_ok_iff]
  simp [Fits, ConvLayer.ofKernel, padOK, ConvLayer.pad]

/-! ## C17 -/

theorem mooreOnes_sum (r : Nat) : ∑ a, ∑ b, mooreOnes r a b = ((2 * r + 1) ^ 2 - 1 : ℝ) := by
  have hc : ∀ a b : Fin (2 * r + 1), mooreOnes r a b =
      1 - if (⟨r, by omega⟩ : Fin (2 * r + 1)) = a then
        (if (⟨r, by omega⟩ : Fin (2 * r + 1)) = b then 1 else 0) else 0 := by
    intro a b
    unfold mooreOnes
    simp only [Fin.ext_iff, eq_comm (a := r)]
    by_cases h1 : a.val = r <;> by_cases h2 : b.val = r <;> simp [h1, h2]
  simp only [hc, Finset.sum_sub_distrib, Finset.sum_ite_irrel, Finset.sum_const_zero,
    Finset.sum_ite_eq, Finset.mem_univ, if_true]
  simp
  ring

/-- C17: a `MooreLike` kernel of radius `r ≥ 1` is 0 at the centre, `1/((2r+1)²-1)` at every
other cell, and sums to exactly 1. -/
theorem moore_like (cfg : KernelConfig) (hn : cfg.name = "MooreLike") (r : Nat)
    (hr : cfg.radius = some r) (h1 : 1 ≤ r) :
    ∃ κ : Fin (2 * r + 1) → Fin (2 * r + 1) → ℝ, getKernel cfg = .ok ⟨r, κ⟩ ∧
      (∀ a b, κ a b = if a.val = r ∧ b.val = r then 0 else 1 / ((2 * r + 1) ^ 2 - 1 : ℝ)) ∧
      ∑ a, ∑ b, κ a b = 1 := by
  have hr1 : (1 : ℝ) ≤ r := by exact_mod_cast h1
  have hne : ((2 * r + 1) ^ 2 - 1 : ℝ) ≠ 0 := by nlinarith
  refine ⟨mooreLike r, ?_, ?_, ?_⟩
  · simp [getKernel, hn, hr, Nat.one_le_iff_ne_zero.1 h1]
  · intro a b
    simp only [mooreLike, mooreOnes_sum]
    unfold mooreOnes
    split <;> simp
  · simp only [mooreLike, ← Finset.sum_div]
    rw [mooreOnes_sum, div_self hne]

example : (⟨"MooreLike", some 1, none⟩ : KernelConfig).radius = some 1 := rfl

/-- C17: radius 0 divides by a zero sum. -/
theorem moore_like_zero : ∑ a, ∑ b, mooreOnes 0 a b = 0 ∧
    getKernel ⟨"MooreLike", some 0, none⟩ = .error .zeroDiv := by
  constructor
  · rw [mooreOnes_sum]; norm_num
  · simp [getKernel]

/-- C17: `InnerMoore` is the 3x3 unit impulse whatever radius and kwargs are given. -/
theorem inner_moore (rad : Option Nat) (kw : Option KernelKwargs) :
    ∃ κ : Fin 3 → Fin 3 → ℝ, getKernel ⟨"InnerMoore", rad, kw⟩ = .ok ⟨1, κ⟩ ∧
      ∀ a b, κ a b = if a = 1 ∧ b = 1 then 1 else 0 :=
  ⟨identityKernel, by simp [getKernel], fun _ _ => rfl⟩

/-- Unknown kernel names raise an AssertionError. -/
theorem unknown_kernel (cfg : KernelConfig)
    (hn : cfg.name ∉ "InnerMoore" :: "MooreLike" :: "LaplacianOfGaussian" :: radialNames) :
    getKernel cfg = .error .assertion := by
  simp only [List.mem_cons, not_or] at hn
  unfold getKernel
  have h4 := hn.2.2.2
  unfold radialNames at h4
  rw [if_neg hn.1, if_neg hn.2.1, if_neg hn.2.2.1, if_neg h4]

example : "Laplacian" ∉ "InnerMoore" :: "MooreLike" :: "LaplacianOfGaussian" :: radialNames := by
  decide

/-! ## C18 -/

/-- C18: the 9-point Laplacian sums to zero. -/
theorem laplacian9_sum : ∑ a, ∑ b, laplacian9 a b = 0 := by
  simp [laplacian9, Fin.sum_univ_three]; norm_num

/-- C18: the Laplacian-of-Gaussian kernel sums to zero, for every radius and sigma. -/
theorem log_sum {r : Nat} (sigma : ℝ) (x : Fin (2 * r + 1) → Fin (2 * r + 1) → ℝ) :
    ∑ a, ∑ b, logKernel sigma x a b = 0 := by
  simp only [logKernel, ← Finset.sum_div, Finset.sum_sub_distrib]
  have h : (2 * (r : ℝ) + 1) * (2 * r + 1) ≠ 0 := by positivity
  simp only [Finset.sum_const, Finset.card_univ, Fintype.card_fin, nsmul_eq_mul]
  rw [div_eq_zero_iff]
  left
  push_cast
  field_simp
  ring

/-- C18: for every radius at least 1 and every sigma other than 0, the absolute weights of
the Laplacian-of-Gaussian kernel of `get_kernel` sum to one. -/
theorem log_abs_sum {r : Nat} (hr : 1 ≤ r) (sigma : ℝ) (hs : sigma ≠ 0) :
    ∑ a, ∑ b, |logKernel sigma (radialGrid r) a b| = 1 := by
  set l : ℝ → ℝ := fun x => -(1 / (Real.pi * sigma ^ 4)) * (1 - x ^ 2 / (2 * sigma ^ 2)) *
    Real.exp (-(x ^ 2) / (2 * sigma ^ 2)) with hl
  set m : ℝ := (∑ a, ∑ b, l (radialGrid r a b)) / ((2 * r + 1) * (2 * r + 1) : ℝ) with hm
  have hk : ∀ a b, logKernel sigma (radialGrid r) a b =
      (l (radialGrid r a b) - m) / ∑ a, ∑ b, |l (radialGrid r a b) - m| := fun a b => rfl
  have hpos : 0 ≤ ∑ a, ∑ b, |l (radialGrid r a b) - m| :=
    Finset.sum_nonneg fun a _ => Finset.sum_nonneg fun b _ => abs_nonneg _
  have hS : ∑ a, ∑ b, |l (radialGrid r a b) - m| ≠ 0 := by
    intro h0
    have hz : ∀ a b, l (radialGrid r a b) = m := by
      intro a b
      have h1 := (Finset.sum_eq_zero_iff_of_nonneg (fun a _ =>
        Finset.sum_nonneg fun b _ => abs_nonneg _)).1 h0 a (Finset.mem_univ _)
      have h2 := (Finset.sum_eq_zero_iff_of_nonneg (fun b _ => abs_nonneg _)).1 h1 b
        (Finset.mem_univ _)
      exact sub_eq_zero.1 (abs_eq_zero.1 h2)
    have hr0 : (r : ℝ) ≠ 0 := by exact_mod_cast (by omega : r ≠ 0)
    have hc : radialGrid r ⟨r, by omega⟩ ⟨r, by omega⟩ = 0 := by simp [radialGrid]
    have he : radialGrid r ⟨r, by omega⟩ ⟨0, by omega⟩ = 1 := by
      simp [radialGrid, Real.sqrt_sq, hr0]
    have h1 : l 0 = l 1 := by rw [← hc, ← he, hz, hz]
    have hs2 : 0 < sigma ^ 2 := by positivity
    have hp : 0 < 1 / (Real.pi * sigma ^ 4) := by have := Real.pi_pos; positivity
    set t : ℝ := 1 / (2 * sigma ^ 2) with ht
    have htp : 0 < t := by positivity
    have h2 : (1 - t) * Real.exp (-t) = 1 := by
      have e0 : l 0 = -(1 / (Real.pi * sigma ^ 4)) := by simp [hl]
      have e1 : l 1 = -(1 / (Real.pi * sigma ^ 4)) * ((1 - t) * Real.exp (-t)) := by
        simp only [hl, ht, one_pow, neg_div, mul_assoc]
      rw [e0, e1] at h1
      have hne : -(1 / (Real.pi * sigma ^ 4)) ≠ 0 := by linarith
      exact (mul_left_cancel₀ hne (by rw [mul_one]; exact h1)).symm
    have h3 : Real.exp (-t) < 1 := by rw [Real.exp_lt_one_iff]; linarith
    have h4 := Real.exp_pos (-t)
    nlinarith
  simp only [hk, abs_div, abs_of_nonneg hpos, ← Finset.sum_div]
  exact div_self hS

example : (1 : Nat) ≤ 3 ∧ (1/2 : ℝ) ≠ 0 := by norm_num

/-- C18: a kernel that sums to zero has zero response to a constant (per channel) universe. -/
theorem zero_sum_response {ext int N H W : Nat} (k : Nat) (κ : Fin k → Fin k → ℝ)
    (hs : ∑ a, ∑ b, κ a b = 0) (u : Univ ℝ N ext H W) (hu : Spec.Homogeneous u)
    (y : Univ ℝ N int H W) (hy : (ConvLayer.ofKernel ext int .circular k κ).apply u = .ok y) :
    ∀ n o i j, y n o i j = 0 := by
  intro n o i j
  obtain ⟨_, rfl⟩ := apply_ok hy
  simp only
  rw [conv_sum_ofKernel]
  refine Finset.sum_eq_zero fun c _ => ?_
  have : ∀ i' j', u n (inChan o c) i' j' = u n (inChan o c) i j := fun i' j' => hu _ _ _ _ _ _
  simp only [this, ← Finset.sum_mul, hs, zero_mul]

example : ∃ y, (ConvLayer.ofKernel 2 2 .circular 3 laplacian9).apply
      (fun _ c _ _ => (c.val : ℝ) / 2 : Univ ℝ 1 2 5 5) = .ok y := by
  rw [apply_ok_iff]
  simp [Fits, ConvLayer.ofKernel, padOK, ConvLayer.pad]

end Yuca
