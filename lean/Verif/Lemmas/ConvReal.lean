import Verif.Lemmas.Forward
import Verif.Model.Layers

/-! # Convolution over exact reals as finite sums -/

namespace Yuca

open Arith

variable {ext int N H W : Nat}

theorem sum_flatMap_map {β γ : Type} (l : List β) (f : β → List γ) (g : γ → ℝ) :
    ((l.flatMap f).map g).sum = (l.map fun b => ((f b).map g).sum).sum := by
  induction l with
  | nil => simp
  | cons b l ih => simp [ih]

/-- The neighborhood value of a layer on the torus, as a triple sum. -/
theorem conv_sum (L : ConvLayer ℝ ext int) (hm : L.mode = .circular) (x : Fin ext → Grid ℝ H W)
    (o : Fin int) (i : Fin H) (j : Fin W) :
    Arith.dot (L.taps x o i j) = ∑ c, ∑ a, ∑ b, L.w o c a b *
      x (inChan o c) (cyc i ((a.val : Int) - L.pad)) (cyc j ((b.val : Int) - L.pad)) := by
  rw [taps_circular L hm]
  simp only [Arith.dot, sum_flatMap_map, List.map_map, Function.comp_def]
  simp [Finset.sum, Fin.univ_val_map, List.ofFn_eq_map]

theorem identityKernel_sum (f : Fin 3 → Fin 3 → ℝ) :
    ∑ a, ∑ b, identityKernel a b * f a b = f 1 1 := by
  simp [identityKernel, Fin.sum_univ_three, Arith.one, Arith.zero]

/-- The same for a layer made from one broadcast kernel. -/
theorem conv_sum_ofKernel (k : Nat) (κ : Fin k → Fin k → ℝ) (x : Fin ext → Grid ℝ H W)
    (o : Fin int) (i : Fin H) (j : Fin W) :
    Arith.dot ((ConvLayer.ofKernel ext int .circular k κ).taps x o i j) =
      ∑ c, ∑ a, ∑ b, κ a b * x (inChan o c) (cyc i ((a.val : Int) - ((k - 1) / 2 : ℕ)))
        (cyc j ((b.val : Int) - ((k - 1) / 2 : ℕ))) :=
  conv_sum ⟨k, .circular, fun _ _ => κ⟩ rfl x o i j

theorem padIdx_self {n : Nat} (m : PadMode) (i : Fin n) : padIdx m n (i.val : Int) = some i := by
  have hi := i.isLt
  cases m with
  | circular =>
    have h : 0 < n := by omega
    simp only [padIdx, h, dif_pos]
    congr 1; apply Fin.ext
    have : (i.val : Int) % (n : Int) = i.val := Int.emod_eq_of_lt (by omega) (by omega)
    simp [this]
  | zeros => simp [padIdx]
  | reflect =>
    have h1 : ¬ ((i.val : Int) < 0) := by omega
    have h2 : ¬ ((n : Int) ≤ i.val) := by omega
    simp only [padIdx, if_neg h1, if_neg h2]
    rw [dif_pos ⟨by omega, by omega⟩]
    simp
  | replicate =>
    have h : 0 < n := by omega
    simp only [padIdx, h, dif_pos]
    congr 1; apply Fin.ext
    simp only; omega

/-- The neighborhood value of a layer with any padding, as a triple sum. -/
theorem conv_sum_pad (L : ConvLayer ℝ ext int) (x : Fin ext → Grid ℝ H W)
    (o : Fin int) (i : Fin H) (j : Fin W) :
    Arith.dot (L.taps x o i j) = ∑ c, ∑ a, ∑ b, L.w o c a b *
      padRead L.mode (x (inChan o c)) ((i.val : Int) + a.val - L.pad)
        ((j.val : Int) + b.val - L.pad) := by
  unfold ConvLayer.taps
  simp only [Arith.dot, sum_flatMap_map, List.map_map, Function.comp_def]
  simp [Finset.sum, Fin.univ_val_map, List.ofFn_eq_map]

theorem conv_sum_pad_ofKernel (k : Nat) (κ : Fin k → Fin k → ℝ) (m : PadMode)
    (x : Fin ext → Grid ℝ H W) (o : Fin int) (i : Fin H) (j : Fin W) :
    Arith.dot ((ConvLayer.ofKernel ext int m k κ).taps x o i j) =
      ∑ c, ∑ a, ∑ b, κ a b * padRead m (x (inChan o c))
        ((i.val : Int) + a.val - ((k - 1) / 2 : ℕ)) ((j.val : Int) + b.val - ((k - 1) / 2 : ℕ)) :=
  conv_sum_pad ⟨k, m, fun _ _ => κ⟩ x o i j

theorem identity_taps (m : PadMode) (x : Fin ext → Grid ℝ H W) (o : Fin int) (i : Fin H)
    (j : Fin W) :
    Arith.dot ((identityLayer ext int m).taps x o i j) = ∑ c, x (inChan o c) i j := by
  unfold identityLayer
  rw [conv_sum_pad_ofKernel]
  refine Finset.sum_congr rfl fun c _ => ?_
  rw [identityKernel_sum]
  have h1 : (i.val : Int) + ((1 : Fin 3).val : Int) - (((3 - 1) / 2 : ℕ) : Int) = i.val := by
    simp
  have h2 : (j.val : Int) + ((1 : Fin 3).val : Int) - (((3 - 1) / 2 : ℕ) : Int) = j.val := by
    simp
  rw [h1, h2]
  simp [padRead, padIdx_self]

/-- The input channel the identity layer copies into internal channel `o`. -/
def srcChan {ext int : Nat} (hext : 0 < ext) (hd : ext ∣ int) (o : Fin int) : Fin ext :=
  ⟨o.val / (int / ext), by
    have ho := o.isLt
    rw [Nat.div_lt_iff_lt_mul (Nat.div_pos (Nat.le_of_dvd (by omega) hd) hext),
      Nat.mul_div_cancel' hd]
    exact ho⟩

theorem identity_taps_dvd (hext : 0 < ext) (hd : ext ∣ int) (m : PadMode)
    (x : Fin ext → Grid ℝ H W) (o : Fin int) (i : Fin H) (j : Fin W) :
    Arith.dot ((identityLayer ext int m).taps x o i j) = x (srcChan hext hd o) i j := by
  have hg : groups ext int = ext := by simp [groups, Nat.mod_eq_zero_of_dvd hd]
  have h1 : ext / groups ext int = 1 := by rw [hg, Nat.div_self hext]
  rw [identity_taps]
  have : ∀ c' : Fin (ext / groups ext int), inChan o c' = srcChan hext hd o := by
    intro c'
    apply Fin.ext
    have : c'.val = 0 := by have := c'.isLt; omega
    simp only [inChan, hg, this, srcChan, Nat.div_self hext]; omega
  simp [this, h1]

theorem sum_fin_one {m : Nat} (h : m = 1) (f : Fin m → ℝ) : ∑ c, f c = f ⟨0, by omega⟩ := by
  subst h; simp

/-- A one-channel layer on the torus. -/
theorem conv_sum_one (k : Nat) (κ : Fin k → Fin k → ℝ) (x : Fin 1 → Grid ℝ H W)
    (o : Fin 1) (i : Fin H) (j : Fin W) :
    Arith.dot ((ConvLayer.ofKernel 1 1 .circular k κ).taps x o i j) =
      ∑ a, ∑ b, κ a b * x 0 (cyc i ((a.val : Int) - ((k - 1) / 2 : ℕ)))
        (cyc j ((b.val : Int) - ((k - 1) / 2 : ℕ))) := by
  rw [conv_sum_ofKernel, sum_fin_one (by decide)]
  simp only [Subsingleton.elim (inChan o _) (0 : Fin 1)]

end Yuca
