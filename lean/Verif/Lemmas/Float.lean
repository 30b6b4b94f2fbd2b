import Verif.Model.Float
import Mathlib.Tactic.NormNum
import Mathlib.Tactic.Positivity
import Mathlib.Algebra.Order.Field.Power
import Mathlib.Tactic.Linarith
import Mathlib.Tactic.FieldSimp

/-! # Rounding error -/

namespace Yuca

theorem nearestEven_err (x : ℚ) : |(nearestEven x : ℚ) - x| ≤ 1 / 2 := by
  have h1 := Int.floor_le x
  have h2 := Int.lt_floor_add_one x
  unfold nearestEven
  simp only
  split
  · rw [abs_le]; constructor <;> linarith
  · split
    · push_cast
      rw [abs_le]; constructor <;> linarith
    · split
      · rw [abs_le]; constructor <;> linarith
      · push_cast
        rw [abs_le]; constructor <;> linarith

theorem nearestEven_int (n : ℤ) : nearestEven (n : ℚ) = n := by
  unfold nearestEven
  simp

/-- The relative error is at most `2⁻⁵³`. -/
theorem double_err (q : ℚ) : |double q - q| ≤ |q| * 2⁻¹ ^ 53 := by
  unfold double
  split
  · rename_i h; rw [h]; simp
  · rename_i h
    have hq : 0 < |q| := abs_pos.2 h
    have hlog := Int.zpow_log_le_self (b := 2) (by norm_num) hq
    simp only
    generalize Int.log 2 |q| = e at hlog
    have hu : (0 : ℚ) < 2 ^ (e - 52) := by positivity
    have herr := nearestEven_err (q / 2 ^ (e - 52))
    have heq : (nearestEven (q / 2 ^ (e - 52)) : ℚ) * 2 ^ (e - 52) - q =
        ((nearestEven (q / 2 ^ (e - 52)) : ℚ) - q / 2 ^ (e - 52)) * 2 ^ (e - 52) := by
      field_simp
    rw [heq, abs_mul, abs_of_pos hu]
    have hul : (2 : ℚ) ^ (e - 52) = 2 ^ e * 2⁻¹ ^ 52 := by
      rw [zpow_sub₀ (by norm_num)]
      norm_num
      ring
    calc _ ≤ 1 / 2 * (2 : ℚ) ^ (e - 52) := by gcongr
      _ = 2 ^ e * 2⁻¹ ^ 53 := by rw [hul]; ring
      _ ≤ _ := by
        have : ((2 : ℕ) : ℚ) ^ e ≤ |q| := hlog
        push_cast at this
        gcongr

theorem double_pos_bounds {q : ℚ} (hq : 0 ≤ q) :
    q * (1 - 2⁻¹ ^ 53) ≤ double q ∧ double q ≤ q * (1 + 2⁻¹ ^ 53) := by
  have h := double_err q
  rw [abs_of_nonneg hq, abs_le] at h
  constructor <;> linarith [h.1, h.2]

/-- Numbers with 53 significant bits are not changed. -/
theorem double_exact (n : ℤ) (k : ℤ) (hn : |n| ≤ 2 ^ 53) : double (n * 2 ^ k) = n * 2 ^ k := by
  by_cases h0 : n = 0
  · subst h0; simp [double]
  have hne : ((n : ℚ) * 2 ^ k) ≠ 0 := by
    have : (n : ℚ) ≠ 0 := by exact_mod_cast h0
    positivity
  unfold double
  rw [if_neg hne]
  simp only
  have habs : |(n : ℚ) * 2 ^ k| = |(n : ℚ)| * 2 ^ k := by
    rw [abs_mul, abs_of_pos (show (0 : ℚ) < 2 ^ k by positivity)]
  have hpos : 0 < |(n : ℚ) * 2 ^ k| := abs_pos.2 hne
  have hlog := Int.zpow_log_le_self (b := 2) (by norm_num) hpos
  generalize Int.log 2 |(n : ℚ) * 2 ^ k| = e at hlog
  rcases le_or_gt (e - 52) k with hek | hek
  · obtain ⟨j, hj⟩ : ∃ j : ℕ, k = (e - 52) + j := ⟨(k - (e - 52)).toNat, by omega⟩
    have hd : (n : ℚ) * 2 ^ k / 2 ^ (e - 52) = ((n * 2 ^ j : ℤ) : ℚ) := by
      rw [hj, zpow_add₀ (by norm_num)]
      push_cast
      rw [zpow_natCast]
      field_simp
    rw [hd, nearestEven_int]
    push_cast
    rw [hj, zpow_add₀ (by norm_num)]
    simp only [zpow_natCast]
    ring
  · -- then |n| = 2 ^ 53
    rw [habs] at hlog
    push_cast at hlog
    have hle : |(n : ℚ)| ≤ 2 ^ 53 := by exact_mod_cast hn
    have h2k : (0 : ℚ) < 2 ^ k := by positivity
    have h53 : (2 : ℚ) ^ (53 : ℕ) * 2 ^ k ≤ 2 ^ e := by
      rw [← zpow_natCast, ← zpow_add₀ (by norm_num)]
      exact zpow_le_zpow_right₀ (by norm_num) (by push_cast; omega)
    have heq : |(n : ℚ)| = 2 ^ 53 := by
      apply le_antisymm hle
      by_contra hlt
      push Not at hlt
      have : |(n : ℚ)| * 2 ^ k < 2 ^ 53 * 2 ^ k := by gcongr
      linarith
    have hek' : e = k + 53 := by
      have h3 : (2 : ℚ) ^ e ≤ 2 ^ (k + 53) := by
        rw [zpow_add₀ (by norm_num)]
        rw [heq] at hlog
        calc (2 : ℚ) ^ e ≤ 2 ^ 53 * 2 ^ k := hlog
          _ = 2 ^ k * 2 ^ (53 : ℤ) := by norm_num; ring
      have := (zpow_le_zpow_iff_right₀ (by norm_num : (1 : ℚ) < 2)).1 h3
      omega
    have hn2 : n = 2 ^ 53 ∨ n = -2 ^ 53 := by
      have : |n| = 2 ^ 53 := by exact_mod_cast heq
      rcases abs_choice n with h | h
      · left; omega
      · right; omega
    have hsub : (2 : ℚ) ^ (e - 52) = 2 ^ k * 2 := by
      rw [hek', show k + 53 - 52 = k + 1 by ring, zpow_add₀ (by norm_num)]
      norm_num
    rw [hsub]
    rcases hn2 with rfl | rfl
    · have : ((2 ^ 53 : ℤ) : ℚ) * 2 ^ k / (2 ^ k * 2) = ((2 ^ 52 : ℤ) : ℚ) := by
        push_cast; field_simp; norm_num
      rw [this, nearestEven_int]
      push_cast
      ring
    · have : ((-2 ^ 53 : ℤ) : ℚ) * 2 ^ k / (2 ^ k * 2) = ((-2 ^ 52 : ℤ) : ℚ) := by
        push_cast; field_simp; norm_num
      rw [this, nearestEven_int]
      push_cast
      ring

/-- Integers up to `2 ^ 53` are doubles. -/
theorem double_int (n : ℤ) (hn : |n| ≤ 2 ^ 53) : double n = n := by
  have := double_exact n 0 hn
  simpa using this

/-- How to compute `double` for a given number. -/
theorem double_of_log {q : ℚ} {e : ℤ} (h1 : (2 : ℚ) ^ e ≤ q) (h2 : q < 2 ^ (e + 1)) :
    double q = nearestEven (q / 2 ^ (e - 52)) * 2 ^ (e - 52) := by
  have hq : 0 < q := lt_of_lt_of_le (by positivity) h1
  have hlog : Int.log 2 |q| = e := by
    rw [abs_of_pos hq]
    apply le_antisymm
    · have := (Int.lt_zpow_iff_log_lt (b := 2) (by norm_num) hq (x := e + 1)).1 (by exact_mod_cast h2)
      omega
    · exact (Int.zpow_le_iff_le_log (b := 2) (by norm_num) hq).1 (by exact_mod_cast h1)
  unfold double
  rw [if_neg hq.ne', hlog]

theorem nearestEven_eq {x : ℚ} {m : ℤ} (h1 : (m : ℚ) - 1 / 2 < x) (h2 : x < m + 1 / 2) :
    nearestEven x = m := by
  have h := nearestEven_err x
  rw [abs_le] at h
  have h3 : (nearestEven x : ℚ) < m + 1 := by linarith [h.2]
  have h4 : (m : ℚ) - 1 < nearestEven x := by linarith [h.1]
  have h5 : nearestEven x < m + 1 := by exact_mod_cast h3
  have h6 : m - 1 < nearestEven x := by exact_mod_cast h4
  omega

end Yuca
