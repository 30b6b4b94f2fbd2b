import Verif.Model.KernelPlot
import Verif.Lemmas.Float
import Mathlib.Tactic.Linarith
import Mathlib.Tactic.NormNum
import Mathlib.Tactic.GCongr
import Mathlib.Tactic.FieldSimp
import Mathlib.Tactic.Positivity
import Mathlib.Tactic.Rify

/-!
# The curves of plot_kernel_growth and plot_kernel_genper
-/

namespace Yuca

private theorem double_near_abs (q : ℚ) {B : ℚ} (hB : |q| ≤ B) :
    -(B * 2⁻¹ ^ 53) ≤ double q - q ∧ double q - q ≤ B * 2⁻¹ ^ 53 := by
  have h := double_err q
  have h2 : |q| * 2⁻¹ ^ 53 ≤ B * 2⁻¹ ^ 53 := by gcongr
  exact abs_le.1 (h.trans h2)

theorem double_ne_zero {q : ℚ} (hq : q ≠ 0) : double q ≠ 0 := by
  intro h
  have he := double_err q
  rw [h, zero_sub, abs_neg] at he
  have : 0 < |q| := abs_pos.2 hq
  norm_num at he
  linarith

/-- The number of points is the one asked for or one more. -/
theorem growth_points {K : ℕ} (hK : 1 ≤ K) (hK2 : K ≤ 10000) {a b : ℚ} (h : a ≠ b) :
    arangeLen a b (plotStep K a b) = K ∨ arangeLen a b (plotStep K a b) = K + 1 := by
  unfold arangeLen plotStep
  have hd : double (b - a) ≠ 0 := double_ne_zero (sub_ne_zero.2 h.symm)
  generalize double (b - a) = d at hd
  have hKq : (1 : ℚ) ≤ K := by exact_mod_cast hK
  have hKq2 : (K : ℚ) ≤ 10000 := by exact_mod_cast hK2
  have hq : d / K ≠ 0 := div_ne_zero hd (by positivity)
  -- the step is `(d / K) r` with `r` near 1
  obtain ⟨r, hr, hr1, hr2⟩ : ∃ r : ℚ, double (d / K) = d / K * r ∧ 1 - 2⁻¹ ^ 53 ≤ r ∧
      r ≤ 1 + 2⁻¹ ^ 53 := by
    refine ⟨double (d / K) / (d / K), by field_simp, ?_⟩
    have he := double_err (d / K)
    have : |double (d / K) / (d / K) - 1| ≤ 2⁻¹ ^ 53 := by
      rw [div_sub_one hq, abs_div, div_le_iff₀ (abs_pos.2 hq)]
      linarith
    rw [abs_le] at this
    constructor <;> linarith [this.1, this.2]
  rw [hr]
  have hr0 : 0 < r := by norm_num at hr1; linarith
  have e : d / (d / K * r) = K / r := by field_simp
  rw [e]
  have hb1 : (K : ℚ) / r ≤ K + 1 / 1000 := by
    rw [div_le_iff₀ hr0]
    norm_num at hr1
    nlinarith
  have hb2 : (K : ℚ) - 1 / 1000 ≤ K / r := by
    rw [le_div_iff₀ hr0]
    norm_num at hr2
    nlinarith
  have hn := double_near_abs (K / r) (B := 10001) (by
    rw [abs_of_pos (by positivity)]; linarith)
  norm_num at hn
  have h1 : (K : ℚ) - 1 < double (K / r) := by linarith [hn.1]
  have h2 : double (K / r) ≤ K + 1 := by linarith [hn.2]
  have c1 : (K : ℤ) ≤ ⌈double ((K : ℚ) / r)⌉ := by
    have : ((K : ℤ) - 1 : ℤ) < ⌈double ((K : ℚ) / r)⌉ := by
      rw [Int.lt_ceil]; push_cast; exact h1
    omega
  have c2 : ⌈double ((K : ℚ) / r)⌉ ≤ (K : ℤ) + 1 := by
    rw [Int.ceil_le]; push_cast; exact h2
  omega

/-- The points are evenly spaced from `a`, up to rounding. -/
theorem plot_even {K : ℕ} (hK : 1 ≤ K) (hK2 : K ≤ 10000) {a b M : ℚ} (ha : |a| ≤ M) (hb : |b| ≤ M)
    {i : ℕ} (hi : i ≤ K) : |plotX K a b i - (a + i * ((b - a) / K))| ≤ M * 2⁻¹ ^ 35 := by
  have hM : 0 ≤ M := (abs_nonneg a).trans ha
  have hKq : (1 : ℚ) ≤ K := by exact_mod_cast hK
  have hKq2 : (K : ℚ) ≤ 10000 := by exact_mod_cast hK2
  have hiq : (i : ℚ) ≤ K := by exact_mod_cast hi
  have hi0 : (0 : ℚ) ≤ i := by positivity
  have ha' := abs_le.1 ha
  have hb' := abs_le.1 hb
  unfold plotX
  split
  · rename_i h; subst h; simp; positivity
  unfold plotStep
  -- rounding of the difference
  have e1 := double_near_abs (b - a) (B := 2 * M) (by rw [abs_le]; constructor <;> linarith)
  generalize double (b - a) = d at e1
  norm_num at e1
  -- rounding of the step
  have hdk : |d / K| ≤ |d| := by
    rw [abs_div, abs_of_pos (by linarith : (0 : ℚ) < K)]
    exact div_le_self (abs_nonneg _) hKq
  have hdM : |d| ≤ 3 * M := by rw [abs_le]; constructor <;> linarith
  have hm : d / K - (b - a) / K = (d - (b - a)) / K := by ring
  have e2 := double_err (d / K)
  have hKpos : (0 : ℚ) < K := by linarith
  have hs : |double (d / K) - (b - a) / K| * K ≤ M * (5 / 2 ^ 53) := by
    have t1 : |d / K| * K = |d| := by
      rw [abs_div, abs_of_pos hKpos]; field_simp
    have t2 : |(d - (b - a)) / K| * K = |d - (b - a)| := by
      rw [abs_div, abs_of_pos hKpos]; field_simp
    have t3 : |d - (b - a)| ≤ 2 * M / 2 ^ 53 := by
      rw [abs_le]; constructor <;> norm_num <;> linarith
    have t4 : |double (d / K) - (b - a) / K| ≤ |double (d / K) - d / K| + |(d - (b - a)) / K| := by
      rw [← hm]; exact abs_sub_le _ _ _
    calc _ ≤ (|double (d / K) - d / K| + |(d - (b - a)) / K|) * K := by gcongr
      _ = |double (d / K) - d / K| * K + |d - (b - a)| := by rw [add_mul, t2]
      _ ≤ (|d / K| * 2⁻¹ ^ 53) * K + 2 * M / 2 ^ 53 := by gcongr
      _ = |d| * 2⁻¹ ^ 53 + 2 * M / 2 ^ 53 := by rw [mul_right_comm, t1]
      _ ≤ 3 * M * 2⁻¹ ^ 53 + 2 * M / 2 ^ 53 := by gcongr
      _ = _ := by ring
  have hsK : |double (d / K) - (b - a) / K| ≤ M * (5 / 2 ^ 53) :=
    (le_mul_of_one_le_right (abs_nonneg _) hKq).trans hs
  have hst : |(b - a) / K| ≤ 2 * M := by
    rw [abs_div, abs_of_pos hKpos, div_le_iff₀ hKpos]
    have : |b - a| ≤ 2 * M := by rw [abs_le]; constructor <;> linarith
    nlinarith
  generalize double (d / K) = s at *
  have hs' := abs_le.1 hsK
  have hst' := abs_le.1 hst
  norm_num at hs'
  -- rounding of the second element
  have e3 := double_near_abs (a + s) (B := 4 * M) (by rw [abs_le]; constructor <;> linarith)
  norm_num at e3
  simp only
  split
  · rename_i h
    subst h
    rw [abs_le]
    norm_num
    constructor <;> linarith [e3.1, e3.2]
  generalize double (a + s) = n at e3
  have e4 := double_near_abs (n - a) (B := 4 * M) (by rw [abs_le]; constructor <;> linarith)
  norm_num at e4
  generalize double (n - a) = δ at e4
  have h5 : |δ - (b - a) / K| ≤ M * (14 / 2 ^ 53) := by
    rw [abs_le]; norm_num; constructor <;> linarith
  have h6 : |(i : ℚ) * δ - i * ((b - a) / K)| ≤ M * (140000 / 2 ^ 53) := by
    rw [← mul_sub, abs_mul, abs_of_nonneg hi0]
    calc _ ≤ (10000 : ℚ) * (M * (14 / 2 ^ 53)) := by gcongr; linarith
      _ = _ := by ring
  have h7 : |(i : ℚ) * ((b - a) / K)| ≤ 2 * M := by
    rw [← mul_div_assoc, abs_div, abs_of_pos hKpos, div_le_iff₀ hKpos, abs_mul, abs_of_nonneg hi0]
    have : |b - a| ≤ 2 * M := by rw [abs_le]; constructor <;> linarith
    calc _ ≤ (K : ℚ) * (2 * M) := by gcongr
      _ = _ := by ring
  have h6' := abs_le.1 h6
  have h7' := abs_le.1 h7
  norm_num at h6'
  have e5 := double_near_abs ((i : ℚ) * δ) (B := 3 * M) (by rw [abs_le]; constructor <;> linarith)
  norm_num at e5
  generalize double ((i : ℚ) * δ) = p at e5
  have e6 := double_near_abs (a + p) (B := 5 * M) (by rw [abs_le]; constructor <;> linarith)
  norm_num at e6
  rw [abs_le]
  norm_num
  constructor <;> linarith [e5.1, e5.2, e6.1, e6.2]

/-- What `np.arange(a, b, (b - a) / K)` is: `K` or `K + 1` points; it raises exactly for an empty
range. -/
theorem plotPoints_length {K : ℕ} (hK : 1 ≤ K) (hK2 : K ≤ 10000) {a b : ℚ} (h : a ≠ b) :
    ∃ n : ℕ, (n = K ∨ n = K + 1) ∧ plotPoints K a b = .ok ((List.range n).map (plotX K a b)) := by
  refine ⟨(arangeLen a b (plotStep K a b)).toNat, ?_, if_neg h⟩
  rcases growth_points hK hK2 h with e | e <;> rw [e] <;> omega

/-- `plot_kernel_growth` raises exactly when the two ends of the range are equal. -/
theorem plot_growth_raises (g : ℝ → ℝ) (a b : ℚ) :
    plotKernelGrowth g (a, b) = .error .zeroDiv ↔ a = b := by
  constructor
  · intro h
    by_contra hne
    obtain ⟨n, -, e⟩ := plotPoints_length (K := 1000) (by norm_num) (by norm_num) hne
    simp [plotKernelGrowth, e, bind, Except.bind, pure, Except.pure] at h
  · rintro rfl
    simp [plotKernelGrowth, plotPoints, bind, Except.bind]

/-- The curve of `plot_kernel_growth`: 1000 or 1001 points of the graph of the function it is given,
in order and evenly spaced from the first end of the range, up to rounding. -/
theorem plot_growth_curve (g : ℝ → ℝ) {a b M : ℚ} (h : a ≠ b) (ha : |a| ≤ M) (hb : |b| ≤ M) :
    ∃ pts : GraphPts, plotKernelGrowth g (a, b) = .ok pts ∧
      (pts.length = 1000 ∨ pts.length = 1001) ∧
      ∀ i (hi : i < pts.length), (pts[i]).2 = g (pts[i]).1 ∧
        |(pts[i]).1 - (a + i * ((b - a) / 1000))| ≤ M * 2⁻¹ ^ 35 := by
  obtain ⟨n, hn, e⟩ := plotPoints_length (K := 1000) (by norm_num) (by norm_num) h
  refine ⟨curve ((List.range n).map (plotX 1000 a b)) g, ?_, ?_, ?_⟩
  · simp [plotKernelGrowth, e, bind, Except.bind, pure, Except.pure]
  · simpa [curve] using hn
  · intro i hi
    have hi' : i ≤ 1000 := by simp [curve] at hi; omega
    have := plot_even (K := 1000) (by norm_num) (by norm_num) ha hb hi'
    refine ⟨by simp [curve], ?_⟩
    simp only [curve, List.map_map, List.getElem_map, List.getElem_range, Function.comp]
    have h2 : ((|plotX 1000 a b i - (a + i * ((b - a) / (1000 : ℕ)))| : ℚ) : ℝ) ≤
        ((M * 2⁻¹ ^ 35 : ℚ) : ℝ) := by exact_mod_cast this
    push_cast at h2
    exact h2

/-- Nothing in the range is further than a thousandth of it, up to rounding, from a point of the
curve: a function of slope `L` is missed by at most `L` times that. -/
theorem plot_growth_near {g : ℝ → ℝ} {L : ℝ} (hL : ∀ x y, |g x - g y| ≤ L * |x - y|)
    {a b M : ℚ} (h : a < b) (ha : |a| ≤ M) (hb : |b| ≤ M) {pts : GraphPts}
    (hp : plotKernelGrowth g (a, b) = .ok pts) {x : ℝ} (hx : (a : ℝ) ≤ x) (hx2 : x ≤ b) :
    ∃ p ∈ pts, |p.1 - x| ≤ (b - a) / 1000 + M * 2⁻¹ ^ 35 ∧
      |p.2 - g x| ≤ L * ((b - a) / 1000 + M * 2⁻¹ ^ 35) := by
  obtain ⟨pts', e, hlen, hpt⟩ := plot_growth_curve g h.ne ha hb
  rw [hp] at e
  obtain rfl : pts = pts' := by injection e
  have hL0 : 0 ≤ L := by
    have := hL 1 0
    norm_num at this
    exact (abs_nonneg _).trans this
  have hd : (0 : ℝ) < (b - a) / 1000 := by
    have : (a : ℝ) < b := by exact_mod_cast h
    linarith
  -- the point to the left of `x`
  obtain ⟨i, hi, hnear⟩ : ∃ i : ℕ, i < 1000 ∧
      |a + i * (((b : ℝ) - a) / 1000) - x| ≤ (b - a) / 1000 := by
    set s : ℝ := ((b : ℝ) - a) / 1000 with hs
    have hb' : (b : ℝ) = a + 1000 * s := by rw [hs]; ring
    set t : ℝ := (x - a) / s with ht
    have ht0 : 0 ≤ t := div_nonneg (by linarith) hd.le
    have hxt : x = a + t * s := by rw [ht]; field_simp; ring
    have ht1 : t ≤ 1000 := by
      rw [ht, div_le_iff₀ hd]; linarith
    have hf := Nat.floor_le ht0
    have hf2 := Nat.lt_floor_add_one t
    by_cases hlt : ⌊t⌋₊ < 1000
    · refine ⟨⌊t⌋₊, hlt, ?_⟩
      rw [hxt, abs_le]
      constructor <;> nlinarith
    · have h1000 : (1000 : ℝ) ≤ ⌊t⌋₊ := by exact_mod_cast not_lt.1 hlt
      have : t = 1000 := le_antisymm ht1 (h1000.trans hf)
      refine ⟨999, by norm_num, ?_⟩
      rw [hxt, this, abs_le]
      push_cast
      constructor <;> linarith
  have hil : i < pts.length := by omega
  obtain ⟨h1, h2⟩ := hpt i hil
  have h3 : |(pts[i]).1 - x| ≤ (b - a) / 1000 + M * 2⁻¹ ^ 35 := by
    have := abs_sub_le (pts[i]).1 (a + i * (((b : ℝ) - a) / 1000)) x
    linarith
  refine ⟨pts[i], List.getElem_mem hil, h3, ?_⟩
  rw [h1]
  exact (hL _ _).trans (mul_le_mul_of_nonneg_left h3 hL0)

private theorem double_thirteen : double (13 / 10) = 5854679515581645 / 2 ^ 52 := by
  rw [double_of_log (e := 0) (by norm_num) (by norm_num)]
  rw [nearestEven_eq (m := 5854679515581645) (by norm_num) (by norm_num)]
  norm_num

private theorem double_eleven : double (11 / 10) = 4953959590107546 / 2 ^ 52 := by
  rw [double_of_log (e := 0) (by norm_num) (by norm_num)]
  rw [nearestEven_eq (m := 4953959590107546) (by norm_num) (by norm_num)]
  norm_num

private theorem double_minus_tenth : double (-1 / 10) = -7205759403792794 / 2 ^ 56 := by
  have hlog : Int.log 2 |(-1 / 10 : ℚ)| = -4 := by
    have hq : (0 : ℚ) < |(-1 / 10 : ℚ)| := by norm_num
    have e : |(-1 / 10 : ℚ)| = 1 / 10 := by norm_num [abs_div]
    apply le_antisymm
    · have := (Int.lt_zpow_iff_log_lt (b := 2) (by norm_num) hq (x := -3)).1 (by rw [e]; norm_num)
      omega
    · exact (Int.zpow_le_iff_le_log (b := 2) (by norm_num) hq).1 (by rw [e]; norm_num)
  unfold double
  rw [if_neg (by norm_num), hlog]
  simp only
  rw [nearestEven_eq (m := -7205759403792794) (by norm_num) (by norm_num)]
  norm_num

private theorem curve_length_of_arange (g : ℝ → ℝ) {a b : ℚ} (h : a ≠ b) {n : ℕ}
    (hn : arangeLen a b (plotStep 1000 a b) = n) :
    ∃ pts, plotKernelGrowth g (a, b) = .ok pts ∧ pts.length = n := by
  have e : plotPoints 1000 a b = .ok ((List.range n).map (plotX 1000 a b)) := by
    unfold plotPoints; rw [if_neg h, hn]; rfl
  exact ⟨curve ((List.range n).map (plotX 1000 a b)) g,
    by simp [plotKernelGrowth, e, bind, Except.bind, pure, Except.pure], by simp [curve]⟩

/-- Some ranges get the extra point: over `[0, 1.3]` the curve has 1001 points. -/
theorem plot_growth_extra_refuted (g : ℝ → ℝ) :
    ∃ pts, plotKernelGrowth g (0, double (13 / 10)) = .ok pts ∧ pts.length = 1001 := by
  rw [double_thirteen]
  apply curve_length_of_arange g (by norm_num)
  have h0 : double (5854679515581645 / 2 ^ 52 - 0) = 5854679515581645 / 2 ^ 52 := by
    rw [double_of_log (e := 0) (by norm_num) (by norm_num)]
    rw [nearestEven_eq (m := 5854679515581645) (by norm_num) (by norm_num)]
    norm_num
  have hs : double (5854679515581645 / 2 ^ 52 / (1000 : ℕ)) = 5995191823955604 / 2 ^ 62 := by
    rw [double_of_log (e := -10) (by norm_num) (by norm_num)]
    rw [nearestEven_eq (m := 5995191823955604) (by norm_num) (by norm_num)]
    norm_num
  unfold arangeLen plotStep
  rw [h0, hs, double_of_log (e := 9) (by norm_num) (by norm_num),
    nearestEven_eq (m := 8796093022208001) (by norm_num) (by norm_num), Int.ceil_eq_iff]
  norm_num

/-- Over the default range of `yuca/utils.py` it has 1000. -/
theorem plot_growth_default (g : ℝ → ℝ) :
    ∃ pts, plotKernelGrowth g growthRange = .ok pts ∧ pts.length = 1000 := by
  unfold growthRange
  rw [double_eleven, double_minus_tenth]
  apply curve_length_of_arange g (by norm_num)
  have h0 : double (4953959590107546 / 2 ^ 52 - -7205759403792794 / 2 ^ 56) =
      5404319552844596 / 2 ^ 52 := by
    rw [double_of_log (e := 0) (by norm_num) (by norm_num)]
    rw [nearestEven_eq (m := 5404319552844596) (by norm_num) (by norm_num)]
    norm_num
  have hs : double (5404319552844596 / 2 ^ 52 / (1000 : ℕ)) = 5534023222112866 / 2 ^ 62 := by
    rw [double_of_log (e := -10) (by norm_num) (by norm_num)]
    rw [nearestEven_eq (m := 5534023222112866) (by norm_num) (by norm_num)]
    norm_num
  unfold arangeLen plotStep
  rw [h0, hs, double_of_log (e := 9) (by norm_num) (by norm_num),
    nearestEven_eq (m := 8796093022208000) (by norm_num) (by norm_num), Int.ceil_eq_iff]
  norm_num

/-- And over the default range of the notebooks. -/
theorem plot_growth_notebook (g : ℝ → ℝ) :
    ∃ pts, plotKernelGrowth g notebookRange = .ok pts ∧ pts.length = 1000 := by
  unfold notebookRange
  have hh : double (-1 / 2) = -1 / 2 := by
    have := double_exact (-1) (-1) (by norm_num)
    norm_num at this ⊢
    exact this
  rw [double_eleven, hh]
  apply curve_length_of_arange g (by norm_num)
  have h0 : double (4953959590107546 / 2 ^ 52 - -1 / 2) = 7205759403792794 / 2 ^ 52 := by
    rw [double_of_log (e := 0) (by norm_num) (by norm_num)]
    rw [nearestEven_eq (m := 7205759403792794) (by norm_num) (by norm_num)]
    norm_num
  have hs : double (7205759403792794 / 2 ^ 52 / (1000 : ℕ)) = 7378697629483821 / 2 ^ 62 := by
    rw [double_of_log (e := -10) (by norm_num) (by norm_num)]
    rw [nearestEven_eq (m := 7378697629483821) (by norm_num) (by norm_num)]
    norm_num
  unfold arangeLen plotStep
  rw [h0, hs, double_of_log (e := 9) (by norm_num) (by norm_num),
    nearestEven_eq (m := 8796093022208000) (by norm_num) (by norm_num), Int.ceil_eq_iff]
  norm_num

/-- Over the default range every value from 0 to 1 is within 0.00121 of a point of the curve. -/
theorem plot_growth_default_near {g : ℝ → ℝ} {L : ℝ} (hL : ∀ x y, |g x - g y| ≤ L * |x - y|)
    {pts : GraphPts} (hp : plotKernelGrowth g growthRange = .ok pts) {x : ℝ} (hx : 0 ≤ x)
    (hx2 : x ≤ 1) : ∃ p ∈ pts, |p.1 - x| ≤ 0.00121 ∧ |p.2 - g x| ≤ L * 0.00121 := by
  have hL0 : 0 ≤ L := by
    have := hL 1 0
    norm_num at this
    exact (abs_nonneg _).trans this
  unfold growthRange at hp
  rw [double_eleven, double_minus_tenth] at hp
  obtain ⟨p, hm, h1, h2⟩ := plot_growth_near hL (M := 2) (by norm_num)
    (by rw [abs_le]; norm_num) (by rw [abs_le]; norm_num) hp (x := x)
    (by push_cast; refine le_trans ?_ hx; norm_num) (by push_cast; refine hx2.trans ?_; norm_num)
  have hb : (((4953959590107546 / 2 ^ 52 : ℚ) : ℝ) - ((-7205759403792794 / 2 ^ 56 : ℚ) : ℝ)) / 1000 +
      ((2 : ℚ) : ℝ) * 2⁻¹ ^ 35 ≤ 0.00121 := by
    push_cast; norm_num
  exact ⟨p, hm, h1.trans hb, h2.trans (mul_le_mul_of_nonneg_left hb hL0)⟩

/-- `plot_kernel_genper` raises exactly when one of its ranges is empty. -/
theorem plot_genper_raises (gen per : ℝ → ℝ) (c : Bool) (a b a' b' : ℚ) :
    plotKernelGenper gen per c (a, b) (a', b') = .error .zeroDiv ↔ a = b ∨ a' = b' := by
  constructor
  · intro h
    by_contra hne
    push Not at hne
    obtain ⟨n, -, e⟩ := plotPoints_length (K := 10000) (by norm_num) (by norm_num) hne.1
    obtain ⟨m, -, e'⟩ := plotPoints_length (K := 10000) (by norm_num) (by norm_num) hne.2
    cases c <;> simp [plotKernelGenper, e, e', bind, Except.bind, pure, Except.pure] at h
  · intro h
    by_cases h0 : a = b
    · simp [plotKernelGenper, plotPoints, bind, Except.bind, h0]
    · obtain ⟨n, -, e⟩ := plotPoints_length (K := 10000) (by norm_num) (by norm_num) h0
      have h1 := h.resolve_left h0
      simp only [plotKernelGenper, e, bind, Except.bind]
      simp [plotPoints, h1]

/-- Otherwise it draws genesis and persistence, each over its own range with 10000 or 10001 evenly
spaced points. -/
theorem plot_genper_curves (gen per : ℝ → ℝ) {a b a' b' M : ℚ} (h : a ≠ b) (h' : a' ≠ b')
    (ha : |a| ≤ M) (hb : |b| ≤ M) (ha' : |a'| ≤ M) (hb' : |b'| ≤ M) :
    ∃ c0 c1 : GraphPts, plotKernelGenper gen per false (a, b) (a', b') = .ok [c0, c1] ∧
      (c0.length = 10000 ∨ c0.length = 10001) ∧ (c1.length = 10000 ∨ c1.length = 10001) ∧
      (∀ i (hi : i < c0.length), (c0[i]).2 = gen (c0[i]).1 ∧
        |(c0[i]).1 - (a + i * ((b - a) / 10000))| ≤ M * 2⁻¹ ^ 35) ∧
      ∀ i (hi : i < c1.length), (c1[i]).2 = per (c1[i]).1 ∧
        |(c1[i]).1 - (a' + i * ((b' - a') / 10000))| ≤ M * 2⁻¹ ^ 35 := by
  obtain ⟨n, hn, e⟩ := plotPoints_length (K := 10000) (by norm_num) (by norm_num) h
  obtain ⟨m, hm, e'⟩ := plotPoints_length (K := 10000) (by norm_num) (by norm_num) h'
  refine ⟨curve ((List.range n).map (plotX 10000 a b)) gen,
    curve ((List.range m).map (plotX 10000 a' b')) per, ?_, by simpa [curve] using hn,
    by simpa [curve] using hm, ?_, ?_⟩
  · simp [plotKernelGenper, e, e', bind, Except.bind, pure, Except.pure]
  · intro i hi
    refine ⟨by simp [curve], ?_⟩
    have hi' : i ≤ 10000 := by simp [curve] at hi; omega
    have := plot_even (K := 10000) (by norm_num) (by norm_num) ha hb hi'
    simp only [curve, List.map_map, List.getElem_map, List.getElem_range, Function.comp]
    have h2 : ((|plotX 10000 a b i - (a + i * ((b - a) / (10000 : ℕ)))| : ℚ) : ℝ) ≤
        ((M * 2⁻¹ ^ 35 : ℚ) : ℝ) := by exact_mod_cast this
    push_cast at h2
    exact h2
  · intro i hi
    refine ⟨by simp [curve], ?_⟩
    have hi' : i ≤ 10000 := by simp [curve] at hi; omega
    have := plot_even (K := 10000) (by norm_num) (by norm_num) ha' hb' hi'
    simp only [curve, List.map_map, List.getElem_map, List.getElem_range, Function.comp]
    have h2 : ((|plotX 10000 a' b' i - (a' + i * ((b' - a') / (10000 : ℕ)))| : ℚ) : ℝ) ≤
        ((M * 2⁻¹ ^ 35 : ℚ) : ℝ) := by exact_mod_cast this
    push_cast at h2
    exact h2

/-- With `show_combined` the two curves are halved and lowered by a half, and the mean of genesis and
persistence is drawn over the points of genesis. -/
theorem plot_genper_combined (gen per : ℝ → ℝ) {a b a' b' : ℚ} {c0 c1 : GraphPts}
    (h : plotKernelGenper gen per false (a, b) (a', b') = .ok [c0, c1]) :
    plotKernelGenper gen per true (a, b) (a', b') =
      .ok [c0.map (fun p => (p.1, (p.2 - 1) / 2)), c1.map (fun p => (p.1, (p.2 - 1) / 2)),
        c0.map (fun p => (p.1, (p.2 + per p.1) / 2))] := by
  have hne : a ≠ b ∧ a' ≠ b' := by
    by_contra hc
    rw [(plot_genper_raises gen per false a b a' b').2 (by tauto)] at h
    cases h
  obtain ⟨n, -, e⟩ := plotPoints_length (K := 10000) (by norm_num) (by norm_num) hne.1
  obtain ⟨m, -, e'⟩ := plotPoints_length (K := 10000) (by norm_num) (by norm_num) hne.2
  simp only [plotKernelGenper, e, e', bind, Except.bind, pure, Except.pure, Bool.false_eq_true,
    if_false, Except.ok.injEq, List.cons.injEq, and_true] at h
  obtain ⟨rfl, rfl⟩ := h
  simp only [plotKernelGenper, e, e', bind, Except.bind, pure, Except.pure, if_true,
    Except.ok.injEq, List.cons.injEq, and_true, curve, List.map_map]
  refine ⟨?_, ?_, ?_⟩ <;>
  · apply List.map_congr_left
    intro i _
    simp only [Function.comp, Prod.mk.injEq, true_and]
    ring

/-- So over one range the combined curve is the sum of the two others and 1. -/
theorem plot_genper_sum (gen per : ℝ → ℝ) {a b : ℚ} (h : a ≠ b) :
    ∃ c0 c1 c2 : GraphPts, plotKernelGenper gen per true (a, b) (a, b) = .ok [c0, c1, c2] ∧
      c1.map Prod.fst = c0.map Prod.fst ∧
      c2 = List.zipWith (fun p q => (p.1, p.2 + q.2 + 1)) c0 c1 := by
  obtain ⟨n, -, e⟩ := plotPoints_length (K := 10000) (by norm_num) (by norm_num) h
  refine ⟨curve ((List.range n).map (plotX 10000 a b)) (fun x => gen x / 2 - 0.5),
    curve ((List.range n).map (plotX 10000 a b)) (fun x => per x / 2 - 0.5),
    curve ((List.range n).map (plotX 10000 a b)) (fun x => gen x / 2 + per x / 2), ?_,
    by simp [curve, Function.comp_def], ?_⟩
  · simp [plotKernelGenper, e, bind, Except.bind, pure, Except.pure]
  · simp only [curve, List.zipWith_map, List.map_map, List.zipWith_self]
    apply List.map_congr_left
    intro i _
    simp only [Function.comp, Prod.mk.injEq, true_and]
    ring

/-- Two different ends, as the theorems ask. -/
example : (growthRange.1 ≠ growthRange.2) ∧ |growthRange.1| ≤ 2 ∧ |growthRange.2| ≤ 2 ∧
    growthRange.1 < growthRange.2 := by
  unfold growthRange
  rw [double_eleven, double_minus_tenth]
  refine ⟨by norm_num, by rw [abs_le]; norm_num, by rw [abs_le]; norm_num, by norm_num⟩

/-- A function of slope 3 over the default range. -/
example : ∃ pts : GraphPts, plotKernelGrowth (fun x => 3 * x) growthRange = .ok pts ∧
    ∃ p ∈ pts, |p.2 - 3 * 0.5| ≤ 3 * 0.00121 := by
  obtain ⟨pts, hp, -⟩ := plot_growth_default (fun x => 3 * x)
  obtain ⟨p, hm, -, h2⟩ := plot_growth_default_near (L := 3)
    (fun x y => by rw [← mul_sub, abs_mul]; norm_num) hp (x := 0.5) (by norm_num) (by norm_num)
  exact ⟨pts, hp, p, hm, h2⟩

end Yuca
