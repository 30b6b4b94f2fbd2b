import Verif.Model.Object
import Mathlib.Tactic.Linarith
import Mathlib.Data.List.Perm.Basic

/-!
# C115: what the entries of a config mean

Growth functions and kernels are described by dictionaries.  Which function a dictionary stands for,
with every default, and which parts of it are never looked at.
-/

namespace Yuca

namespace Spec

/-- A bell of height 1 at `mu`. -/
noncomputable def hill (mu sigma x : ℝ) : ℝ := Real.exp (-((x - mu) / (1e-9 + sigma)) ^ 2 / 2)

/-- A smoothed step up at `mu`. -/
noncomputable def smoothRise (alpha mu x : ℝ) : ℝ := 1 / (1 + Real.exp (-4 * (x - mu) / alpha))

/-- `mode` stretches [0, 1] to [-1, 1]. -/
noncomputable def stretched (mode : Bool) (y : ℝ) : ℝ := if mode then 2 * y - 1 else y

/-- The same with clipping. -/
noncomputable def clipped (mode : Bool) (y : ℝ) : ℝ :=
  if mode then max (-1) (min 1 (2 * y - 1)) else max 0 (min 1 y)

/-- An entry gives the number `x`: it is absent and `x` the default, or a number, or a tensor with one
element. -/
def EntryGives (o : Option KwVal) (default x : ℝ) : Prop :=
  o = none ∧ x = default ∨ o = some (.num x) ∨ o = some (.vec [x])

/-- An entry of a `DoubleGaussian` gives two numbers: a tensor of two, or of one that counts twice. -/
def GivesTwo (o : Option KwVal) (x y : ℝ) : Prop :=
  o = some (.vec [x, y]) ∨ o = some (.vec [x]) ∧ y = x

/-- The config builds the function `f`. -/
def Builds (c : ActCfg) (f : ℝ → ℝ) : Prop := ∃ a, Act.ofCfg c = .ok a ∧ ∀ x, a.eval x = f x

end Spec

open Spec

theorem numD_gives {o : Option KwVal} {d x : ℝ} (h : EntryGives o d x) : numD d o = .ok x := by
  obtain ⟨rfl, rfl⟩ | rfl | rfl := h <;> rfl

theorem twoOf_gives {o : Option KwVal} {x y : ℝ} (h : GivesTwo o x y) : twoOf o = .ok (x, y) := by
  obtain rfl | ⟨rfl, rfl⟩ := h <;> rfl

theorem clampR_eq (lo hi x : ℝ) (h : lo ≤ hi) : clampR lo hi x = max lo (min hi x) := by
  unfold clampR
  first
  | rfl
  | (rcases le_total x lo with h1 | h1 <;> rcases le_total x hi with h2 | h2 <;>
      simp [max_def, min_def] <;> split_ifs <;> linarith)

theorem clipped_eq (mode : Bool) (y : ℝ) :
    (if mode then clampR (-1) 1 (y * 2 - 1) else clampR 0 1 y) = clipped mode y := by
  unfold clipped
  cases mode
  · simp only [Bool.false_eq_true, if_false]
    exact clampR_eq 0 1 y (by norm_num)
  · simp only [if_true]
    rw [mul_comm y 2]
    exact clampR_eq (-1) 1 _ (by norm_num)

theorem stretched_eq (mode : Bool) (y : ℝ) : (if mode then y * 2 - 1 else y) = stretched mode y := by
  unfold stretched; rw [mul_comm]

/-- C115: "Gaussian" is a bell, by default at 0 and of width 0.1. -/
theorem cfg_gaussian (c : ActCfg) (h : c.name = "Gaussian") (mu s : ℝ) (hm : EntryGives c.mu 0 mu)
    (hs : EntryGives c.sigma (1 / 10) s) : Builds c fun x => stretched c.mode (hill mu s x) := by
  have e : (0.1 : ℝ) = 1 / 10 := by norm_num
  refine ⟨.gaussian mu s c.mode, ?_, fun x => ?_⟩
  · unfold Act.ofCfg
    rw [if_pos h, e, numD_gives hm, numD_gives hs]; rfl
  · dsimp only
    rw [← stretched_eq]; rfl

/-- C115: "DoGaussian" is the difference of two bells 0.01 to the left and to the right; `mode`
stretches only the second. -/
theorem cfg_doGaussian (c : ActCfg) (h : c.name = "DoGaussian") (mu s : ℝ) (hm : EntryGives c.mu 0 mu)
    (hs : EntryGives c.sigma (1 / 10) s) (dx : ℝ) (hd : c.dx = some dx ∨ c.dx = none ∧ dx = 1 / 100) :
    Builds c fun x => if c.mode then hill mu s (x + dx) - 2 * hill mu s (x - dx) - 1
      else hill mu s (x + dx) - hill mu s (x - dx) := by
  have e : (0.1 : ℝ) = 1 / 10 := by norm_num
  have e' : (0.01 : ℝ) = 1 / 100 := by norm_num
  refine ⟨.doGaussian mu s dx c.mode, ?_, fun x => ?_⟩
  · unfold Act.ofCfg
    rw [if_neg (by rw [h]; decide), if_pos h, e, e', numD_gives hm, numD_gives hs]
    have : c.dx.getD (1 / 100) = dx := by
      obtain hd | ⟨hd, rfl⟩ := hd <;> rw [hd] <;> rfl
    rw [this]; rfl
  · dsimp only
    rw [mul_comm (2 : ℝ)]; rfl

/-- C115: "DoubleGaussian" is a clipped sum of two bells. -/
theorem cfg_doubleGaussian (c : ActCfg) (h : c.name = "DoubleGaussian") (m₀ m₁ s₀ s₁ : ℝ)
    (hm : GivesTwo c.mu m₀ m₁) (hs : GivesTwo c.sigma s₀ s₁) :
    Builds c fun x => clipped c.mode (hill m₀ s₀ x + hill m₁ s₁ x) := by
  refine ⟨.doubleGaussian m₀ m₁ s₀ s₁ c.mode, ?_, fun x => ?_⟩
  · unfold Act.ofCfg
    rw [if_neg (by rw [h]; decide), if_neg (by rw [h]; decide), if_pos h, twoOf_gives hm,
      twoOf_gives hs]; rfl
  · dsimp only
    rw [← clipped_eq]; rfl

/-- C115: its defaults, and plain numbers, are refused. -/
theorem cfg_doubleGaussian_numbers (c : ActCfg) (h : c.name = "DoubleGaussian")
    (hm : c.mu = none ∨ (∃ x, c.mu = some (.num x)) ∨
      (∃ x y, GivesTwo c.mu x y) ∧ (c.sigma = none ∨ ∃ x, c.sigma = some (.num x))) :
    Act.ofCfg c = .error .index := by
  unfold Act.ofCfg
  rw [if_neg (by rw [h]; decide), if_neg (by rw [h]; decide), if_pos h]
  obtain hm | ⟨x, hm⟩ | ⟨⟨x, y, hm⟩, hs⟩ := hm
  · rw [hm]; rfl
  · rw [hm]; rfl
  · rw [twoOf_gives hm]
    obtain hs | ⟨x, hs⟩ := hs <;> rw [hs] <;> rfl

/-- C115: "GaussianMixture" without parameters is one bell at 0.5 of width 0.15. -/
theorem cfg_mixture_default (c : ActCfg) (h : c.name = "GaussianMixture") (hp : c.parameters = none) :
    Builds c fun x => clipped c.mode (hill (1 / 2) (15 / 100) x) := by
  refine ⟨.mixture [(1, 0.5, 0.15)] c.mode, ?_, fun x => ?_⟩
  · unfold Act.ofCfg
    rw [if_neg (by rw [h]; decide), if_neg (by rw [h]; decide), if_neg (by rw [h]; decide),
      if_pos h, hp]
  · have e1 : (0.5 : ℝ) = 1 / 2 := by norm_num
    have e2 : (0.15 : ℝ) = 15 / 100 := by norm_num
    simp only [Act.eval, mixtureFn, List.map_cons, List.map_nil, List.sum_cons, List.sum_nil,
      add_zero, one_mul, clipped_eq, e1, e2]
    rfl

/-- C115: parameters of a mixture are (height, place, width) if their number is divisible by three. -/
theorem cfg_mixture_triples (c : ActCfg) (h : c.name = "GaussianMixture") (ts : List (ℝ × ℝ × ℝ))
    (ht : ts ≠ []) (hp : c.parameters = some (.vec (ts.flatMap fun t => [t.1, t.2.1, t.2.2]))) :
    Builds c fun x => clipped c.mode (ts.map fun t => t.1 * hill t.2.1 t.2.2 x).sum := by
  have key : ∀ ts : List (ℝ × ℝ × ℝ),
      mixtureComponents.triples (ts.flatMap fun t => [t.1, t.2.1, t.2.2]) = .ok ts := by
    intro ts
    induction ts with
    | nil => rfl
    | cons t ts ih =>
      simp only [List.flatMap_cons, List.cons_append, List.nil_append, mixtureComponents.triples, ih]
      rfl
  refine ⟨.mixture ts c.mode, ?_, fun x => ?_⟩
  · unfold Act.ofCfg
    rw [if_neg (by rw [h]; decide), if_neg (by rw [h]; decide), if_neg (by rw [h]; decide),
      if_pos h, hp]
    have hl : (ts.flatMap fun t => [t.1, t.2.1, t.2.2]).length % 3 = 0 := by
      clear hp ht
      induction ts with
      | nil => rfl
      | cons t ts ih => simp only [List.flatMap_cons, List.length_append, List.length_cons,
          List.length_nil]; omega
    unfold mixtureComponents
    simp only [if_pos hl, key ts]
  · dsimp only
    rw [← clipped_eq]; rfl

/-- C115: otherwise they are (place, width), all of height 1. -/
theorem cfg_mixture_pairs (c : ActCfg) (h : c.name = "GaussianMixture") (ts : List (ℝ × ℝ))
    (ht : ts.length % 3 ≠ 0) (hp : c.parameters = some (.vec (ts.flatMap fun t => [t.1, t.2]))) :
    Builds c fun x => clipped c.mode (ts.map fun t => hill t.1 t.2 x).sum := by
  have key : ∀ ts : List (ℝ × ℝ),
      mixtureComponents.pairs (1 : ℝ) (ts.flatMap fun t => [t.1, t.2]) =
        .ok (ts.map fun t => (1, t.1, t.2)) := by
    intro ts
    induction ts with
    | nil => rfl
    | cons t ts ih =>
      simp only [List.flatMap_cons, List.cons_append, List.nil_append, mixtureComponents.pairs, ih]
      rfl
  have hl : (ts.flatMap fun t => [t.1, t.2]).length = 2 * ts.length := by
    clear hp ht
    induction ts with
    | nil => rfl
    | cons t ts ih => simp only [List.flatMap_cons, List.length_append, List.length_cons,
        List.length_nil]; omega
  refine ⟨.mixture (ts.map fun t => (1, t.1, t.2)) c.mode, ?_, fun x => ?_⟩
  · unfold Act.ofCfg
    rw [if_neg (by rw [h]; decide), if_neg (by rw [h]; decide), if_neg (by rw [h]; decide),
      if_pos h, hp]
    unfold mixtureComponents
    simp only [if_neg (show ¬ (ts.flatMap fun t => [t.1, t.2]).length % 3 = 0 by omega), key ts]
    cases ts with
    | nil => exact absurd rfl ht
    | cons t ts => rfl
  · dsimp only
    rw [← clipped_eq]
    simp only [Act.eval, mixtureFn, List.map_map]
    have : (fun c : ℝ × ℝ × ℝ => c.1 * bump c.2.1 c.2.2 x) ∘ (fun t : ℝ × ℝ => (1, t.1, t.2)) =
        fun t => hill t.1 t.2 x := by
      funext t; simp only [Function.comp, one_mul]; rfl
    rw [this]

/-- C115: any other number of parameters is refused. -/
theorem cfg_mixture_odd (c : ActCfg) (h : c.name = "GaussianMixture") (ps : List ℝ)
    (hp : c.parameters = some (.vec ps)) (h3 : ps.length % 3 ≠ 0) (h2 : ps.length % 2 = 1) :
    Act.ofCfg c = .error .index := by
  have key : ∀ n (ps : List ℝ), ps.length = 2 * n + 1 →
      mixtureComponents.pairs (1 : ℝ) ps = .error .index := by
    intro n
    induction n with
    | zero =>
      intro ps h
      match ps, h with
      | [_], _ => rfl
    | succ n ih =>
      intro ps h
      match ps, h with
      | _ :: _ :: ps, h =>
        have := ih ps (by simp only [List.length_cons] at h; omega)
        simp only [mixtureComponents.pairs, this]; rfl
  unfold Act.ofCfg
  rw [if_neg (by rw [h]; decide), if_neg (by rw [h]; decide), if_neg (by rw [h]; decide),
    if_pos h, hp]
  unfold mixtureComponents
  simp only [if_neg h3, key (ps.length / 2) ps (by omega)]

/-- C115: "Polynomial" lists its coefficients from the constant up; without any it is
(1 + x + x²) / 10. -/
theorem cfg_polynomial (c : ActCfg) (h : c.name = "Polynomial") (cs : List ℝ)
    (hc : c.coefficients = some cs ∨ c.coefficients = none ∧ cs = [1 / 10, 1 / 10, 1 / 10]) :
    Builds c fun x => stretched c.mode (∑ i : Fin cs.length, cs[i] * x ^ i.val) := by
  refine ⟨.polynomial cs c.mode, ?_, fun x => ?_⟩
  · unfold Act.ofCfg
    rw [if_neg (by rw [h]; decide), if_neg (by rw [h]; decide), if_neg (by rw [h]; decide),
      if_neg (by rw [h]; decide), if_pos h]
    have : c.coefficients.getD [0.1, 0.1, 0.1] = cs := by
      obtain hc | ⟨hc, rfl⟩ := hc <;> rw [hc]
      · rfl
      · simp only [Option.getD_none]; norm_num
    rw [this]
  · dsimp only
    rw [← stretched_eq]
    have hs : (cs.mapIdx fun i v => v * x ^ i).sum = ∑ i : Fin cs.length, cs[i] * x ^ i.val := by
      rw [← List.sum_ofFn]
      congr 1
      refine List.ext_getElem (by simp) fun i h1 h2 => ?_
      simp
    rw [← hs]; rfl

/-- C115: "SmoothIntervals" adds one smoothed plateau per interval; without parameters there is one
from 0.185 to 0.375, and the slopes are 0.0125 wide. -/
theorem cfg_smoothIntervals (c : ActCfg) (h : c.name = "SmoothIntervals") (is : List (ℝ × ℝ))
    (hp : c.parameters = some (.mat is) ∨ c.parameters = some (.vec []) ∧ is = [] ∨
      c.parameters = none ∧ is = [(185 / 1000, 375 / 1000)]) (al : ℝ)
    (ha : c.alpha = some al ∨ c.alpha = none ∧ al = 125 / 10000) :
    Builds c fun x => stretched c.mode (is.map fun b => smoothRise al b.1 x * (1 - smoothRise al b.2 x)).sum := by
  refine ⟨.smoothIntervals is al c.mode, ?_, fun x => ?_⟩
  · unfold Act.ofCfg
    rw [if_neg (by rw [h]; decide), if_neg (by rw [h]; decide), if_neg (by rw [h]; decide),
      if_neg (by rw [h]; decide), if_neg (by rw [h]; decide), if_neg (by rw [h]; decide),
      if_neg (by rw [h]; decide), if_neg (by rw [h]; decide), if_pos h]
    have : c.alpha.getD 0.0125 = al := by
      obtain ha | ⟨ha, rfl⟩ := ha <;> rw [ha]
      · rfl
      · simp only [Option.getD_none]; norm_num
    rw [this]
    obtain hp | ⟨hp, rfl⟩ | ⟨hp, rfl⟩ := hp <;> rw [hp]
    norm_num
  · dsimp only
    rw [← stretched_eq]; rfl

/-- C115: the plain functions, whatever else the config says. -/
theorem cfg_plain (c : ActCfg) :
    (c.name = "ReLU" → Builds c fun x => max x 0) ∧ (c.name = "Tanh" → Builds c Real.tanh) ∧
      (c.name = "Identity" → Builds c fun x => x) := by
  refine ⟨fun h => ⟨.relu, ?_, fun _ => rfl⟩, fun h => ⟨.tanh, ?_, fun _ => rfl⟩,
    fun h => ⟨.identity, ?_, fun _ => rfl⟩⟩ <;> unfold Act.ofCfg <;> simp [h]

/-- C115: every other name raises KeyError. -/
theorem cfg_unknown (c : ActCfg) (h : c.name ∉ ["Gaussian", "DoGaussian", "DoubleGaussian",
    "GaussianMixture", "Polynomial", "ReLU", "Tanh", "Identity", "SmoothIntervals"]) :
    Act.ofCfg c = .error .key := by
  simp only [List.mem_cons, List.not_mem_nil, or_false, not_or] at h
  obtain ⟨h1, h2, h3, h4, h5, h6, h7, h8, h9⟩ := h
  unfold Act.ofCfg
  simp only [h1, h2, h3, h4, h5, h6, h7, h8, h9, if_false]

/-! ## Kernels -/

/-- The keys a kernel reads. -/
def Spec.kernelKeys : List String :=
  ["mu", "sigma", "omega", "parameters", "r_a", "r_i", "mode", "dx"]

/-- C115: only what is stored under the keys in use counts: not the order of the entries, nor further
entries. -/
theorem kernel_reads (name : String) (r : Option Nat) (kws kws' : List (String × KwVal))
    (h : ∀ k ∈ kernelKeys, kwLookup kws k = kwLookup kws' k) :
    KernelCfg.kernel ⟨name, r, some kws⟩ = KernelCfg.kernel ⟨name, r, some kws'⟩ := by
  have e : kernelKwargs kws = kernelKwargs kws' := by
    unfold kernelKwargs
    rw [h "mu" (by decide), h "sigma" (by decide), h "omega" (by decide),
      h "parameters" (by decide), h "r_a" (by decide), h "r_i" (by decide), h "mode" (by decide),
      h "dx" (by decide)]
  unfold KernelCfg.kernel
  simp only [e]

theorem kwLookup_iff (kws : List (String × KwVal)) (hn : (kws.map (·.1)).Nodup) (k : String)
    (v : KwVal) : kwLookup kws k = some v ↔ (k, v) ∈ kws := by
  unfold kwLookup
  induction kws with
  | nil => simp
  | cons p kws ih =>
    obtain ⟨k', v'⟩ := p
    rw [List.map_cons, List.nodup_cons] at hn
    rw [List.find?_cons]
    by_cases hk : k' = k
    · subst hk
      simp only [decide_true, Option.map_some, Option.some.injEq, List.mem_cons, Prod.mk.injEq,
        true_and]
      constructor
      · intro h; exact .inl h.symm
      · rintro (h | h)
        · exact h.symm
        · exact absurd (List.mem_map_of_mem (f := (·.1)) h) hn.1
    · simp only [hk, decide_false, ih hn.2, List.mem_cons, Prod.mk.injEq]
      constructor
      · exact .inr
      · rintro (⟨rfl, _⟩ | h)
        · exact absurd rfl hk
        · exact h

/-- C115: the entries of a dictionary may come in any order. -/
theorem kernel_order (name : String) (r : Option Nat) (kws kws' : List (String × KwVal))
    (hn : (kws.map (·.1)).Nodup) (hp : kws.Perm kws') :
    KernelCfg.kernel ⟨name, r, some kws⟩ = KernelCfg.kernel ⟨name, r, some kws'⟩ := by
  refine kernel_reads name r kws kws' fun k _ => ?_
  have hn' : (kws'.map (·.1)).Nodup := (hp.map _).nodup_iff.1 hn
  apply Option.ext
  intro v
  rw [kwLookup_iff kws hn, kwLookup_iff kws' hn', hp.mem_iff]

/-- C115: but not for `kernel_params`, which `set_params` and `get_params` use. -/
theorem kernel_params_order_refuted : ∃ kws kws' : List (String × KwVal),
    (kws.map (·.1)).Nodup ∧ kws.Perm kws' ∧ updateKernelParams kws ≠ updateKernelParams kws' := by
  refine ⟨[("mu", .num 0), ("sigma", .num 1)], [("sigma", .num 1), ("mu", .num 0)], by decide,
    List.Perm.swap _ _ _, fun h => ?_⟩
  simp [updateKernelParams, KwVal.ravel] at h

/-- C115: the two fixed kernels read no arguments at all; the others need the entry. -/
theorem kernel_arguments (r : Option Nat) (kws : Option (List (String × KwVal))) :
    KernelCfg.kernel ⟨"InnerMoore", r, kws⟩ = KernelCfg.kernel ⟨"InnerMoore", none, none⟩ ∧
    KernelCfg.kernel ⟨"MooreLike", r, kws⟩ = KernelCfg.kernel ⟨"MooreLike", r, none⟩ ∧
    ∀ name ∈ ["Gaussian", "GaussianMixture", "CosOverX2", "DoGaussian", "SmoothLifeKernel",
      "LaplacianOfGaussian"], KernelCfg.kernel ⟨name, r, none⟩ = .error .key := by
  refine ⟨?_, ?_, fun name h => ?_⟩
  · unfold KernelCfg.kernel getKernel; simp
  · unfold KernelCfg.kernel getKernel; simp
  · simp only [List.mem_cons, List.not_mem_nil, or_false] at h
    obtain rfl | rfl | rfl | rfl | rfl | rfl := h <;> simp [KernelCfg.kernel, getKernel]

/-- C115: a number may be given as a tensor with one element. -/
theorem kernel_tensor (name : String) (r : Option Nat) (pre post : List (String × KwVal)) (k : String)
    (hk : k ≠ "parameters") (x : ℝ) :
    KernelCfg.kernel ⟨name, r, some (pre ++ (k, .vec [x]) :: post)⟩ =
      KernelCfg.kernel ⟨name, r, some (pre ++ (k, .num x) :: post)⟩ := by
  have e : ∀ k', k' ≠ "parameters" →
      optM KwVal.asNum (kwLookup (pre ++ (k, .vec [x]) :: post) k') =
        optM KwVal.asNum (kwLookup (pre ++ (k, .num x) :: post) k') := by
    intro k' _
    unfold kwLookup
    rw [List.find?_append, List.find?_append]
    cases pre.find? fun p => p.1 = k' with
    | some p => rfl
    | none =>
      simp only [Option.none_or, List.find?_cons]
      by_cases h : k = k'
      · simp only [h, decide_true]; rfl
      · simp only [h, decide_false]
  have e' : kwLookup (pre ++ (k, .vec [x]) :: post) "parameters" =
      kwLookup (pre ++ (k, .num x) :: post) "parameters" := by
    unfold kwLookup
    rw [List.find?_append, List.find?_append]
    simp only [List.find?_cons, hk, decide_false]
  have : kernelKwargs (pre ++ (k, .vec [x]) :: post) = kernelKwargs (pre ++ (k, .num x) :: post) := by
    unfold kernelKwargs
    rw [e "mu" (by decide), e "sigma" (by decide), e "omega" (by decide), e', e "r_a" (by decide),
      e "r_i" (by decide), e "mode" (by decide), e "dx" (by decide)]
  unfold KernelCfg.kernel
  simp only [this]

/-- C115: `kernel_params` then differs when it is the only entry: a 0-d array cannot be counted. -/
theorem kernel_tensor_params (k : String) (x : ℝ) :
    (updateKernelParams [(k, .vec [x])]).len = .ok 1 ∧
      (updateKernelParams [(k, .num x)]).len = .error .index := ⟨rfl, rfl⟩

/-! ## Instantiation -/

/-- C115: what an automaton is built with when nothing is said: kernel radius 13, three peaks, one
channel of each kind, the torus, functional mode, threshold 0.1; and what is said is used. -/
theorem instant_defaults (k : InstantKwargs) :
    (k.kernelRadius = none → k.radius = 13) ∧ (∀ x, k.kernelRadius = some x → k.radius = x) ∧
    (k.kernelPeaks = none → k.peaks = 3) ∧ (∀ x, k.kernelPeaks = some x → k.peaks = x) ∧
    (k.ext = none → k.extN = 1) ∧ (∀ x, k.ext = some x → k.extN = x) ∧
    (k.int = none → k.intN = 1) ∧ (∀ x, k.int = some x → k.intN = x) ∧
    (k.convMode = none → k.mode = .circular) ∧ (∀ x, k.convMode = some x → k.mode = x) ∧
    (k.caMode = none → k.ca = .functional) ∧ (∀ x, k.caMode = some x → k.ca = x) ∧
    (k.thr = none → k.threshold = 1 / 10) ∧ (∀ x, k.thr = some x → k.threshold = x) := by
  refine ⟨?_, ?_, ?_, ?_, ?_, ?_, ?_, ?_, ?_, ?_, ?_, ?_, ?_, ?_⟩
  all_goals first | (intro h; simp only [InstantKwargs.radius, InstantKwargs.peaks, InstantKwargs.extN,
    InstantKwargs.intN, InstantKwargs.mode, InstantKwargs.ca, InstantKwargs.threshold, h,
    Option.getD_none]; first | done | norm_num) | (intro x h; simp only [InstantKwargs.radius,
    InstantKwargs.peaks, InstantKwargs.extN, InstantKwargs.intN, InstantKwargs.mode,
    InstantKwargs.ca, InstantKwargs.threshold, h, Option.getD_some])

/-- C115: and `forward` reads exactly that. -/
theorem dynamics_instant (o : CCAObj) : o.dynamics.ext = o.kw.extN ∧ o.dynamics.int = o.kw.intN ∧
    o.dynamics.mode = o.kw.mode ∧ o.dynamics.thr = o.kw.threshold ∧ o.dynamics.dt = o.dt ∧
    o.dynamics.genesis = o.genesis ∧ o.dynamics.persistence = o.persistence ∧
    (o.dynamics.seqWeights = none ↔ o.kw.ca = .functional) := by
  refine ⟨rfl, rfl, rfl, rfl, rfl, rfl, rfl, ?_⟩
  unfold CCAObj.dynamics
  by_cases h : o.kw.ca = .functional <;> simp [h]

/-! ## Non-vacuity -/

/-- Configs of every kind. -/
example : Builds { name := "Gaussian", sigma := some (.vec [1 / 4]) }
      (fun x => stretched false (hill 0 (1 / 4) x)) ∧
    Builds { name := "DoubleGaussian", mu := some (.vec [1, 2]), sigma := some (.vec [3]), mode := true }
      (fun x => clipped true (hill 1 3 x + hill 2 3 x)) ∧
    Builds { name := "GaussianMixture", parameters := some (.vec [1, 2, 3, 4]) }
      (fun x => clipped false ([(1, 2), (3, 4)].map fun t : ℝ × ℝ => hill t.1 t.2 x).sum) ∧
    Builds { name := "SmoothIntervals" }
      (fun x => stretched false ([(185 / 1000, 375 / 1000)].map fun b : ℝ × ℝ =>
        smoothRise (125 / 10000) b.1 x * (1 - smoothRise (125 / 10000) b.2 x)).sum) :=
  ⟨cfg_gaussian _ rfl _ _ (.inl ⟨rfl, rfl⟩) (.inr (.inr rfl)),
    cfg_doubleGaussian _ rfl _ _ _ _ (.inl rfl) (.inr ⟨rfl, rfl⟩),
    cfg_mixture_pairs _ rfl [(1, 2), (3, 4)] (by decide) rfl,
    cfg_smoothIntervals _ rfl _ (.inr (.inr ⟨rfl, rfl⟩)) _ (.inr ⟨rfl, rfl⟩)⟩

/-- Five parameters. -/
example : Act.ofCfg { name := "GaussianMixture", parameters := some (.vec [1, 2, 3, 4, 5]) } =
    .error .index := cfg_mixture_odd _ rfl _ rfl (by decide) (by decide)

/-- Two entries that can be swapped. -/
example : KernelCfg.kernel ⟨"Gaussian", some 5, some [("mu", .num (1 / 2)), ("sigma", .num (1 / 8))]⟩ =
    KernelCfg.kernel ⟨"Gaussian", some 5, some [("sigma", .num (1 / 8)), ("mu", .num (1 / 2))]⟩ :=
  kernel_order _ _ _ _ (by decide) (List.Perm.swap _ _ _)

end Yuca
