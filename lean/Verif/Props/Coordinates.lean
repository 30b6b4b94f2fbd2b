import Verif.Props.Ranking
import Verif.Model.Resume
import Mathlib.LinearAlgebra.Matrix.Notation

/-!
# C108: a search does not depend on the coordinates of the parameter space
-/

namespace Yuca

open Spec Matrix

variable {n : Nat} {uni : Bool} {argsort : List Fit → List Nat} {G : Nat}

namespace Spec

/-- Other coordinates for the parameters: `v` becomes `A v + b`, with `A` invertible. -/
structure Frame (n : Nat) where
  A : Matrix (Fin n) (Fin n) ℝ
  inv : Matrix (Fin n) (Fin n) ℝ
  b : Vec n
  left : inv * A = 1

namespace Frame

variable (T : Frame n)

/-- A parameter vector in the new coordinates. -/
def point (v : Vec n) : Vec n := T.A *ᵥ v + T.b

/-- A covariance matrix in the new coordinates. -/
def spread (C : Fin n → Fin n → ℝ) : Fin n → Fin n → ℝ := T.A * Matrix.of C * T.Aᵀ

/-- The deviates that select the same points of the distribution. -/
def deviate (z : Vec n) : Vec n := T.invᵀ *ᵥ z

/-- The same random choices. -/
def draw (r : Draw n) : Draw n := { r with noise := fun i => T.deviate (r.noise i) }

/-- A `CMAES` object in the new coordinates. -/
def cma (c : Cma n) : Cma n :=
  { popSize := c.popSize, mode := c.mode
    startMeans := T.point c.startMeans, startCovar := T.spread c.startCovar
    population := c.population.map T.point, means := T.point c.means, covar := T.spread c.covar
    elite := c.elite.map (List.map T.point) }

/-- A log entry in the new coordinates. -/
def log (l : GenLog n) : GenLog n :=
  { evaluated := l.evaluated.map T.point, fitness := l.fitness, elite := l.elite.map T.point }

/-- A run in the new coordinates. -/
def run (s : Run n) : Run n :=
  { cma := T.cma s.cma, logs := s.logs.map T.log, saved := s.saved.map T.point }

end Frame

end Spec

namespace Coord

variable (T : Frame n)

theorem transpose_deviate (z : Vec n) : T.Aᵀ *ᵥ T.deviate z = z := by
  unfold Frame.deviate
  rw [Matrix.mulVec_mulVec, ← Matrix.transpose_mul, T.left, Matrix.transpose_one, Matrix.one_mulVec]

theorem sampleDist_eq (m : Vec n) (C : Fin n → Fin n → ℝ) (z : Vec n) :
    sampleDist m C z = m + Matrix.of C *ᵥ z := rfl

theorem sample_point (m : Vec n) (C : Fin n → Fin n → ℝ) (z : Vec n) :
    sampleDist (T.point m) (T.spread C) (T.deviate z) = T.point (sampleDist m C z) := by
  rw [sampleDist_eq, sampleDist_eq]
  have : Matrix.of (T.spread C) = T.A * Matrix.of C * T.Aᵀ := rfl
  rw [this, ← Matrix.mulVec_mulVec, transpose_deviate]
  unfold Frame.point
  rw [Matrix.mulVec_add, Matrix.mulVec_mulVec]
  abel

theorem mean_point (E : List (Vec n)) (hE : E ≠ []) :
    eliteMean (E.map T.point) = T.point (eliteMean E) := by
  have hpos : (E.length : ℝ) ≠ 0 := by
    exact_mod_cast (List.length_pos_of_ne_nil hE).ne'
  have hsum : ∀ E : List (Vec n), (fun i => ((E.map T.point).map fun e => e i).sum) =
      T.A *ᵥ (fun i => (E.map fun e => e i).sum) + (E.length : ℝ) • T.b := by
    intro E
    induction E with
    | nil => funext i; simp [Matrix.mulVec, dotProduct]
    | cons e E ih =>
      have h1 : (fun i => (((e :: E).map T.point).map fun e => e i).sum) =
          T.point e + fun i => ((E.map T.point).map fun e => e i).sum := by
        funext i; simp
      have h2 : (fun i => ((e :: E).map fun e => e i).sum) =
          e + fun i => (E.map fun e => e i).sum := by
        funext i; simp
      rw [h1, h2, ih, Matrix.mulVec_add, List.length_cons]
      unfold Frame.point
      push_cast
      rw [add_smul, one_smul]
      abel
  have h1 : eliteMean (E.map T.point) = (E.length : ℝ)⁻¹ •
      fun i => ((E.map T.point).map fun e => e i).sum := by
    funext i
    simp only [eliteMean, List.length_map, Pi.smul_apply, smul_eq_mul]
    rw [div_eq_inv_mul]
  have h2 : eliteMean E = (E.length : ℝ)⁻¹ • fun i => (E.map fun e => e i).sum := by
    funext i
    simp only [eliteMean, Pi.smul_apply, smul_eq_mul]
    rw [div_eq_inv_mul]
  rw [h1, hsum, h2]
  unfold Frame.point
  rw [Matrix.mulVec_smul, smul_add, smul_smul, inv_mul_cancel₀ hpos, one_smul]

theorem covar_point (ek : Nat) (E : List (Vec n)) (m : Vec n) :
    eliteCovar ek (E.map T.point) (T.point m) = T.spread (eliteCovar ek E m) := by
  have key : ∀ E : List (Vec n),
      (Matrix.of fun i j => ((E.map T.point).map fun e =>
        (e i - T.point m i) * (e j - T.point m j)).sum) =
      T.A * (Matrix.of fun i j => (E.map fun e => (e i - m i) * (e j - m j)).sum) * T.Aᵀ := by
    intro E
    induction E with
    | nil =>
      ext i j
      simp [Matrix.mul_apply]
    | cons e E ih =>
      have h1 : (Matrix.of fun i j => (((e :: E).map T.point).map fun e =>
            (e i - T.point m i) * (e j - T.point m j)).sum) =
          Matrix.vecMulVec (T.point e - T.point m) (T.point e - T.point m) +
          Matrix.of fun i j => ((E.map T.point).map fun e =>
            (e i - T.point m i) * (e j - T.point m j)).sum := by
        ext i j
        simp [Matrix.vecMulVec_apply]
      have h2 : (Matrix.of fun i j => ((e :: E).map fun e =>
            (e i - m i) * (e j - m j)).sum) =
          Matrix.vecMulVec (e - m) (e - m) +
          Matrix.of fun i j => (E.map fun e => (e i - m i) * (e j - m j)).sum := by
        ext i j
        simp [Matrix.vecMulVec_apply]
      have h3 : T.point e - T.point m = T.A *ᵥ (e - m) := by
        unfold Frame.point
        rw [Matrix.mulVec_sub]
        abel
      rw [h1, h2, ih, h3, Matrix.mul_add, Matrix.add_mul, Matrix.mul_vecMulVec,
        Matrix.vecMulVec_mul, Matrix.vecMul_transpose]
  have h1 : eliteCovar ek (E.map T.point) (T.point m) = (1 / (ek : ℝ)) •
      (Matrix.of fun i j => ((E.map T.point).map fun e =>
        (e i - T.point m i) * (e j - T.point m j)).sum) := rfl
  have h2 : Matrix.of (eliteCovar ek E m) = (1 / (ek : ℝ)) •
      (Matrix.of fun i j => (E.map fun e => (e i - m i) * (e j - m j)).sum) := rfl
  rw [h1, key]
  unfold Frame.spread
  rw [h2, Matrix.mul_smul, Matrix.smul_mul]

theorem adapt_cma (c : Cma n) (E : List (Vec n)) (hE : E ≠ []) :
    (T.cma c).adapt (E.map T.point) = T.cma (c.adapt E) := by
  unfold Cma.adapt
  simp only [Frame.cma]
  rw [mean_point T E hE, covar_point]
  rfl

theorem copyElite_map {V W : Type} (φ : V → W) (p : List V) (el : List Nat) (m : Nat) :
    copyElite (p.map φ) el m = (copyElite p el m).map φ := by
  unfold copyElite
  generalize List.range m = ks
  induction ks generalizing p with
  | nil => rfl
  | cons k ks ih =>
    rw [List.foldl_cons, List.foldl_cons, ← ih]
    congr 1
    cases el[k]? with
    | none => rfl
    | some e =>
      simp only [List.getElem?_map]
      cases p[e]? with
      | none => rfl
      | some v => simp only [Option.map_some, List.map_set]

theorem resample_map {V W : Type} (φ : V → W) (p : List V) (m N : Nat) (f : Nat → V)
    (f' : Nat → W) (h : ∀ i, f' i = φ (f i)) :
    resample (p.map φ) m N f' = (resample p m N f).map φ := by
  unfold resample
  apply List.ext_getElem?
  intro i
  rw [List.getElem?_mapIdx, List.getElem?_map, List.getElem?_map, List.getElem?_mapIdx]
  cases p[i]? with
  | none => rfl
  | some v =>
    by_cases hi : m ≤ i ∧ i < N
    · simp only [Option.map_some, if_pos hi, h]
    · simp only [Option.map_some, if_neg hi]

theorem rank_cma {c : Cma n} (f : List Fit) :
    (T.cma c).rank argsort f = (c.rank argsort f).map T.cma := by
  unfold Cma.rank
  have hps : (T.cma c).popSize = c.popSize := rfl
  rw [hps]
  cases ht : truncation (eliteKeep c.popSize) (argsort f) with
  | error e => rfl
  | ok idx =>
    dsimp only
    have hp : (T.cma c).population = c.population.map T.point := rfl
    rw [hp, gather_map]
    cases hg : gather c.population idx with
    | error e => rfl
    | ok E =>
      have hne : E ≠ [] := by
        have h1 := gather_length hg
        unfold truncation at ht
        split at ht
        · cases ht
        · cases ht
          rw [List.length_take, List.length_reverse] at h1
          have := (eliteKeep_bounds c.popSize).1
          rintro rfl
          simp at h1
          omega
      simp only [Except.map]
      rw [adapt_cma T c E hne]

/-- C108: one update of the population in other coordinates. -/
theorem update_frame {c : Cma n} {r : Draw n} (hr : DrawOk c.popSize r) (f : List Fit) :
    (T.cma c).update argsort (T.draw r) f = (c.update argsort r f).map T.cma := by
  unfold Cma.update
  have hps : (T.cma c).popSize = c.popSize := rfl
  have hsel : selectElite argsort (T.cma c).mode (eliteKeep c.popSize) (T.draw r) f =
      selectElite argsort c.mode (eliteKeep c.popSize) r f := rfl
  rw [hps, hsel]
  cases hs : selectElite argsort c.mode (eliteKeep c.popSize) r f with
  | error e => rfl
  | ok idx =>
    dsimp only
    have hp : (T.cma c).population = c.population.map T.point := rfl
    rw [hp, gather_map]
    cases hg : gather c.population idx with
    | error e => rfl
    | ok E =>
      have hne : E ≠ [] := by
        have h1 := gather_length hg
        have h2 := select_length hr hs
        have := (eliteKeep_bounds c.popSize).1
        rintro rfl
        simp at h1
        omega
      simp only [Except.map]
      rw [adapt_cma T c E hne, copyElite_map, resample_map T.point _ _ _
        (fun i => sampleDist (c.adapt E).means (c.adapt E).covar (r.noise i))
        (fun i => sampleDist (T.cma (c.adapt E)).means (T.cma (c.adapt E)).covar
          ((T.draw r).noise i))
        (fun i => sample_point T (c.adapt E).means (c.adapt E).covar (r.noise i))]
      rfl

theorem run_rank_frame (s : Run n) (f : List Fit) :
    (T.run s).rank uni argsort f = (s.rank uni argsort f).map T.run := by
  unfold Run.rank
  have : (T.run s).cma = T.cma s.cma := rfl
  rw [this, rank_cma]
  cases s.cma.rank argsort f with
  | error e => rfl
  | ok c =>
    simp only [Except.map, Frame.run, Frame.cma]
    cases uni
    · rfl
    · cases c.elite with
      | none => rfl
      | some E => cases E <;> rfl

theorem genStep_frame {fit fit' : Nat → Vec n → Fit} (hf : ∀ g v, fit' g (T.point v) = fit g v)
    (g : Nat) {r : Draw n} (s : Run n) (hr : DrawOk s.cma.popSize r) :
    genStep uni argsort G fit' g (T.draw r) (T.run s) =
      (genStep uni argsort G fit g r s).map fun p => (T.run p.1, p.2) := by
  rw [genStep_eq, genStep_eq]
  have hl : (T.run s).cma.population.length = s.cma.population.length := by
    simp [Frame.run, Frame.cma]
  have hps : (T.run s).cma.popSize = s.cma.popSize := rfl
  rw [hl, hps]
  by_cases hlen : s.cma.population.length < s.cma.popSize
  · rw [if_pos hlen, if_pos hlen]; rfl
  rw [if_neg hlen, if_neg hlen]
  have htake : (T.run s).cma.population.take s.cma.popSize =
      (s.cma.population.take s.cma.popSize).map T.point := by
    simp [Frame.run, Frame.cma, List.map_take]
  have hfit : ((s.cma.population.take s.cma.popSize).map T.point).map (fit' g) =
      (s.cma.population.take s.cma.popSize).map (fit g) := by
    rw [List.map_map]
    exact List.map_congr_left fun v _ => hf g v
  rw [htake, hfit]
  generalize (s.cma.population.take s.cma.popSize).map (fit g) = f
  generalize s.cma.population.take s.cma.popSize = l
  have hnext : genNext uni argsort G g (T.draw r) (T.run s) f =
      (genNext uni argsort G g r s f).map T.run := by
    unfold genNext
    by_cases hg : g = G - 1
    · rw [if_pos hg, if_pos hg, run_rank_frame]
    · rw [if_neg hg, if_neg hg]
      have : (T.run s).cma = T.cma s.cma := rfl
      rw [this, update_frame T hr]
      cases s.cma.update argsort r f <;> rfl
  rw [hnext]
  cases genNext uni argsort G g r s f with
  | error e => rfl
  | ok s₁ =>
    simp only [Except.map, genEnd]
    have hlog : ({ T.run s₁ with logs := (T.run s₁).logs ++
        [⟨l.map T.point, f, (T.run s₁).cma.elite.getD []⟩] } : Run n) =
        T.run { s₁ with logs := s₁.logs ++ [⟨l, f, s₁.cma.elite.getD []⟩] } := by
      simp only [Frame.run, List.map_append, List.map_cons, List.map_nil, Frame.log, Frame.cma]
      cases s₁.cma.elite <;> rfl
    rw [hlog, run_rank_frame]
    by_cases hc : calm f = true ∧ 6 < g
    · rw [if_pos hc, if_pos hc]
      cases Run.rank uni argsort { s₁ with logs := s₁.logs ++ [⟨l, f, s₁.cma.elite.getD []⟩] } f <;> rfl
    · rw [if_neg hc, if_neg hc]

theorem genStep_popSize {fit : Nat → Vec n → Fit} {g : Nat} {r : Draw n} {s s' : Run n} {b : Bool}
    (h : genStep uni argsort G fit g r s = .ok (s', b)) : s'.cma.popSize = s.cma.popSize := by
  refine genStep_cma (P := fun c => c.popSize = s.cma.popSize) (fun c c' f hc hp => ?_) g r s s' b
    (fun c' f _ hc _ => ?_) h rfl
  · obtain ⟨_, _, _, _, rfl⟩ := rank_ok hc
    exact hp
  · obtain ⟨_, _, _, _, _, _, _, h6, _⟩ := update_ok hc
    exact h6

/-- C108: the generations of a search in other coordinates. -/
theorem runGens_frame {fit fit' : Nat → Vec n → Fit} (hf : ∀ g v, fit' g (T.point v) = fit g v)
    {draw : Nat → Draw n} (k g : Nat) (s : Run n) (hr : ∀ g, DrawOk s.cma.popSize (draw g)) :
    runGens uni argsort G fit' (fun g => T.draw (draw g)) k g (T.run s) =
      (runGens uni argsort G fit draw k g s).map T.run := by
  induction k generalizing g s with
  | zero => rfl
  | succ k ih =>
    rw [runGens, runGens, genStep_frame T hf g s (hr g)]
    cases h : genStep uni argsort G fit g (draw g) s with
    | error e => rfl
    | ok p =>
      obtain ⟨s', b⟩ := p
      cases b
      · exact ih (g + 1) s' (by rw [genStep_popSize h]; exact hr)
      · rfl

theorem initialize_frame {build build' : Build n}
    (hB : ∀ i v, build' i (T.point v) = T.point (build i v)) (c : Cma n) (z : Nat → Vec n) :
    Cma.initialize build' (fun i => T.deviate (z i)) (T.cma c) =
      T.cma (Cma.initialize build z c) := by
  have hE : (T.cma c).elite.getD [] = (c.elite.getD []).map T.point := by
    simp only [Frame.cma]
    cases c.elite <;> rfl
  unfold Cma.initialize
  dsimp only
  rw [hE]
  simp only [Frame.cma, List.map_append, List.map_map, List.length_map]
  congr 2
  · congr 1
    apply List.ext_getElem?
    intro i
    rw [List.getElem?_mapIdx, List.getElem?_map, List.getElem?_map, List.getElem?_mapIdx]
    cases (c.elite.getD [])[i]? with
    | none => rfl
    | some e => simp only [Option.map_some, hB]
  · apply List.map_congr_left
    intro i _
    have := sample_point T c.means c.covar (z i)
    simp only [Function.comp, ← hB, this]

/-- C108: a seed of a search in other coordinates: if the starting distribution, the random
deviates, the way agents are built and the fitness function are expressed in the new coordinates,
so are all agents evaluated, the elite of every generation, the final distribution and the vector
saved; the logged fitness is the same, and so is the generation the search stops in. -/
theorem runSeed_frame {fit fit' : Nat → Vec n → Fit} (hf : ∀ g v, fit' g (T.point v) = fit g v)
    {build build' : Build n} (hB : ∀ i v, build' i (T.point v) = T.point (build i v))
    {draw : Nat → Draw n} (z₁ z₂ : Nat → Vec n) (s : Run n)
    (hr : ∀ g, DrawOk s.cma.popSize (draw g)) :
    runSeed uni argsort G fit' (fun g => T.draw (draw g)) build' (fun i => T.deviate (z₁ i))
      (fun i => T.deviate (z₂ i)) (T.run s) =
      (runSeed uni argsort G fit draw build z₁ z₂ s).map T.run := by
  have hreset : Cma.reset build' (fun i => T.deviate (z₁ i)) (T.run s).cma =
      T.cma (Cma.reset build z₁ s.cma) := by
    unfold Cma.reset
    rw [← initialize_frame T hB]
    rfl
  unfold runSeed
  dsimp only
  rw [hreset, initialize_frame T hB]
  have hps : (Cma.initialize build z₂ (Cma.reset build z₁ s.cma)).popSize = s.cma.popSize := rfl
  generalize Cma.initialize build z₂ (Cma.reset build z₁ s.cma) = c at hps
  have hl : (T.cma c).population.length = c.population.length := by simp [Frame.cma]
  have hp : (T.cma c).popSize = c.popSize := rfl
  rw [hl, hp]
  by_cases h4 : c.population.length < min (eliteKeep c.popSize) 4
  · rw [if_pos h4, if_pos h4]; rfl
  rw [if_neg h4, if_neg h4]
  have hrun : ({ T.run s with cma := T.cma c } : Run n) = T.run { s with cma := c } := rfl
  rw [hrun, runGens_frame T hf G 0 _ (by dsimp only; rw [hps]; exact hr)]
  cases runGens uni argsort G fit draw G 0 { s with cma := c } with
  | error e => rfl
  | ok s' =>
    simp only [Except.map]
    by_cases hG : G = 0
    · rw [if_pos hG, if_pos hG]
    · rw [if_neg hG, if_neg hG]

end Coord

/-- C108: agents that keep the parameters they are given can be built in any coordinates. -/
theorem params_frame (T : Frame n) (i : Nat) (v : Vec n) :
    Build.params i (T.point v) = T.point (Build.params i v) := rfl

/-- C108: so can networks that keep their own weights, if these are expressed in the new
coordinates. -/
theorem cppn_frame (T : Frame n) (w : Nat → Vec n) (i : Nat) (v : Vec n) :
    Build.cppn (fun i => T.point (w i)) i (T.point v) = T.point (Build.cppn w i v) := rfl

theorem pattern_covar : absDiag (covarWeights (n := n) false) = (1 : Matrix (Fin n) (Fin n) ℝ) := by
  funext i j
  unfold absDiag covarWeights
  by_cases h : i = j
  · subst h
    simp
  · simp [h]

/-- C108: rotating (or reflecting) the parameter space of a pattern search about the first agent
does not change the object the search starts from: no direction is preferred. -/
theorem pattern_start_isotropic (T : Frame n) (hA : T.A * T.Aᵀ = 1) (popSize mode : Nat)
    (m₀ : Vec n) (hb : T.point m₀ = m₀) :
    T.cma (Cma.blank false popSize mode m₀) = Cma.blank false popSize mode m₀ := by
  have hs : T.spread (absDiag (covarWeights false)) = absDiag (covarWeights false) := by
    rw [pattern_covar]
    unfold Frame.spread
    exact (by rw [show Matrix.of (1 : Matrix (Fin n) (Fin n) ℝ) = 1 from rfl, Matrix.mul_one, hA] :
      T.A * Matrix.of (1 : Matrix (Fin n) (Fin n) ℝ) * T.Aᵀ = 1)
  unfold Cma.blank
  simp only [Frame.cma, hs, hb, List.map_nil, Option.map_none]

/-- Exchanging the first two parameters. -/
def swapTwo : Frame 2 where
  A := !![0, 1; 1, 0]
  inv := !![0, 1; 1, 0]
  b := 0
  left := by
    ext i j
    fin_cases i <;> fin_cases j <;> simp [Matrix.mul_apply]

/-- C108: a universe search does prefer a direction: it starts with a variance of 0.15 in the first
parameter and 0.000075 in the others. -/
theorem universe_start_isotropic_refuted (popSize mode : Nat) :
    swapTwo.A * swapTwo.Aᵀ = 1 ∧ swapTwo.point 0 = 0 ∧
    swapTwo.cma (Cma.blank true popSize mode 0) ≠ Cma.blank true popSize mode 0 := by
  refine ⟨?_, ?_, fun h => ?_⟩
  · ext i j
    fin_cases i <;> fin_cases j <;> simp [swapTwo, Matrix.mul_apply]
  · unfold Frame.point
    rw [Matrix.mulVec_zero]
    simp [swapTwo]
  · have h1 := congrFun (congrFun (congrArg Cma.startCovar h) 0) 0
    have e : ∀ C : Fin 2 → Fin 2 → ℝ, swapTwo.spread C 0 0 = C 1 1 := by
      intro C
      simp only [Frame.spread, swapTwo, Matrix.mul_apply, Fin.sum_univ_two]
      simp
    have h2 : absDiag (covarWeights true) 1 1 = absDiag (covarWeights (n := 2) true) 0 0 :=
      (e _).symm.trans h1
    unfold absDiag covarWeights at h2
    norm_num [abs_of_pos] at h2

/-! ## Examples -/

/-- A whole search in doubled coordinates. -/
noncomputable def doubled : Frame 1 where
  A := !![2]
  inv := !![1 / 2]
  b := fun _ => 3
  left := by
    ext i j
    fin_cases i; fin_cases j; simp [Matrix.mul_apply]

example : ∃ argsort : List Fit → List Nat, ∃ s' : Run 1, Spec.Argsort argsort ∧
    ByComparison argsort ∧
    runSeed true argsort 2 (fun _ _ => 0) (fun _ => driftDraw) .params (fun _ _ => 1)
      (fun _ _ => 1) ⟨driftState 0 none, [], none⟩ = .ok s' ∧
    runSeed true argsort 2 (fun _ _ => 0) (fun _ => doubled.draw driftDraw) .params
      (fun _ => doubled.deviate fun _ => 1) (fun _ => doubled.deviate fun _ => 1)
      (doubled.run ⟨driftState 0 none, [], none⟩) = .ok (doubled.run s') := by
  obtain ⟨argsort, ha, hb⟩ := argsort_byComparison
  obtain ⟨s', h1, _⟩ := two_generations ha
  refine ⟨argsort, s', ha, hb, h1, ?_⟩
  rw [Coord.runSeed_frame doubled (fit := fun _ _ => 0) (fun _ _ => rfl)
    (build := .params) (params_frame doubled) (draw := fun _ => driftDraw) (fun _ _ => 1)
    (fun _ _ => 1) _ (fun _ => driftDraw_ok), h1]
  rfl

example : doubled.point (fun _ => 1) = fun _ => 5 := by
  funext i
  fin_cases i
  simp [Frame.point, doubled, dotProduct]
  norm_num

example : DrawOk 1 driftDraw ∧ swapTwo.A * swapTwo.Aᵀ = 1 ∧ swapTwo.point 0 = 0 :=
  ⟨driftDraw_ok, (universe_start_isotropic_refuted 8 0).1, (universe_start_isotropic_refuted 8 0).2.1⟩

/-- Cubing the fitness keeps the ranking. -/
example : StrictMono fun x : ℝ => x ^ 3 := Odd.strictMono_pow (by decide)

example : SameSearch (⟨pairState, [], none⟩ : Run 1) ⟨pairState, [], none⟩ := ⟨rfl, rfl, rfl⟩

end Yuca
