import Verif.Model.Plot
import Verif.Props.Resume
import Verif.Props.EntropyMap
import Verif.Props.Gifs2
import Verif.Props.Config

/-!
# What the log of a search and its plots show (C124)
-/

namespace Yuca

variable {n : Nat} {C : Type}

/-! ## The four numbers of a generation -/

/-- The four numbers describe a list of fitness values: average, largest, smallest, root of the
mean squared deviation; all NaN if one of the values is. -/
def Spec.Summary (f : List Fit) (p : FitPoint) : Prop :=
  (⊤ ∈ f ∧ p = ⟨⊤, ⊤, ⊤, ⊤⟩) ∨
  ∃ (xs : List ℝ) (m M μ σ : ℝ), f = xs.map (fun x : ℝ => (x : Fit)) ∧ xs ≠ [] ∧ p = ⟨m, M, μ, σ⟩ ∧
    m * xs.length = xs.sum ∧ M ∈ xs ∧ (∀ x ∈ xs, x ≤ M) ∧ μ ∈ xs ∧ (∀ x ∈ xs, μ ≤ x) ∧
    0 ≤ σ ∧ σ ^ 2 * xs.length = (xs.map fun x => (x - m) ^ 2).sum

theorem numbers_of {f : List Fit} (h : ⊤ ∉ f) :
    f = (f.map fun v => v.untopD 0).map (fun x : ℝ => (x : Fit)) := by
  rw [List.map_map]
  conv_lhs => rw [← List.map_id f]
  refine List.map_congr_left fun v hv => ?_
  cases v with
  | none => exact absurd hv h
  | some x => rfl

/-- C124: the four numbers logged for a generation are what they are called. -/
theorem fit_point_summary {f : List Fit} {p : FitPoint} (h : fitPoint f = .ok p) :
    Spec.Summary f p := by
  unfold fitPoint at h
  split at h
  · cases h
  rename_i hne
  split at h
  · rename_i ht
    cases h
    exact Or.inl ⟨ht, rfl⟩
  · rename_i ht
    cases h
    right
    have hx : (f.map fun v => v.untopD 0) ≠ [] := fun e => hne (List.map_eq_nil_iff.1 e)
    have hpos : (0 : ℝ) < (f.map fun v => v.untopD 0).length := by
      exact_mod_cast List.length_pos_of_ne_nil hx
    refine ⟨f.map fun v => v.untopD 0, _, _, _, _, numbers_of ht, hx, rfl, ?_, ?_, ?_, ?_, ?_,
      Real.sqrt_nonneg _, ?_⟩
    · exact div_mul_cancel₀ _ hpos.ne'
    · exact (npMax_greatest hx).1
    · exact (npMax_greatest hx).2
    · exact (npMin_least hx).1
    · exact (npMin_least hx).2
    · rw [npStd, Real.sq_sqrt (div_nonneg (List.sum_nonneg ?_) hpos.le), div_mul_cancel₀ _ hpos.ne']
      intro y hy
      obtain ⟨x, _, rfl⟩ := List.mem_map.1 hy
      positivity

/-- Nothing else fails: the numbers exist for every population. -/
theorem fit_point_exists {f : List Fit} (h : f ≠ []) : ∃ p, fitPoint f = .ok p := by
  unfold fitPoint
  rw [if_neg h]
  split <;> exact ⟨_, rfl⟩

theorem sum_le_mul {xs : List ℝ} {M : ℝ} (h : ∀ x ∈ xs, x ≤ M) : xs.sum ≤ M * xs.length := by
  induction xs with
  | nil => simp
  | cons x xs ih =>
    have h1 := h x (List.mem_cons_self ..)
    have h2 := ih fun y hy => h y (List.mem_cons_of_mem _ hy)
    simp only [List.sum_cons, List.length_cons, Nat.cast_add, Nat.cast_one]
    linarith

theorem mul_le_sum {xs : List ℝ} {m : ℝ} (h : ∀ x ∈ xs, m ≤ x) : m * xs.length ≤ xs.sum := by
  induction xs with
  | nil => simp
  | cons x xs ih =>
    have h1 := h x (List.mem_cons_self ..)
    have h2 := ih fun y hy => h y (List.mem_cons_of_mem _ hy)
    simp only [List.sum_cons, List.length_cons, Nat.cast_add, Nat.cast_one]
    linarith

/-- The inequality of Bhatia and Davis, before it is divided by the length. -/
theorem spread_sum {xs : List ℝ} {m M μ : ℝ} (hM : ∀ x ∈ xs, x ≤ M) (hμ : ∀ x ∈ xs, μ ≤ x) :
    (xs.map fun x => (x - m) ^ 2).sum ≤
      ((M - m) * (m - μ)) * xs.length + (M + μ - 2 * m) * (xs.sum - m * xs.length) := by
  induction xs with
  | nil => simp
  | cons x xs ih =>
    have h1 := hM x (List.mem_cons_self ..)
    have h2 := hμ x (List.mem_cons_self ..)
    have h3 := ih (fun y hy => hM y (List.mem_cons_of_mem _ hy))
      (fun y hy => hμ y (List.mem_cons_of_mem _ hy))
    have h4 := mul_nonneg (sub_nonneg.2 h1) (sub_nonneg.2 h2)
    simp only [List.map_cons, List.sum_cons, List.length_cons, Nat.cast_add, Nat.cast_one]
    nlinarith

/-- C124: the line of the mean runs between the lines of the smallest and the largest fitness, and
the standard deviation is at most the geometric mean of its distances to the two: hence the band
leaves the space between the lines on at most one side. -/
theorem curves_ordered {f : List Fit} {p : FitPoint} (h : Spec.Summary f p) (hnum : ⊤ ∉ f) :
    ∃ m M μ σ : ℝ, p = ⟨m, M, μ, σ⟩ ∧ μ ≤ m ∧ m ≤ M ∧ σ ^ 2 ≤ (M - m) * (m - μ) ∧
      (m + σ ≤ M ∨ μ ≤ m - σ) := by
  rcases h with ⟨ht, _⟩ | ⟨xs, m, M, μ, σ, rfl, hne, rfl, hm, hM, hM', hμ, hμ', hσ, hs⟩
  · exact absurd ht hnum
  have hpos : (0 : ℝ) < xs.length := by exact_mod_cast List.length_pos_of_ne_nil hne
  have h1 : μ ≤ m := le_of_mul_le_mul_right (by rw [hm]; exact mul_le_sum hμ') hpos
  have h2 : m ≤ M := le_of_mul_le_mul_right (by rw [hm]; exact sum_le_mul hM') hpos
  have h3 : σ ^ 2 ≤ (M - m) * (m - μ) := by
    refine le_of_mul_le_mul_right ?_ hpos
    rw [hs]
    have := spread_sum (m := m) hM' hμ'
    rw [hm, sub_self, mul_zero, add_zero] at this
    exact this
  refine ⟨m, M, μ, σ, rfl, h1, h2, h3, ?_⟩
  by_contra hc
  push Not at hc
  nlinarith [hc.1, hc.2]

/-- C124: a generation whose agents are equally fit has a band of no width. -/
theorem band_closed {f : List Fit} {m M μ σ : ℝ} (h : Spec.Summary f ⟨m, M, μ, σ⟩) :
    σ = 0 ↔ μ = M := by
  rcases h with ⟨_, h⟩ | ⟨xs, m', M', μ', σ', rfl, hne, hp, hm, hM, hM', hμ, hμ', hσ, hs⟩
  · cases h
  cases hp
  have hpos : (0 : ℝ) < xs.length := by exact_mod_cast List.length_pos_of_ne_nil hne
  constructor
  · rintro rfl
    have hz : (xs.map fun x => (x - m) ^ 2).sum = 0 := by rw [← hs]; ring
    have all : ∀ x ∈ xs, x = m := by
      have key : ∀ ys : List ℝ, (ys.map fun x => (x - m) ^ 2).sum = 0 → ∀ x ∈ ys, x = m := by
        intro ys
        induction ys with
        | nil => intro _ x hx; cases hx
        | cons y ys ih =>
          intro h0 x hx
          rw [List.map_cons, List.sum_cons] at h0
          have hr : 0 ≤ (ys.map fun x => (x - m) ^ 2).sum := List.sum_nonneg fun z hz => by
            obtain ⟨w, _, rfl⟩ := List.mem_map.1 hz
            positivity
          have hy : (y - m) ^ 2 = 0 := by nlinarith [sq_nonneg (y - m)]
          rcases List.mem_cons.1 hx with rfl | hx
          · nlinarith [pow_eq_zero_iff (two_ne_zero) |>.1 hy]
          · exact ih (by nlinarith [sq_nonneg (y - m)]) x hx
      exact key xs hz
    rw [all _ hM, all _ hμ]
  · rintro rfl
    have h1 : μ ≤ m := le_of_mul_le_mul_right (by rw [hm]; exact mul_le_sum hμ') hpos
    have h2 : m ≤ μ := le_of_mul_le_mul_right (by rw [hm]; exact sum_le_mul hM') hpos
    have hmm : m = μ := le_antisymm h2 h1
    have := spread_sum (m := m) hM' hμ'
    rw [← hs, hm, sub_self, mul_zero, add_zero, hmm, sub_self, zero_mul, zero_mul] at this
    have : σ ^ 2 ≤ 0 := by
      by_contra hc
      push Not at hc
      nlinarith [mul_pos hc hpos]
    nlinarith [pow_eq_zero_iff (two_ne_zero) |>.1 (le_antisymm this (sq_nonneg σ))]

/-- C124, refuted: the band can reach above the largest fitness: three agents with fitness 1 and
one with 0. -/
theorem band_above_refuted :
    ∃ m M μ σ : ℝ, fitPoint [((0 : ℝ) : Fit), ((1 : ℝ) : Fit), ((1 : ℝ) : Fit), ((1 : ℝ) : Fit)] =
      .ok ⟨m, M, μ, σ⟩ ∧ M < m + σ := by
  obtain ⟨p, hp⟩ := fit_point_exists (f := [((0 : ℝ) : Fit), ((1 : ℝ) : Fit), ((1 : ℝ) : Fit),
    ((1 : ℝ) : Fit)]) (by simp)
  rcases fit_point_summary hp with ⟨ht, _⟩ | ⟨xs, m, M, μ, σ, hf, hne, rfl, hm, hM, _, _, _, hσ, hs⟩
  · simp at ht
  have hx : xs = [0, 1, 1, 1] := by
    have : ([0, 1, 1, 1] : List ℝ).map (fun x : ℝ => (x : Fit)) = xs.map (fun x : ℝ => (x : Fit)) :=
      hf
    exact (List.map_injective_iff.2 (fun a b h => WithTop.coe_injective h) this).symm
  subst hx
  refine ⟨m, M, μ, σ, hp, ?_⟩
  norm_num at hm hM hs
  have hmv : m = 3 / 4 := by linarith
  subst hmv
  have hMv : M ≤ 1 := by rcases hM with rfl | rfl <;> norm_num
  have : 1 / 4 < σ := by
    by_contra hc
    push Not at hc
    nlinarith
  linarith

/-! ## What is recorded -/

/-- `q'` is `q` with one entry for each of the generations `ls`, in order: the numbers of the
fitness, the configs of the elite, and the elite itself (a search for patterns keeps the last). -/
structure Spec.Records (uni : Bool) (configs : List (Vec n) → Except PyErr (List C))
    (ls : List (GenLog n)) (q q' : SearchLog C) : Prop where
  points : ∃ ps, q'.points = q.points ++ ps ∧
    List.Forall₂ (fun (l : GenLog n) p => fitPoint l.fitness = .ok p) ls ps
  configs : ∃ cs, q'.eliteConfigs = q.eliteConfigs ++ cs ∧
    List.Forall₂ (fun (l : GenLog n) c => configs l.elite = .ok c) ls cs
  elite : q'.eliteParams = if uni then q.eliteParams ++ ls.map (fun l => ⟨n, l.elite⟩)
    else match ls.getLast? with
      | none => q.eliteParams
      | some l => [⟨n, l.elite⟩]

theorem records_nil (uni : Bool) (configs : List (Vec n) → Except PyErr (List C))
    (q : SearchLog C) : Spec.Records uni configs [] q q where
  points := ⟨[], by simp, .nil⟩
  configs := ⟨[], by simp, .nil⟩
  elite := by cases uni <;> simp

theorem records_append {uni : Bool} {configs : List (Vec n) → Except PyErr (List C)}
    {ls ls' : List (GenLog n)} {q q' q'' : SearchLog C} (h : Spec.Records uni configs ls q q')
    (h' : Spec.Records uni configs ls' q' q'') : Spec.Records uni configs (ls ++ ls') q q'' := by
  obtain ⟨ps, p1, p2⟩ := h.points
  obtain ⟨ps', p1', p2'⟩ := h'.points
  obtain ⟨cs, c1, c2⟩ := h.configs
  obtain ⟨cs', c1', c2'⟩ := h'.configs
  refine ⟨⟨ps ++ ps', by rw [p1', p1, List.append_assoc], List.rel_append p2 p2'⟩,
    ⟨cs ++ cs', by rw [c1', c1, List.append_assoc], List.rel_append c2 c2'⟩, ?_⟩
  rw [h'.elite, h.elite]
  cases uni with
  | true => simp
  | false =>
    simp only [Bool.false_eq_true, if_false]
    rw [List.getLast?_append]
    cases ls'.getLast? <;> rfl

variable {uni : Bool} {argsort : List Fit → List Nat} {G : Nat} {x : SeedInput n}
  {configs : List (Vec n) → Except PyErr (List C)} {name : Str}

theorem record_ok {l : GenLog n} {q q' : SearchLog C} {dir dir' : Option (LogDir C)}
    (h : record uni configs name l q dir = (dir', .ok q')) :
    Spec.Records uni configs [l] q q' ∧ ∃ d, dir = some d ∧ dir' = some (d.save name q') := by
  unfold record at h
  split at h
  · cases h
  rename_i p hp
  split at h
  · cases h
  rename_i cs hc
  split at h
  · cases h
  cases h
  refine ⟨⟨⟨[p], rfl, .cons hp .nil⟩, ⟨[cs], rfl, .cons hc .nil⟩, ?_⟩, _, rfl, rfl⟩
  cases uni <;> rfl

theorem save_save (d : LogDir C) (name : Str) (q q' : SearchLog C) :
    (d.save name q).save name q' = d.save name q' := by
  unfold LogDir.save
  simp [List.filter_append, List.filter_filter]

theorem read_save (d : LogDir C) (name other : Str) (q : SearchLog C) :
    (d.save name q).read other = if other = name then some q else d.read other := by
  unfold LogDir.save LogDir.read
  rw [List.find?_append, List.find?_filter]
  by_cases h : other = name
  · subst h
    rw [if_pos rfl]
    have : d.find? (fun f => decide (decide (f.1 ≠ other) = true ∧ decide (f.1 = other) = true)) = none := by
      rw [List.find?_eq_none]
      intro f _ hf
      simp at hf
    rw [this]
    simp
  · rw [if_neg h]
    have : (fun f : Str × SearchLog C =>
        decide (decide (f.1 ≠ name) = true ∧ decide (f.1 = other) = true)) =
        fun f => decide (f.1 = other) := by
      funext f
      by_cases hf : f.1 = other
      · simp [hf, h]
      · simp [hf]
    simp only [this]
    cases d.find? (fun f => decide (f.1 = other)) with
    | some f => rfl
    | none => simp [Ne.symm h]

/-- The record of the generations of one seed: the run is the one without the log, every generation
has its entry, and the file is the log as it stands after the last of them. -/
theorem logGens_ok (k g : Nat) (s s' : Run n) (q q' : SearchLog C) (dir dir' : Option (LogDir C))
    (h : logGens uni argsort G x configs name k g s q dir = (dir', .ok (s', q'))) :
    runGens uni argsort G x.fit x.draw k g s = .ok s' ∧
    ∃ ls, s'.logs = s.logs ++ ls ∧ ls.length ≤ k ∧ (ls = [] ↔ k = 0) ∧
      Spec.Records uni configs ls q q' ∧
      (ls = [] ∧ dir' = dir ∨ ∃ d, dir = some d ∧ dir' = some (d.save name q')) := by
  induction k generalizing g s q dir with
  | zero =>
    cases h
    exact ⟨rfl, [], by simp, by simp, by simp, records_nil _ _ _, Or.inl ⟨rfl, rfl⟩⟩
  | succ k ih =>
    rw [logGens] at h
    split at h
    · cases h
    rename_i s₁ stop hg
    obtain ⟨l, hl, _⟩ := log_step _ _ _ _ _ hg
    rw [show s₁.logs.getLast? = some l by rw [hl]; simp] at h
    dsimp only at h
    split at h
    · cases h
    rename_i dir₁ q₁ hr
    obtain ⟨hrec, d, rfl, rfl⟩ := record_ok hr
    rw [runGens, hg]
    cases stop with
    | true =>
      rw [if_pos rfl] at h
      cases h
      exact ⟨rfl, [l], hl, by simp, by simp, hrec, Or.inr ⟨d, rfl, rfl⟩⟩
    | false =>
      rw [if_neg (by simp)] at h
      obtain ⟨hrun, ls, e1, e2, e3, e4, e5⟩ := ih _ _ _ _ h
      refine ⟨hrun, l :: ls, by rw [e1, hl]; simp, by simp; omega, by simp, records_append hrec e4,
        Or.inr ⟨d, rfl, ?_⟩⟩
      rcases e5 with ⟨rfl, rfl⟩ | ⟨d', hd, rfl⟩
      · have hq : q' = q₁ := by
          obtain ⟨ps, p1, p2⟩ := e4.points
          obtain ⟨cs, c1, c2⟩ := e4.configs
          have p3 := e4.elite
          cases p2
          cases c2
          cases q'; cases q₁
          simp only [List.append_nil] at p1 c1
          cases p1; cases c1
          cases uni <;> simp at p3 <;> cases p3 <;> rfl
        rw [hq]
      · cases hd
        rw [save_save]

/-- C124: a generation that fails leaves the log of those before it. -/
theorem log_survives (k g : Nat) (s : Run n) (q : SearchLog C) (dir dir' : Option (LogDir C))
    (e : PyErr) (h : logGens uni argsort G x configs name k g s q dir = (dir', .error e)) :
    dir' = dir ∨ ∃ d q' ls, dir = some d ∧ dir' = some (d.save name q') ∧ ls ≠ [] ∧
      ls.length < k ∧ Spec.Records uni configs ls q q' ∧
      ∃ s', runGens uni argsort G x.fit x.draw ls.length g s = .ok s' ∧ s'.logs = s.logs ++ ls := by
  induction k generalizing g s q dir with
  | zero => cases h
  | succ k ih =>
    rw [logGens] at h
    split at h
    · cases h; exact Or.inl rfl
    rename_i s₁ stop hg
    obtain ⟨l, hl, _⟩ := log_step _ _ _ _ _ hg
    rw [show s₁.logs.getLast? = some l by rw [hl]; simp] at h
    dsimp only at h
    split at h
    · rename_i dir₁ e₁ hr
      cases h
      left
      unfold record at hr
      split at hr
      · cases hr; rfl
      split at hr
      · cases hr; rfl
      split at hr <;> cases hr
      rfl
    rename_i dir₁ q₁ hr
    obtain ⟨hrec, d, rfl, rfl⟩ := record_ok hr
    cases stop with
    | true => rw [if_pos rfl] at h; cases h
    | false =>
      rw [if_neg (by simp)] at h
      have h1 : runGens uni argsort G x.fit x.draw 1 g s = .ok s₁ := by
        rw [runGens, hg]; rfl
      right
      rcases ih _ _ _ _ h with rfl | ⟨d', q', ls, hd, rfl, hne, hlen, hrec', s', hrun, hlogs⟩
      · refine ⟨d, q₁, [l], rfl, rfl, by simp, ?_, hrec, s₁, h1, hl⟩
        cases k with
        | zero => cases h
        | succ k => simp
      · cases hd
        refine ⟨d, q', l :: ls, rfl, by rw [save_save], by simp, by simp; omega,
          records_append hrec hrec', s', ?_, by rw [hlogs, hl]; simp⟩
        rw [List.length_cons, runGens, hg]
        exact hrun

/-- A seed with its log is the seed without it. -/
theorem logSeed_ok (s s' : Run n) (q q' : SearchLog C) (dir dir' : Option (LogDir C))
    (h : logSeed uni argsort G x configs name s q dir = (dir', .ok (s', q'))) :
    runSeed uni argsort G x.fit x.draw x.build x.noise₁ x.noise₂ s = .ok s' ∧
    ∃ ls d, s'.logs = s.logs ++ ls ∧ ls.length ≤ G ∧ ls ≠ [] ∧ Spec.Records uni configs ls q q' ∧
      dir = some d ∧ dir' = some (d.save name q') := by
  unfold logSeed at h
  dsimp only at h
  split at h
  · cases h
  rename_i hp
  split at h
  · cases h
  rename_i dir₁ r hg
  split at h
  · cases h
  rename_i hG
  cases h
  obtain ⟨hrun, ls, e1, e2, e3, e4, e5⟩ := logGens_ok _ _ _ _ _ _ _ _ hg
  have hne : ls ≠ [] := fun e => hG (e3.1 e)
  refine ⟨?_, ls, ?_⟩
  · unfold runSeed
    dsimp only
    rw [if_neg hp, hrun]
    dsimp only
    rw [if_neg hG]
  · rcases e5 with ⟨e5, _⟩ | ⟨d, rfl, rfl⟩
    · exact absurd e5 hne
    · exact ⟨d, e1, e2, hne, e4, rfl, rfl⟩

/-- The seeds of a search, one after the other, with the generations each of them logged. -/
inductive Spec.Ran (uni : Bool) (argsort : List Fit → List Nat) (G : Nat) :
    List (Nat × SeedInput n) → Run n → List (List (GenLog n)) → Run n → Prop where
  | nil (s : Run n) : Spec.Ran uni argsort G [] s [] s
  | cons {seed : Nat} {x : SeedInput n} {rest : List (Nat × SeedInput n)} {s s₁ s' : Run n}
      {b : List (GenLog n)} {blocks : List (List (GenLog n))}
      (run : runSeed uni argsort G x.fit x.draw x.build x.noise₁ x.noise₂ s = .ok s₁)
      (logged : s₁.logs = s.logs ++ b) (some : b ≠ []) (most : b.length ≤ G)
      (later : Spec.Ran uni argsort G rest s₁ blocks s') :
      Spec.Ran uni argsort G ((seed, x) :: rest) s (b :: blocks) s'

theorem ran_length {seeds : List (Nat × SeedInput n)} {s s' : Run n}
    {blocks : List (List (GenLog n))} (h : Spec.Ran uni argsort G seeds s blocks s') :
    blocks.length = seeds.length := by
  induction h with
  | nil => rfl
  | cons _ _ _ _ _ ih => rw [List.length_cons, List.length_cons, ih]

theorem ran_logs {seeds : List (Nat × SeedInput n)} {s s' : Run n}
    {blocks : List (List (GenLog n))} (h : Spec.Ran uni argsort G seeds s blocks s') :
    s'.logs = s.logs ++ blocks.flatten := by
  induction h with
  | nil => simp
  | cons _ hl _ _ _ ih => rw [ih, hl]; simp

theorem ran_some {seeds : List (Nat × SeedInput n)} {s s' : Run n}
    {blocks : List (List (GenLog n))} (h : Spec.Ran uni argsort G seeds s blocks s') :
    ∀ b ∈ blocks, b ≠ [] := by
  induction h with
  | nil => intro b hb; cases hb
  | cons _ _ h3 _ _ ih =>
    intro b hb
    rcases List.mem_cons.1 hb with rfl | hb
    · exact h3
    · exact ih b hb

theorem logName_inj (exp : Str) {a b : Nat} (h : logName exp a = logName exp b) : a = b := by
  unfold logName at h
  exact decimal_inj (List.append_cancel_right (List.append_cancel_left
    (List.append_cancel_left h)))

/-- C124: the file of every seed holds the generations of all seeds up to and including it, unless
a later seed is the same number, which overwrites it.  No other file changes. -/
theorem seeds_accumulate (exp : Str) (seeds : List (Nat × SeedInput n)) (s s' : Run n)
    (q q' : SearchLog C) (d : LogDir C) (dir' : Option (LogDir C))
    (h : logSeeds uni argsort G configs exp seeds s q (some d) = (dir', .ok (s', q'))) :
    ∃ (blocks : List (List (GenLog n))) (d' : LogDir C), dir' = some d' ∧
      Spec.Ran uni argsort G seeds s blocks s' ∧
      Spec.Records uni configs blocks.flatten q q' ∧
      (∀ i seed, (seeds.map Prod.fst)[i]? = some seed →
        (∀ j, i < j → (seeds.map Prod.fst)[j]? ≠ some seed) →
        ∃ qi, d'.read (logName exp seed) = some qi ∧
          Spec.Records uni configs (blocks.take (i + 1)).flatten q qi) ∧
      ∀ f, (∀ seed ∈ seeds.map Prod.fst, f ≠ logName exp seed) → d'.read f = d.read f := by
  induction seeds generalizing s q d with
  | nil =>
    cases h
    exact ⟨[], d, rfl, .nil _, records_nil _ _ _, by simp, fun _ _ => rfl⟩
  | cons sx rest ih =>
    obtain ⟨a, x⟩ := sx
    rw [logSeeds] at h
    split at h
    · cases h
    rename_i dir₁ s₁ q₁ hs
    obtain ⟨hrun, ls, d₀, e1, e2, e3, e4, hd, rfl⟩ := logSeed_ok _ _ _ _ _ _ hs
    cases hd
    obtain ⟨blocks, d', rfl, hran, hrec, hfiles, hother⟩ := ih _ _ _ h
    refine ⟨ls :: blocks, d', rfl, .cons hrun e1 e3 e2 hran, ?_, ?_, ?_⟩
    · rw [List.flatten_cons]
      exact records_append e4 hrec
    · intro i seed hi hlast
      cases i with
      | zero =>
        simp only [List.map_cons, List.getElem?_cons_zero, Option.some.injEq] at hi
        subst hi
        refine ⟨q₁, ?_, ?_⟩
        · rw [hother _ ?_, read_save, if_pos rfl]
          intro seed hseed heq
          obtain rfl := logName_inj exp heq
          obtain ⟨j, hj⟩ := List.mem_iff_getElem?.1 hseed
          exact hlast (j + 1) (by omega) (by simpa using hj)
        · simpa using e4
      | succ i =>
        obtain ⟨qi, h1, h2⟩ := hfiles i seed (by simpa using hi) fun j hj hj' =>
          hlast (j + 1) (by omega) (by simpa using hj')
        refine ⟨qi, h1, ?_⟩
        rw [List.take_succ_cons, List.flatten_cons]
        exact records_append e4 h2
    · intro f hf
      rw [hother f fun seed hs => hf seed (by simp at hs ⊢; exact Or.inr hs), read_save,
        if_neg (hf a (by simp))]

theorem forall₂_prefix {α β : Type} {R : α → β → Prop} (hR : ∀ a b b', R a b → R a b' → b = b')
    {ls ls' : List α} {ps ps' : List β} (h : List.Forall₂ R ls ps)
    (h' : List.Forall₂ R (ls ++ ls') ps') : ps <+: ps' := by
  induction h generalizing ps' with
  | nil => exact List.nil_prefix
  | cons hab _ ih =>
    cases h' with
    | cons hab' hrest =>
      obtain rfl := hR _ _ _ hab hab'
      exact List.cons_prefix_cons.2 ⟨rfl, ih hrest⟩

/-- C124, refuted: the curves in the file of a seed are not those of that seed alone: they begin
with everything the files of the earlier seeds show, and go on with at least one point. -/
theorem later_seed_refuted (exp : Str) (seeds : List (Nat × SeedInput n)) (s s' : Run n)
    (q' : SearchLog C) (d : LogDir C) (dir' : Option (LogDir C))
    (h : logSeeds uni argsort G configs exp seeds s .empty (some d) = (dir', .ok (s', q')))
    (hnd : (seeds.map Prod.fst).Nodup) (i j a b : Nat) (hij : i < j)
    (ha : (seeds.map Prod.fst)[i]? = some a) (hb : (seeds.map Prod.fst)[j]? = some b) :
    ∃ d' qa qb, dir' = some d' ∧ d'.read (logName exp a) = some qa ∧
      d'.read (logName exp b) = some qb ∧ qa.points <+: qb.points ∧
      i < qa.points.length ∧ qa.points.length < qb.points.length := by
  obtain ⟨blocks, d', rfl, hran, _, hfiles, _⟩ := seeds_accumulate exp seeds s s' _ _ _ _ h
  have hlast : ∀ i a : Nat, (seeds.map Prod.fst)[i]? = some a →
      ∀ j, i < j → (seeds.map Prod.fst)[j]? ≠ some a := by
    intro i a hi j hij hj
    have hil := (List.getElem?_eq_some_iff.1 hi)
    have hjl := (List.getElem?_eq_some_iff.1 hj)
    obtain ⟨h1, h2⟩ := hil
    obtain ⟨h3, h4⟩ := hjl
    have := (List.Nodup.getElem_inj_iff hnd (hi := h1) (hj := h3)).1 (h2.trans h4.symm)
    omega
  obtain ⟨qa, r1, r2⟩ := hfiles i a ha (hlast i a ha)
  obtain ⟨qb, r3, r4⟩ := hfiles j b hb (hlast j b hb)
  obtain ⟨ps, p1, p2⟩ := r2.points
  obtain ⟨ps', p1', p2'⟩ := r4.points
  have hjb : j < blocks.length := by
    rw [ran_length hran]
    have := (List.getElem?_eq_some_iff.1 hb).1
    simpa using this
  have hne := ran_some hran
  have hsplit : blocks.take (j + 1) = blocks.take (i + 1) ++ (blocks.drop (i + 1)).take (j - i) := by
    rw [show j + 1 = (i + 1) + (j - i) by omega, List.take_add]
  rw [hsplit, List.flatten_append] at p2'
  have hpre : ps <+: ps' := forall₂_prefix (fun l p p' h1 h2 => by rw [h1] at h2; cases h2; rfl) p2 p2'
  have hcount : ∀ bs : List (List (GenLog n)), (∀ b ∈ bs, b ≠ []) → bs.length ≤ bs.flatten.length := by
    intro bs
    induction bs with
    | nil => intro _; simp
    | cons b bs ih =>
      intro hb
      have h1 := List.length_pos_of_ne_nil (hb b (List.mem_cons_self ..))
      have h2 := ih fun c hc => hb c (List.mem_cons_of_mem _ hc)
      rw [List.flatten_cons, List.length_append, List.length_cons]
      omega
  have hlen := p2.length_eq
  have hlen' := p2'.length_eq
  have h1 := hcount (blocks.take (i + 1)) fun b hb => hne b (List.mem_of_mem_take hb)
  have h2 := hcount ((blocks.drop (i + 1)).take (j - i)) fun b hb =>
    hne b (List.mem_of_mem_drop (List.mem_of_mem_take hb))
  rw [List.length_take] at h1
  rw [List.length_take, List.length_drop] at h2
  rw [List.length_append] at hlen'
  refine ⟨d', qa, qb, rfl, r1, r3, ?_, ?_, ?_⟩
  · rw [p1, p1']
    exact hpre
  · rw [p1, List.length_append]
    show i < ([] : List FitPoint).length + _
    rw [List.length_nil]
    omega
  · rw [p1, p1', List.length_append, List.length_append]
    omega

/-- C124: with a single seed the file holds exactly the generations of that seed. -/
theorem single_seed (exp : Str) (seed : Nat) (x : SeedInput n) (s s' : Run n) (q' : SearchLog C)
    (d : LogDir C) (dir' : Option (LogDir C))
    (h : logSeeds uni argsort G configs exp [(seed, x)] s .empty (some d) = (dir', .ok (s', q'))) :
    ∃ ls d', s'.logs = s.logs ++ ls ∧ ls ≠ [] ∧ ls.length ≤ G ∧
      Spec.Records uni configs ls .empty q' ∧ dir' = some d' ∧
      d'.read (logName exp seed) = some q' ∧ q'.points.length = ls.length := by
  rw [logSeeds] at h
  split at h
  · cases h
  rename_i dir₁ s₁ q₁ hs
  obtain ⟨_, ls, d₀, e1, e2, e3, e4, hd, rfl⟩ := logSeed_ok _ _ _ _ _ _ hs
  cases hd
  cases h
  refine ⟨ls, _, e1, e3, e2, e4, rfl, by rw [read_save, if_pos rfl], ?_⟩
  obtain ⟨ps, p1, p2⟩ := e4.points
  rw [p1, p2.length_eq]
  rfl

/-- C124, refuted: a seed given twice has one file, with the generations of both runs. -/
theorem repeated_seed_refuted (exp : Str) (seed : Nat) (x y : SeedInput n) (s s' : Run n)
    (q' : SearchLog C) (d : LogDir C) (dir' : Option (LogDir C))
    (h : logSeeds uni argsort G configs exp [(seed, x), (seed, y)] s .empty (some d) =
      (dir', .ok (s', q'))) :
    ∃ b₁ b₂ d' q, Spec.Ran uni argsort G [(seed, x), (seed, y)] s [b₁, b₂] s' ∧ dir' = some d' ∧
      d'.read (logName exp seed) = some q ∧ Spec.Records uni configs (b₁ ++ b₂) .empty q := by
  obtain ⟨blocks, d', rfl, hran, _, hfiles, _⟩ := seeds_accumulate exp _ s s' _ _ _ _ h
  have hl := ran_length hran
  obtain ⟨b₁, b₂, rfl⟩ := List.length_eq_two.1 hl
  obtain ⟨q, h1, h2⟩ := hfiles 1 seed rfl fun j hj hj' => by
    have := (List.getElem?_eq_some_iff.1 hj').1
    simp at this
    omega
  exact ⟨b₁, b₂, d', q, hran, rfl, h1, by simpa using h2⟩

/-- C124: without a directory `./logs` nothing is recorded and no search comes to its end. -/
theorem no_log_directory (exp : Str) (seeds : List (Nat × SeedInput n)) (hs : seeds ≠ [])
    (s : Run n) (q : SearchLog C) :
    ∃ e, logSeeds uni argsort G configs exp seeds s q none = (none, .error e) := by
  obtain ⟨⟨a, x⟩, rest, rfl⟩ := List.exists_cons_of_ne_nil hs
  have hgens : ∀ k g s, 0 < k → ∃ e, logGens uni argsort G x configs (logName exp a) k g s q none =
      (none, .error e) := by
    intro k g s hk
    obtain ⟨k, rfl⟩ := Nat.exists_eq_succ_of_ne_zero hk.ne'
    rw [logGens]
    split
    · exact ⟨_, rfl⟩
    split
    · exact ⟨_, rfl⟩
    unfold record
    split
    · rename_i h
      split at h
      · cases h; exact ⟨_, rfl⟩
      split at h <;> cases h <;> exact ⟨_, rfl⟩
    · rename_i h
      split at h
      · cases h
      split at h <;> cases h
  have hseed : ∃ e, logSeed uni argsort G x configs (logName exp a) s q none = (none, .error e) := by
    unfold logSeed
    dsimp only
    split
    · exact ⟨_, rfl⟩
    rcases Nat.eq_zero_or_pos G with rfl | hG
    · exact ⟨_, rfl⟩
    · obtain ⟨e, he⟩ := hgens G 0 _ hG
      rw [he]
      exact ⟨e, rfl⟩
  obtain ⟨e, he⟩ := hseed
  rw [logSeeds, he]
  exact ⟨e, rfl⟩

/-! ## The figures -/

/-- The number of generations of the seeds before the `i`-th. -/
def Spec.before (blocks : List (List (GenLog n))) (i : Nat) : Nat :=
  ((blocks.take i).map List.length).sum

theorem flatten_block {α : Type} (bs : List (List α)) (i g : Nat) (b : List α)
    (hb : bs[i]? = some b) (hg : g < b.length) (k : Nat) (hk : i < k) :
    (bs.take k).flatten[((bs.take i).map List.length).sum + g]? = b[g]? := by
  induction bs generalizing i k with
  | nil => simp at hb
  | cons c bs ih =>
    obtain ⟨k, rfl⟩ := Nat.exists_eq_succ_of_ne_zero (by omega : k ≠ 0)
    cases i with
    | zero =>
      simp only [List.getElem?_cons_zero, Option.some.injEq] at hb
      subst hb
      simp [List.getElem?_append_left hg]
    | succ i =>
      rw [List.take_succ_cons, List.take_succ_cons, List.flatten_cons, List.map_cons, List.sum_cons,
        List.getElem?_append_right (by omega)]
      rw [show c.length + ((bs.take i).map List.length).sum + g - c.length =
        ((bs.take i).map List.length).sum + g by omega]
      exact ih i (by simpa using hb) k (by omega)

/-- C124: the figure of the fitness has three lines and the band; generation `g` of the `i`-th
seed is drawn at the number of generations of all earlier seeds plus `g`. -/
theorem fitness_figure_points {A : Type} {ls : List (GenLog n)} {q q' : SearchLog C}
    (h : Spec.Records uni configs ls q q') (hq : q.points = []) :
    ∃ mean max min band,
      (fitnessFigure q'.points : Figure A) =
        .fitness [⟨"mean fitness".toList, mean⟩, ⟨"mean fitness".toList, max⟩,
          ⟨"mean fitness".toList, min⟩] band ∧
      mean.length = ls.length ∧ max.length = ls.length ∧ min.length = ls.length ∧
      band.length = ls.length ∧
      ∀ (k : Nat) (l : GenLog n), ls[k]? = some l → ∃ p, Spec.Summary l.fitness p ∧ mean[k]? = some (k, p.mean) ∧
        max[k]? = some (k, p.max) ∧ min[k]? = some (k, p.min) ∧ band[k]? = some (k, p.band) := by
  obtain ⟨ps, p1, p2⟩ := h.points
  rw [hq, List.nil_append] at p1
  have hlen := p2.length_eq
  have hget : ∀ {β : Type} (f : FitPoint → β) (k : Nat) (p : FitPoint), ps[k]? = some p →
      ((List.range q'.points.length).zip (q'.points.map f))[k]? = some (k, f p) := by
    intro β f k p hp
    have := (List.getElem?_eq_some_iff.1 hp).1
    rw [p1, List.getElem?_zip_eq_some, List.getElem?_map, hp]
    simp [this]
  refine ⟨_, _, _, _, rfl, ?_, ?_, ?_, ?_, ?_⟩
  · simp [p1, hlen]
  · simp [p1, hlen]
  · simp [p1, hlen]
  · simp [p1, hlen]
  · intro k l hl
    have hk := (List.getElem?_eq_some_iff.1 hl).1
    have hp : ps[k]? = some (ps[k]'(by omega)) := List.getElem?_eq_getElem _
    refine ⟨ps[k]'(by omega), fit_point_summary ?_, hget _ _ _ hp, hget _ _ _ hp, hget _ _ _ hp,
      hget _ _ _ hp⟩
    have := (List.forall₂_iff_get.1 p2).2 k hk (by omega)
    simp only [List.get_eq_getElem] at this
    rw [(List.getElem?_eq_some_iff.1 hl).2] at this
    exact this

/-- C124: generation `g` of the `i`-th seed is drawn, in the file of that seed, at the number of
generations all earlier seeds had together plus `g`, and not at `g`. -/
theorem generation_drawn_at {A : Type} (exp : Str) (seeds : List (Nat × SeedInput n)) (s s' : Run n)
    (q' : SearchLog C) (d : LogDir C) (dir' : Option (LogDir C))
    (h : logSeeds uni argsort G configs exp seeds s .empty (some d) = (dir', .ok (s', q'))) :
    ∃ (blocks : List (List (GenLog n))) (d' : LogDir C), dir' = some d' ∧
      Spec.Ran uni argsort G seeds s blocks s' ∧
      ∀ i seed b g l, (seeds.map Prod.fst)[i]? = some seed →
        (∀ j, i < j → (seeds.map Prod.fst)[j]? ≠ some seed) → blocks[i]? = some b →
        b[g]? = some l →
        ∃ qi mean max min band p, d'.read (logName exp seed) = some qi ∧
          (fitnessFigure qi.points : Figure A) =
            .fitness [⟨"mean fitness".toList, mean⟩, ⟨"mean fitness".toList, max⟩,
              ⟨"mean fitness".toList, min⟩] band ∧
          Spec.Summary l.fitness p ∧
          mean[Spec.before blocks i + g]? = some (Spec.before blocks i + g, p.mean) ∧
          max[Spec.before blocks i + g]? = some (Spec.before blocks i + g, p.max) ∧
          min[Spec.before blocks i + g]? = some (Spec.before blocks i + g, p.min) ∧
          band[Spec.before blocks i + g]? = some (Spec.before blocks i + g, p.band) := by
  obtain ⟨blocks, d', rfl, hran, _, hfiles, _⟩ := seeds_accumulate exp seeds s s' _ _ _ _ h
  refine ⟨blocks, d', rfl, hran, fun i seed b g l hi hlast hb hl => ?_⟩
  obtain ⟨qi, h1, h2⟩ := hfiles i seed hi hlast
  obtain ⟨mean, max, min, band, hfig, _, _, _, _, hpts⟩ := fitness_figure_points (A := A) h2 rfl
  obtain ⟨p, k1, k2⟩ := hpts (Spec.before blocks i + g) l
    ((flatten_block blocks i g b hb (List.getElem?_eq_some_iff.1 hl).1 (i + 1) (by omega)).trans hl)
  exact ⟨qi, mean, max, min, band, p, h1, hfig, k1, k2⟩

/-- The band is drawn one standard deviation below and above the mean. -/
theorem band_numbers (m M μ σ : ℝ) :
    (FitPoint.mk m M μ σ).band = (((m - σ : ℝ) : Fit), ((m + σ : ℝ) : Fit)) := rfl

theorem ruleFigures_ok {A : Type} {load : C → Except PyErr (List A × List A)} (ii : Nat)
    (cs : List C) (fns : List (List A × List A))
    (h : List.Forall₂ (fun c f => load c = .ok f) cs fns) :
    ruleFigures load ii cs = ((fns.mapIdx fun k f =>
      (f.1.zip f.2).map fun p => Figure.rule (ii + k) p.1 p.2).flatten, none) := by
  induction h generalizing ii with
  | nil => rfl
  | cons hc _ ih =>
    rename_i c f cs fns _
    rw [ruleFigures, hc]
    dsimp only
    rw [ih (ii + 1), List.mapIdx_cons, List.flatten_cons]
    simp only [Nat.add_zero, Nat.add_assoc, Nat.add_comm 1]

/-- C124: `plot_exp` on a log whose configs can be loaded makes one figure for every pair of growth
functions of every config of the last logged elite, in order, numbered by the config, and then the
figure of the fitness; after that it needs the argument `show`. -/
theorem plot_figures {A : Type} {load : C → Except PyErr (List A × List A)} (d : LogDir C)
    (name : Str) (display : Option Bool) (q : SearchLog C) (cs : List C)
    (fns : List (List A × List A)) (hf : d.read name = some q)
    (hl : q.eliteConfigs.getLast? = some cs)
    (hload : List.Forall₂ (fun c f => load c = .ok f) cs fns) :
    plotExp load d (some name) display =
      ((fns.mapIdx fun k f => (f.1.zip f.2).map fun p => Figure.rule k p.1 p.2).flatten ++
        [fitnessFigure q.points],
        match display with
        | none => .error .key
        | some b => .ok b) := by
  unfold plotExp
  dsimp only
  rw [hf]
  dsimp only
  rw [hl]
  dsimp only
  rw [ruleFigures_ok 0 cs fns hload]
  simp only [Nat.zero_add]
  rfl

/-- C124: the number of figures. -/
theorem plot_count {A : Type} {load : C → Except PyErr (List A × List A)} (d : LogDir C)
    (name : Str) (display : Option Bool) (q : SearchLog C) (cs : List C)
    (fns : List (List A × List A)) (hf : d.read name = some q)
    (hl : q.eliteConfigs.getLast? = some cs)
    (hload : List.Forall₂ (fun c f => load c = .ok f) cs fns)
    (hone : ∀ f ∈ fns, f.1.length = 1 ∧ f.2.length = 1) :
    (plotExp load d (some name) display).1.length = cs.length + 1 := by
  rw [plot_figures d name display q cs fns hf hl hload]
  dsimp only
  rw [List.length_append, List.length_flatten, List.length_singleton, hload.length_eq]
  congr 1
  have key : ∀ (fns : List (List A × List A)) (ii : Nat), (∀ f ∈ fns, f.1.length = 1 ∧ f.2.length = 1) →
      ((fns.mapIdx fun k f => (f.1.zip f.2).map fun p => Figure.rule (ii + k) p.1 p.2).map
        List.length).sum = fns.length := by
    intro fns
    induction fns with
    | nil => intro ii _; rfl
    | cons f fns ih =>
      intro ii hf
      have h1 := hf f (List.mem_cons_self ..)
      have h2 := ih (ii + 1) fun g hg => hf g (List.mem_cons_of_mem _ hg)
      rw [List.mapIdx_cons, List.map_cons, List.sum_cons]
      simp only [List.length_map, List.length_zip, h1.1, h1.2, List.length_cons]
      simp only [Nat.add_assoc, Nat.add_comm 1] at h2 ⊢
      rw [h2]
      simp [Nat.add_comm]
  have := key fns 0 hone
  simpa only [Nat.zero_add] using this

/-- C124: a config that cannot be loaded ends the plotting: figures of the configs before it, none
of the fitness. -/
theorem plot_stops {A : Type} {load : C → Except PyErr (List A × List A)} (d : LogDir C)
    (name : Str) (display : Option Bool) (q : SearchLog C) (cs cs' : List C) (c : C) (e : PyErr)
    (fns : List (List A × List A)) (hf : d.read name = some q)
    (hl : q.eliteConfigs.getLast? = some (cs ++ c :: cs'))
    (hload : List.Forall₂ (fun c f => load c = .ok f) cs fns) (hc : load c = .error e) :
    plotExp load d (some name) display =
      ((fns.mapIdx fun k f => (f.1.zip f.2).map fun p => Figure.rule k p.1 p.2).flatten,
        .error e) := by
  have key : ∀ ii, ruleFigures load ii (cs ++ c :: cs') = ((fns.mapIdx fun k f =>
      (f.1.zip f.2).map fun p => Figure.rule (ii + k) p.1 p.2).flatten, some e) := by
    clear hl hf
    induction hload with
    | nil => intro ii; rw [List.nil_append, ruleFigures, hc]; rfl
    | cons h1 _ ih =>
      intro ii
      rw [List.cons_append, ruleFigures, h1]
      dsimp only
      rw [ih (ii + 1), List.mapIdx_cons, List.flatten_cons]
      simp only [Nat.add_zero, Nat.add_assoc, Nat.add_comm 1]
  unfold plotExp
  dsimp only
  rw [hf]
  dsimp only
  rw [hl]
  dsimp only
  rw [key 0]
  simp only [Nat.zero_add]

/-- C124: without a path `plot_exp` raises TypeError, with a path where there is no file
AssertionError. -/
theorem plot_no_file {A : Type} (load : C → Except PyErr (List A × List A)) (d : LogDir C)
    (display : Option Bool) :
    plotExp load d none display = ([], .error .type) ∧
    ∀ name, d.read name = none → plotExp load d (some name) display = ([], .error .assertion) := by
  refine ⟨rfl, fun name h => ?_⟩
  unfold plotExp
  dsimp only
  rw [h]

/-- C124: the configs plotted from the file of a seed are those of the elite of its last
generation. -/
theorem plotted_elite {ls : List (GenLog n)} {q' : SearchLog C} {l : GenLog n}
    (h : Spec.Records uni configs ls .empty q') (hl : ls.getLast? = some l) :
    ∃ cs, q'.eliteConfigs.getLast? = some cs ∧ configs l.elite = .ok cs := by
  obtain ⟨cs, c1, c2⟩ := h.configs
  have hlen := c2.length_eq
  rw [List.getLast?_eq_getElem?] at hl
  have hk := (List.getElem?_eq_some_iff.1 hl).1
  have hval := (List.getElem?_eq_some_iff.1 hl).2
  refine ⟨cs[ls.length - 1]'(by omega), ?_, ?_⟩
  · rw [c1, List.getLast?_eq_getElem?]
    show ([] ++ cs)[([] ++ cs).length - 1]? = _
    rw [List.nil_append, List.getElem?_eq_getElem (by omega)]
    simp only [hlen]
  · have := (List.forall₂_iff_get.1 c2).2 (ls.length - 1) hk (by omega)
    simp only [List.get_eq_getElem] at this
    rw [hval] at this
    exact this

/-- C124: after a search with one seed that was not stopped early, the first config plotted is that
of a fittest agent of the last generation, and the line of the largest fitness ends at its
fitness. -/
theorem plotted_best (ha : Spec.Argsort argsort) (exp : Str) (seed : Nat) (x : SeedInput n)
    (s s' : Run n) (q' : SearchLog C) (d : LogDir C) (dir' : Option (LogDir C))
    (h : logSeeds uni argsort G configs exp [(seed, x)] s .empty (some d) = (dir', .ok (s', q')))
    (hfull : s'.logs.length = s.logs.length + G)
    (hr : Spec.DrawOk s.cma.popSize (x.draw (G - 1))) :
    ∃ (l : GenLog n) (cs : List C) (p : FitPoint), s'.logs.getLast? = some l ∧
      q'.eliteConfigs.getLast? = some cs ∧ configs l.elite = .ok cs ∧
      q'.points.getLast? = some p ∧ Spec.Summary l.fitness p ∧
      ∃ v, l.elite.head? = some v ∧ v ∈ l.evaluated ∧
        (∀ w ∈ l.evaluated, x.fit (G - 1) w ≤ x.fit (G - 1) v) ∧ p.max = x.fit (G - 1) v := by
  rw [logSeeds] at h
  split at h
  · cases h
  rename_i dir₁ s₁ q₁ hs
  cases h
  obtain ⟨hrun, ls, d₀, e1, e2, e3, e4, hd, rfl⟩ := logSeed_ok _ _ _ _ _ _ hs
  obtain ⟨l, hl, htop, _⟩ := full_run_elite ha _ _ _ _ s s' hrun hfull
  have hls : ls.getLast? = some l := by
    rw [e1, List.getLast?_append] at hl
    cases hx : ls.getLast? with
    | none => exact absurd (List.getLast?_eq_none_iff.1 hx) e3
    | some l' => rw [hx] at hl; exact hl
  obtain ⟨cs, c1, c2⟩ := plotted_elite e4 hls
  obtain ⟨ps, p1, p2⟩ := e4.points
  have hlen := p2.length_eq
  rw [List.getLast?_eq_getElem?] at hls
  have hk := (List.getElem?_eq_some_iff.1 hls).1
  have hval := (List.getElem?_eq_some_iff.1 hls).2
  have hp := (List.forall₂_iff_get.1 p2).2 (ls.length - 1) hk (by omega)
  simp only [List.get_eq_getElem] at hp
  rw [hval] at hp
  have hsum := fit_point_summary hp
  obtain ⟨_, hrun'⟩ := runSeed_ok hrun
  obtain ⟨g', t, b, _, _, h3, h4, h5, _⟩ := runGens_last x.draw G 0 (runSeed_ok hrun).1 _ s' hrun'
  dsimp only at h4
  have hg : g' = G - 1 := by omega
  subst hg
  obtain ⟨l', hl', _, _, hfit⟩ := log_step _ _ _ _ _ h3
  have hll : l' = l := by
    rw [hl', List.getLast?_append] at hl
    simpa using hl
  subst hll
  obtain ⟨_, l'', hl'', helen, _⟩ := genStep_elite (by rw [h5]; exact hr) h3
  have hE : l'.elite ≠ [] := by
    have : l'' = l' := by
      rw [hl''] at hl'
      simpa using hl'
    subst this
    intro h0
    rw [h0] at helen
    have := (eliteKeep_bounds t.cma.popSize).1
    simp at helen
    omega
  refine ⟨l', cs, _, hl, c1, c2, ?_, hsum, ?_⟩
  · rw [p1, List.getLast?_eq_getElem?]
    show ([] ++ ps)[([] ++ ps).length - 1]? = _
    rw [List.nil_append, List.getElem?_eq_getElem (by omega)]
    simp only [hlen]
  · obtain ⟨v, v1, v2, v3⟩ := top_head htop hE
    refine ⟨v, v1, v2, v3, ?_⟩
    generalize ps[ls.length - 1]'(by omega) = p at hsum
    rcases hsum with ⟨ht, rfl⟩ | ⟨xs, m, M, μ, σ, hf, _, rfl, _, hM, hM', _⟩
    · rw [hfit] at ht
      obtain ⟨w, hw, hw'⟩ := List.mem_map.1 ht
      have := v3 w hw
      rw [hw'] at this
      exact (top_le_iff.1 this).symm
    · rw [hfit] at hf
      apply le_antisymm
      · have : ((M : ℝ) : Fit) ∈ l'.evaluated.map (x.fit (G - 1)) := by
          rw [hf]
          exact List.mem_map.2 ⟨M, hM, rfl⟩
        obtain ⟨w, hw, hw'⟩ := List.mem_map.1 this
        show ((M : ℝ) : Fit) ≤ _
        rw [← hw']
        exact v3 w hw
      · have : x.fit (G - 1) v ∈ xs.map (fun x : ℝ => (x : Fit)) := by
          rw [← hf]
          exact List.mem_map.2 ⟨v, v2, rfl⟩
        obtain ⟨y, hy, hy'⟩ := List.mem_map.1 this
        rw [← hy']
        exact WithTop.coe_le_coe.2 (hM' y hy)

/-! ## The growth functions -/

/-- C124: the config of an automaton whose growth functions survive saving is plotted as the two
growth functions of that automaton. -/
theorem plotted_growth (fs : Files) (o : CCAObj) (h : Spec.Saveable fs o) (fuel : Nat)
    (draws : Nat → Draws) (hd : Spec.MixtureLength (draws 1).kernel.length) (o₀ : CCAObj) :
    plotLoad fs (fuel + 1) draws o₀ o.makeConfig.1 = .ok (o.genesis, o.persistence) := by
  obtain ⟨o', h1, h2, _⟩ := config_roundtrip fs o h fuel draws hd o₀
  unfold plotLoad
  rw [h1]
  dsimp only
  have hg : o'.genesis = o.genesis := congrArg CCADyn.genesis h2
  have hp : o'.persistence = o.persistence := congrArg CCADyn.persistence h2
  rw [hg, hp]

/-- C124, refuted for Gaussian growth: the parameters of the agent do not reach the plot; it shows
the function the config was first written with. -/
theorem plotted_gaussian_refuted (fs : Files) (fuel : Nat) (draws : Nat → Draws) (o o₀ : CCAObj)
    (c : ActCfg) (mu s mu' s' : ℝ) (b : Bool) (hn : c.name = "Gaussian") (hc : o.genCfg = some c)
    (hold : Act.ofCfg c = .ok (.gaussian mu s b)) (hnow : o.genesis = [.gaussian mu' s' b])
    (hne : mu' ≠ mu) (gs ps : List (Act ℝ))
    (h : plotLoad fs fuel draws o₀ o.makeConfig.1 = .ok (gs, ps)) :
    gs = [.gaussian mu s b] ∧ gs ≠ o.genesis := by
  unfold plotLoad at h
  split at h
  · cases h
  · cases h
  rename_i o' ho
  cases h
  have := (gaussian_config_stale_refuted fs fuel draws o o₀ o' c mu s mu' s' b hn hc hold hnow hne
    ho).1
  refine ⟨this, ?_⟩
  rw [this, hnow]
  intro he
  have : mu = mu' := by injection he with h1 _; injection h1
  exact hne this.symm

/-! ## The hypotheses can be met -/

/-- The log never gets in the way of a search: with a directory, agents to evaluate and configs
for every elite it runs to the end. -/
theorem logSeed_total (hconf : ∀ E, ∃ cs, configs E = .ok cs) (s s' : Run n) (q : SearchLog C)
    (d : LogDir C) (hp : 1 ≤ s.cma.popSize)
    (h : runSeed uni argsort G x.fit x.draw x.build x.noise₁ x.noise₂ s = .ok s') :
    ∃ d' q', logSeed uni argsort G x configs name s q (some d) = (some d', .ok (s', q')) := by
  have hgens : ∀ k g (s : Run n) (q : SearchLog C) (d : LogDir C), 1 ≤ s.cma.popSize →
      runGens uni argsort G x.fit x.draw k g s = .ok s' →
      ∃ d' q', logGens uni argsort G x configs name k g s q (some d) = (some d', .ok (s', q')) := by
    intro k
    induction k with
    | zero => intro g s q d _ h; cases h; exact ⟨d, q, rfl⟩
    | succ k ih =>
      intro g s q d hp h
      rw [runGens] at h
      cases hg : genStep uni argsort G x.fit g (x.draw g) s with
      | error e => rw [hg] at h; cases h
      | ok sb =>
        obtain ⟨s₁, b⟩ := sb
        rw [hg] at h
        obtain ⟨l, hl, _, hlen, hfit⟩ := log_step _ _ _ _ _ hg
        obtain ⟨p, hpt⟩ := fit_point_exists (f := l.fitness) (by
          rw [hfit]
          intro h0
          rw [List.map_eq_nil_iff] at h0
          rw [h0] at hlen
          simp at hlen
          omega)
        obtain ⟨cs, hcs⟩ := hconf l.elite
        have hrec : record uni configs name l q (some d) =
            (some (d.save name (q.add uni l.elite cs p)), .ok (q.add uni l.elite cs p)) := by
          unfold record
          rw [hpt]
          dsimp only
          rw [hcs]
        rw [logGens, hg]
        dsimp only
        rw [show s₁.logs.getLast? = some l by rw [hl]; simp]
        dsimp only
        rw [hrec]
        dsimp only
        cases b with
        | true => cases h; exact ⟨_, _, rfl⟩
        | false =>
          rw [if_neg (by simp)]
          exact ih _ _ _ _ (by rw [(bookkeeping_step _ _ _ _ _ hg).1]; exact hp) h
  unfold runSeed at h
  dsimp only at h
  split at h
  · cases h
  rename_i hpop
  split at h
  · cases h
  rename_i s₁ hrun
  split at h
  · cases h
  rename_i hG
  cases h
  obtain ⟨d', q', hl⟩ := hgens G 0
    { s with cma := Cma.initialize x.build x.noise₂ (Cma.reset x.build x.noise₁ s.cma) } q d hp hrun
  unfold logSeed
  dsimp only
  rw [if_neg hpop, hl]
  dsimp only
  rw [if_neg hG]
  exact ⟨d', q', rfl⟩

/-- A search with the seeds 13 and 14, and one with the seed 13 twice, run and are logged: the
hypotheses of `seeds_accumulate`, `later_seed_refuted`, `repeated_seed_refuted`, `single_seed` and
`plotted_best` can be met. -/
example (b : Nat) : ∃ (argsort : List Fit → List Nat) (x : SeedInput 8)
    (s s₁ s₂ : Run 8) (q₁ q₂ : SearchLog Nat) (d d' : LogDir Nat), Spec.Argsort argsort ∧
    logSeeds true argsort 1 (fun E => .ok [E.length]) "exp".toList [(13, x)] s .empty (some []) =
      (some d, .ok (s₁, q₁)) ∧ s₁.logs.length = s.logs.length + 1 ∧
    Spec.DrawOk s.cma.popSize (x.draw (1 - 1)) ∧
    logSeeds true argsort 1 (fun E => .ok [E.length]) "exp".toList [(13, x), (b, x)] s .empty
      (some []) = (some d', .ok (s₂, q₂)) := by
  obtain ⟨argsort, ha⟩ := argsort_exists
  let s : Run 8 := ⟨Cma.blank true 16 0 fun _ => 0, [], none⟩
  let x : SeedInput 8 := ⟨fun _ v => ((v 0 : ℝ) : Fit), fun _ => Witness.tame 16, .params,
    fun i _ => (i : ℝ), fun i _ => (i : ℝ)⟩
  let cf : List (Vec 8) → Except PyErr (List Nat) := fun E => .ok [E.length]
  obtain ⟨s₁, h1, h2⟩ := one_generation (uni := true) ha x.fit x.draw x.build x.noise₁ x.noise₂ s
    (show 1 ≤ 16 by omega)
  obtain ⟨d, q₁, h3⟩ := logSeed_total (configs := cf) (name := logName "exp".toList 13)
    (fun E => ⟨_, rfl⟩) s s₁ .empty [] (show 1 ≤ 16 by omega) h1
  have hps : s₁.cma.popSize = 16 := by
    obtain ⟨hG, hrun⟩ := runSeed_ok h1
    obtain ⟨g', t, b, _, _, k3, _, k5, _⟩ := runGens_last x.draw 1 0 hG _ s₁ hrun
    rw [(bookkeeping_step _ _ _ _ _ k3).1, k5]
    rfl
  obtain ⟨s₂, h4, _⟩ := one_generation (uni := true) ha x.fit x.draw x.build x.noise₁ x.noise₂ s₁
    (by omega)
  obtain ⟨d', q₂, h5⟩ := logSeed_total (configs := cf) (name := logName "exp".toList b)
    (fun E => ⟨_, rfl⟩) s₁ s₂ q₁ d (by omega) h4
  refine ⟨argsort, x, s, s₁, s₂, q₁, q₂, d, d', ha, ?_, h2, tame_ok 16 (by omega), ?_⟩
  · rw [logSeeds, h3]
    rfl
  · rw [logSeeds, h3]
    dsimp only
    rw [logSeeds, h5]
    rfl

/-- A log with two configs, one function each way, is plotted as three figures; `curves_ordered`
and `band_closed` speak of real generations. -/
example : (plotExp (A := Nat) (fun c : Nat => .ok ([c], [c + 1]))
    [("f".toList, ⟨[], [[7], [5, 6]], []⟩)] (some "f".toList) (some true)).1.length = 3 := by
  refine plot_count _ _ _ ⟨[], [[7], [5, 6]], []⟩ [5, 6] [([5], [6]), ([6], [7])] ?_ rfl
    (.cons rfl (.cons rfl .nil)) (by simp)
  unfold LogDir.read
  simp

example : ∃ p, fitPoint [((1 : ℝ) : Fit), ((3 : ℝ) : Fit)] = .ok p ∧
    (⊤ : Fit) ∉ [((1 : ℝ) : Fit), ((3 : ℝ) : Fit)] := by
  obtain ⟨p, hp⟩ := fit_point_exists (f := [((1 : ℝ) : Fit), ((3 : ℝ) : Fit)]) (by simp)
  exact ⟨p, hp, by simp⟩

end Yuca
