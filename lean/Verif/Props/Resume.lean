import Verif.Model.Resume
import Verif.Props.Gifs2
import Mathlib.LinearAlgebra.FiniteDimensional.Lemmas

/-!
# Starting a search and continuing one (C96)
-/

namespace Yuca

variable {n : Nat}

/-! ## Specification -/

/-- `E` holds the best of `L`, best first, as `f` ranks them. -/
def Spec.Top {V F : Type} [LE F] (f : V → F) (E L : List V) : Prop :=
  ∃ rest, (E ++ rest).Perm L ∧ (E ++ rest).Pairwise fun a b => f b ≤ f a

/-- The first of the best are the best. -/
theorem top_take {V F : Type} [LE F] {f : V → F} {E L : List V} (h : Spec.Top f E L) (k : Nat) :
    Spec.Top f (E.take k) L := by
  obtain ⟨rest, h1, h2⟩ := h
  refine ⟨E.drop k ++ rest, ?_, ?_⟩ <;> rw [← List.append_assoc, List.take_append_drop]
  · exact h1
  · exact h2

theorem top_head {V F : Type} [LinearOrder F] {f : V → F} {E L : List V} (h : Spec.Top f E L)
    (hE : E ≠ []) : ∃ v, E.head? = some v ∧ v ∈ L ∧ ∀ w ∈ L, f w ≤ f v := by
  obtain ⟨rest, h1, h2⟩ := h
  obtain ⟨v, E, rfl⟩ := List.exists_cons_of_ne_nil hE
  refine ⟨v, rfl, h1.mem_iff.1 (List.mem_cons_self ..), fun w hw => ?_⟩
  have hw := h1.mem_iff.2 hw
  rw [List.cons_append] at hw h2
  rcases List.mem_cons.1 hw with rfl | hw
  · exact le_rfl
  · exact (List.pairwise_cons.1 h2).1 w hw

example : Spec.Top (fun x : Nat => x) [5, 4] [3, 4, 5] :=
  ⟨[3], by decide, by decide⟩

/-! ## The starting distribution -/

/-- C96: a search for rules starts with variance 0.15 in the first parameter and 0.000075 in all
others, a search for patterns with variance 1 in all of them, without any correlation. -/
theorem start_variance (uni : Bool) (i j : Fin n) :
    absDiag (covarWeights uni) i j =
      if i = j then if uni then if i.val = 0 then 3 / 20 else 3 / 40000 else 1 else 0 := by
  unfold absDiag covarWeights
  by_cases hij : i = j
  · subst hij
    cases uni
    · simp
    · by_cases h0 : i.val = 0
      · simp only [if_true, h0]
        norm_num
      · simp only [if_true, h0, if_false, if_pos (show 1 ≤ i.val by omega)]
        norm_num
  · simp [hij]

theorem start_positive (uni : Bool) (x : Vec n) (hx : x ≠ 0) :
    0 < ∑ i, ∑ j, x i * absDiag (covarWeights uni) i j * x j := by
  have h1 : ∀ i : Fin n, 0 < absDiag (covarWeights uni) i i := by
    intro i
    rw [start_variance, if_pos rfl]
    split
    · split <;> norm_num
    · norm_num
  have h2 : ∀ i : Fin n, ∑ j, x i * absDiag (covarWeights uni) i j * x j =
      absDiag (covarWeights uni) i i * x i ^ 2 := by
    intro i
    rw [Finset.sum_eq_single i]
    · ring
    · intro j _ hj
      rw [start_variance, if_neg (fun h => hj h.symm)]
      ring
    · intro h; exact absurd (Finset.mem_univ i) h
  simp only [h2]
  obtain ⟨i, hi⟩ := Function.ne_iff.1 hx
  exact Finset.sum_pos' (fun i _ => mul_nonneg (h1 i).le (sq_nonneg _))
    ⟨i, Finset.mem_univ i, mul_pos (h1 i) (by have : x i ≠ 0 := hi; positivity)⟩

/-! ## Reading the file -/

theorem takeRows_eq {V : Type} (rows : List V) (k : Nat) (hk : 1 ≤ k) :
    takeRows rows k = some (rows.take k) := by
  obtain ⟨k, rfl⟩ : ∃ m, k = m + 1 := ⟨k - 1, by omega⟩
  clear hk
  unfold takeRows
  induction k with
  | zero => simp [takeRow]
  | succ k ih =>
    rw [List.range_succ, List.foldl_append, ih]
    simp only [List.foldl_cons, List.foldl_nil, takeRow]
    rw [List.take_add (i := k + 1) (j := 1)]

theorem vecs_self (rows : List (Vec n)) : (EliteArray.mk n rows).vecs rfl = rows := by
  unfold EliteArray.vecs
  exact List.map_id rows

/-- C96: a log can be continued exactly if its last entry has a row. -/
theorem load_ok_iff (c : Cma n) (entries : List EliteArray) :
    (∃ c', c.load (some entries) = .ok c') ↔ ∃ a ∈ entries.getLast?, a.rows ≠ [] := by
  unfold Cma.load
  dsimp only
  cases entries.getLast? with
  | none => simp
  | some a =>
    dsimp only
    by_cases h0 : a.rows.length = 0
    · rw [if_pos h0]
      simp [List.length_eq_zero_iff.1 h0]
    · rw [if_neg h0]
      constructor
      · intro _
        exact ⟨a, rfl, fun h => h0 (by rw [h]; rfl)⟩
      · intro _
        split
        · exact ⟨_, rfl⟩
        · exact ⟨_, rfl⟩

/-- C96: an elite of agents with another number of parameters is ignored. -/
theorem load_other (c : Cma n) (entries : List EliteArray) (a : EliteArray)
    (ha : entries.getLast? = some a) (hr : a.rows ≠ []) (hw : a.width ≠ n) :
    c.load (some entries) = c.load none := by
  unfold Cma.load
  simp only [ha]
  rw [if_neg (by rw [List.length_eq_zero_iff]; exact hr), dif_neg hw]

/-- C96: otherwise the first rows are kept, as many as the new search keeps, and the search starts
at their mean, with the variance it would have had anyway. -/
theorem load_same (c : Cma n) (entries : List EliteArray) (E : List (Vec n))
    (ha : entries.getLast? = some ⟨n, E⟩) (hr : E ≠ []) :
    c.load (some entries) = .ok { c with
      elite := some (E.take (eliteKeep c.popSize))
      startMeans := fun i => ((E.take (eliteKeep c.popSize)).map fun v => v i).sum /
        (E.take (eliteKeep c.popSize)).length } := by
  unfold Cma.load
  simp only [ha]
  rw [if_neg (by rw [List.length_eq_zero_iff]; exact hr), dif_pos trivial, vecs_self,
    takeRows_eq _ _ (eliteKeep_bounds _).1]
  rfl

/-! ## Continuing a run -/

section Runs

variable {uni : Bool} {argsort : List Fit → List Nat} {G : Nat} {fit : Nat → Vec n → Fit}

theorem progress_last (logs : List (GenLog n)) (l : GenLog n) (h : logs.getLast? = some l) :
    (progressElite uni logs).getLast? = some ⟨n, l.elite⟩ := by
  unfold progressElite
  cases uni
  · simp [h]
  · simp [List.getLast?_map, h]

/-- C96: any finished run can be continued, with any population size: the new search holds the
first rows of the elite logged last, all of which were evaluated in that generation. -/
theorem resume_any (ha : Spec.Argsort argsort) (draw : Nat → Draw n) (build : Build n)
    (z₁ z₂ : Nat → Vec n) (s s' : Run n) (hr : ∀ g, Spec.DrawOk s.cma.popSize (draw g))
    (h : runSeed uni argsort G fit draw build z₁ z₂ s = .ok s') (popSize mode : Nat) (m₀ : Vec n) :
    ∃ l t, s'.logs.getLast? = some l ∧ resumed uni popSize mode m₀ s' = .ok t ∧
      l.elite.length = eliteKeep s.cma.popSize ∧ (∀ v ∈ l.elite, v ∈ l.evaluated) ∧
      t.cma.popSize = popSize ∧ t.cma.mode = mode ∧
      t.cma.elite = some (l.elite.take (eliteKeep popSize)) ∧
      (∀ i, t.cma.startMeans i = ((l.elite.take (eliteKeep popSize)).map fun v => v i).sum /
        (l.elite.take (eliteKeep popSize)).length) ∧
      t.cma.startCovar = (Cma.blank uni popSize mode m₀).startCovar ∧
      t.logs = [] ∧ t.saved = none := by
  obtain ⟨hG, hrun⟩ := runSeed_ok h
  obtain ⟨g', t, b, _, _, h3, _, h5, _⟩ := runGens_last draw G 0 hG _ s' hrun
  obtain ⟨_, l, hl, hll, _, _⟩ := genStep_elite (by rw [h5]; exact hr g') h3
  obtain ⟨l', hl', hev⟩ := logged_elite_evaluated ha g' (draw g') t s' b
    (fun bk hb i hi => by rw [h5]; exact (((hr g').1.2 bk hb).2 i hi)) h3
  have hll' : l' = l := by
    have := hl.symm.trans hl'
    simpa using this.symm
  subst hll'
  have hlast : s'.logs.getLast? = some l' := by rw [hl]; simp
  rw [h5] at hll
  have hne : l'.elite ≠ [] := by
    intro h0
    rw [h0] at hll
    have : 0 = eliteKeep s.cma.popSize := hll
    have := (eliteKeep_bounds s.cma.popSize).1
    omega
  have hload := load_same (Cma.blank uni popSize mode m₀) _ _
    (progress_last (uni := uni) _ _ hlast) hne
  have hres : resumed uni popSize mode m₀ s' = match (Cma.blank uni popSize mode m₀).load
      (some (progressElite uni s'.logs)) with
    | .error e => .error e
    | .ok c => .ok { cma := c, logs := [], saved := none } := rfl
  rw [hload] at hres
  exact ⟨l', _, hlast, hres, hll, hev, rfl, rfl, rfl, fun _ => rfl, rfl, rfl, rfl⟩

/-- Ranking a generation keeps the best of what it evaluated. -/
theorem rank_top (ha : Spec.Argsort argsort) (c c' : Cma n) (f : Vec n → Fit)
    (hl : c.popSize ≤ c.population.length)
    (h : c.rank argsort ((c.population.take c.popSize).map f) = .ok c') :
    ∃ E, c' = c.adapt E ∧ Spec.Top f E (c.population.take c.popSize) := by
  obtain ⟨idx, E, ht, hg, rfl⟩ := rank_ok h
  refine ⟨E, rfl, ?_⟩
  set P := c.population.take c.popSize with hP
  have hPl : P.length = c.popSize := by rw [hP, List.length_take]; omega
  obtain ⟨hperm, hsort⟩ := ha (P.map f)
  rw [List.length_map, hPl] at hperm
  set order := argsort (P.map f) with ho
  -- the whole population in order
  have hget : ∀ i, i ∈ order → i < c.popSize := fun i hi => List.mem_range.1 (hperm.mem_iff.1 hi)
  unfold truncation at ht
  split at ht
  · cases ht
  cases ht
  let pick : Nat → Vec n := fun i => P.getD i 0
  have hpick : ∀ i, i < c.popSize → P[i]? = some (pick i) := by
    intro i hi
    show P[i]? = some (P.getD i 0)
    rw [List.getD_eq_getElem?_getD, List.getElem?_eq_getElem (by omega)]
    rfl
  have hpop : ∀ i, i < c.popSize → c.population[i]? = some (pick i) := by
    intro i hi
    rw [← hpick i hi, hP, List.getElem?_take, if_pos hi]
  have hE : E = (order.reverse.take (eliteKeep c.popSize)).map pick := by
    have h2 : gather c.population (order.reverse.take (eliteKeep c.popSize)) =
        .ok ((order.reverse.take (eliteKeep c.popSize)).map pick) := by
      rw [gather_ok_iff, List.forall₂_map_right_iff]
      refine List.forall₂_same.2 fun i hi => hpop i (hget i ?_)
      exact List.mem_reverse.1 (List.mem_of_mem_take hi)
    rw [hg] at h2
    exact Except.ok.inj h2
  refine ⟨(order.reverse.drop (eliteKeep c.popSize)).map pick, ?_, ?_⟩
  · rw [hE, ← List.map_append, List.take_append_drop]
    have h1 : (order.reverse.map pick).Perm ((List.range c.popSize).map pick) :=
      ((List.reverse_perm order).trans hperm).map pick
    refine h1.trans (List.Perm.of_eq ?_)
    apply List.ext_getElem?
    intro i
    rw [List.getElem?_map]
    rcases Nat.lt_or_ge i c.popSize with hi | hi
    · rw [List.getElem?_range hi, hpick i hi]; rfl
    · rw [List.getElem?_eq_none (by rw [List.length_range]; omega),
        List.getElem?_eq_none (by omega)]
      rfl
  · rw [hE, ← List.map_append, List.take_append_drop, List.pairwise_map, List.pairwise_reverse]
    refine List.Pairwise.imp_of_mem ?_ hsort
    intro i j hi hj hij
    refine hij _ ?_ _ ?_
    · rw [List.getElem?_map, hpick i (hget i hi)]; rfl
    · rw [List.getElem?_map, hpick j (hget j hj)]; rfl

/-- C96: a run that was not stopped early logs, as its last elite, the best agents of its last
generation, best first, and ends at their mean. -/
theorem full_run_elite (ha : Spec.Argsort argsort) (draw : Nat → Draw n) (build : Build n)
    (z₁ z₂ : Nat → Vec n) (s s' : Run n)
    (h : runSeed uni argsort G fit draw build z₁ z₂ s = .ok s')
    (hfull : s'.logs.length = s.logs.length + G) :
    ∃ l, s'.logs.getLast? = some l ∧ Spec.Top (fit (G - 1)) l.elite l.evaluated ∧
      s'.cma.means = eliteMean l.elite := by
  obtain ⟨hG, hrun⟩ := runSeed_ok h
  obtain ⟨g', t, b, _, _, h3, h4, h5, _⟩ := runGens_last draw G 0 hG _ s' hrun
  dsimp only at h4
  have hg : g' = G - 1 := by omega
  subst hg
  obtain ⟨hlen, s₁, h1, h2⟩ := genStep_ok h3
  rcases h1 with ⟨_, h1⟩ | ⟨hne, _⟩
  · obtain ⟨c, hc, rfl⟩ := run_rank_ok h1
    obtain ⟨E, rfl, hE⟩ := rank_top ha t.cma c (fit (G - 1)) hlen hc
    rcases h2 with ⟨_, _, rfl⟩ | ⟨_, _, h6⟩
    · exact ⟨⟨t.cma.population.take t.cma.popSize, _, E⟩, List.getLast?_concat, hE, rfl⟩
    · obtain ⟨c, hc', rfl⟩ := run_rank_ok h6
      have : c = (t.cma.adapt E).adapt E := by
        obtain ⟨idx, E₁, k1, k2, k3⟩ := rank_ok hc
        obtain ⟨idx', E₂, k1', k2', rfl⟩ := rank_ok hc'
        have e : t.cma.adapt E = t.cma.adapt E₁ := k3
        have hEE : E = E₁ := by
          have := congrArg Cma.elite e
          exact Option.some.inj this
        subst hEE
        have k1' : truncation (eliteKeep t.cma.popSize) (argsort
          ((t.cma.population.take t.cma.popSize).map (fit (G - 1)))) = .ok idx' := k1'
        have k2' : gather t.cma.population idx' = .ok E₂ := k2'
        rw [k1] at k1'
        cases k1'
        rw [k2] at k2'
        cases k2'
        rfl
      subst this
      exact ⟨⟨t.cma.population.take t.cma.popSize, _, E⟩, List.getLast?_concat, hE, rfl⟩
  · exact absurd rfl hne

/-- The first entry a run logs. -/
theorem first_log (draw : Nat → Draw n) (build : Build n) (z₁ z₂ : Nat → Vec n) (s s' : Run n)
    (h : runSeed uni argsort G fit draw build z₁ z₂ s = .ok s') :
    ∃ l rest, s'.logs = s.logs ++ l :: rest ∧
      l.evaluated = (Cma.initialize build z₂ (Cma.reset build z₁ s.cma)).population.take
        s.cma.popSize ∧ l.fitness = l.evaluated.map (fit 0) := by
  obtain ⟨hG, hrun⟩ := runSeed_ok h
  obtain ⟨k, rfl⟩ : ∃ k, G = k + 1 := ⟨G - 1, by omega⟩
  rw [runGens] at hrun
  cases hg : genStep uni argsort (k + 1) fit 0 (draw 0)
      { s with cma := Cma.initialize build z₂ (Cma.reset build z₁ s.cma) } with
  | error e => rw [hg] at hrun; cases hrun
  | ok sb =>
    obtain ⟨s₁, b⟩ := sb
    rw [hg] at hrun
    obtain ⟨l, hl, hev, _, hf⟩ := log_step _ _ _ _ _ hg
    have key : ∃ rest, s'.logs = s.logs ++ l :: rest := by
      cases b with
      | true => cases hrun; exact ⟨[], hl⟩
      | false =>
        refine runGens_inv (P := fun t => ∃ rest, t.logs = s.logs ++ l :: rest) draw ?_ _ _ _ _
          hrun ⟨[], hl⟩
        rintro g t t' b hg ⟨rest, ht⟩
        obtain ⟨l', hl', _⟩ := log_step _ _ _ _ _ hg
        exact ⟨rest ++ [l'], by rw [hl', ht]; simp⟩
    obtain ⟨rest, hrest⟩ := key
    exact ⟨l, rest, hrest, hev, hf⟩

/-- C96: continuing a completed search for rules with `ParamsAgent`s, with any population size,
begins by evaluating the best agents of its last generation, best first, so that nothing found is
lost: every agent of that generation is matched by one of the first generation of the new run. -/
theorem resume_keeps_best (ha : Spec.Argsort argsort) (draw : Nat → Draw n) (build : Build n)
    (z₁ z₂ : Nat → Vec n) (s s' : Run n) (hr : ∀ g, Spec.DrawOk s.cma.popSize (draw g))
    (h : runSeed uni argsort G fit draw build z₁ z₂ s = .ok s')
    (hfull : s'.logs.length = s.logs.length + G) (popSize mode : Nat) (hp : 1 ≤ popSize)
    (m₀ : Vec n) :
    ∃ l t, s'.logs.getLast? = some l ∧ resumed uni popSize mode m₀ s' = .ok t ∧
      ∀ (G₂ : Nat) (fit₂ : Nat → Vec n → Fit) (draw₂ : Nat → Draw n) (z₃ z₄ : Nat → Vec n)
        (t' : Run n), runSeed uni argsort G₂ fit₂ draw₂ .params z₃ z₄ t = .ok t' →
      ∃ l₀ rest E, t'.logs = l₀ :: rest ∧ l₀.evaluated.length = popSize ∧
        l₀.evaluated.take E.length = E ∧
        E.length = min (eliteKeep popSize) (eliteKeep s.cma.popSize) ∧
        Spec.Top (fit (G - 1)) E l.evaluated ∧
        ∃ v ∈ l₀.evaluated, ∀ w ∈ l.evaluated, fit (G - 1) w ≤ fit (G - 1) v := by
  obtain ⟨l, t, hl, ht, hlen, _, hps, _, hel, _, _, hlogs, _⟩ :=
    resume_any ha draw build z₁ z₂ s s' hr h popSize mode m₀
  refine ⟨l, t, hl, ht, fun G₂ fit₂ draw₂ z₃ z₄ t' h' => ?_⟩
  obtain ⟨l₀, rest, hl₀, hev, _⟩ := first_log draw₂ .params z₃ z₄ t t' h'
  obtain ⟨l', hl', htop, _⟩ := full_run_elite ha draw build z₁ z₂ s s' h hfull
  rw [hl] at hl'
  cases hl'
  rw [hlogs] at hl₀
  have h1 := initialize_length .params z₃ z₄ t.cma
  have hk := eliteKeep_le hp (Nat.le_refl popSize)
  have hElen : (l.elite.take (eliteKeep popSize)).length =
      min (eliteKeep popSize) (eliteKeep s.cma.popSize) := by rw [List.length_take, hlen]
  have htake : l₀.evaluated.take (l.elite.take (eliteKeep popSize)).length =
      l.elite.take (eliteKeep popSize) := by
    rw [hev, List.take_take, Nat.min_eq_left (by rw [hps]; omega)]
    exact seeds_not_independent_refuted t.cma _ hel z₃ z₄
  have htop' := top_take htop (eliteKeep popSize)
  refine ⟨l₀, rest, _, hl₀, ?_, htake, hElen, htop', ?_⟩
  · rw [hev, List.length_take]; omega
  · have h2 := (eliteKeep_bounds popSize).1
    have h3 := (eliteKeep_bounds s.cma.popSize).1
    obtain ⟨v, hv, _, hbest⟩ := top_head htop' (by
      intro h0
      rw [h0] at hElen
      have : 0 = min (eliteKeep popSize) (eliteKeep s.cma.popSize) := hElen
      omega)
    refine ⟨v, ?_, hbest⟩
    have : v ∈ l.elite.take (eliteKeep popSize) := List.mem_of_mem_head? hv
    rw [← htake] at this
    exact List.mem_of_mem_take this

/-- C96: with at least as large a population the continued search also starts at the mean the
completed one ended with. -/
theorem resume_keeps_mean (ha : Spec.Argsort argsort) (draw : Nat → Draw n) (build : Build n)
    (z₁ z₂ : Nat → Vec n) (s s' : Run n) (hr : ∀ g, Spec.DrawOk s.cma.popSize (draw g))
    (h : runSeed uni argsort G fit draw build z₁ z₂ s = .ok s')
    (hfull : s'.logs.length = s.logs.length + G) (popSize mode : Nat)
    (hp : s.cma.popSize ≤ popSize) (m₀ : Vec n) :
    ∃ t, resumed uni popSize mode m₀ s' = .ok t ∧ t.cma.startMeans = s'.cma.means := by
  obtain ⟨l, t, hl, ht, hlen, _, _, _, _, hm, _⟩ :=
    resume_any ha draw build z₁ z₂ s s' hr h popSize mode m₀
  obtain ⟨l', hl', _, hmean⟩ := full_run_elite ha draw build z₁ z₂ s s' h hfull
  rw [hl] at hl'
  cases hl'
  refine ⟨t, ht, ?_⟩
  have htake : l.elite.take (eliteKeep popSize) = l.elite := by
    apply List.take_of_length_le
    rw [hlen]
    unfold eliteKeep
    omega
  rw [hmean]
  funext i
  rw [hm i, htake]
  rfl

/-! ## What is not continued -/

/-- A covariance built from fewer vectors than there are parameters vanishes in some direction. -/
theorem eliteCovar_singular (ek : Nat) (E : List (Vec n)) (m : Vec n) (hE : E.length < n) :
    ∃ x : Vec n, x ≠ 0 ∧ ∑ i, ∑ j, x i * eliteCovar ek E m i j * x j = 0 := by
  let φ : Vec n →ₗ[ℝ] (Fin E.length → ℝ) :=
    { toFun := fun x k => ∑ i, (E[k] i - m i) * x i
      map_add' := by
        intro x y
        funext k
        simp only [Pi.add_apply, mul_add, Finset.sum_add_distrib]
      map_smul' := by
        intro a x
        funext k
        simp only [Pi.smul_apply, smul_eq_mul, RingHom.id_apply, Finset.mul_sum]
        exact Finset.sum_congr rfl fun i _ => by ring }
  have hker : LinearMap.ker φ ≠ ⊥ := LinearMap.ker_ne_bot_of_finrank_lt (by
    rw [Module.finrank_fin_fun, Module.finrank_fin_fun]; exact hE)
  obtain ⟨x, hx, hx0⟩ := Submodule.exists_mem_ne_zero_of_ne_bot hker
  refine ⟨x, hx0, ?_⟩
  have horth : ∀ e ∈ E, ∑ i, (e i - m i) * x i = 0 := by
    intro e he
    obtain ⟨k, hk, rfl⟩ := List.getElem_of_mem he
    have := congrFun (LinearMap.mem_ker.1 hx) ⟨k, hk⟩
    exact this
  have key : ∀ L : List (Vec n), (∀ e ∈ L, ∑ i, (e i - m i) * x i = 0) →
      ∑ i, ∑ j, x i * (L.map fun e => (e i - m i) * (e j - m j)).sum * x j = 0 := by
    intro L
    induction L with
    | nil => intro _; simp
    | cons e L ih =>
      intro h
      have h1 := ih fun v hv => h v (List.mem_cons_of_mem _ hv)
      have h2 := h e (List.mem_cons_self ..)
      have h3 : ∑ i, ∑ j, x i * ((e i - m i) * (e j - m j)) * x j = 0 := by
        have : ∑ i, ∑ j, x i * ((e i - m i) * (e j - m j)) * x j =
            (∑ i, (e i - m i) * x i) * ∑ j, (e j - m j) * x j := by
          rw [Finset.sum_mul_sum]
          exact Finset.sum_congr rfl fun i _ => Finset.sum_congr rfl fun j _ => by ring
        rw [this, h2, zero_mul]
      simp only [List.map_cons, List.sum_cons, mul_add, add_mul, Finset.sum_add_distrib]
      rw [h1, h3, add_zero]
  unfold eliteCovar
  have : ∑ i, ∑ j, x i * (1 / (ek : ℝ) * (E.map fun e => (e i - m i) * (e j - m j)).sum) * x j =
      1 / (ek : ℝ) * ∑ i, ∑ j, x i * (E.map fun e => (e i - m i) * (e j - m j)).sum * x j := by
    simp only [Finset.mul_sum]
    exact Finset.sum_congr rfl fun i _ => Finset.sum_congr rfl fun j _ => by ring
  rw [this, key E horth, mul_zero]

/-- After a run the covariance was built from `elite_keep` vectors. -/
theorem run_covar (draw : Nat → Draw n) (build : Build n) (z₁ z₂ : Nat → Vec n) (s s' : Run n)
    (hr : ∀ g, Spec.DrawOk s.cma.popSize (draw g))
    (h : runSeed uni argsort G fit draw build z₁ z₂ s = .ok s') :
    ∃ E m, E.length = eliteKeep s.cma.popSize ∧
      s'.cma.covar = eliteCovar (eliteKeep s.cma.popSize) E m := by
  obtain ⟨hG, hrun⟩ := runSeed_ok h
  obtain ⟨g', t, b, _, _, h3, _, h5, _⟩ := runGens_last draw G 0 hG _ s' hrun
  have h5 : t.cma.popSize = s.cma.popSize := h5
  obtain ⟨⟨E₀, hE₀, hlen⟩, _⟩ := genStep_elite (by rw [h5]; exact hr g') h3
  obtain ⟨_, s₁, h1, h2⟩ := genStep_ok h3
  have step : ∃ E m, s₁.cma.elite = some E ∧
      s₁.cma.covar = eliteCovar (eliteKeep s.cma.popSize) E m ∧
      s₁.cma.popSize = s.cma.popSize := by
    rcases h1 with ⟨_, h1⟩ | ⟨_, c, h1, rfl⟩
    · obtain ⟨c, hc, rfl⟩ := run_rank_ok h1
      obtain ⟨_, E, _, _, rfl⟩ := rank_ok hc
      exact ⟨E, t.cma.means, rfl, by rw [← h5]; rfl, h5⟩
    · obtain ⟨_, E, _, _, hE, _, hcov, hps, _⟩ := update_ok h1
      exact ⟨E, t.cma.means, hE, by rw [← h5]; exact hcov, hps.trans h5⟩
  obtain ⟨E, m, hE, hcov, hps⟩ := step
  rcases h2 with ⟨_, _, rfl⟩ | ⟨_, _, h6⟩
  · refine ⟨E, m, ?_, hcov⟩
    have : some E₀ = some E := hE₀.symm.trans hE
    cases this
    rw [hlen, h5]
  · obtain ⟨c, hc, rfl⟩ := run_rank_ok h6
    obtain ⟨_, E', _, _, rfl⟩ := rank_ok hc
    have : E' = E₀ := Option.some.inj hE₀
    subst this
    refine ⟨E', s₁.cma.means, by rw [hlen, h5], ?_⟩
    show eliteCovar (eliteKeep s₁.cma.popSize) E' s₁.cma.means = _
    rw [hps]

/-- C96, refuted: the spread of a search is not continued.  If agents have more than `elite_keep`
parameters, the covariance a run ends with never is the one its continuation starts with. -/
theorem resume_covar_refuted (ha : Spec.Argsort argsort) (draw : Nat → Draw n) (build : Build n)
    (z₁ z₂ : Nat → Vec n) (s s' : Run n) (hr : ∀ g, Spec.DrawOk s.cma.popSize (draw g))
    (h : runSeed uni argsort G fit draw build z₁ z₂ s = .ok s')
    (hn : eliteKeep s.cma.popSize < n) (popSize mode : Nat) (m₀ : Vec n) :
    ∃ t, resumed uni popSize mode m₀ s' = .ok t ∧ t.cma.startCovar ≠ s'.cma.covar := by
  obtain ⟨l, t, _, ht, _, _, _, _, _, _, hc, _⟩ :=
    resume_any ha draw build z₁ z₂ s s' hr h popSize mode m₀
  obtain ⟨E, m, hE, hcov⟩ := run_covar draw build z₁ z₂ s s' hr h
  refine ⟨t, ht, fun heq => ?_⟩
  obtain ⟨x, hx, hx0⟩ := eliteCovar_singular (eliteKeep s.cma.popSize) E m (by omega)
  have := start_positive uni x hx
  rw [← hcov, ← heq, hc] at hx0
  exact absurd hx0 this.ne'

end Runs

/-- C96, refuted: a search for patterns cannot be continued.  Its agents are `CPPN`s, which ignore
the parameters they are built with: the first generation evaluates the same networks with and
without the file. -/
theorem resume_pattern_refuted (w : Nat → Vec n) (c c' : Cma n) (hc : c.elite = none)
    (hp : 1 ≤ c.popSize) (file : Option (List EliteArray)) (h : c.load file = .ok c')
    (z₁ z₂ z₃ z₄ : Nat → Vec n) :
    c'.popSize = c.popSize ∧
    (Cma.initialize (.cppn w) z₂ (Cma.reset (.cppn w) z₁ c')).population.take c.popSize =
      (Cma.initialize (.cppn w) z₄ (Cma.reset (.cppn w) z₃ c)).population.take c.popSize := by
  have hk := eliteKeep_le hp (Nat.le_refl c.popSize)
  have key : c'.popSize = c.popSize ∧ (c'.elite.getD []).length ≤ c.popSize := by
    cases file with
    | none => cases h; simp [hc]
    | some entries =>
      obtain ⟨a, ha, hr⟩ := (load_ok_iff c entries).1 ⟨c', h⟩
      by_cases hw : a.width = n
      · obtain ⟨w', rows⟩ := a
        cases hw
        rw [load_same c entries rows ha hr] at h
        cases h
        refine ⟨rfl, ?_⟩
        simp only [Option.getD_some, List.length_take]
        omega
      · rw [load_other c entries a ha hr hw] at h
        cases h
        simp [hc]
  obtain ⟨h1, h2⟩ := key
  refine ⟨h1, ?_⟩
  have hreset := cppn_start_ignores_refuted w c' c z₁ z₃ h1 (by omega) (by simp [hc])
  have hlen : c.popSize ≤ (Cma.reset (.cppn w) z₃ c).population.length := by
    simp only [Cma.reset, Cma.initialize, List.length_append, List.length_mapIdx, List.length_map,
      List.length_range', List.length_nil]
    omega
  have split : ∀ (d : Cma n) (z : Nat → Vec n), c.popSize ≤ d.population.length →
      (Cma.initialize (.cppn w) z d).population.take c.popSize = d.population.take c.popSize := by
    intro d z hd
    simp only [Cma.initialize, List.append_assoc]
    exact List.take_append_of_le_length hd
  rw [split _ _ (by rw [hreset]; exact hlen), split _ _ hlen, hreset]

/-! ## Coevolution -/

theorem gifLoop_short (a : GifArgs) (tag : Str) (E : List (Vec n)) (k : Nat) :
    ∀ (i : Nat) (c : Cma n), c.elite = some E → E.length < i + k →
      gifLoop (coevoBody a tag) (List.range' i k) c = .error .index ∨ E.length < i := by
  induction k with
  | zero => intro i c _ h; exact Or.inr (by omega)
  | succ k ih =>
    intro i c hc h
    rcases Nat.lt_or_ge E.length i with hi | hi
    · exact Or.inr hi
    left
    rw [List.range'_succ, gifLoop]
    cases hp : c.population[i]? with
    | none => rfl
    | some v =>
      dsimp only
      cases hE : E[i]? with
      | none =>
        have h1 : coevoBody a tag i c v = .error .index := by
          unfold coevoBody gifParams
          rw [hc]
          dsimp only
          rw [hE]
        rw [h1]
      | some e =>
        have hlt := (List.getElem?_eq_some_iff.1 hE).1
        have h1 : coevoBody a tag i c v = .ok ({ c with population := c.population.set i e },
            [coevoShot a tag e]) := by
          have : gifParams c i v = .ok e := by
            unfold gifParams
            rw [hc]
            dsimp only
            rw [hE]
          unfold coevoBody
          rw [this]
        rw [h1]
        dsimp only
        rcases ih (i + 1) { c with population := c.population.set i e } hc (by omega) with h2 | h2
        · rw [h2]
        · omega

/-- C96, refuted: a coevolution cannot be continued with a population that keeps more elite
agents: the gifs before its first generation raise IndexError. -/
theorem resume_coevo_refuted (a : GifArgs) (c : Cma n) (E : List (Vec n)) (hE : c.elite = some E)
    (hk : E.length < eliteKeep c.popSize) {argsort : List Fit → List Nat} (G : Nat)
    (fit : Nat → Vec n → Fit) (draw : Nat → Draw n) (build : Build n) (z₁ z₂ : Nat → Vec n)
    (logs : List (GenLog n)) (saved : Option (Vec n)) :
    filmSeed true true a argsort G fit draw build z₁ z₂ ⟨c, logs, saved⟩ = .error .index := by
  have hinit : (Cma.initialize build z₂ (Cma.reset build z₁ c)).elite = some E := hE
  have hps : (Cma.initialize build z₂ (Cma.reset build z₁ c)).popSize = c.popSize := rfl
  unfold filmSeed
  dsimp only
  have : earlyGifs true true a (Cma.initialize build z₂ (Cma.reset build z₁ c)) =
      .error .index := by
    unfold earlyGifs
    generalize Cma.initialize build z₂ (Cma.reset build z₁ c) = d at hinit hps
    obtain ⟨k, hk'⟩ : ∃ k, min (eliteKeep d.popSize) 4 = k + 1 :=
      ⟨min (eliteKeep d.popSize) 4 - 1, by unfold eliteKeep; omega⟩
    rw [hk', List.range_eq_range', List.range'_succ, gifLoop]
    cases d.population[0]? with
    | none => rfl
    | some v =>
      have h1 : coevoSaveGif a (genTag 0) d = .error .index := by
        unfold coevoSaveGif
        rw [List.range_eq_range']
        rcases gifLoop_short a (genTag 0) E (eliteKeep d.popSize) 0 d hinit
          (by rw [hps]; omega) with h | h
        · exact h
        · omega
      simp only [earlyBody, if_true, h1]
  rw [this]

/-- C96: with no more elite agents than were logged a coevolution is continued: although its
agents are built with other networks, the gifs before the first generation put the logged elite
back into the population. -/
theorem resume_coevo (a : GifArgs) (c : Cma n) (entries : List EliteArray) (E : List (Vec n))
    (he : entries.getLast? = some ⟨n, E⟩) (hp : 1 ≤ c.popSize) (hk : eliteKeep c.popSize ≤ E.length)
    (build : Build n) (z₁ z₂ : Nat → Vec n) :
    ∃ c' d gifs, c.load (some entries) = .ok c' ∧
      earlyGifs true true a (Cma.initialize build z₂ (Cma.reset build z₁ c')) = .ok (d, gifs) ∧
      d.population.take (eliteKeep c.popSize) = E.take (eliteKeep c.popSize) ∧
      d.elite = some (E.take (eliteKeep c.popSize)) := by
  have h0 := (eliteKeep_bounds c.popSize).1
  have hne : E ≠ [] := by
    intro h
    rw [h] at hk
    have : eliteKeep c.popSize ≤ 0 := hk
    omega
  have hload := load_same c entries E he hne
  have hEl : (E.take (eliteKeep c.popSize)).length = eliteKeep c.popSize := by
    rw [List.length_take]; omega
  have hlen := initialize_length build z₁ z₂ ({ c with
      elite := some (E.take (eliteKeep c.popSize))
      startMeans := fun i => ((E.take (eliteKeep c.popSize)).map fun v => v i).sum /
        (E.take (eliteKeep c.popSize)).length } : Cma n)
  have := early_gifs_coevo_elite a (Cma.initialize build z₂ (Cma.reset build z₁ ({ c with
      elite := some (E.take (eliteKeep c.popSize))
      startMeans := fun i => ((E.take (eliteKeep c.popSize)).map fun v => v i).sum /
        (E.take (eliteKeep c.popSize)).length } : Cma n))) (E.take (eliteKeep c.popSize)) rfl hEl hp
    hlen
  refine ⟨_, _, _, hload, this, ?_, rfl⟩
  dsimp only
  exact List.take_left' hEl

/-! ## Other ways to select -/

/-- Eight agents with one parameter each, which is also their fitness. -/
noncomputable def Witness.eight : Cma 1 where
  popSize := 8
  mode := 1
  startMeans := fun _ => 0
  startCovar := fun _ _ => 1
  population := (List.range 8).map fun (i : Nat) (_ : Fin 1) => (i : ℝ)
  means := fun _ => 0
  covar := fun _ _ => 1
  elite := none

/-- A tournament in which agents 0 and 1 win. -/
def Witness.upset : Draw 1 := ⟨[[0, 0], [1, 1]], [0, 1], fun _ _ => 0⟩

theorem upset_ok : Spec.DrawOk 8 Witness.upset := by
  refine ⟨⟨rfl, ?_⟩, rfl, by decide, by decide⟩
  intro b hb
  have : b = [0, 0] ∨ b = [1, 1] := by simpa [Witness.upset] using hb
  rcases this with rfl | rfl <;> exact ⟨rfl, by decide⟩

theorem champion_pair (f : List Fit) (i : Nat) (hi : i < f.length) :
    champion f [i, i] = .ok i := by
  have hg : gather f [i, i] = .ok [f[i], f[i]] := by
    rw [gather_ok_iff]
    exact .cons (List.getElem?_eq_getElem hi) (.cons (List.getElem?_eq_getElem hi) .nil)
  unfold champion
  rw [hg]
  have : argmaxFirst [f[i], f[i]] = 0 := by
    unfold argmaxFirst
    simp [List.findIdx_cons]
  simp [this]

/-- C96, refuted: the log of a search by tournament that was interrupted, continued with fewer
elite agents, need not keep the best of the logged elite: the winners are logged in the order of
their brackets. -/
theorem resume_tournament_refuted (argsort : List Fit → List Nat) (mode : Nat) (m₀ : Vec 1) :
    ∃ c' a b, Witness.eight.update argsort Witness.upset
        (Witness.eight.population.map fun v => ((v 0 : ℝ) : Fit)) = .ok c' ∧
      c'.elite = some [a, b] ∧ a 0 < b 0 ∧
      ∃ t, (Cma.blank true 7 mode m₀).load (some [⟨1, c'.elite.getD []⟩]) = .ok t ∧
        t.elite = some [a] := by
  have hsel : selectElite argsort Witness.eight.mode (eliteKeep Witness.eight.popSize)
      Witness.upset (Witness.eight.population.map fun v => ((v 0 : ℝ) : Fit)) = .ok [0, 1] := by
    show tournament _ [[0, 0], [1, 1]] = _
    unfold tournament
    rw [List.mapM_cons, champion_pair _ 0 (by simp [Witness.eight]), List.mapM_cons,
      champion_pair _ 1 (by simp [Witness.eight])]
    rfl
  have hg : gather Witness.eight.population [0, 1] =
      .ok [fun _ => ((0 : Nat) : ℝ), fun _ => ((1 : Nat) : ℝ)] := by
    rw [gather_ok_iff]
    exact .cons rfl (.cons rfl .nil)
  have hu : ∃ c', Witness.eight.update argsort Witness.upset
      (Witness.eight.population.map fun v => ((v 0 : ℝ) : Fit)) = .ok c' := by
    unfold Cma.update
    rw [hsel]
    dsimp only
    rw [hg]
    exact ⟨_, rfl⟩
  obtain ⟨c', hc⟩ := hu
  obtain ⟨idx, E, h1, h2, h3, _⟩ := update_ok hc
  rw [hsel] at h1
  cases h1
  rw [hg] at h2
  cases h2
  refine ⟨c', _, _, hc, h3, by simp, ?_⟩
  rw [h3]
  refine ⟨_, load_same _ _ _ rfl (by simp), ?_⟩
  simp [Cma.blank, eliteKeep]

/-! ## The hypotheses can be met -/

/-- A run of one generation succeeds for every search. -/
theorem one_generation {uni : Bool} {argsort : List Fit → List Nat} (ha : Spec.Argsort argsort)
    (fit : Nat → Vec n → Fit) (draw : Nat → Draw n) (build : Build n) (z₁ z₂ : Nat → Vec n)
    (s : Run n) (hp : 1 ≤ s.cma.popSize) :
    ∃ s', runSeed uni argsort 1 fit draw build z₁ z₂ s = .ok s' ∧
      s'.logs.length = s.logs.length + 1 := by
  have hlen := initialize_length build z₁ z₂ s.cma
  generalize hc : Cma.initialize build z₂ (Cma.reset build z₁ s.cma) = c at hlen
  have hps : c.popSize = s.cma.popSize := by rw [← hc]; rfl
  have hk := eliteKeep_le hp (Nat.le_refl s.cma.popSize)
  obtain ⟨E, hE⟩ := rank_succeeds ha c ((c.population.take c.popSize).map (fit 0)) (by omega)
    (by rw [List.length_map, List.length_take]; omega) (by omega)
  unfold runSeed
  rw [hc]
  dsimp only
  rw [if_neg (by rw [hps]; omega)]
  simp only [runGens, genStep, if_neg (show ¬ c.population.length < c.popSize by omega),
    Nat.sub_self, if_pos trivial, Run.rank, hE]
  rw [if_neg (by omega)]
  exact ⟨_, rfl, by simp⟩

/-- Draws numpy can make. -/
def Witness.tame (p : Nat) : Draw n :=
  ⟨List.replicate (eliteKeep p) (List.replicate (eliteKeep p) 0), List.range (eliteKeep p),
    fun _ _ => 0⟩

theorem tame_ok (p : Nat) (hp : 1 ≤ p) : Spec.DrawOk p (Witness.tame p : Draw n) := by
  have hk := eliteKeep_le hp (Nat.le_refl p)
  refine ⟨⟨by simp [Witness.tame], ?_⟩, by simp [Witness.tame],
    by simp [Witness.tame, List.nodup_range], ?_⟩
  · intro b hb
    simp only [Witness.tame, List.mem_replicate] at hb
    obtain ⟨_, rfl⟩ := hb
    refine ⟨by simp, fun i hi => ?_⟩
    rw [(List.mem_replicate.1 hi).2]
    omega
  · intro i hi
    simp only [Witness.tame, List.mem_range] at hi
    omega

/-- A completed search for rules with 16 agents of 8 parameters meets the hypotheses of
`resume_any`, `resume_keeps_best`, `resume_keeps_mean` and `resume_covar_refuted`, and its
continuation runs. -/
example : ∃ (argsort : List Fit → List Nat) (s s' t t' : Run 8), Spec.Argsort argsort ∧
    s.cma.popSize = 16 ∧ eliteKeep s.cma.popSize < 8 ∧
    (∀ _ : Nat, Spec.DrawOk s.cma.popSize (Witness.tame 16 : Draw 8)) ∧
    runSeed true argsort 1 (fun _ v => ((v 0 : ℝ) : Fit)) (fun _ => Witness.tame 16) .params
      (fun i _ => (i : ℝ)) (fun i _ => (i : ℝ)) s = .ok s' ∧
    s'.logs.length = s.logs.length + 1 ∧ resumed true 24 0 (fun _ => 0) s' = .ok t ∧
    runSeed true argsort 1 (fun _ v => ((v 0 : ℝ) : Fit)) (fun _ => Witness.tame 24) .params
      (fun i _ => (i : ℝ)) (fun i _ => (i : ℝ)) t = .ok t' := by
  obtain ⟨argsort, ha⟩ := argsort_exists
  let s : Run 8 := ⟨Cma.blank true 16 0 fun _ => 0, [], none⟩
  obtain ⟨s', h1, h2⟩ := one_generation (uni := true) ha (fun _ v => ((v 0 : ℝ) : Fit))
    (fun _ => Witness.tame 16) .params (fun i _ => (i : ℝ)) (fun i _ => (i : ℝ)) s
    (show 1 ≤ 16 by omega)
  obtain ⟨l, t, _, ht, _, _, hps, _⟩ := resume_any ha (fun _ => Witness.tame 16) .params
    (fun i _ => (i : ℝ)) (fun i _ => (i : ℝ)) s s' (fun _ => tame_ok 16 (by omega)) h1 24 0
    (fun _ => 0)
  obtain ⟨t', h3, _⟩ := one_generation (uni := true) ha (fun _ v => ((v 0 : ℝ) : Fit))
    (fun _ => Witness.tame 24) .params (fun i _ => (i : ℝ)) (fun i _ => (i : ℝ)) t
    (by rw [hps]; omega)
  exact ⟨argsort, s, s', t, t', ha, rfl, by decide, fun _ => tame_ok 16 (by omega), h1, h2, ht, h3⟩

/-- `load_other`, `load_same`, `resume_coevo` and `resume_coevo_refuted` speak of real files. -/
example : ∃ (c c' : Cma 2) (a b : EliteArray), [a].getLast? = some a ∧ a.rows ≠ [] ∧ a.width ≠ 2 ∧
    [a, b].getLast? = some ⟨2, [fun _ => 1]⟩ ∧ 1 ≤ c.popSize ∧ eliteKeep c.popSize ≤ 1 ∧
    c.elite = none ∧ c'.elite = some [fun _ => 1] ∧ 1 < eliteKeep c'.popSize :=
  ⟨Cma.blank true 7 0 fun _ => 0,
    { Cma.blank true 8 0 (fun _ => 0) with elite := some [fun _ => 1] }, ⟨3, [fun _ => 0]⟩,
    ⟨2, [fun _ => 1]⟩, rfl, by simp, by simp, rfl, by simp [Cma.blank], by simp [Cma.blank, eliteKeep],
    rfl, rfl, by simp [Cma.blank, eliteKeep]⟩

end Yuca
