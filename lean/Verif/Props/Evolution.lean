import Verif.Props.Cmaes
import Mathlib.LinearAlgebra.Finsupp.LinearCombination
import Mathlib.LinearAlgebra.Dimension.Finite

/-!
# Evolution: whole runs (C41-C43, C45, C68-C70)
-/

namespace Yuca

variable {n : Nat}

/-! ## The copying loop -/

section Copy

variable {V : Type}

/-- One round of the copying loop. -/
theorem copyElite_succ (p : List V) (el : List Nat) (m e : Nat) (he : el[m]? = some e) (v : V)
    (hv : (copyElite p el m)[e]? = some v) :
    copyElite p el (m + 1) = (copyElite p el m).set m v := by
  unfold copyElite at hv ⊢
  rw [List.range_succ, List.foldl_append, List.foldl_cons, List.foldl_nil, he]
  dsimp only
  rw [hv]

theorem copyElite_length (p : List V) (el : List Nat) (m : Nat) :
    (copyElite p el m).length = p.length := by
  unfold copyElite
  induction m with
  | zero => rfl
  | succ m ih =>
    rw [List.range_succ, List.foldl_append, List.foldl_cons, List.foldl_nil]
    split
    · exact ih
    · split
      · exact ih
      · rw [List.length_set]; exact ih

/-- Slots from `m` on are not touched. -/
theorem copyElite_ge (p : List V) (el : List Nat) (m i : Nat) (hi : m ≤ i) :
    (copyElite p el m)[i]? = p[i]? := by
  unfold copyElite
  induction m with
  | zero => rfl
  | succ m ih =>
    rw [List.range_succ, List.foldl_append, List.foldl_cons, List.foldl_nil]
    split
    · exact ih (by omega)
    · split
      · exact ih (by omega)
      · rw [List.getElem?_set_ne (by omega)]; exact ih (by omega)

/-- Slot `k` keeps what the `k`-th round wrote. -/
theorem copyElite_final (p : List V) (el : List Nat) (m k : Nat) (hk : k < m) :
    (copyElite p el m)[k]? = (copyElite p el (k + 1))[k]? := by
  induction m with
  | zero => omega
  | succ m ih =>
    rcases Nat.lt_or_ge k m with h | h
    · rw [← ih h]
      unfold copyElite
      rw [List.range_succ, List.foldl_append, List.foldl_cons, List.foldl_nil]
      split
      · rfl
      · split
        · rfl
        · rw [List.getElem?_set_ne (by omega)]
    · obtain rfl : k = m := by omega
      rfl

/-- C41: what the loop leaves in slot `k`: the parameters of the `k`-th elite agent if that agent
sits at a position not yet overwritten, otherwise whatever was copied over them. -/
theorem copyElite_get (p : List V) (el : List Nat) (m k e : Nat) (hk : k < m)
    (hm : m ≤ p.length) (he : el[k]? = some e) (hlt : e < p.length) :
    (copyElite p el m)[k]? = if k ≤ e then p[e]? else (copyElite p el m)[e]? := by
  have hlen := copyElite_length p el k
  have hv : (copyElite p el k)[e]? = some ((copyElite p el k)[e]'(by omega)) :=
    List.getElem?_eq_getElem _
  have hslot : (copyElite p el m)[k]? = (copyElite p el k)[e]? := by
    rw [copyElite_final p el m k hk, copyElite_succ p el k e he _ hv, hv,
      List.getElem?_set_self (by omega)]
  split
  · rename_i h
    rw [hslot, copyElite_ge p el k e h]
  · rename_i h
    rw [hslot, copyElite_final p el k e (by omega), copyElite_final p el m e (by omega)]

end Copy

/-! ## Taking `update_population` apart -/

theorem update_ok {F : Type} [LE F] [DecidableRel (α := F) (· ≤ ·)] {argsort : List F → List Nat}
    {c c' : Cma n} {r : Draw n} {f : List F} (h : c.update argsort r f = .ok c') :
    ∃ idx E, selectElite argsort c.mode (eliteKeep c.popSize) r f = .ok idx ∧
      gather c.population idx = .ok E ∧ c'.elite = some E ∧ c'.means = eliteMean E ∧
      c'.covar = eliteCovar (eliteKeep c.popSize) E c.means ∧ c'.popSize = c.popSize ∧
      c'.mode = c.mode ∧ c'.startMeans = c.startMeans ∧ c'.startCovar = c.startCovar ∧
      c'.population = resample (copyElite c.population idx (eliteKeep c.popSize / 2))
        (eliteKeep c.popSize / 2) c.popSize fun i => sampleDist c'.means c'.covar (r.noise i) := by
  unfold Cma.update at h
  cases hs : selectElite argsort c.mode (eliteKeep c.popSize) r f with
  | error e => rw [hs] at h; cases h
  | ok idx =>
    rw [hs] at h
    dsimp only at h
    cases hg : gather c.population idx with
    | error e => rw [hg] at h; cases h
    | ok E =>
      rw [hg] at h
      cases h
      exact ⟨idx, E, rfl, hg, rfl, rfl, rfl, rfl, rfl, rfl, rfl, rfl⟩

theorem rank_ok {F : Type} {argsort : List F → List Nat} {c c' : Cma n} {f : List F}
    (h : c.rank argsort f = .ok c') :
    ∃ idx E, truncation (eliteKeep c.popSize) (argsort f) = .ok idx ∧
      gather c.population idx = .ok E ∧ c' = c.adapt E := by
  unfold Cma.rank at h
  cases hs : truncation (eliteKeep c.popSize) (argsort f) with
  | error e => rw [hs] at h; cases h
  | ok idx =>
    rw [hs] at h
    dsimp only at h
    cases hg : gather c.population idx with
    | error e => rw [hg] at h; cases h
    | ok E =>
      rw [hg] at h
      cases h
      exact ⟨idx, E, rfl, hg, rfl⟩

theorem select_lt {F : Type} [LinearOrder F] {argsort : List F → List Nat} (ha : Spec.Argsort argsort)
    {mode ek : Nat} {r : Draw n} {f : List F} {idx : List Nat}
    (hr : ∀ b ∈ r.brackets, ∀ i ∈ b, i < f.length)
    (h : selectElite argsort mode ek r f = .ok idx) : ∀ i ∈ idx, i < f.length := by
  intro i hi
  have hmem : ∀ j, j ∈ (argsort f).reverse → j < f.length := by
    intro j hj
    rw [List.mem_reverse, (ha f).1.mem_iff, List.mem_range] at hj
    exact hj
  unfold selectElite at h
  split at h
  · unfold truncation at h
    split at h
    · cases h
    · cases h
      exact hmem i (List.mem_of_mem_take hi)
  · unfold tournament at h
    have key : ∀ (bs : List (List Nat)) (idx : List Nat), (∀ b ∈ bs, ∀ i ∈ b, i < f.length) →
        bs.mapM (champion f) = .ok idx → ∀ i ∈ idx, i < f.length := by
      intro bs
      induction bs with
      | nil => intro idx _ h i hi; cases h; cases hi
      | cons b bs ih =>
        intro idx hb h i hi
        rw [List.mapM_cons] at h
        cases hc : champion f b with
        | error e => rw [hc] at h; cases h
        | ok j =>
          rw [hc] at h
          cases hm : bs.mapM (champion f) with
          | error e => rw [hm] at h; cases h
          | ok idx' =>
            rw [hm] at h
            cases h
            rcases List.mem_cons.1 hi with rfl | hi
            · unfold champion at hc
              split at hc
              · cases hc
              · split at hc
                · cases hc
                · rename_i hj
                  cases hc
                  exact hb b (List.mem_cons_self ..) _ (List.mem_of_getElem? hj)
            · exact ih idx' (fun c hc => hb c (List.mem_cons_of_mem _ hc)) hm i hi
    exact key _ _ hr h i hi
  · obtain ⟨k, _, hk⟩ := gather_mem h i hi
    exact hmem i (List.mem_of_getElem? hk)
  · cases h

/-! ## C41 -/

theorem resample_get {V : Type} (p : List V) (m N : Nat) (sample : Nat → V) (i : Nat) :
    (resample p m N sample)[i]? = if m ≤ i ∧ i < N ∧ i < p.length then some (sample i) else p[i]? := by
  unfold resample
  rw [List.getElem?_mapIdx]
  rcases Nat.lt_or_ge i p.length with h | h
  · rw [List.getElem?_eq_getElem h, Option.map_some]
    by_cases h2 : m ≤ i ∧ i < N
    · rw [if_pos h2, if_pos ⟨h2.1, h2.2, h⟩]
    · rw [if_neg h2, if_neg fun hh => h2 ⟨hh.1, hh.2.1⟩]
  · rw [List.getElem?_eq_none h, Option.map_none, if_neg fun hh => by omega]

/-- C41: with at least 8 agents (and truncation selection) a fittest agent survives unchanged, in
slot 0. -/
theorem best_survives {F : Type} [LinearOrder F] (argsort : List F → List Nat)
    (ha : Spec.Argsort argsort) (c c' : Cma n) (r : Draw n) (f : List F) (hmode : c.mode = 0)
    (hlen : f.length = c.popSize) (hpop : c.popSize ≤ c.population.length) (h8 : 8 ≤ c.popSize)
    (h : c.update argsort r f = .ok c') :
    ∃ b, (∀ x ∈ f[b]?, ∀ y ∈ f, y ≤ x) ∧ b < c.popSize ∧ c'.population[0]? = c.population[b]? := by
  obtain ⟨idx, E, hs, hg, _, _, _, _, _, _, _, hp⟩ := update_ok h
  rw [hmode] at hs
  obtain ⟨idx', h1, h2, _, h4, _, _, b, hb, hbest⟩ :=
    truncation_correct f (argsort f) (ha f) (by omega)
  have e : idx = idx' := by
    have : selectElite argsort 0 (eliteKeep c.popSize) r f = .ok idx' := by rw [← h1, hlen]; rfl
    rw [this] at hs
    cases hs
    rfl
  subst e
  have hm : 1 ≤ eliteKeep c.popSize / 2 := by unfold eliteKeep; omega
  have hm2 : eliteKeep c.popSize / 2 ≤ c.popSize := by unfold eliteKeep; omega
  have hb0 : idx[0]? = some b := by rw [← List.head?_eq_getElem?]; exact hb
  have hblt : b < c.popSize := by rw [← hlen]; exact h4 b (List.mem_of_mem_head? hb)
  refine ⟨b, hbest, hblt, ?_⟩
  rw [hp, resample_get, if_neg (by omega),
    copyElite_get c.population idx _ 0 b (by omega) (by omega) hb0 (by omega), if_pos (Nat.zero_le _)]

/-- C41: all of the best `elite_keep // 2` survive if each sits at a position no smaller than its
rank. -/
theorem elite_survive {F : Type} [LE F] [DecidableRel (α := F) (· ≤ ·)]
    (argsort : List F → List Nat) (c c' : Cma n) (r : Draw n) (f : List F) (idx : List Nat)
    (hs : selectElite argsort c.mode (eliteKeep c.popSize) r f = .ok idx)
    (hpop : eliteKeep c.popSize ≤ c.population.length)
    (h : c.update argsort r f = .ok c') (k e : Nat) (hk : k < eliteKeep c.popSize / 2)
    (he : idx[k]? = some e) (hlt : e < c.population.length) (hke : k ≤ e) :
    c'.population[k]? = c.population[e]? := by
  obtain ⟨idx', E, hs', hg, _, _, _, _, _, _, _, hp⟩ := update_ok h
  rw [hs] at hs'
  cases hs'
  rw [hp, resample_get, if_neg (by omega),
    copyElite_get c.population idx _ k e hk (by omega) he hlt, if_pos hke]

/-- C41, refuted: an elite agent at a position smaller than its rank is overwritten before it is
copied; its slot gets a copy of a better one instead. -/
theorem elite_lost_refuted {F : Type} [LE F] [DecidableRel (α := F) (· ≤ ·)]
    (argsort : List F → List Nat) (c c' : Cma n) (r : Draw n) (f : List F) (idx : List Nat)
    (hs : selectElite argsort c.mode (eliteKeep c.popSize) r f = .ok idx)
    (hpop : eliteKeep c.popSize ≤ c.population.length)
    (h : c.update argsort r f = .ok c') (k e : Nat) (hk : k < eliteKeep c.popSize / 2)
    (he : idx[k]? = some e) (hke : e < k) :
    c'.population[k]? = c'.population[e]? := by
  obtain ⟨idx', E, hs', hg, _, _, _, _, _, _, _, hp⟩ := update_ok h
  rw [hs] at hs'
  cases hs'
  rw [hp, resample_get, resample_get, if_neg (by omega), if_neg (by omega),
    copyElite_get c.population idx _ k e hk (by omega) he (by omega), if_neg (by omega)]

/-- C41: with fewer than 8 agents nobody is kept: every agent is a fresh sample. -/
theorem nobody_survives {F : Type} [LE F] [DecidableRel (α := F) (· ≤ ·)]
    (argsort : List F → List Nat) (c c' : Cma n) (r : Draw n) (f : List F) (h8 : c.popSize < 8)
    (hpop : c.popSize ≤ c.population.length) (h : c.update argsort r f = .ok c') (i : Nat)
    (hi : i < c.popSize) :
    c'.population[i]? = some (sampleDist c'.means c'.covar (r.noise i)) := by
  obtain ⟨idx, E, _, _, _, _, _, _, _, _, _, hp⟩ := update_ok h
  have hm : eliteKeep c.popSize / 2 = 0 := by unfold eliteKeep; omega
  rw [hp, hm, resample_get, if_pos ⟨by omega, hi, by rw [copyElite_length]; omega⟩]

/-- The best two of 24 agents, at positions 1 and 0: both slots get the best. -/
example : copyElite ["a", "b", "c"] [1, 0] 2 = ["b", "b", "c"] := by decide

/-! ## C42 -/

theorem quad_sum (E : List (Vec n)) (m x : Vec n) :
    ∑ i, ∑ j, x i * (E.map fun e => (e i - m i) * (e j - m j)).sum * x j =
      (E.map fun e => (∑ i, x i * (e i - m i)) ^ 2).sum := by
  induction E with
  | nil => simp
  | cons e E ih =>
    simp only [List.map_cons, List.sum_cons]
    rw [← ih, pow_two, Finset.sum_mul_sum, ← Finset.sum_add_distrib]
    refine Finset.sum_congr rfl fun i _ => ?_
    rw [← Finset.sum_add_distrib]
    refine Finset.sum_congr rfl fun j _ => ?_
    ring

/-- C42: the adapted matrix is a covariance matrix. -/
theorem eliteCovar_covariance (ek : Nat) (E : List (Vec n)) (m : Vec n) :
    Spec.Covariance (eliteCovar ek E m) := by
  constructor
  · intro i j
    unfold eliteCovar
    congr 2
    refine List.map_congr_left fun e _ => mul_comm _ _
  · intro x
    have : ∑ i, ∑ j, x i * eliteCovar ek E m i j * x j =
        1 / (ek : ℝ) * ∑ i, ∑ j, x i * (E.map fun e => (e i - m i) * (e j - m j)).sum * x j := by
      rw [Finset.mul_sum]
      refine Finset.sum_congr rfl fun i _ => ?_
      rw [Finset.mul_sum]
      refine Finset.sum_congr rfl fun j _ => ?_
      unfold eliteCovar
      ring
    rw [this, quad_sum]
    refine mul_nonneg (by positivity) (List.sum_nonneg ?_)
    intro y hy
    obtain ⟨e, _, rfl⟩ := List.mem_map.1 hy
    positivity

/-- C42: so is the starting one, `np.abs(np.diag(weights))`. -/
theorem startCovar_covariance (w : Vec n) :
    Spec.Covariance fun i j => if i = j then |w i| else 0 := by
  constructor
  · intro i j
    dsimp only
    by_cases h : i = j
    · subst h; rfl
    · rw [if_neg h, if_neg (Ne.symm h)]
  · intro x
    refine Finset.sum_nonneg fun i _ => ?_
    rw [Finset.sum_eq_single i]
    · dsimp only
      rw [if_pos rfl]
      have : x i * |w i| * x i = |w i| * x i ^ 2 := by ring
      rw [this]
      positivity
    · intro j _ hj
      dsimp only
      rw [if_neg (Ne.symm hj)]
      ring
    · simp

/-! ## Whole runs -/

variable {uni : Bool} {argsort : List Fit → List Nat} {G : Nat} {fit : Nat → Vec n → Fit}

/-- Taking one generation apart. -/
theorem genStep_ok {g : Nat} {r : Draw n} {s s' : Run n} {b : Bool}
    (h : genStep uni argsort G fit g r s = .ok (s', b)) :
    s.cma.popSize ≤ s.cma.population.length ∧
    ∃ s₁ : Run n,
      ((g = G - 1 ∧ s.rank uni argsort ((s.cma.population.take s.cma.popSize).map (fit g)) = .ok s₁) ∨
        (g ≠ G - 1 ∧ ∃ c, s.cma.update argsort r
          ((s.cma.population.take s.cma.popSize).map (fit g)) = .ok c ∧ s₁ = { s with cma := c })) ∧
      ((b = false ∧ ¬ (calm ((s.cma.population.take s.cma.popSize).map (fit g)) = true ∧ 6 < g) ∧
        s' = { s₁ with logs := s₁.logs ++ [⟨s.cma.population.take s.cma.popSize,
          (s.cma.population.take s.cma.popSize).map (fit g), s₁.cma.elite.getD []⟩] }) ∨
       (b = true ∧ (calm ((s.cma.population.take s.cma.popSize).map (fit g)) = true ∧ 6 < g) ∧
        ({ s₁ with logs := s₁.logs ++ [⟨s.cma.population.take s.cma.popSize,
          (s.cma.population.take s.cma.popSize).map (fit g), s₁.cma.elite.getD []⟩] } : Run n).rank
          uni argsort ((s.cma.population.take s.cma.popSize).map (fit g)) = .ok s')) := by
  unfold genStep at h
  split at h
  · cases h
  rename_i hlen
  refine ⟨by omega, ?_⟩
  dsimp only at h
  generalize hfit : (s.cma.population.take s.cma.popSize).map (fit g) = fitness at h ⊢
  split at h
  · cases h
  · rename_i s₁ hnext
    refine ⟨s₁, ?_, ?_⟩
    · split at hnext
      · rename_i hg
        exact Or.inl ⟨hg, hnext⟩
      · rename_i hg
        refine Or.inr ⟨hg, ?_⟩
        cases hu : s.cma.update argsort r fitness with
        | error e => rw [hu] at hnext; cases hnext
        | ok c =>
          rw [hu] at hnext
          cases hnext
          exact ⟨c, rfl, rfl⟩
    · split at h
      · rename_i hc
        right
        split at h
        · cases h
        · rename_i s₃ h3
          cases h
          exact ⟨rfl, hc, h3⟩
      · rename_i hc
        cases h
        exact Or.inl ⟨rfl, hc, rfl⟩

theorem run_rank_ok {s s' : Run n} {f : List Fit} (h : s.rank uni argsort f = .ok s') :
    ∃ c, s.cma.rank argsort f = .ok c ∧ s' = { s with
      cma := c, saved := if uni then (c.elite.getD []).head? else s.saved } := by
  unfold Run.rank at h
  cases hc : s.cma.rank argsort f with
  | error e => rw [hc] at h; cases h
  | ok c =>
    rw [hc] at h
    cases h
    exact ⟨c, rfl, rfl⟩

/-- A property of the search state kept by ranking and updating is kept by every generation. -/
theorem genStep_cma {P : Cma n → Prop}
    (hrank : ∀ (c c' : Cma n) (f : List Fit), c.rank argsort f = .ok c' → P c → P c')
    (g : Nat) (r : Draw n) (s s' : Run n) (b : Bool)
    (hupd : ∀ (c' : Cma n) (f : List Fit), f.length = s.cma.popSize →
      s.cma.update argsort r f = .ok c' → P s.cma → P c')
    (h : genStep uni argsort G fit g r s = .ok (s', b)) (hp : P s.cma) : P s'.cma := by
  obtain ⟨hlen, s₁, h1, h2⟩ := genStep_ok h
  have p1 : P s₁.cma := by
    rcases h1 with ⟨_, h1⟩ | ⟨_, c, h1, rfl⟩
    · obtain ⟨c, hc, rfl⟩ := run_rank_ok h1
      exact hrank _ _ _ hc hp
    · exact hupd _ _ (by rw [List.length_map, List.length_take]; omega) h1 hp
  rcases h2 with ⟨_, _, rfl⟩ | ⟨_, _, h3⟩
  · exact p1
  · obtain ⟨c, hc, rfl⟩ := run_rank_ok h3
    exact hrank _ _ _ hc p1

theorem runGens_inv {P : Run n → Prop} (draw : Nat → Draw n)
    (hstep : ∀ g s s' b, genStep uni argsort G fit g (draw g) s = .ok (s', b) → P s → P s')
    (k g : Nat) (s s' : Run n) (h : runGens uni argsort G fit draw k g s = .ok s') (hp : P s) :
    P s' := by
  induction k generalizing g s with
  | zero => cases h; exact hp
  | succ k ih =>
    rw [runGens] at h
    cases hg : genStep uni argsort G fit g (draw g) s with
    | error e => rw [hg] at h; cases h
    | ok sb =>
      obtain ⟨s₁, b⟩ := sb
      rw [hg] at h
      have p1 := hstep _ _ _ _ hg hp
      cases b with
      | true => cases h; exact p1
      | false => exact ih _ _ h p1

theorem runSeed_ok {draw : Nat → Draw n} {build : Build n} {z₁ z₂ : Nat → Vec n} {s s' : Run n}
    (h : runSeed uni argsort G fit draw build z₁ z₂ s = .ok s') :
    1 ≤ G ∧ runGens uni argsort G fit draw G 0
      { s with cma := Cma.initialize build z₂ (Cma.reset build z₁ s.cma) } = .ok s' := by
  unfold runSeed at h
  dsimp only at h
  split at h
  · cases h
  · split at h
    · cases h
    · rename_i s₁ h1
      split at h
      · cases h
      · cases h
        exact ⟨by omega, h1⟩

/-- C42: after every number of generations the search covariance is a covariance matrix. -/
theorem covariance_always (draw : Nat → Draw n) (build : Build n) (z₁ z₂ : Nat → Vec n)
    (s s' : Run n) (h : runSeed uni argsort G fit draw build z₁ z₂ s = .ok s')
    (hstart : Spec.Covariance s.cma.startCovar) : Spec.Covariance s'.cma.covar := by
  refine runGens_inv (P := fun s => Spec.Covariance s.cma.covar) draw ?_ _ _ _ _ (runSeed_ok h).2
    hstart
  intro g s s' b hg hp
  refine genStep_cma (P := fun c => Spec.Covariance c.covar) ?_ g _ s s' b ?_ hg hp
  · intro c c' f hr _
    obtain ⟨_, E, _, _, rfl⟩ := rank_ok hr
    exact eliteCovar_covariance _ _ _
  · intro c' f _ hu _
    obtain ⟨_, E, _, _, _, _, hc, _⟩ := update_ok hu
    rw [hc]
    exact eliteCovar_covariance _ _ _

/-- C42: the mean is the average of the elite. -/
theorem means_average {F : Type} [LE F] [DecidableRel (α := F) (· ≤ ·)]
    (argsort : List F → List Nat) (c c' : Cma n) (r : Draw n) (f : List F)
    (h : c.update argsort r f = .ok c') :
    ∃ E, c'.elite = some E ∧ ∀ i, c'.means i * E.length = (E.map fun e => e i).sum := by
  obtain ⟨idx, E, hs, hg, h1, h2, _⟩ := update_ok h
  refine ⟨E, h1, fun i => ?_⟩
  rw [h2]
  unfold eliteMean
  rcases Nat.eq_zero_or_pos E.length with h0 | h0
  · rw [List.length_eq_zero_iff.1 h0]; simp
  · exact div_mul_cancel₀ _ (by positivity)

/-! ## C45 -/

/-- The parts of the state no generation changes: sizes and the agents beyond the population
size. -/
theorem bookkeeping_step (g : Nat) (r : Draw n) (s s' : Run n) (b : Bool)
    (h : genStep uni argsort G fit g r s = .ok (s', b)) :
    s'.cma.popSize = s.cma.popSize ∧ s'.cma.population.length = s.cma.population.length ∧
      s'.cma.population.drop s.cma.popSize = s.cma.population.drop s.cma.popSize := by
  refine genStep_cma (P := fun c => c.popSize = s.cma.popSize ∧
    c.population.length = s.cma.population.length ∧
    c.population.drop s.cma.popSize = s.cma.population.drop s.cma.popSize) ?_ g r s s' b ?_ h
    ⟨rfl, rfl, rfl⟩
  · intro c c' f hr hp
    obtain ⟨_, E, _, _, rfl⟩ := rank_ok hr
    exact hp
  · intro c' f _ hu _
    obtain ⟨idx, E, _, _, _, _, _, hps, _, _, _, hpop⟩ := update_ok hu
    refine ⟨hps, ?_, ?_⟩
    · rw [hpop]
      unfold resample
      rw [List.length_mapIdx, copyElite_length]
    · apply List.ext_getElem?
      intro i
      have hm : eliteKeep s.cma.popSize / 2 ≤ s.cma.popSize := by unfold eliteKeep; omega
      rw [List.getElem?_drop, List.getElem?_drop, hpop, resample_get, if_neg (by omega),
        copyElite_ge _ _ _ _ (by omega)]

/-- C45: `mantle` doubles the population; the second half is never evaluated (a generation
evaluates the first `population_size` agents), selected or changed. -/
theorem population_bookkeeping (draw : Nat → Draw n) (build : Build n) (z₁ z₂ : Nat → Vec n)
    (s s' : Run n) (h : runSeed uni argsort G fit draw build z₁ z₂ s = .ok s')
    (he : (s.cma.elite.getD []).length ≤ s.cma.popSize) :
    s'.cma.population.length = 2 * s.cma.popSize ∧
      s'.cma.population.drop s.cma.popSize =
        (Cma.initialize build z₂ (Cma.reset build z₁ s.cma)).population.drop s.cma.popSize := by
  have hlen : (Cma.initialize build z₂ (Cma.reset build z₁ s.cma)).population.length =
      2 * s.cma.popSize := by
    simp only [Cma.initialize, Cma.reset, List.length_append, List.length_mapIdx, List.length_map,
      List.length_range', List.length_nil]
    omega
  have key := runGens_inv (P := fun t => t.cma.popSize = s.cma.popSize ∧
    t.cma.population.length = 2 * s.cma.popSize ∧ t.cma.population.drop s.cma.popSize =
      (Cma.initialize build z₂ (Cma.reset build z₁ s.cma)).population.drop s.cma.popSize)
    draw ?_ _ _ _ _ (runSeed_ok h).2 ⟨rfl, hlen, rfl⟩
  · exact ⟨key.2.1, key.2.2⟩
  · rintro g t t' b hg ⟨h1, h2, h3⟩
    obtain ⟨h4, h5, h6⟩ := bookkeeping_step g _ t t' b hg
    rw [h1] at h6
    exact ⟨h4.trans h1, h5.trans h2, h6.trans h3⟩

/-- C45: every generation logs exactly one entry, of exactly `population_size` evaluations. -/
theorem log_step (g : Nat) (r : Draw n) (s s' : Run n) (b : Bool)
    (h : genStep uni argsort G fit g r s = .ok (s', b)) :
    ∃ l : GenLog n, s'.logs = s.logs ++ [l] ∧ l.evaluated = s.cma.population.take s.cma.popSize ∧
      l.evaluated.length = s.cma.popSize ∧ l.fitness = l.evaluated.map (fit g) := by
  obtain ⟨hlen, s₁, h1, h2⟩ := genStep_ok h
  have hl : s₁.logs = s.logs := by
    rcases h1 with ⟨_, h1⟩ | ⟨_, c, h1, rfl⟩
    · obtain ⟨c, hc, rfl⟩ := run_rank_ok h1; rfl
    · rfl
  refine ⟨⟨s.cma.population.take s.cma.popSize,
    (s.cma.population.take s.cma.popSize).map (fit g), s₁.cma.elite.getD []⟩, ?_, rfl, ?_, rfl⟩
  · rcases h2 with ⟨_, _, rfl⟩ | ⟨_, _, h3⟩
    · rw [← hl]
    · obtain ⟨c, hc, rfl⟩ := run_rank_ok h3
      rw [← hl]
  · rw [List.length_take]; omega

/-- The fitness values are numbers whose standard deviation is below 0.02. -/
def Spec.Steady (l : List Fit) : Prop :=
  ∃ xs : List ℝ, xs ≠ [] ∧ l = xs.map (fun x : ℝ => (x : Fit)) ∧
    (xs.map fun x => (x - xs.sum / (xs.length : ℝ)) ^ 2).sum < (0.0004 : ℝ) * (xs.length : ℝ)

theorem calm_iff (l : List Fit) : calm l = true ↔ Spec.Steady l := by
  have key : ∀ xs : List ℝ, xs ≠ [] → (calm (xs.map fun x : ℝ => (x : Fit)) = true ↔
      (xs.map fun x => (x - xs.sum / (xs.length : ℝ)) ^ 2).sum < (0.0004 : ℝ) * (xs.length : ℝ)) := by
    intro xs hxs
    have hu : (xs.map fun x : ℝ => (x : Fit)).map (fun v => v.untopD 0) = xs := by
      rw [List.map_map]
      exact List.map_id xs
    have hlen : (0 : ℝ) < xs.length := by
      exact_mod_cast List.length_pos_of_ne_nil hxs
    unfold calm
    rw [if_neg (by
      rintro (h | h)
      · obtain ⟨x, _, hx⟩ := List.mem_map.1 h
        exact WithTop.coe_ne_top hx
      · exact hxs (List.map_eq_nil_iff.1 h))]
    simp only [hu, decide_eq_true_iff]
    rw [Real.sqrt_lt' (by norm_num), div_lt_iff₀ hlen]
    norm_num
  constructor
  · intro h
    have hn : ¬ (⊤ ∈ l ∨ l = []) := by
      intro hc
      unfold calm at h
      rw [if_pos hc] at h
      cases h
    have hl : l = (l.map fun v => v.untopD 0).map fun x : ℝ => (x : Fit) := by
      rw [List.map_map]
      refine (List.map_id l).symm.trans (List.map_congr_left fun v hv => ?_)
      cases v with
      | none => exact absurd (Or.inl hv) hn
      | some x => rfl
    refine ⟨l.map fun v => v.untopD 0, by simpa using fun h => hn (Or.inr h), hl, ?_⟩
    rw [hl] at h
    exact (key _ (by simpa using fun h => hn (Or.inr h))).1 h
  · rintro ⟨xs, hne, rfl, h⟩
    exact (key xs hne).2 h

/-- C45: the number of entries is the number of generations, unless the loop was left early. -/
theorem log_count (draw : Nat → Draw n) (k g : Nat) (s s' : Run n)
    (h : runGens uni argsort G fit draw k g s = .ok s') :
    s'.logs.length ≤ s.logs.length + k ∧
      ((∀ l ∈ s'.logs, calm l.fitness = false) → s'.logs.length = s.logs.length + k) := by
  induction k generalizing g s with
  | zero => cases h; exact ⟨le_rfl, fun _ => rfl⟩
  | succ k ih =>
    rw [runGens] at h
    cases hg : genStep uni argsort G fit g (draw g) s with
    | error e => rw [hg] at h; cases h
    | ok sb =>
      obtain ⟨s₁, b⟩ := sb
      rw [hg] at h
      obtain ⟨l, hl, hev, _, hfit⟩ := log_step _ _ _ _ _ hg
      cases b with
      | true =>
        cases h
        rw [hl, List.length_append, List.length_singleton]
        refine ⟨by omega, fun hc => ?_⟩
        obtain ⟨_, _, _, h3⟩ := genStep_ok hg
        rcases h3 with ⟨hb, _⟩ | ⟨_, hcalm, _⟩
        · cases hb
        · have := hc l (List.mem_append_right _ (List.mem_singleton.2 rfl))
          rw [hfit, hev, hcalm.1] at this
          cases this
      | false =>
        obtain ⟨h1, h2⟩ := ih _ _ h
        rw [hl, List.length_append, List.length_singleton] at h1 h2
        exact ⟨by omega, fun hc => by rw [h2 hc]; omega⟩

/-- C43: the loop is left after the first generation beyond the seventh with steady fitness, and
only there. -/
theorem early_stop (draw : Nat → Draw n) (k g : Nat) (s s' : Run n)
    (h : runGens uni argsort G fit draw k g s = .ok s') :
    ∃ new, s'.logs = s.logs ++ new ∧ new.length ≤ k ∧
      (∀ i (hi : i < new.length), i + 1 < k → 6 < g + i →
        (Spec.Steady (new[i]).fitness ↔ i + 1 = new.length)) ∧
      (new.length < k → ∃ l, new.getLast? = some l ∧ Spec.Steady l.fitness ∧
        6 < g + new.length - 1) := by
  induction k generalizing g s with
  | zero =>
    cases h
    exact ⟨[], by simp, by simp, fun i hi => by simp at hi, fun h => by simp at h⟩
  | succ k ih =>
    rw [runGens] at h
    cases hg : genStep uni argsort G fit g (draw g) s with
    | error e => rw [hg] at h; cases h
    | ok sb =>
      obtain ⟨s₁, b⟩ := sb
      rw [hg] at h
      obtain ⟨l, hl, hev, _, hfit⟩ := log_step _ _ _ _ _ hg
      obtain ⟨_, _, _, h3⟩ := genStep_ok hg
      cases b with
      | true =>
        cases h
        rcases h3 with ⟨hb, _⟩ | ⟨_, hcalm, _⟩
        · cases hb
        have hst : Spec.Steady l.fitness := by
          rw [hfit, hev]
          exact (calm_iff _).1 hcalm.1
        refine ⟨[l], hl, by simp, ?_, fun _ => ⟨l, rfl, hst, by simpa using hcalm.2⟩⟩
        intro i hi _ _
        have h0 : i = 0 := by simpa using hi
        subst h0
        exact ⟨fun _ => rfl, fun _ => hst⟩
      | false =>
        obtain ⟨new, hn, hle, h4, h5⟩ := ih _ _ h
        rcases h3 with ⟨_, hcalm, _⟩ | ⟨hb, _⟩
        swap
        · cases hb
        refine ⟨l :: new, by rw [hn, hl]; simp, by simpa using hle, ?_, ?_⟩
        · intro i hi hik hgi
          cases i with
          | zero =>
            have hns : ¬ Spec.Steady l.fitness := by
              rw [hfit, hev, ← calm_iff]
              intro hc
              exact hcalm ⟨hc, by simpa using hgi⟩
            have hpos : new ≠ [] := by
              rintro rfl
              obtain ⟨l', hl', _⟩ := h5 (by simp at hik ⊢; omega)
              cases hl'
            have := List.length_pos_of_ne_nil hpos
            exact ⟨fun hc => absurd hc hns, fun hc => by
              rw [List.length_cons] at hc; omega⟩
          | succ i =>
            have := h4 i (by simpa using hi) (by omega) (by omega)
            rw [List.getElem_cons_succ, this, List.length_cons]
            omega
        · intro hlt
          obtain ⟨l', hl', hs', hg'⟩ := h5 (by simpa using hlt)
          refine ⟨l', ?_, hs', by rw [List.length_cons]; omega⟩
          rw [List.getLast?_cons, hl']
          rfl

/-- C45: the log written for one seed begins with the entries of the seeds before it. -/
theorem log_accumulates (draw : Nat → Draw n) (build : Build n) (z₁ z₂ : Nat → Vec n)
    (s s' : Run n) (h : runSeed uni argsort G fit draw build z₁ z₂ s = .ok s') :
    ∃ new, s'.logs = s.logs ++ new ∧ 1 ≤ new.length ∧ new.length ≤ G := by
  have key := runGens_inv (P := fun t => ∃ new, t.logs = s.logs ++ new) draw (by
    rintro g t t' b hg ⟨new, hn⟩
    obtain ⟨l, hl, _⟩ := log_step _ _ _ _ _ hg
    exact ⟨new ++ [l], by rw [hl, hn, List.append_assoc]⟩) _ _ _ _ (runSeed_ok h).2
      ⟨[], by simp⟩
  obtain ⟨new, hn⟩ := key
  have hc := (log_count draw _ _ _ _ (runSeed_ok h).2).1
  refine ⟨new, hn, ?_, ?_⟩
  · obtain ⟨hG, hrun⟩ := runSeed_ok h
    obtain ⟨k, rfl⟩ : ∃ k, G = k + 1 := ⟨G - 1, by omega⟩
    have hgrow : s.logs.length + 1 ≤ s'.logs.length := by
      rw [runGens] at hrun
      cases hg : genStep uni argsort (k + 1) fit 0 (draw 0)
          { s with cma := Cma.initialize build z₂ (Cma.reset build z₁ s.cma) } with
      | error e => rw [hg] at hrun; cases hrun
      | ok sb =>
        obtain ⟨s₁, b⟩ := sb
        rw [hg] at hrun
        obtain ⟨l, hl, _⟩ := log_step _ _ _ _ _ hg
        have h1 : s.logs.length + 1 ≤ s₁.logs.length := by
          rw [hl, List.length_append, List.length_singleton]
        cases b with
        | true => cases hrun; exact h1
        | false =>
          exact runGens_inv (P := fun t => s.logs.length + 1 ≤ t.logs.length) draw (by
            rintro g t t' b hg ht
            obtain ⟨l, hl, _⟩ := log_step _ _ _ _ _ hg
            rw [hl, List.length_append]
            omega) _ _ _ _ hrun h1
    rw [hn, List.length_append] at hgrow
    omega
  · rw [hn, List.length_append] at hc
    change s.logs.length + new.length ≤ s.logs.length + G at hc
    omega

/-! ## C43 -/

theorem take_mem_of_get {V : Type} (p : List V) (N i : Nat) (hi : i < N) (v : V)
    (h : p[i]? = some v) : v ∈ p.take N := by
  have : (p.take N)[i]? = some v := by rw [List.getElem?_take, if_pos hi]; exact h
  exact List.mem_of_getElem? this

/-- C43: the elite a generation logs were evaluated in that generation. -/
theorem logged_elite_evaluated (ha : Spec.Argsort argsort) (g : Nat) (r : Draw n) (s s' : Run n)
    (b : Bool) (hr : ∀ bk ∈ r.brackets, ∀ i ∈ bk, i < s.cma.popSize)
    (h : genStep uni argsort G fit g r s = .ok (s', b)) :
    ∃ l : GenLog n, s'.logs = s.logs ++ [l] ∧ ∀ v ∈ l.elite, v ∈ l.evaluated := by
  obtain ⟨hlen, s₁, h1, h2⟩ := genStep_ok h
  have hfl : ((s.cma.population.take s.cma.popSize).map (fit g)).length = s.cma.popSize := by
    rw [List.length_map, List.length_take]; omega
  have hl : s₁.logs = s.logs := by
    rcases h1 with ⟨_, h1⟩ | ⟨_, c, h1, rfl⟩
    · obtain ⟨c, hc, rfl⟩ := run_rank_ok h1; rfl
    · rfl
  refine ⟨⟨s.cma.population.take s.cma.popSize,
    (s.cma.population.take s.cma.popSize).map (fit g), s₁.cma.elite.getD []⟩, ?_, ?_⟩
  · rcases h2 with ⟨_, _, rfl⟩ | ⟨_, _, h3⟩
    · rw [← hl]
    · obtain ⟨c, hc, rfl⟩ := run_rank_ok h3
      rw [← hl]
  · intro v hv
    dsimp only at hv ⊢
    rcases h1 with ⟨_, h1⟩ | ⟨_, c, h1, rfl⟩
    · obtain ⟨c, hc, rfl⟩ := run_rank_ok h1
      obtain ⟨idx, E, hs, hg, rfl⟩ := rank_ok hc
      obtain ⟨i, hi, hget⟩ := gather_mem hg v hv
      have : selectElite argsort 0 (eliteKeep s.cma.popSize) r
          ((s.cma.population.take s.cma.popSize).map (fit g)) = .ok idx := hs
      have := select_lt ha (by rw [hfl]; exact hr) this i hi
      exact take_mem_of_get _ _ i (by omega) v hget
    · obtain ⟨idx, E, hs, hg, hE, _⟩ := update_ok h1
      rw [hE] at hv
      obtain ⟨i, hi, hget⟩ := gather_mem hg v hv
      have := select_lt ha (by rw [hfl]; exact hr) hs i hi
      exact take_mem_of_get _ _ i (by omega) v hget

/-- C43: the last generation saves the fittest agent it evaluated. -/
theorem last_generation_saves_best (ha : Spec.Argsort argsort) (g : Nat) (r : Draw n)
    (s s' : Run n) (b : Bool) (hG : g = G - 1) (h1 : 1 ≤ s.cma.popSize)
    (h : genStep true argsort G fit g r s = .ok (s', b)) :
    ∃ v, s'.saved = some v ∧ v ∈ s.cma.population.take s.cma.popSize ∧
      ∀ w ∈ s.cma.population.take s.cma.popSize, fit g w ≤ fit g v := by
  obtain ⟨hlen, s₁, hs₁, h2⟩ := genStep_ok h
  have hfl : ((s.cma.population.take s.cma.popSize).map (fit g)).length = s.cma.popSize := by
    rw [List.length_map, List.length_take]; omega
  have key : ∀ t t' : Run n, t.cma.population = s.cma.population → t.cma.popSize = s.cma.popSize →
      t.rank true argsort ((s.cma.population.take s.cma.popSize).map (fit g)) = .ok t' →
      (∃ v, t'.saved = some v ∧ v ∈ s.cma.population.take s.cma.popSize ∧
        ∀ w ∈ s.cma.population.take s.cma.popSize, fit g w ≤ fit g v) ∧
      t'.cma.population = s.cma.population ∧ t'.cma.popSize = s.cma.popSize := by
    intro t t' e1 e2 ht
    obtain ⟨c, hc, rfl⟩ := run_rank_ok ht
    obtain ⟨idx, E, hs, hg, rfl⟩ := rank_ok hc
    rw [e2] at hs
    rw [e1] at hg
    refine ⟨?_, e1, e2⟩
    generalize hf : (s.cma.population.take s.cma.popSize).map (fit g) = f at hs hfl
    obtain ⟨idx', k1, k2, _, k4, _, _, bst, hb, hbest⟩ :=
      truncation_correct f (argsort f) (ha f) (by omega)
    rw [hfl, hs] at k1
    cases k1
    have hb0 : idx[0]? = some bst := by rw [← List.head?_eq_getElem?]; exact hb
    have hblt : bst < s.cma.popSize := by rw [← hfl]; exact k4 bst (List.mem_of_mem_head? hb)
    have hget := gather_get hg 0 bst hb0
    rw [List.getElem?_eq_getElem (by omega)] at hget
    refine ⟨s.cma.population[bst]'(by omega), ?_, ?_, ?_⟩
    · show E.head? = _
      rw [List.head?_eq_getElem?, ← hget]
    · exact take_mem_of_get _ _ bst hblt _ (List.getElem?_eq_getElem _)
    · intro w hw
      refine hbest _ ?_ _ (by rw [← hf]; exact List.mem_map_of_mem hw)
      have hgo : f[bst]? = some (fit g (s.cma.population[bst]'(by omega))) := by
        subst hf
        rw [List.getElem?_map, List.getElem?_take, if_pos hblt,
          List.getElem?_eq_getElem (by omega)]
        rfl
      exact hgo
  rcases hs₁ with ⟨_, hs₁⟩ | ⟨hne, _⟩
  · obtain ⟨k1, k2, k3⟩ := key s s₁ rfl rfl hs₁
    rcases h2 with ⟨_, _, rfl⟩ | ⟨_, _, h3⟩
    · exact k1
    · have := fun a b => key _ _ a b h3
      exact (this k2 k3).1
  · exact absurd hG hne

/-- C43: a run that was not stopped early saves the fittest agent of its last generation. -/
theorem full_run_saves_best (ha : Spec.Argsort argsort) (draw : Nat → Draw n) (build : Build n)
    (z₁ z₂ : Nat → Vec n) (s s' : Run n) (h1 : 1 ≤ s.cma.popSize)
    (h : runSeed true argsort G fit draw build z₁ z₂ s = .ok s')
    (hfull : s'.logs.length = s.logs.length + G) :
    ∃ v l, s'.saved = some v ∧ s'.logs.getLast? = some l ∧ v ∈ l.evaluated ∧
      ∀ w ∈ l.evaluated, fit (G - 1) w ≤ fit (G - 1) v := by
  have key : ∀ (k g : Nat) (s s' : Run n), g + k = G → 1 ≤ k → 1 ≤ s.cma.popSize →
      runGens true argsort G fit draw k g s = .ok s' → s'.logs.length = s.logs.length + k →
      ∃ v l, s'.saved = some v ∧ s'.logs.getLast? = some l ∧ v ∈ l.evaluated ∧
        ∀ w ∈ l.evaluated, fit (G - 1) w ≤ fit (G - 1) v := by
    intro k
    induction k with
    | zero => intro _ _ _ _ h; omega
    | succ k ih =>
      intro g s s' hgk _ hpop h hl
      rw [runGens] at h
      cases hg : genStep true argsort G fit g (draw g) s with
      | error e => rw [hg] at h; cases h
      | ok sb =>
        obtain ⟨s₁, b⟩ := sb
        rw [hg] at h
        obtain ⟨l, hl1, hev, _, hfit⟩ := log_step _ _ _ _ _ hg
        have hps := (bookkeeping_step _ _ _ _ _ hg).1
        rcases Nat.eq_zero_or_pos k with rfl | hk
        · have hs' : s' = s₁ := by cases b <;> (cases h; rfl)
          subst hs'
          obtain ⟨v, q1, q2, q3⟩ :=
            last_generation_saves_best ha g _ s s' b (by omega) hpop hg
          refine ⟨v, l, q1, by rw [hl1]; simp, by rw [hev]; exact q2, ?_⟩
          rw [hev, show G - 1 = g by omega]
          exact q3
        · cases b with
          | true =>
            cases h
            rw [hl1, List.length_append, List.length_singleton] at hl
            omega
          | false =>
            refine ih _ _ _ (by omega) hk (by omega) h ?_
            rw [hl1, List.length_append, List.length_singleton]
            omega
  obtain ⟨hG, hrun⟩ := runSeed_ok h
  exact key G 0 { s with cma := Cma.initialize build z₂ (Cma.reset build z₁ s.cma) } s' (by omega)
    hG h1 hrun hfull

/-- C43: what an early stop saves: whatever the resampled population has at the position of the
best old fitness. -/
theorem early_stop_saves (g : Nat) (r : Draw n) (s s' : Run n) (hG : g ≠ G - 1)
    (h : genStep true argsort G fit g r s = .ok (s', true)) (b : Nat)
    (hb : (argsort ((s.cma.population.take s.cma.popSize).map (fit g))).getLast? = some b) :
    ∃ c, s.cma.update argsort r ((s.cma.population.take s.cma.popSize).map (fit g)) = .ok c ∧
      s'.saved = c.population[b]? := by
  obtain ⟨hlen, s₁, hs₁, h2⟩ := genStep_ok h
  rcases hs₁ with ⟨he, _⟩ | ⟨_, c, hc, rfl⟩
  · exact absurd he hG
  · refine ⟨c, hc, ?_⟩
    rcases h2 with ⟨hf, _⟩ | ⟨_, _, h3⟩
    · cases hf
    · obtain ⟨c', hc', rfl⟩ := run_rank_ok h3
      obtain ⟨idx, E, hs, hg, rfl⟩ := rank_ok hc'
      have hb0 : idx[0]? = some b := by
        unfold truncation at hs
        split at hs
        · cases hs
        · cases hs
          have : 0 < eliteKeep c.popSize := (eliteKeep_bounds _).1
          rw [List.getElem?_take, if_pos this, ← List.head?_eq_getElem?, List.head?_reverse]
          exact hb
      have := gather_get hg 0 b hb0
      show E.head? = _
      rw [List.head?_eq_getElem?, ← this]

/-- The search state of the witness below in generation `g`. -/
noncomputable def driftState (g : ℝ) (e : Option (List (Vec 1))) : Cma 1 :=
  { popSize := 1, mode := 0, startMeans := fun _ => 0, startCovar := fun _ _ => 1
    population := [fun _ => g + 1, fun _ => 1], means := fun _ => g, covar := fun _ _ => 1
    elite := e }

/-- Its random draws. -/
def driftDraw : Draw 1 := { brackets := [[0]], picks := [0], noise := fun _ _ => 1 }

theorem argsort_one (ha : Spec.Argsort argsort) (x : Fit) : argsort [x] = [0] := by
  have := (ha [x]).1
  simpa using this

theorem drift_update (ha : Spec.Argsort argsort) (g : ℝ) (e : Option (List (Vec 1))) (x : Fit) :
    (driftState g e).update argsort driftDraw [x] =
      .ok (driftState (g + 1) (some [fun _ => g + 1])) := by
  unfold Cma.update selectElite
  rw [argsort_one ha]
  have hmean : eliteMean [(fun _ => g + 1 : Vec 1)] = fun _ => g + 1 := by
    funext i; simp [eliteMean]
  have hcov : eliteCovar 1 [(fun _ => g + 1 : Vec 1)] (fun _ => g) = fun _ _ => 1 := by
    funext i j; simp [eliteCovar]
  have hs : sampleDist (fun _ => g + 1 : Vec 1) (fun _ _ => 1) (fun _ => 1) =
      fun _ => g + 1 + 1 := by
    funext i; simp [sampleDist]
  have hek : eliteKeep 1 = 1 := rfl
  simp only [driftState, hek, truncation, List.length_singleton, lt_irrefl, if_false,
    List.reverse_singleton, List.take_succ_cons, List.take_nil, Cma.adapt, driftDraw]
  have hg : gather [(fun _ => g + 1 : Vec 1), fun _ => 1] [0] = .ok [fun _ => g + 1] := rfl
  rw [hg]
  dsimp only
  rw [hmean, hcov]
  congr 2
  simp only [resample, copyElite, hs]
  rfl

theorem drift_rank (ha : Spec.Argsort argsort) (g : ℝ) (e : Option (List (Vec 1))) (x : Fit) :
    ∃ c, (driftState g e).rank argsort [x] = .ok c ∧ c.elite = some [fun _ => g + 1] := by
  unfold Cma.rank
  rw [argsort_one ha]
  have ht : truncation (eliteKeep (driftState g e).popSize) [0] = .ok [0] := by
    simp [truncation, eliteKeep, driftState]
  have hg : gather (driftState g e).population [0] = .ok [fun _ => g + 1] := rfl
  rw [ht]
  dsimp only
  rw [hg]
  exact ⟨(driftState g e).adapt [fun _ => g + 1], rfl, rfl⟩

theorem calm_zero : calm [0] = true := by
  unfold calm
  have h0 : ¬ ((⊤ : Fit) ∈ [(0 : Fit)] ∨ [(0 : Fit)] = []) := by
    rw [List.mem_singleton]
    rintro (h | h)
    · exact WithTop.top_ne_zero h
    · cases h
  rw [if_neg h0]
  simp
  norm_num

/-- The log entry of the witness. -/
noncomputable def driftLog (g : ℝ) : GenLog 1 := ⟨[fun _ => g + 1], [0], [fun _ => g + 1]⟩

theorem drift_step (ha : Spec.Argsort argsort) (g : Nat) (hg : g ≤ 6) (hG : g ≠ G - 1)
    (e : Option (List (Vec 1))) (logs : List (GenLog 1)) (sv : Option (Vec 1)) :
    genStep true argsort G (fun _ _ => 0) g driftDraw ⟨driftState g e, logs, sv⟩ =
      .ok (⟨driftState (g + 1) (some [fun _ => g + 1]), logs ++ [driftLog g], sv⟩, false) := by
  unfold genStep
  have hl : ¬ (driftState (g : ℝ) e).population.length < (driftState (g : ℝ) e).popSize := by
    simp [driftState]
  rw [if_neg hl]
  have hf : (((driftState (g : ℝ) e).population.take (driftState (g : ℝ) e).popSize).map
    fun _ => (0 : Fit)) = [0] := rfl
  dsimp only
  rw [hf, if_neg hG, drift_update ha]
  dsimp only
  rw [if_neg (by omega)]
  rfl

theorem drift_stop (ha : Spec.Argsort argsort) (hG : 7 ≠ G - 1)
    (e : Option (List (Vec 1))) (logs : List (GenLog 1)) (sv : Option (Vec 1)) :
    ∃ c, genStep true argsort G (fun _ _ => 0) 7 driftDraw ⟨driftState 7 e, logs, sv⟩ =
      .ok (⟨c, logs ++ [driftLog 7], some fun _ => 9⟩, true) := by
  obtain ⟨c, hc, hel⟩ := drift_rank ha (7 + 1) (some [fun _ => 7 + 1]) 0
  refine ⟨c, ?_⟩
  unfold genStep
  have hl : ¬ (driftState (7 : ℝ) e).population.length < (driftState (7 : ℝ) e).popSize := by
    simp [driftState]
  rw [if_neg hl]
  have hf : (((driftState (7 : ℝ) e).population.take (driftState (7 : ℝ) e).popSize).map
    fun _ => (0 : Fit)) = [0] := rfl
  dsimp only
  rw [hf, if_neg hG, drift_update ha]
  dsimp only
  rw [if_pos ⟨calm_zero, by omega⟩]
  unfold Run.rank
  dsimp only
  rw [hc]
  dsimp only
  rw [hel]
  have h9 : (fun _ => (7 : ℝ) + 1 + 1 : Vec 1) = fun _ => 9 := by funext; norm_num
  rw [h9]
  rfl

/-- C43, refuted: an early-stopped run can save a vector that was never evaluated. -/
theorem early_stop_refuted (ha : Spec.Argsort argsort) (hG : 9 ≤ G) :
    ∃ (draw : Nat → Draw 1) (z₁ z₂ : Nat → Vec 1) (s s' : Run 1) (v : Vec 1),
      runSeed true argsort G (fun _ _ => 0) draw .params z₁ z₂ s = .ok s' ∧
      s'.saved = some v ∧ ∀ l ∈ s'.logs, v ∉ l.evaluated := by
  obtain ⟨k, rfl⟩ : ∃ k, G = k + 9 := ⟨G - 9, by omega⟩
  obtain ⟨c, hstop⟩ := drift_stop (G := k + 9) ha (by omega) (some [fun _ => ((6 : Nat) : ℝ) + 1])
    [driftLog (0 : Nat), driftLog (1 : Nat), driftLog (2 : Nat), driftLog (3 : Nat),
     driftLog (4 : Nat), driftLog (5 : Nat), driftLog (6 : Nat)] none
  refine ⟨fun _ => driftDraw, fun _ _ => 1, fun _ _ => 1, ⟨driftState 0 none, [], none⟩,
    ⟨c, [driftLog (0 : Nat), driftLog (1 : Nat), driftLog (2 : Nat), driftLog (3 : Nat),
     driftLog (4 : Nat), driftLog (5 : Nat), driftLog (6 : Nat)] ++ [driftLog 7],
     some fun _ => 9⟩, fun _ => 9, ?_, rfl, ?_⟩
  · have hinit : Cma.initialize .params (fun _ _ => 1)
        (Cma.reset .params (fun _ _ => 1) (driftState 0 none)) = driftState ((0 : Nat) : ℝ) none := by
      have hs : sampleDist (fun _ => 0 : Vec 1) (fun _ _ => 1) (fun _ => 1) = fun _ => 1 := by
        funext i; simp [sampleDist]
      simp only [Cma.initialize, Cma.reset, driftState, Option.getD_none, List.mapIdx_nil,
        List.length_nil, Build.params, hs, Nat.sub_zero, List.append_nil, Nat.cast_zero, zero_add]
      rfl
    unfold runSeed
    dsimp only
    rw [hinit, if_neg (by simp [driftState, eliteKeep])]
    rw [show k + 9 = (k + 1) + 8 by omega]
    have e : ∀ g : Nat, ((g : ℝ) + 1) = ((g + 1 : Nat) : ℝ) := by intro g; push_cast; rfl
    rw [show (k + 1) + 8 = k + 9 by omega] at *
    have run : runGens true argsort (k + 9) (fun _ _ => 0) (fun _ => driftDraw) (k + 9) 0
        ⟨driftState ((0 : Nat) : ℝ) none, [], none⟩ = .ok ⟨c, [driftLog (0 : Nat),
        driftLog (1 : Nat), driftLog (2 : Nat), driftLog (3 : Nat), driftLog (4 : Nat),
        driftLog (5 : Nat), driftLog (6 : Nat)] ++ [driftLog 7], some fun _ => 9⟩ := by
      rw [runGens, drift_step ha 0 (by omega) (by omega)]
      dsimp only
      rw [e, runGens, drift_step ha (0 + 1) (by omega) (by omega)]
      dsimp only
      rw [e, runGens, drift_step ha (0 + 1 + 1) (by omega) (by omega)]
      dsimp only
      rw [e, runGens, drift_step ha (0 + 1 + 1 + 1) (by omega) (by omega)]
      dsimp only
      rw [e, runGens, drift_step ha (0 + 1 + 1 + 1 + 1) (by omega) (by omega)]
      dsimp only
      rw [e, runGens, drift_step ha (0 + 1 + 1 + 1 + 1 + 1) (by omega) (by omega)]
      dsimp only
      rw [e, runGens, drift_step ha (0 + 1 + 1 + 1 + 1 + 1 + 1) (by omega) (by omega)]
      dsimp only
      rw [runGens]
      have h7 : (((0 + 1 + 1 + 1 + 1 + 1 + 1 : Nat) : ℝ) + 1) = 7 := by norm_num
      have h6 : (0 + 1 + 1 + 1 + 1 + 1 + 1 : Nat) = 6 := rfl
      rw [h7]
      have := hstop
      rw [show (((6 : Nat) : ℝ) + 1) = 7 by norm_num] at this
      have hh : genStep true argsort (k + 9) (fun _ _ => 0) (0 + 1 + 1 + 1 + 1 + 1 + 1 + 1) driftDraw
        ⟨driftState 7 (some [fun _ => 7]), [] ++ [driftLog ((0 : Nat) : ℝ)] ++
          [driftLog ((0 + 1 : Nat) : ℝ)] ++ [driftLog ((0 + 1 + 1 : Nat) : ℝ)] ++
          [driftLog ((0 + 1 + 1 + 1 : Nat) : ℝ)] ++ [driftLog ((0 + 1 + 1 + 1 + 1 : Nat) : ℝ)] ++
          [driftLog ((0 + 1 + 1 + 1 + 1 + 1 : Nat) : ℝ)] ++
          [driftLog ((0 + 1 + 1 + 1 + 1 + 1 + 1 : Nat) : ℝ)], none⟩ = _ := this
      rw [hh]
    rw [run]
    dsimp only
    rw [if_neg (by omega)]
  · intro l hl
    simp only [List.cons_append, List.nil_append, List.mem_cons, List.not_mem_nil, or_false] at hl
    rcases hl with rfl | rfl | rfl | rfl | rfl | rfl | rfl | rfl <;>
    · simp only [driftLog, List.mem_singleton]
      intro he
      have := congrFun he 0
      norm_num at this

/-! ## C68: where the search can go -/

/-- The directions of the search. -/
def Spec.Confined (S : Submodule ℝ (Vec n)) (m₀ : Vec n) (c : Cma n) : Prop :=
  (∀ v ∈ c.population.take c.popSize, v - m₀ ∈ S) ∧ c.means - m₀ ∈ S ∧
    ∀ z : Vec n, (fun i => ∑ j, c.covar i j * z j) ∈ S

theorem eliteMean_mem (S : Submodule ℝ (Vec n)) (m₀ : Vec n) (E : List (Vec n)) (hE : E ≠ [])
    (h : ∀ e ∈ E, e - m₀ ∈ S) : eliteMean E - m₀ ∈ S := by
  have hl : (E.length : ℝ) ≠ 0 := by
    have := List.length_pos_iff.2 hE
    positivity
  have key : ∀ E : List (Vec n), (∀ e ∈ E, e - m₀ ∈ S) →
      (fun i => (E.map fun e => e i).sum - E.length * m₀ i) ∈ S := by
    intro E
    induction E with
    | nil => intro _; convert S.zero_mem using 1; funext i; simp
    | cons e E ih =>
      intro h
      have h1 := ih fun x hx => h x (List.mem_cons_of_mem _ hx)
      have h2 := h e (List.mem_cons_self ..)
      convert S.add_mem h2 h1 using 1
      funext i
      simp only [List.map_cons, List.sum_cons, List.length_cons, Pi.add_apply, Pi.sub_apply]
      push_cast
      ring
  convert S.smul_mem (1 / (E.length : ℝ)) (key E h) using 1
  funext i
  simp only [eliteMean, Pi.sub_apply, Pi.smul_apply, smul_eq_mul]
  field_simp

theorem eliteCovar_mem (S : Submodule ℝ (Vec n)) (m : Vec n) (ek : Nat) (E : List (Vec n))
    (h : ∀ e ∈ E, e - m ∈ S) (z : Vec n) :
    (fun i => ∑ j, eliteCovar ek E m i j * z j) ∈ S := by
  have key : ∀ E : List (Vec n), (∀ e ∈ E, e - m ∈ S) →
      (fun i => ∑ j, (E.map fun e => (e i - m i) * (e j - m j)).sum * z j) ∈ S := by
    intro E
    induction E with
    | nil => intro _; convert S.zero_mem using 1; funext i; simp
    | cons e E ih =>
      intro h
      have h1 := ih fun x hx => h x (List.mem_cons_of_mem _ hx)
      have h2 := S.smul_mem (∑ j, (e j - m j) * z j) (h e (List.mem_cons_self ..))
      convert S.add_mem h2 h1 using 1
      funext i
      simp only [List.map_cons, List.sum_cons, Pi.add_apply, Pi.sub_apply, Pi.smul_apply,
        smul_eq_mul, add_mul, Finset.sum_add_distrib, Finset.sum_mul]
      congr 1
      refine Finset.sum_congr rfl fun j _ => ?_
      ring
  convert S.smul_mem (1 / (ek : ℝ)) (key E h) using 1
  funext i
  simp only [eliteCovar, Pi.smul_apply, smul_eq_mul, Finset.mul_sum, mul_assoc]

theorem copyElite_mem {V : Type} (p : List V) (idx : List Nat) (E : List V)
    (hg : gather p idx = .ok E) (m k : Nat) (hm : m ≤ idx.length) (hp : m ≤ p.length) (hk : k < m)
    (v : V) (hv : (copyElite p idx m)[k]? = some v) : v ∈ E := by
  induction k using Nat.strong_induction_on generalizing v with
  | _ k ih =>
    have he : idx[k]? = some (idx[k]'(by omega)) := List.getElem?_eq_getElem _
    have hget := gather_get hg k _ he
    have hEl := gather_length hg
    have hlt : idx[k]'(by omega) < p.length := by
      rw [List.getElem?_eq_getElem (show k < E.length by omega)] at hget
      exact (List.getElem?_eq_some_iff.1 hget).1
    rw [copyElite_get p idx m k _ hk hp he hlt] at hv
    split at hv
    · rw [hget] at hv
      exact List.mem_of_getElem? hv
    · exact ih _ (by omega) (by omega) v hv

theorem select_length {F : Type} [LinearOrder F] {argsort : List F → List Nat} {mode : Nat}
    {r : Draw n} {f : List F} {idx : List Nat} {p : Nat} (hr : Spec.DrawOk p r)
    (h : selectElite argsort mode (eliteKeep p) r f = .ok idx) : idx.length = eliteKeep p := by
  unfold selectElite at h
  split at h
  · unfold truncation at h
    split at h
    · cases h
    · cases h
      rw [List.length_take, List.length_reverse]
      omega
  · unfold tournament at h
    have key : ∀ (bs : List (List Nat)) (idx : List Nat), bs.mapM (champion f) = .ok idx →
        idx.length = bs.length := by
      intro bs
      induction bs with
      | nil => intro idx h; cases h; rfl
      | cons b bs ih =>
        intro idx h
        rw [List.mapM_cons] at h
        cases hc : champion f b with
        | error e => rw [hc] at h; cases h
        | ok j =>
          rw [hc] at h
          cases hm : bs.mapM (champion f) with
          | error e => rw [hm] at h; cases h
          | ok idx' =>
            rw [hm] at h
            cases h
            simp [ih idx' hm]
    rw [key _ _ h]
    exact hr.1.1
  · rw [gather_length h]
    exact hr.2.1
  · cases h

/-- An update whose elite lies in `m₀ + S` keeps the whole search there. -/
theorem update_confined {F : Type} [LinearOrder F] {argsort : List F → List Nat}
    (S : Submodule ℝ (Vec n)) (m₀ : Vec n) (c c' : Cma n) (r : Draw n) (f : List F)
    (hr : Spec.DrawOk c.popSize r) (hpop : c.popSize ≤ c.population.length) (h1 : 1 ≤ c.popSize)
    (h : c.update argsort r f = .ok c')
    (hE : ∀ e ∈ c'.elite.getD [], e - m₀ ∈ S) (hm : c.means - m₀ ∈ S) :
    Spec.Confined S m₀ c' := by
  obtain ⟨idx, E, hs, hg, h2, h3, h4, h5, _, _, _, hp⟩ := update_ok h
  rw [h2] at hE
  change ∀ e ∈ E, e - m₀ ∈ S at hE
  have hidx := select_length hr hs
  have hEl := gather_length hg
  have hek := (eliteKeep_bounds c.popSize).1
  have hne : E ≠ [] := by
    rintro rfl
    simp at hEl
    omega
  have hmean : c'.means - m₀ ∈ S := by rw [h3]; exact eliteMean_mem S m₀ E hne hE
  have hcov : ∀ z : Vec n, (fun i => ∑ j, c'.covar i j * z j) ∈ S := by
    intro z
    rw [h4]
    refine eliteCovar_mem S c.means _ E (fun e he => ?_) z
    have := S.sub_mem (hE e he) hm
    convert this using 1
    abel
  refine ⟨?_, hmean, hcov⟩
  intro v hv
  obtain ⟨i, hi, rfl⟩ := List.getElem_of_mem hv
  rw [List.length_take] at hi
  have hget : c'.population[i]? = some ((c'.population.take c'.popSize)[i]) := by
    rw [List.getElem_take, List.getElem?_eq_getElem]
  generalize (c'.population.take c'.popSize)[i] = w at hget
  have hm2 : eliteKeep c.popSize / 2 ≤ eliteKeep c.popSize := Nat.div_le_self _ _
  have hm3 := (eliteKeep_bounds c.popSize).2 h1
  rw [hp, resample_get, copyElite_length] at hget
  split at hget
  · cases hget
    convert S.add_mem hmean (hcov (r.noise i)) using 1
    funext j
    simp only [sampleDist, Pi.sub_apply, Pi.add_apply]
    ring
  · rename_i hc
    rw [h5] at hi
    exact hE w (copyElite_mem _ _ _ hg _ i (by omega) (by omega) (by omega) w hget)

theorem rank_confined {argsort : List Fit → List Nat} (ha : Spec.Argsort argsort)
    (S : Submodule ℝ (Vec n)) (m₀ : Vec n) (c c' : Cma n) (f : List Fit)
    (hf : f.length = c.popSize) (h1 : 1 ≤ c.popSize)
    (h : c.rank argsort f = .ok c') (hc : Spec.Confined S m₀ c) : Spec.Confined S m₀ c' := by
  obtain ⟨idx, E, hs, hg, rfl⟩ := rank_ok h
  obtain ⟨idx', k1, k2, _, k4, _⟩ := truncation_correct f (argsort f) (ha f) (by omega)
  rw [hf, hs] at k1
  cases k1
  have hE : ∀ e ∈ E, e - m₀ ∈ S := by
    intro e he
    obtain ⟨i, hi, hget⟩ := gather_mem hg e he
    exact hc.1 e (take_mem_of_get _ _ i (by rw [← hf]; exact k4 i hi) e hget)
  have hne : E ≠ [] := by
    rintro rfl
    have := gather_length hg
    have := (eliteKeep_bounds f.length).1
    simp at *
    omega
  refine ⟨hc.1, eliteMean_mem S m₀ E hne hE, fun z => ?_⟩
  refine eliteCovar_mem S c.means _ E (fun e he => ?_) z
  have := S.sub_mem (hE e he) hc.2.1
  convert this using 1
  abel

/-- C68: from the second generation on, every agent evaluated lies in one affine subspace through
the starting mean, of dimension at most `elite_keep` (3 for the default 16 agents), however many
parameters there are. -/
theorem search_confined (ha : Spec.Argsort argsort) (draw : Nat → Draw n) (build : Build n)
    (z₁ z₂ : Nat → Vec n) (s s' : Run n) (h1 : 1 ≤ s.cma.popSize)
    (hr : ∀ g, Spec.DrawOk s.cma.popSize (draw g))
    (h : runSeed uni argsort G fit draw build z₁ z₂ s = .ok s') :
    ∃ S : Submodule ℝ (Vec n), Module.finrank ℝ S ≤ eliteKeep s.cma.popSize ∧
      ∀ l ∈ s'.logs.drop (s.logs.length + 1), ∀ v ∈ l.evaluated, v - s.cma.startMeans ∈ S := by
  classical
  obtain ⟨hG, hrun⟩ := runSeed_ok h
  obtain ⟨k, rfl⟩ : ∃ k, G = k + 1 := ⟨G - 1, by omega⟩
  rw [runGens] at hrun
  cases hg : genStep uni argsort (k + 1) fit 0 (draw 0)
      { s with cma := Cma.initialize build z₂ (Cma.reset build z₁ s.cma) } with
  | error e => rw [hg] at hrun; cases hrun
  | ok sb =>
    obtain ⟨s₁, b⟩ := sb
    rw [hg] at hrun
    obtain ⟨l₀, hl₀, _⟩ := log_step _ _ _ _ _ hg
    obtain ⟨hpop, t, ht, hb⟩ := genStep_ok hg
    have hb' : b = false ∧ s₁.cma = t.cma := by
      rcases hb with ⟨hb, _, rfl⟩ | ⟨_, ⟨_, h6⟩, _⟩
      · exact ⟨hb, rfl⟩
      · omega
    obtain ⟨rfl, hcma⟩ := hb'
    dsimp only at hrun
    have hlen₁ : s₁.logs.length = s.logs.length + 1 := by
      rw [hl₀, List.length_append, List.length_singleton]
    rcases ht with ⟨h0, _⟩ | ⟨_, c, hc, rfl⟩
    · obtain rfl : k = 0 := by omega
      cases hrun
      refine ⟨⊥, by simp, ?_⟩
      intro l hl
      rw [List.drop_of_length_le (by omega)] at hl
      cases hl
    · obtain ⟨idx, E, hs, hgat, h2, _⟩ := update_ok hc
      have hps : s₁.cma.popSize = s.cma.popSize := (bookkeeping_step _ _ _ _ _ hg).1
      refine ⟨Submodule.span ℝ (((E.map (· - s.cma.startMeans)).toFinset : Finset (Vec n)) :
        Set (Vec n)), ?_, ?_⟩
      · refine (finrank_span_finset_le_card _).trans ((List.toFinset_card_le _).trans ?_)
        rw [List.length_map, gather_length hgat]
        exact (select_length (hr 0) hs).le
      · have hconf : Spec.Confined (Submodule.span ℝ
            (((E.map (· - s.cma.startMeans)).toFinset : Finset (Vec n)) : Set (Vec n)))
            s.cma.startMeans s₁.cma := by
          rw [hcma]
          refine update_confined _ _ (Cma.initialize build z₂ (Cma.reset build z₁ s.cma)) c (draw 0) _
            (hr 0) hpop h1 hc ?_ ?_
          · rw [h2]
            intro e he
            exact Submodule.subset_span (by
              rw [Finset.mem_coe, List.mem_toFinset]
              exact List.mem_map_of_mem (f := (· - s.cma.startMeans)) he)
          · show s.cma.startMeans - s.cma.startMeans ∈ _
            rw [sub_self]
            exact Submodule.zero_mem _
        generalize Submodule.span ℝ (((E.map (· - s.cma.startMeans)).toFinset : Finset (Vec n)) :
          Set (Vec n)) = S at hconf
        have key := runGens_inv (P := fun t : Run n => t.cma.popSize = s.cma.popSize ∧
          Spec.Confined S s.cma.startMeans t.cma ∧ s.logs.length + 1 ≤ t.logs.length ∧
          ∀ l ∈ t.logs.drop (s.logs.length + 1), ∀ v ∈ l.evaluated, v - s.cma.startMeans ∈ S)
          draw ?_ _ _ _ _ hrun ⟨hps, hconf, by omega, by
            intro l hl; rw [List.drop_of_length_le (by omega)] at hl; cases hl⟩
        · exact key.2.2.2
        · rintro g t t' b' hgt ⟨q1, q2, q3, q4⟩
          obtain ⟨l, hl, hev, _⟩ := log_step _ _ _ _ _ hgt
          have hbk := bookkeeping_step _ _ _ _ _ hgt
          refine ⟨hbk.1.trans q1, ?_, ?_, ?_⟩
          · obtain ⟨hpt, t₁, hx, hy⟩ := genStep_ok hgt
            have hfl : ((t.cma.population.take t.cma.popSize).map (fit g)).length =
                t.cma.popSize := by
              rw [List.length_map, List.length_take]; omega
            have c1 : Spec.Confined S s.cma.startMeans t₁.cma ∧ t₁.cma.popSize = t.cma.popSize := by
              rcases hx with ⟨_, hx⟩ | ⟨_, c, hx, rfl⟩
              · obtain ⟨c, hc, rfl⟩ := run_rank_ok hx
                refine ⟨rank_confined ha S _ _ _ _ hfl (by omega) hc q2, ?_⟩
                obtain ⟨_, _, _, _, rfl⟩ := rank_ok hc
                rfl
              · obtain ⟨idx, E, hs, hgat, h2, _, _, h5, _⟩ := update_ok hx
                refine ⟨update_confined S _ _ _ (draw g) _ (by rw [q1]; exact hr g) hpt (by omega)
                  hx ?_ q2.2.1, h5⟩
                rw [h2]
                intro e he
                obtain ⟨i, hi, hget⟩ := gather_mem hgat e he
                refine q2.1 e (take_mem_of_get _ _ i ?_ e hget)
                rw [← hfl]
                refine select_lt ha ?_ hs i hi
                intro bk hbk i hi
                rw [hfl, q1]
                exact ((hr g).1.2 bk hbk).2 i hi
            rcases hy with ⟨_, _, rfl⟩ | ⟨_, _, hy⟩
            · exact c1.1
            · obtain ⟨c, hc, rfl⟩ := run_rank_ok hy
              refine rank_confined ha S _ _ _ _ ?_ ?_ hc c1.1
              · rw [hfl]; exact c1.2.symm
              · show 1 ≤ t₁.cma.popSize
                rw [c1.2]; omega
          · rw [hl, List.length_append]; omega
          · rw [hl, List.drop_append_of_le_length q3]
            intro l' hl'
            rcases List.mem_append.1 hl' with hl' | hl'
            · exact q4 l' hl'
            · rw [List.mem_singleton.1 hl', hev]
              exact q2.1

/-! ## C69, C70: how a run starts -/

/-- C69, refuted: repetitions with several seeds are not independent.  The first agents of the
next seed's run are the final elite of the previous one. -/
theorem seeds_not_independent_refuted (c : Cma n) (E : List (Vec n)) (hE : c.elite = some E)
    (z₁ z₂ : Nat → Vec n) :
    (Cma.initialize .params z₂ (Cma.reset .params z₁ c)).population.take E.length = E := by
  have hm : (E.mapIdx fun i e => Build.params i e) = E := by
    apply List.ext_getElem?
    intro i
    rw [List.getElem?_mapIdx]
    cases E[i]? <;> rfl
  simp only [Cma.initialize, Cma.reset, hE, Option.getD_some, hm, List.nil_append,
    List.append_assoc]
  exact List.take_left

/-- C69: every run leaves an elite behind. -/
theorem run_leaves_elite (draw : Nat → Draw n) (build : Build n) (z₁ z₂ : Nat → Vec n)
    (s s' : Run n) (h : runSeed uni argsort G fit draw build z₁ z₂ s = .ok s') :
    s'.cma.elite.isSome := by
  obtain ⟨hG, hrun⟩ := runSeed_ok h
  obtain ⟨k, rfl⟩ : ∃ k, G = k + 1 := ⟨G - 1, by omega⟩
  have step : ∀ g s s' b, genStep uni argsort (k + 1) fit g (draw g) s = .ok (s', b) →
      s'.cma.elite.isSome := by
    intro g s s' b hg
    obtain ⟨_, s₁, h1, h2⟩ := genStep_ok hg
    have e1 : s₁.cma.elite.isSome := by
      rcases h1 with ⟨_, h1⟩ | ⟨_, c, h1, rfl⟩
      · obtain ⟨c, hc, rfl⟩ := run_rank_ok h1
        obtain ⟨_, _, _, _, rfl⟩ := rank_ok hc
        rfl
      · obtain ⟨_, _, _, _, hE, _⟩ := update_ok h1
        dsimp only
        rw [hE]
        rfl
    rcases h2 with ⟨_, _, rfl⟩ | ⟨_, _, h3⟩
    · exact e1
    · obtain ⟨c, hc, rfl⟩ := run_rank_ok h3
      obtain ⟨_, _, _, _, rfl⟩ := rank_ok hc
      rfl
  rw [runGens] at hrun
  cases hg : genStep uni argsort (k + 1) fit 0 (draw 0)
      { s with cma := Cma.initialize build z₂ (Cma.reset build z₁ s.cma) } with
  | error e => rw [hg] at hrun; cases hrun
  | ok sb =>
    obtain ⟨s₁, b⟩ := sb
    rw [hg] at hrun
    have p1 := step _ _ _ _ hg
    cases b with
    | true => cases hrun; exact p1
    | false =>
      exact runGens_inv (P := fun t => t.cma.elite.isSome) draw
        (fun g s s' b hg _ => step g s s' b hg) _ _ _ _ hrun p1

/-- C70: a search with `ParamsAgent` starts from samples of the starting distribution. -/
theorem params_start_sampled (c : Cma n) (hE : c.elite = none) (z : Nat → Vec n) (i : Nat)
    (hi : i < c.popSize) :
    (Cma.reset .params z c).population[i]? =
      some (sampleDist c.startMeans c.startCovar (z i)) := by
  simp only [Cma.initialize, Cma.reset, hE, Option.getD_none, List.mapIdx_nil, List.nil_append,
    List.length_nil, Nat.sub_zero, List.getElem?_map, Build.params]
  rw [List.getElem?_range' (by omega)]
  simp

/-- C70, refuted for `CPPNPlus`: without an elite, the parameters of the pattern network are its
own random weights whatever the starting distribution; the rest are samples of it. -/
theorem cppnPlus_start_refuted (k : Nat) (w : Nat → Vec n) (c : Cma n) (hE : c.elite = none)
    (z : Nat → Vec n) (i : Nat) (hi : i < c.popSize) :
    ∃ v, (Cma.reset (.cppnPlus k w) z c).population[i]? = some v ∧
      (∀ j : Fin n, j.val < k → v j = w i j) ∧
      ∀ j : Fin n, k ≤ j.val → v j = sampleDist c.startMeans c.startCovar (z i) j := by
  refine ⟨Build.cppnPlus k w i (sampleDist c.startMeans c.startCovar (z i)), ?_, ?_, ?_⟩
  · simp only [Cma.initialize, Cma.reset, hE, Option.getD_none, List.mapIdx_nil, List.nil_append,
      List.length_nil, Nat.sub_zero, List.getElem?_map]
    rw [List.getElem?_range' (by omega)]
    simp
  · intro j hj; simp [Build.cppnPlus, hj]
  · intro j hj; simp [Build.cppnPlus, hj]

/-- C70, refuted for `CPPN`: its first population depends neither on the starting distribution nor
on the elite it is told to resume from. -/
theorem cppn_start_ignores_refuted (w : Nat → Vec n) (c₁ c₂ : Cma n) (z₁ z₂ : Nat → Vec n)
    (hp : c₁.popSize = c₂.popSize) (h₁ : (c₁.elite.getD []).length ≤ c₁.popSize)
    (h₂ : (c₂.elite.getD []).length ≤ c₂.popSize) :
    (Cma.reset (.cppn w) z₁ c₁).population = (Cma.reset (.cppn w) z₂ c₂).population := by
  have key : ∀ (c : Cma n) (z : Nat → Vec n), (c.elite.getD []).length ≤ c.popSize →
      (Cma.reset (.cppn w) z c).population = (List.range c.popSize).map w := by
    intro c z h
    simp only [Cma.initialize, Cma.reset, Build.cppn, List.nil_append]
    generalize c.elite.getD [] = E at h ⊢
    have h1 : (E.mapIdx fun i _ => w i) = (List.range E.length).map w := by
      apply List.ext_getElem?
      intro i
      rw [List.getElem?_mapIdx, List.getElem?_map]
      rcases Nat.lt_or_ge i E.length with hi | hi
      · rw [List.getElem?_eq_getElem hi, List.getElem?_range hi]; rfl
      · rw [List.getElem?_eq_none hi, List.getElem?_eq_none (by simpa using hi)]; rfl
    rw [h1, ← List.map_append, List.range_eq_range', List.range_eq_range']
    congr 1
    have := List.range'_append_1 (s := 0) (m := E.length) (n := c.popSize - E.length)
    rw [Nat.zero_add] at this
    rw [this]
    congr 1
    omega
  rw [key c₁ z₁ h₁, key c₂ z₂ h₂, hp]

/-! ## The hypotheses can be met -/

/-- A correct `argsort` exists. -/
theorem argsort_exists : ∃ argsort : List Fit → List Nat, Spec.Argsort argsort := by
  classical
  refine ⟨fun f => (List.range f.length).mergeSort fun i j => decide (f.getD i 0 ≤ f.getD j 0),
    fun f => ⟨List.mergeSort_perm _ _, ?_⟩⟩
  have := List.pairwise_mergeSort (le := fun i j : Nat => decide (f.getD i 0 ≤ f.getD j 0))
    (fun a b c h1 h2 => by
      rw [decide_eq_true_iff] at *
      exact le_trans h1 h2)
    (fun a b => by
      rw [Bool.or_eq_true, decide_eq_true_iff, decide_eq_true_iff]
      exact le_total _ _) (List.range f.length)
  refine this.imp ?_
  intro i j h a ha b hb
  rw [decide_eq_true_iff, List.getD_eq_getElem?_getD, List.getD_eq_getElem?_getD,
    Option.mem_def.1 ha, Option.mem_def.1 hb] at h
  exact h

/-- The draws of the witness are admissible. -/
theorem driftDraw_ok : Spec.DrawOk 1 driftDraw := by
  refine ⟨⟨rfl, ?_⟩, rfl, by simp [driftDraw], by simp [driftDraw]⟩
  intro b hb
  simp only [driftDraw, List.mem_singleton] at hb
  subst hb
  exact ⟨rfl, by simp⟩

/-- A complete run of two generations with one agent and one parameter. -/
theorem two_generations (ha : Spec.Argsort argsort) :
    ∃ s', runSeed true argsort 2 (fun _ _ => 0) (fun _ => driftDraw) .params (fun _ _ => 1)
      (fun _ _ => 1) ⟨driftState 0 none, [], none⟩ = .ok s' ∧
      s'.logs = [driftLog (0 : Nat), driftLog (1 : Nat)] := by
  have hinit : Cma.initialize .params (fun _ _ => 1)
      (Cma.reset .params (fun _ _ => 1) (driftState 0 none)) = driftState ((0 : Nat) : ℝ) none := by
    have hs : sampleDist (fun _ => 0 : Vec 1) (fun _ _ => 1) (fun _ => 1) = fun _ => 1 := by
      funext i; simp [sampleDist]
    simp only [Cma.initialize, Cma.reset, driftState, Option.getD_none, List.mapIdx_nil,
      List.length_nil, Build.params, hs, Nat.sub_zero, List.append_nil, Nat.cast_zero, zero_add]
    rfl
  obtain ⟨c, hc, hel⟩ := drift_rank ha (((0 : Nat) : ℝ) + 1) (some [fun _ => ((0 : Nat) : ℝ) + 1]) 0
  refine ⟨⟨c, [driftLog (0 : Nat), driftLog (1 : Nat)], some fun _ => ((0 : Nat) : ℝ) + 1 + 1⟩,
    ?_, rfl⟩
  unfold runSeed
  dsimp only
  rw [hinit, if_neg (by simp [driftState, eliteKeep])]
  have hlast : genStep true argsort 2 (fun _ _ => 0) (0 + 1) driftDraw
      ⟨driftState (((0 : Nat) : ℝ) + 1) (some [fun _ => ((0 : Nat) : ℝ) + 1]),
        [] ++ [driftLog (0 : Nat)], none⟩ = .ok (⟨c, [driftLog (0 : Nat), driftLog (1 : Nat)],
        some fun _ => ((0 : Nat) : ℝ) + 1 + 1⟩, false) := by
    unfold genStep
    rw [if_neg (by simp [driftState])]
    dsimp only
    rw [if_pos rfl]
    unfold Run.rank
    have hf : ∀ g e, ((driftState g e).population.take (driftState g e).popSize).map
      (fun _ => (0 : Fit)) = [0] := fun _ _ => rfl
    dsimp only
    rw [hf, hc]
    dsimp only
    rw [hel, if_neg (by omega)]
    simp [driftLog, driftState]
  rw [runGens, drift_step ha 0 (by omega) (by omega)]
  dsimp only
  rw [runGens, hlast]
  rfl

/-- The hypotheses of `search_confined`, `full_run_saves_best` and `covariance_always` hold
together. -/
example : ∃ (argsort : List Fit → List Nat) (s s' : Run 1), Spec.Argsort argsort ∧
    1 ≤ s.cma.popSize ∧ (∀ _ : Nat, Spec.DrawOk s.cma.popSize driftDraw) ∧
    runSeed true argsort 2 (fun _ _ => 0) (fun _ => driftDraw) .params (fun _ _ => 1)
      (fun _ _ => 1) s = .ok s' ∧ s'.logs.length = s.logs.length + 2 := by
  obtain ⟨argsort, ha⟩ := argsort_exists
  obtain ⟨s', h1, h2⟩ := two_generations ha
  exact ⟨argsort, ⟨driftState 0 none, [], none⟩, s', ha, le_refl 1, fun _ => driftDraw_ok, h1,
    by rw [h2]; rfl⟩

end Yuca
