import Verif.Props.Gifs
import Verif.Props.Frames

/-!
# The gifs of a search: what they miss, and their files (C94)
-/

namespace Yuca

variable {n : Nat}

/-! ## A run whose gifs miss its best agent -/

/-- Ranking succeeds when every agent has a fitness. -/
theorem rank_succeeds {argsort : List Fit → List Nat} (ha : Spec.Argsort argsort) (c : Cma n)
    (f : List Fit) (hp : 1 ≤ c.popSize) (hf : f.length = c.popSize)
    (hl : c.popSize ≤ c.population.length) : ∃ E, c.rank argsort f = .ok (c.adapt E) := by
  have hlen : (argsort f).length = c.popSize := by
    rw [(ha f).1.length_eq, List.length_range, hf]
  have hk := eliteKeep_le hp (Nat.le_refl c.popSize)
  obtain ⟨E, hE⟩ := gather_ok c.population ((argsort f).reverse.take (eliteKeep c.popSize)) (by
    intro i hi
    have := (ha f).1.mem_iff.1 (List.mem_reverse.1 (List.mem_of_mem_take hi))
    rw [List.mem_range] at this
    omega)
  refine ⟨E, ?_⟩
  unfold Cma.rank truncation
  rw [if_neg (by omega)]
  dsimp only
  rw [hE]

/-- A search with `p` agents that starts at 0 with variance 1. -/
noncomputable def Witness.ladder (p : Nat) : Run 1 where
  cma := { popSize := p, mode := 0, startMeans := fun _ => 0, startCovar := fun _ _ => 1,
           population := [], means := fun _ => 0, covar := fun _ _ => 1, elite := none }
  logs := []
  saved := none

/-- Its first samples. -/
theorem ladder_start (p : Nat) :
    (Cma.initialize .params (fun i _ => (i : ℝ)) (Cma.reset .params (fun i _ => (i : ℝ))
      (Witness.ladder p).cma)).population.take p =
      (List.range p).map fun (i : Nat) (_ : Fin 1) => (i : ℝ) := by
  have h : (fun i : Nat => Build.params i (sampleDist (fun _ : Fin 1 => (0 : ℝ))
      (fun _ _ => 1) (fun _ => (i : ℝ)))) = fun (i : Nat) (_ : Fin 1) => (i : ℝ) := by
    funext i j
    simp [Build.params, sampleDist]
  simp only [Cma.initialize, Cma.reset, Witness.ladder, Option.getD_none, List.mapIdx_nil,
    List.append_nil, List.nil_append, List.length_nil, Nat.sub_zero, h]
  rw [List.take_left' (by simp), List.range_eq_range']

/-- C94, refuted: the gifs at the end of a search for rules need not show the rule it saves.  For
every population of at least two agents there is a run in which every gif shows an agent that is
strictly less fit than the saved one. -/
theorem universe_gifs_refuted {argsort : List Fit → List Nat} (ha : Spec.Argsort argsort)
    (a : GifArgs) (draw : Nat → Draw 1) (p : Nat) (hp : 2 ≤ p) :
    ∃ s' early late v, filmSeed true false a argsort 1 (fun _ v => ((v 0 : ℝ) : Fit)) draw .params
        (fun i _ => (i : ℝ)) (fun i _ => (i : ℝ)) (Witness.ladder p) = .ok (s', early, late) ∧
      s'.saved = some v ∧ late ≠ [] ∧
      ∀ x ∈ late, ∃ w : Vec 1, x.rule = some (List.ofFn w) ∧ w 0 < v 0 := by
  have hstart := ladder_start p
  have hlen := initialize_length .params (fun i _ => (i : ℝ)) (fun i _ => (i : ℝ))
    (Witness.ladder p).cma
  have hk : eliteKeep p < p := by unfold eliteKeep; omega
  have hk1 : 1 ≤ eliteKeep p := by unfold eliteKeep; omega
  generalize hc : Cma.initialize .params (fun i _ => (i : ℝ)) (Cma.reset .params
    (fun i _ => (i : ℝ)) (Witness.ladder p).cma) = c at hstart hlen
  have hps : c.popSize = p := by rw [← hc]; rfl
  have hlen : p ≤ c.population.length := hlen
  obtain ⟨E, hE⟩ := rank_succeeds ha c ((c.population.take c.popSize).map
    fun v => ((v 0 : ℝ) : Fit)) (by omega) (by rw [List.length_map, List.length_take]; omega)
    (by omega)
  have hrun : ∃ s', runSeed true argsort 1 (fun _ v => ((v 0 : ℝ) : Fit)) draw .params
      (fun i _ => (i : ℝ)) (fun i _ => (i : ℝ)) (Witness.ladder p) = .ok s' ∧
      s'.logs.length = 1 ∧ s'.cma.population = c.population := by
    unfold runSeed
    rw [hc]
    dsimp only
    rw [if_neg (by rw [hps]; omega)]
    simp only [runGens, genStep, if_neg (show ¬ c.population.length < c.popSize by omega),
      Nat.sub_self, if_pos trivial, Run.rank, hE]
    rw [if_neg (by omega)]
    exact ⟨_, rfl, rfl, rfl⟩
  obtain ⟨s', hrun, hlogs, hpop⟩ := hrun
  obtain ⟨v, l, hv, hl, hmem, hbest⟩ := full_run_saves_best ha draw .params _ _ (Witness.ladder p)
    s' (by show 1 ≤ p; omega) hrun (by rw [hlogs]; rfl)
  have hfilm := universe_gifs (argsort := argsort) (G := 1) (fit := fun _ v => ((v 0 : ℝ) : Fit))
    draw .params (fun i _ => (i : ℝ)) (fun i _ => (i : ℝ)) (Witness.ladder p) a
    (by show 1 ≤ p; omega)
  rw [hrun] at hfilm
  refine ⟨s', _, _, v, hfilm, hv, ?_, ?_⟩
  · intro h
    have := congrArg List.length h
    rw [List.length_map, List.length_take, List.length_nil, hpop] at this
    have : min (eliteKeep p) c.population.length = 0 := this
    omega
  · intro x hx
    obtain ⟨w, hw, rfl⟩ := List.mem_map.1 hx
    refine ⟨w, rfl, ?_⟩
    -- the last agent was evaluated
    have hev : l.evaluated = (List.range p).map fun (i : Nat) (_ : Fin 1) => (i : ℝ) := by
      obtain ⟨_, hr⟩ := runSeed_ok hrun
      rw [hc] at hr
      have hg : ∃ b, genStep true argsort 1 (fun _ v => ((v 0 : ℝ) : Fit)) 0 (draw 0)
          { Witness.ladder p with cma := c } = .ok (s', b) := by
        rw [runGens] at hr
        cases hg : genStep true argsort 1 (fun _ v => ((v 0 : ℝ) : Fit)) 0 (draw 0)
          { Witness.ladder p with cma := c } with
        | error e => rw [hg] at hr; cases hr
        | ok sb =>
          obtain ⟨s₁, b⟩ := sb
          rw [hg] at hr
          cases b <;> (cases hr; exact ⟨_, rfl⟩)
      obtain ⟨b, hg⟩ := hg
      obtain ⟨l', hl', hev, _⟩ := log_step _ _ _ _ _ hg
      rw [hl'] at hl
      have : l' = l := by
        have hnil : ({ Witness.ladder p with cma := c } : Run 1).logs = [] := rfl
        rw [hnil] at hl
        exact Option.some.inj hl
      rw [← this, hev]
      show c.population.take c.popSize = _
      rw [hps, hstart]
    have h1 : ((p - 1 : ℕ) : ℝ) ≤ v 0 := by
      have := hbest (fun _ => ((p - 1 : ℕ) : ℝ)) (by
        rw [hev]
        exact List.mem_map.2 ⟨p - 1, List.mem_range.2 (by omega), rfl⟩)
      exact WithTop.coe_le_coe.1 this
    have h2 : ∃ i, i < eliteKeep p ∧ w = fun _ => (i : ℝ) := by
      rw [hpop] at hw
      have hw : w ∈ c.population.take (eliteKeep p) := hw
      have : c.population.take (eliteKeep p) =
          (List.range (eliteKeep p)).map fun (i : Nat) (_ : Fin 1) => (i : ℝ) := by
        rw [← Nat.min_eq_left (Nat.le_of_lt hk), ← List.take_take, hstart, ← List.map_take,
          List.take_range]
      rw [this] at hw
      obtain ⟨i, hi, rfl⟩ := List.mem_map.1 hw
      exact ⟨i, List.mem_range.1 hi, rfl⟩
    obtain ⟨i, hi, rfl⟩ := h2
    have : (i : ℝ) < ((p - 1 : ℕ) : ℝ) := by exact_mod_cast (by omega : i < p - 1)
    exact lt_of_lt_of_le this h1

/-! ## The random start -/

/-- C94: from `dim = 4` on the random start is noise in the central square; on smaller grids it is
empty. -/
theorem gif_start (dim : Nat) (rand : Nat → Nat → ℝ) (i j : Nat) :
    gifStart dim rand i j =
      if 4 ≤ dim ∧ (dim / 4 ≤ i ∧ i < dim - dim / 4) ∧ dim / 4 ≤ j ∧ j < dim - dim / 4
      then rand i j else 0 := by
  unfold gifStart
  dsimp only
  by_cases h : 4 ≤ dim
  · rw [if_neg (show ¬ dim / 4 = 0 by omega)]
    by_cases h' : i < dim / 4 ∨ j < dim / 4 ∨ dim - dim / 4 ≤ i ∨ dim - dim / 4 ≤ j
    · rw [if_pos h', if_neg (by omega), mul_zero]
    · rw [if_neg h', if_pos (by omega)]
  · rw [if_pos (show dim / 4 = 0 by omega), if_pos (by omega), if_neg (by omega), mul_zero]

/-- C94, refuted: below `dim = 4` the gifs of rules start from nothing at all. -/
theorem gif_start_refuted (dim : Nat) (h : dim < 4) (rand : Nat → Nat → ℝ) (i j : Nat) :
    gifStart dim rand i j = 0 := by
  rw [gif_start, if_neg (by omega)]

/-! ## The files -/

theorem decimal_inj {a b : Nat} (h : decimal a = decimal b) : a = b := by
  have := congrArg Spec.value h
  rwa [value_decimal, value_decimal] at this

/-- A number is read off a text in which no digit follows it. -/
theorem decimal_prefix {a b : Nat} {x y : Str} (hx : ∀ c ∈ x.head?, c.isDigit = false)
    (hy : ∀ c ∈ y.head?, c.isDigit = false) (h : decimal a ++ x = decimal b ++ y) :
    a = b ∧ x = y := by
  have tw : ∀ (k : Nat) (z : Str), (∀ c ∈ z.head?, c.isDigit = false) →
      (decimal k ++ z).takeWhile Char.isDigit = decimal k := by
    intro k z hz
    rw [List.takeWhile_append_of_pos (decimal_digits k)]
    cases z with
    | nil => simp
    | cons c z => rw [List.takeWhile_cons_of_neg (by rw [hz c rfl]; simp), List.append_nil]
  have h1 := congrArg (List.takeWhile Char.isDigit) h
  rw [tw a x hx, tw b y hy] at h1
  refine ⟨decimal_inj h1, ?_⟩
  rw [h1] at h
  exact List.append_cancel_left h

/-- C94: the file of a gif determines the tag and the millisecond (for tags of the same
directory). -/
theorem gifPath_inj (dir tag tag' : Str) (ms ms' : Nat) (h : ms < 1000) (h' : ms' < 1000) :
    gifPath dir tag ms = gifPath dir tag' ms' ↔ tag = tag' ∧ ms = ms' := by
  constructor
  · intro he
    unfold gifPath at he
    have e1 := List.append_cancel_left (List.append_cancel_left (List.append_cancel_left he))
    have l1 : (padZero 4 ms).length = 4 := padZero_length (by omega) (by omega)
    have l2 : (padZero 4 ms').length = 4 := padZero_length (by omega) (by omega)
    obtain ⟨e2, e3⟩ := List.append_inj' e1 (by simp [l1, l2])
    refine ⟨e2, padZero_inj (w := 4) ?_⟩
    exact List.append_cancel_right (List.cons.inj e3).2
  · rintro ⟨rfl, rfl⟩; rfl

/-- C94: gifs of different seeds of one experiment never share a file. -/
theorem gifPath_seed (a : GifArgs) (seed' : Nat) (tag tag' : Str) (ms ms' : Nat)
    (h : gifPath a.dir tag ms = gifPath { a with seed := seed' }.dir tag' ms') :
    a.seed = seed' := by
  unfold gifPath GifArgs.dir at h
  simp only [List.append_assoc] at h
  have e := List.append_cancel_left (List.append_cancel_left (List.append_cancel_left h))
  exact (decimal_prefix (by simp) (by simp) e).1

/-- C94: the final gifs of a search for patterns never overwrite each other or the gifs of the
start. -/
theorem pattern_files (dir : Str) (g g' i j ms ms' : Nat) (h : ms < 1000) (h' : ms' < 1000) :
    (gifPath dir (eliteTag g i) ms = gifPath dir (eliteTag g' j) ms' → g = g' ∧ i = j) ∧
      gifPath dir (genTag 0) ms ≠ gifPath dir (eliteTag g i) ms' := by
  constructor
  · intro he
    have := ((gifPath_inj _ _ _ _ _ h h').1 he).1
    unfold eliteTag genTag at this
    simp only [List.append_assoc] at this
    obtain ⟨e1, e2⟩ := decimal_prefix (by simp) (by simp) (List.append_cancel_left this)
    exact ⟨e1, decimal_inj (List.append_cancel_left e2)⟩
  · intro he
    have := ((gifPath_inj _ _ _ _ _ h h').1 he).1
    unfold eliteTag genTag at this
    simp only [List.append_assoc] at this
    have e := List.append_cancel_left this
    rw [← List.append_nil (decimal 0)] at e
    obtain ⟨_, e2⟩ := decimal_prefix (x := []) (by simp) (by simp) e
    simp at e2

/-- C94, refuted: after a single generation of a search for rules the gifs of the start and of the
end have the same names. -/
theorem one_generation_files_refuted (a : GifArgs) (v w : Vec n) (ms : Nat) :
    gifPath (Spec.ruleShot a "gen0".toList v).dir (Spec.ruleShot a "gen0".toList v).tag ms =
      gifPath (Spec.ruleShot a ("gen".toList ++ decimal (1 - 1)) w).dir
        (Spec.ruleShot a ("gen".toList ++ decimal (1 - 1)) w).tag ms := by
  rfl

/-- C94, refuted: of more than 1000 gifs with one tag some overwrite others, whatever the clock. -/
theorem gifs_overwrite_refuted (L : List Shot) (dir tag : Str)
    (hL : ∀ x ∈ L, x.dir = dir ∧ x.tag = tag) (hlen : 1000 < L.length) (clock : Nat → Nat)
    (hc : ∀ i, clock i < 1000) :
    ∃ i j x y, i < j ∧ L[i]? = some x ∧ L[j]? = some y ∧
      gifPath x.dir x.tag (clock i) = gifPath y.dir y.tag (clock j) := by
  obtain ⟨i, hi, j, hj, hne, he⟩ := Finset.exists_ne_map_eq_of_card_lt_of_maps_to
    (s := Finset.range L.length) (t := Finset.range 1000) (f := clock)
    (by rw [Finset.card_range, Finset.card_range]; exact hlen)
    (fun i _ => by simpa using hc i)
  rw [Finset.mem_range] at hi hj
  have key : ∀ i j (hi : i < L.length) (hj : j < L.length), clock i = clock j →
      gifPath L[i].dir L[i].tag (clock i) = gifPath L[j].dir L[j].tag (clock j) := by
    intro i j hi hj he
    obtain ⟨d1, t1⟩ := hL L[i] (List.getElem_mem hi)
    obtain ⟨d2, t2⟩ := hL L[j] (List.getElem_mem hj)
    rw [d1, d2, t1, t2, he]
  rcases Nat.lt_or_gt_of_ne hne with h | h
  · exact ⟨i, j, L[i], L[j], h, List.getElem?_eq_getElem hi, List.getElem?_eq_getElem hj,
      key i j hi hj he⟩
  · exact ⟨j, i, L[j], L[i], h, List.getElem?_eq_getElem hj, List.getElem?_eq_getElem hi,
      key j i hj hi he.symm⟩

/-- C94, refuted: a coevolution with at least 248 agents makes that many gifs at its end, all with
one tag. -/
theorem coevo_overwrite_refuted (a : GifArgs) (p g : Nat) (hp : 248 ≤ p) (E : List (Vec n))
    (hE : E.length = eliteKeep p) (clock : Nat → Nat) (hc : ∀ i, clock i < 1000) :
    ∃ i j x y, i < j ∧
      (List.replicate (eliteKeep p) (E.map (Spec.pairShot a
        ("gen".toList ++ decimal g)))).flatten[i]? = some x ∧
      (List.replicate (eliteKeep p) (E.map (Spec.pairShot a
        ("gen".toList ++ decimal g)))).flatten[j]? = some y ∧
      gifPath x.dir x.tag (clock i) = gifPath y.dir y.tag (clock j) := by
  refine gifs_overwrite_refuted _ a.dir ("gen".toList ++ decimal g) ?_ ?_ clock hc
  · intro x hx
    obtain ⟨l, hl, hx⟩ := List.mem_flatten.1 hx
    rw [(List.mem_replicate.1 hl).2] at hx
    obtain ⟨e, _, rfl⟩ := List.mem_map.1 hx
    exact ⟨rfl, rfl⟩
  · rw [List.length_flatten, List.map_replicate, List.sum_replicate, List.length_map, hE,
      smul_eq_mul]
    have : 32 ≤ eliteKeep p := by unfold eliteKeep; omega
    calc 1000 < 32 * 32 := by norm_num
      _ ≤ eliteKeep p * eliteKeep p := Nat.mul_le_mul this this

/-! ## Concrete cases -/

/-- Correct draws for one agent. -/
example : ∀ _ : Nat, Spec.DrawOk (Witness.ladder 1).cma.popSize driftDraw := fun _ => driftDraw_ok

/-- The runs the theorems about whole seeds are about exist, for rules and for patterns. -/
example {argsort : List Fit → List Nat} (ha : Spec.Argsort argsort) (uni : Bool) :
    ∃ s', runSeed uni argsort 1 (fun _ v => ((v 0 : ℝ) : Fit)) (fun _ => driftDraw) .params
      (fun i _ => (i : ℝ)) (fun i _ => (i : ℝ)) (Witness.ladder 1) = .ok s' := by
  have hlen := initialize_length .params (fun i _ => (i : ℝ)) (fun i _ => (i : ℝ))
    (Witness.ladder 1).cma
  generalize hc : Cma.initialize .params (fun i _ => (i : ℝ)) (Cma.reset .params
    (fun i _ => (i : ℝ)) (Witness.ladder 1).cma) = c at hlen
  have hps : c.popSize = 1 := by rw [← hc]; rfl
  have hlen : 1 ≤ c.population.length := hlen
  obtain ⟨E, hE⟩ := rank_succeeds ha c ((c.population.take c.popSize).map
    fun v => ((v 0 : ℝ) : Fit)) (by omega) (by rw [List.length_map, List.length_take]; omega)
    (by omega)
  unfold runSeed
  rw [hc]
  dsimp only
  rw [if_neg (by rw [hps]; unfold eliteKeep; omega)]
  simp only [runGens, genStep, if_neg (show ¬ c.population.length < c.popSize by omega),
    Nat.sub_self, if_pos trivial, Run.rank, hE]
  rw [if_neg (by omega)]
  exact ⟨_, rfl⟩

/-- A coevolution with an elite of the right size. -/
example : (⟨2, 0, fun _ => 0, fun _ _ => 1, [fun _ => 1, fun _ => 2], fun _ => 0, fun _ _ => 1,
    some [fun _ => 5]⟩ : Cma 1).elite = some [fun _ => 5] ∧
    [(fun _ => 5 : Vec 1)].length = eliteKeep 2 := ⟨rfl, rfl⟩

example : ∃ argsort : List Fit → List Nat, Spec.Argsort argsort := argsort_exists

example : gifPath "exp_a_1_seed3_immode0".toList (genTag 12) 7 =
    "./assets/exp_a_1_seed3_immode0/gif_gen12_0007.gif".toList := by decide +kernel

example : gifPath "d".toList (eliteTag 3 1) 999 =
    "./assets/d/gif_gen3_elite1_0999.gif".toList := by decide +kernel

example : (⟨"exp_a_1".toList, 3, 0, 64, 2⟩ : GifArgs).dir = "exp_a_1_seed3_immode0".toList := by
  decide +kernel

end Yuca
