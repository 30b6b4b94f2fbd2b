import Verif.Props.Gifs2
import Mathlib.Data.Matrix.Mul

/-!
# C108: a search sees only the ranking of the fitness, and no coordinates
-/

namespace Yuca

open Spec

variable {n : Nat} {uni : Bool} {argsort : List Fit → List Nat} {G : Nat}

namespace Spec

/-- Two fitness functions that rank the vectors in `l` alike. -/
def RankAlike {V : Type} (φ φ' : V → Fit) (l : List V) : Prop :=
  ∀ v ∈ l, ∀ w ∈ l, φ v ≤ φ w ↔ φ' v ≤ φ' w

/-- `np.argsort` sorts by comparing entries: lists that compare alike are sorted alike, equal
entries included. -/
def ByComparison (argsort : List Fit → List Nat) : Prop :=
  ∀ (V : Type) (l : List V) (φ φ' : V → Fit), RankAlike φ φ' l →
    argsort (l.map φ) = argsort (l.map φ')

/-- What one generation evaluated and kept, without the fitness values. -/
def path (logs : List (GenLog n)) : List (List (Vec n) × List (Vec n)) :=
  logs.map fun l => (l.evaluated, l.elite)

/-- The same search as far as anything but the logged fitness values goes. -/
structure SameSearch (s s' : Run n) : Prop where
  cma : s.cma = s'.cma
  saved : s.saved = s'.saved
  path : path s.logs = path s'.logs

end Spec

/-! ## Only the ranking counts -/

theorem gather_map {K L : Type} (φ : K → L) (l : List K) (is : List Nat) :
    gather (l.map φ) is = (gather l is).map (List.map φ) := by
  have h : (is.mapM fun i => (l.map φ)[i]?) = (is.mapM fun i => l[i]?).map (List.map φ) := by
    induction is with
    | nil => rfl
    | cons i is ih =>
      rw [List.mapM_cons, List.mapM_cons, ih, List.getElem?_map]
      cases l[i]? with
      | none => rfl
      | some a => cases is.mapM fun i => l[i]? <;> rfl
  unfold gather
  rw [h]
  cases is.mapM fun i => l[i]? <;> rfl

theorem argmaxFirst_alike {V : Type} {φ φ' : V → Fit} {l : List V} (h : RankAlike φ φ' l) :
    argmaxFirst (l.map φ) = argmaxFirst (l.map φ') := by
  unfold argmaxFirst
  rw [List.findIdx_map, List.findIdx_map]
  have key : ∀ v ∈ l, ((fun x => (l.map φ).all fun y => decide (y ≤ x)) ∘ φ) v =
      ((fun x => (l.map φ').all fun y => decide (y ≤ x)) ∘ φ') v := by
    intro v hv
    rw [Bool.eq_iff_iff]
    simp only [Function.comp, List.all_map, List.all_eq_true, decide_eq_true_eq]
    exact ⟨fun H w hw => (h w hw v hv).1 (H w hw), fun H w hw => (h w hw v hv).2 (H w hw)⟩
  clear h
  revert key
  generalize ((fun x => (l.map φ).all fun y => decide (y ≤ x)) ∘ φ) = p
  generalize ((fun x => (l.map φ').all fun y => decide (y ≤ x)) ∘ φ') = q
  intro key
  induction l with
  | nil => rfl
  | cons a l ih =>
    rw [List.findIdx_cons, List.findIdx_cons, key a (by simp),
      ih fun v hv => key v (List.mem_cons_of_mem a hv)]

theorem champion_alike {V : Type} {φ φ' : V → Fit} {l : List V} (h : RankAlike φ φ' l)
    (is : List Nat) : champion (l.map φ) is = champion (l.map φ') is := by
  unfold champion
  rw [gather_map, gather_map]
  cases hg : gather l is with
  | error e => rfl
  | ok r =>
    have hl : ∀ v ∈ r, v ∈ l := fun v hv => by
      obtain ⟨i, _, hi⟩ := gather_mem hg v hv
      exact List.mem_of_getElem? hi
    have hr : RankAlike φ φ' r := fun v hv w hw => h v (hl v hv) w (hl w hw)
    simp only [Except.map]
    rw [argmaxFirst_alike hr]

theorem select_alike (hb : ByComparison argsort) {V : Type} {φ φ' : V → Fit} {l : List V}
    (h : RankAlike φ φ' l) (mode ek : Nat) (r : Draw n) :
    selectElite argsort mode ek r (l.map φ) = selectElite argsort mode ek r (l.map φ') := by
  unfold selectElite
  split
  · rw [hb V l φ φ' h]
  · unfold tournament
    have : champion (l.map φ) = champion (l.map φ') := funext fun is => champion_alike h is
    rw [this]
  · rw [hb V l φ φ' h]
  · rfl

/-- C108: in every selection mode, one update of the population depends on the fitness only
through its ranking. -/
theorem update_ranking_only (hb : ByComparison argsort) {V : Type} (φ φ' : V → Fit) (l : List V)
    (h : RankAlike φ φ' l) (c : Cma n) (r : Draw n) :
    c.update argsort r (l.map φ) = c.update argsort r (l.map φ') := by
  unfold Cma.update
  rw [select_alike hb h]

theorem rank_ranking_only (hb : ByComparison argsort) {V : Type} (φ φ' : V → Fit) (l : List V)
    (h : RankAlike φ φ' l) (c : Cma n) :
    c.rank argsort (l.map φ) = c.rank argsort (l.map φ') := by
  unfold Cma.rank
  rw [hb V l φ φ' h]

theorem genStep_ranking_only (hb : ByComparison argsort) {fit fit' : Nat → Vec n → Fit} {g : Nat}
    {r : Draw n} {s s' a a' : Run n} {b b' : Bool} (hs : SameSearch s s')
    (h : RankAlike (fit g) (fit' g) (s.cma.population.take s.cma.popSize))
    (h1 : genStep uni argsort G fit g r s = .ok (a, b))
    (h2 : genStep uni argsort G fit' g r s' = .ok (a', b')) :
    path a.logs = path a'.logs ∧ (b = b' → SameSearch a a') := by
  obtain ⟨hc, hsv, hp⟩ := hs
  obtain ⟨_, s₁, u1, v1⟩ := genStep_ok h1
  obtain ⟨_, s₂, u2, v2⟩ := genStep_ok h2
  rw [← hc] at u2 v2
  have e1 := fun c : Cma n => rank_ranking_only hb _ _ _ h c
  have e2 := fun c : Cma n => update_ranking_only hb _ _ _ h c r
  have same : SameSearch s₁ s₂ := by
    rcases u1 with ⟨g1, u1⟩ | ⟨g1, c1, u1, rfl⟩ <;> rcases u2 with ⟨g2, u2⟩ | ⟨g2, c2, u2, rfl⟩
    · obtain ⟨c1, x1, rfl⟩ := run_rank_ok u1
      obtain ⟨c2, x2, rfl⟩ := run_rank_ok u2
      rw [← hc, ← e1, x1] at x2
      cases x2
      exact ⟨rfl, by dsimp only; rw [hsv], hp⟩
    · exact absurd g1 g2
    · exact absurd g2 g1
    · rw [← e2, u1] at u2
      cases u2
      exact ⟨rfl, hsv, hp⟩
  have hpath : ∀ f f', path (s₁.logs ++ [⟨s.cma.population.take s.cma.popSize, f,
      s₁.cma.elite.getD []⟩]) = path (s₂.logs ++ [⟨s.cma.population.take s.cma.popSize, f',
      s₂.cma.elite.getD []⟩]) := by
    intro f f'
    unfold Spec.path
    rw [List.map_append, List.map_append]
    have := same.path
    unfold Spec.path at this
    rw [this, same.cma]
    rfl
  rcases v1 with ⟨rfl, _, rfl⟩ | ⟨rfl, _, v1⟩ <;> rcases v2 with ⟨rfl, _, rfl⟩ | ⟨rfl, _, v2⟩
  · exact ⟨hpath _ _, fun _ => ⟨same.cma, same.saved, hpath _ _⟩⟩
  · obtain ⟨c2, _, rfl⟩ := run_rank_ok v2
    exact ⟨hpath _ _, fun h => by cases h⟩
  · obtain ⟨c1, _, rfl⟩ := run_rank_ok v1
    exact ⟨hpath _ _, fun h => by cases h⟩
  · obtain ⟨c1, x1, rfl⟩ := run_rank_ok v1
    obtain ⟨c2, x2, rfl⟩ := run_rank_ok v2
    refine ⟨hpath _ _, fun _ => ?_⟩
    dsimp only at x1 x2
    rw [same.cma, e1, x2] at x1
    cases x1
    exact ⟨rfl, by dsimp only; rw [same.saved], hpath _ _⟩

theorem run_rank_same (hb : ByComparison argsort) {V : Type} {φ φ' : V → Fit} {l : List V}
    (h : RankAlike φ φ' l) {s s' : Run n} (hs : SameSearch s s') :
    (∃ a a', s.rank uni argsort (l.map φ) = .ok a ∧ s'.rank uni argsort (l.map φ') = .ok a' ∧
      SameSearch a a' ∧ a.logs = s.logs ∧ a'.logs = s'.logs) ∨
    ∃ e, s.rank uni argsort (l.map φ) = .error e ∧ s'.rank uni argsort (l.map φ') = .error e := by
  obtain ⟨hc, hsv, hp⟩ := hs
  unfold Run.rank
  rw [← hc, ← rank_ranking_only hb φ φ' l h]
  cases s.cma.rank argsort (l.map φ) with
  | error e => exact Or.inr ⟨e, rfl, rfl⟩
  | ok c => exact Or.inl ⟨_, _, rfl, rfl, ⟨rfl, by dsimp only; rw [hsv], hp⟩, rfl, rfl⟩

/-- The first half of a generation: ranking in the last one, updating in the others. -/
noncomputable def genNext (uni : Bool) (argsort : List Fit → List Nat) (G g : Nat) (r : Draw n)
    (s : Run n) (f : List Fit) : Except PyErr (Run n) :=
  if g = G - 1 then s.rank uni argsort f
  else match s.cma.update argsort r f with
    | .error e => .error e
    | .ok c => .ok { s with cma := c }

/-- Its second half: the log, and the ranking before a `break`. -/
noncomputable def genEnd (uni : Bool) (argsort : List Fit → List Nat) (g : Nat)
    (l : List (Vec n)) (f : List Fit) : Except PyErr (Run n) → Except PyErr (Run n × Bool)
  | .error e => .error e
  | .ok s₁ =>
    if calm f = true ∧ 6 < g then
      match ({ s₁ with logs := s₁.logs ++ [⟨l, f, s₁.cma.elite.getD []⟩] } : Run n).rank
        uni argsort f with
      | .error e => .error e
      | .ok s₃ => .ok (s₃, true)
    else .ok ({ s₁ with logs := s₁.logs ++ [⟨l, f, s₁.cma.elite.getD []⟩] }, false)

theorem genStep_eq (fit : Nat → Vec n → Fit) (g : Nat) (r : Draw n) (s : Run n) :
    genStep uni argsort G fit g r s =
      if s.cma.population.length < s.cma.popSize then .error .index
      else genEnd uni argsort g (s.cma.population.take s.cma.popSize)
        ((s.cma.population.take s.cma.popSize).map (fit g))
        (genNext uni argsort G g r s ((s.cma.population.take s.cma.popSize).map (fit g))) := by
  unfold genStep genEnd genNext
  rfl

theorem genStep_same (hb : ByComparison argsort) {fit fit' : Nat → Vec n → Fit} {g : Nat}
    {r : Draw n} {s s' : Run n} (hs : SameSearch s s')
    (h : RankAlike (fit g) (fit' g) (s.cma.population.take s.cma.popSize))
    (hc' : (calm ((s.cma.population.take s.cma.popSize).map (fit g)) = true ∧ 6 < g) ↔
      (calm ((s.cma.population.take s.cma.popSize).map (fit' g)) = true ∧ 6 < g)) :
    (∃ a a' b, genStep uni argsort G fit g r s = .ok (a, b) ∧
      genStep uni argsort G fit' g r s' = .ok (a', b) ∧ SameSearch a a') ∨
    ∃ e, genStep uni argsort G fit g r s = .error e ∧
      genStep uni argsort G fit' g r s' = .error e := by
  have hc := hs.cma
  rw [genStep_eq, genStep_eq, ← hc]
  by_cases hlen : s.cma.population.length < s.cma.popSize
  · rw [if_pos hlen, if_pos hlen]
    exact Or.inr ⟨_, rfl, rfl⟩
  rw [if_neg hlen, if_neg hlen]
  generalize s.cma.population.take s.cma.popSize = l at h hc' ⊢
  have hnext : (∃ a a', genNext uni argsort G g r s (l.map (fit g)) = .ok a ∧
      genNext uni argsort G g r s' (l.map (fit' g)) = .ok a' ∧ SameSearch a a') ∨
      ∃ e, genNext uni argsort G g r s (l.map (fit g)) = .error e ∧
        genNext uni argsort G g r s' (l.map (fit' g)) = .error e := by
    unfold genNext
    rw [← hc, ← update_ranking_only hb _ _ _ h s.cma r]
    by_cases hg : g = G - 1
    · simp only [if_pos hg]
      rcases run_rank_same (uni := uni) hb h hs with ⟨a, a', h1, h2, h3, _⟩ | ⟨e, h1, h2⟩
      · exact Or.inl ⟨a, a', h1, h2, h3⟩
      · exact Or.inr ⟨e, h1, h2⟩
    · simp only [if_neg hg]
      cases s.cma.update argsort r (l.map (fit g)) with
      | error e => exact Or.inr ⟨e, rfl, rfl⟩
      | ok c => exact Or.inl ⟨_, _, rfl, rfl, ⟨rfl, hs.saved, hs.path⟩⟩
  rcases hnext with ⟨a, a', h1, h2, h3⟩ | ⟨e, h1, h2⟩
  · rw [h1, h2]
    simp only [genEnd]
    have hlog : SameSearch
        { a with logs := a.logs ++ [⟨l, l.map (fit g), a.cma.elite.getD []⟩] }
        { a' with logs := a'.logs ++ [⟨l, l.map (fit' g), a'.cma.elite.getD []⟩] } := by
      refine ⟨h3.cma, h3.saved, ?_⟩
      have := h3.path
      unfold Spec.path at this ⊢
      simp only [List.map_append, this, h3.cma, List.map_cons, List.map_nil]
    by_cases hs1 : calm (l.map (fit g)) = true ∧ 6 < g
    · rw [if_pos hs1, if_pos (hc'.1 hs1)]
      rcases run_rank_same (uni := uni) hb h hlog with ⟨b, b', g1, g2, g3, _⟩ | ⟨e, g1, g2⟩
      · rw [g1, g2]
        exact Or.inl ⟨b, b', true, rfl, rfl, g3⟩
      · rw [g1, g2]
        exact Or.inr ⟨e, rfl, rfl⟩
    · rw [if_neg hs1, if_neg fun h => hs1 (hc'.2 h)]
      exact Or.inl ⟨_, _, false, rfl, rfl, hlog⟩
  · rw [h1, h2]
    exact Or.inr ⟨e, rfl, rfl⟩

theorem genStep_path {fit : Nat → Vec n → Fit} {g : Nat} {r : Draw n} {s a : Run n} {b : Bool}
    (h : genStep uni argsort G fit g r s = .ok (a, b)) :
    ∃ x, path a.logs = path s.logs ++ [x] := by
  obtain ⟨l, hl, _⟩ := log_step g r s a b h
  exact ⟨(l.evaluated, l.elite), by unfold Spec.path; rw [hl]; simp⟩

theorem runGens_path {fit : Nat → Vec n → Fit} {draw : Nat → Draw n} (k g : Nat) (s a : Run n)
    (h : runGens uni argsort G fit draw k g s = .ok a) : path s.logs <+: path a.logs := by
  refine runGens_inv (P := fun a => path s.logs <+: path a.logs) draw (fun g s₁ s₂ b hg hp => ?_)
    k g s a h (List.prefix_refl _)
  obtain ⟨x, hx⟩ := genStep_path hg
  rw [hx]
  exact hp.trans (List.prefix_append _ _)

/-- C108: two searches with the same draws and with fitness functions that rank vectors alike
evaluate and keep the same agents, generation by generation, for as long as both go on. -/
theorem runGens_ranking_prefix (hb : ByComparison argsort) {fit fit' : Nat → Vec n → Fit}
    (h : ∀ g v w, fit g v ≤ fit g w ↔ fit' g v ≤ fit' g w) (draw : Nat → Draw n) (k g : Nat)
    (s s' a a' : Run n) (hs : SameSearch s s')
    (h1 : runGens uni argsort G fit draw k g s = .ok a)
    (h2 : runGens uni argsort G fit' draw k g s' = .ok a') :
    path a.logs <+: path a'.logs ∨ path a'.logs <+: path a.logs := by
  induction k generalizing g s s' with
  | zero =>
    cases h1; cases h2
    exact Or.inl (by rw [hs.path])
  | succ k ih =>
    rw [runGens] at h1 h2
    cases e1 : genStep uni argsort G fit g (draw g) s with
    | error e => rw [e1] at h1; cases h1
    | ok p =>
      cases e2 : genStep uni argsort G fit' g (draw g) s' with
      | error e => rw [e2] at h2; cases h2
      | ok q =>
        obtain ⟨t, b⟩ := p
        obtain ⟨t', b'⟩ := q
        rw [e1] at h1
        rw [e2] at h2
        obtain ⟨hp, hsame⟩ := genStep_ranking_only hb hs (fun v _ w _ => h g v w) e1 e2
        cases b <;> cases b' <;> dsimp only at h1 h2
        · exact ih (g + 1) t t' (hsame rfl) h1 h2
        · cases h2
          exact Or.inr (by rw [← hp]; exact runGens_path _ _ _ _ h1)
        · cases h1
          exact Or.inl (by rw [hp]; exact runGens_path _ _ _ _ h2)
        · cases h1; cases h2
          exact Or.inl (by rw [hp])

/-- C108: if moreover the two functions agree on when the fitness has settled (asked after the
seventh generation only) the two searches are the same: same agents, same elite, same end, same
vector saved, same exception. -/
theorem runGens_ranking_only (hb : ByComparison argsort) {fit fit' : Nat → Vec n → Fit}
    (h : ∀ g v w, fit g v ≤ fit g w ↔ fit' g v ≤ fit' g w) (draw : Nat → Draw n) (k g : Nat)
    (hcalm : ∀ i, 6 < i → i < g + k → ∀ l : List (Vec n),
      calm (l.map (fit i)) = calm (l.map (fit' i)))
    (s s' : Run n) (hs : SameSearch s s') :
    (∃ a a', runGens uni argsort G fit draw k g s = .ok a ∧
      runGens uni argsort G fit' draw k g s' = .ok a' ∧ SameSearch a a') ∨
    ∃ e, runGens uni argsort G fit draw k g s = .error e ∧
      runGens uni argsort G fit' draw k g s' = .error e := by
  induction k generalizing g s s' with
  | zero => exact Or.inl ⟨s, s', rfl, rfl, hs⟩
  | succ k ih =>
    rw [runGens, runGens]
    have hstep : (∃ a a' b, genStep uni argsort G fit g (draw g) s = .ok (a, b) ∧
        genStep uni argsort G fit' g (draw g) s' = .ok (a', b) ∧ SameSearch a a') ∨
        ∃ e, genStep uni argsort G fit g (draw g) s = .error e ∧
          genStep uni argsort G fit' g (draw g) s' = .error e := by
      have hc' : (calm ((s.cma.population.take s.cma.popSize).map (fit g)) = true ∧ 6 < g) ↔
          (calm ((s.cma.population.take s.cma.popSize).map (fit' g)) = true ∧ 6 < g) := by
        constructor
        · rintro ⟨h1, h2⟩
          exact ⟨by rw [← hcalm g h2 (by omega)]; exact h1, h2⟩
        · rintro ⟨h1, h2⟩
          exact ⟨by rw [hcalm g h2 (by omega)]; exact h1, h2⟩
      exact genStep_same hb hs (fun v _ w _ => h g v w) hc'
    rcases hstep with ⟨a, a', b, h1, h2, h3⟩ | ⟨e, h1, h2⟩
    · rw [h1, h2]
      cases b
      · exact ih (g + 1) (fun i hi hik => hcalm i hi (by omega)) a a' h3
      · exact Or.inl ⟨a, a', rfl, rfl, h3⟩
    · rw [h1, h2]
      exact Or.inr ⟨e, rfl, rfl⟩

/-- C108: the same for a whole seed, from `reset` on. -/
theorem runSeed_ranking_only (hb : ByComparison argsort) {fit fit' : Nat → Vec n → Fit}
    (h : ∀ g v w, fit g v ≤ fit g w ↔ fit' g v ≤ fit' g w)
    (hcalm : ∀ g, 6 < g → g < G → ∀ l : List (Vec n),
      calm (l.map (fit g)) = calm (l.map (fit' g)))
    (draw : Nat → Draw n) (build : Build n) (z₁ z₂ : Nat → Vec n) (s : Run n) :
    (∃ a a', runSeed uni argsort G fit draw build z₁ z₂ s = .ok a ∧
      runSeed uni argsort G fit' draw build z₁ z₂ s = .ok a' ∧ SameSearch a a') ∨
    ∃ e, runSeed uni argsort G fit draw build z₁ z₂ s = .error e ∧
      runSeed uni argsort G fit' draw build z₁ z₂ s = .error e := by
  unfold runSeed
  dsimp only
  generalize Cma.initialize build z₂ (Cma.reset build z₁ s.cma) = c
  by_cases hl : c.population.length < min (eliteKeep c.popSize) 4
  · rw [if_pos hl, if_pos hl]
    exact Or.inr ⟨_, rfl, rfl⟩
  rw [if_neg hl, if_neg hl]
  rcases runGens_ranking_only (uni := uni) (G := G) hb h draw G 0
    (fun i hi hG => hcalm i hi (by omega)) { s with cma := c } { s with cma := c } ⟨rfl, rfl, rfl⟩
    with ⟨a, a', h1, h2, h3⟩ | ⟨e, h1, h2⟩
  · rw [h1, h2]
    by_cases hG : G = 0
    · simp only [if_pos hG]
      exact Or.inr ⟨_, rfl, rfl⟩
    · simp only [if_neg hG]
      exact Or.inl ⟨_, _, rfl, rfl, h3⟩
  · rw [h1, h2]
    exact Or.inr ⟨e, rfl, rfl⟩

theorem rescaled_alike {φ : ℝ → ℝ} (hφ : StrictMono φ) (fit : Nat → Vec n → Fit) (g : Nat)
    (v w : Vec n) :
    fit g v ≤ fit g w ↔ WithTop.map φ (fit g v) ≤ WithTop.map φ (fit g w) :=
  (hφ.withTop_map.le_iff_le).symm

/-- C108: rescaling every reward by a strictly increasing function (NaN stays NaN) changes nothing
in a search of at most seven generations but the logged fitness. -/
theorem rescaling_reward {φ : ℝ → ℝ} (hφ : StrictMono φ) (hb : ByComparison argsort)
    (hG : G ≤ 7) (fit : Nat → Vec n → Fit) (draw : Nat → Draw n) (build : Build n)
    (z₁ z₂ : Nat → Vec n) (s : Run n) :
    (∃ a a', runSeed uni argsort G fit draw build z₁ z₂ s = .ok a ∧
      runSeed uni argsort G (fun g v => WithTop.map φ (fit g v)) draw build z₁ z₂ s = .ok a' ∧
      SameSearch a a') ∨
    ∃ e, runSeed uni argsort G fit draw build z₁ z₂ s = .error e ∧
      runSeed uni argsort G (fun g v => WithTop.map φ (fit g v)) draw build z₁ z₂ s = .error e :=
  runSeed_ranking_only hb (fun g v w => rescaled_alike hφ fit g v w)
    (fun g h1 h2 => by omega) draw build z₁ z₂ s

theorem untopD_map_add (a : ℝ) (x : Fit) (hx : x ≠ ⊤) :
    (WithTop.map (· + a) x).untopD 0 = x.untopD 0 + a := by
  induction x using WithTop.recTopCoe with
  | top => exact absurd rfl hx
  | coe x => rfl

theorem calm_shift (a : ℝ) (l : List Fit) : calm (l.map (WithTop.map (· + a))) = calm l := by
  unfold calm
  have h1 : ((⊤ : Fit) ∈ l.map (WithTop.map (· + a)) ∨ l.map (WithTop.map (· + a)) = []) ↔
      (⊤ ∈ l ∨ l = []) := by
    rw [List.map_eq_nil_iff, List.mem_map]
    refine or_congr_left ⟨?_, fun h => ⟨⊤, h, rfl⟩⟩
    rintro ⟨x, hx, h⟩
    induction x using WithTop.recTopCoe with
    | top => exact hx
    | coe x => cases h
  by_cases hl : ⊤ ∈ l ∨ l = []
  · rw [if_pos hl, if_pos (h1.2 hl)]
  rw [if_neg hl, if_neg fun h => hl (h1.1 h)]
  rw [not_or] at hl
  have hx : (l.map (WithTop.map (· + a))).map (fun v => v.untopD 0) =
      (l.map fun v => v.untopD 0).map (· + a) := by
    rw [List.map_map, List.map_map]
    apply List.map_congr_left
    intro x hx
    exact untopD_map_add a x fun h => hl.1 (h ▸ hx)
  dsimp only
  rw [hx]
  have hne : (l.map fun v : Fit => v.untopD 0) ≠ [] := by simpa using hl.2
  generalize (l.map fun v : Fit => v.untopD 0) = x at hne
  have hpos : (0 : ℝ) < x.length := by exact_mod_cast List.length_pos_of_ne_nil hne
  have hsum : ∀ x : List ℝ, (x.map (· + a)).sum = x.sum + x.length * a := by
    intro x
    induction x with
    | nil => simp
    | cons b x ih => rw [List.map_cons, List.sum_cons, ih]; push_cast [List.sum_cons, List.length_cons]; ring
  rw [hsum, List.length_map, List.map_map]
  have : ((fun v => (v - (x.sum + x.length * a) / x.length) ^ 2) ∘ (· + a)) =
      fun v : ℝ => (v - x.sum / x.length) ^ 2 := by
    funext v
    have : (x.sum + x.length * a) / (x.length : ℝ) = x.sum / x.length + a := by field_simp
    simp only [Function.comp, this]
    ring
  rw [this]

/-- C108: adding a constant to every reward changes nothing in any search but the logged
fitness. -/
theorem shifting_reward (a : ℝ) (hb : ByComparison argsort) (fit : Nat → Vec n → Fit)
    (draw : Nat → Draw n) (build : Build n) (z₁ z₂ : Nat → Vec n) (s : Run n) :
    (∃ t t', runSeed uni argsort G fit draw build z₁ z₂ s = .ok t ∧
      runSeed uni argsort G (fun g v => WithTop.map (· + a) (fit g v)) draw build z₁ z₂ s = .ok t' ∧
      SameSearch t t') ∨
    ∃ e, runSeed uni argsort G fit draw build z₁ z₂ s = .error e ∧
      runSeed uni argsort G (fun g v => WithTop.map (· + a) (fit g v)) draw build z₁ z₂ s =
        .error e := by
  refine runSeed_ranking_only hb
    (fun g v w => rescaled_alike (fun x y h => by linarith) fit g v w)
    (fun g _ _ l => ?_) draw build z₁ z₂ s
  rw [← calm_shift a, List.map_map]
  rfl

/-! ## Early stopping looks at the values -/

theorem calm_two (x y : ℝ) : calm [(x : Fit), (y : Fit)] = decide (|x - y| / 2 < 0.02) := by
  unfold calm
  have h0 : ¬ ((⊤ : Fit) ∈ [(x : Fit), (y : Fit)] ∨ [(x : Fit), (y : Fit)] = []) := by
    simp
  rw [if_neg h0]
  have : (((x - (x + y) / 2) ^ 2 + (y - (x + y) / 2) ^ 2) / 2 : ℝ) = (|x - y| / 2) ^ 2 := by
    rw [div_pow, sq_abs]; ring
  simp only [List.map_cons, List.map_nil, WithTop.untopD_coe, List.sum_cons, List.sum_nil,
    List.length_cons, List.length_nil, add_zero]
  norm_num only [Nat.cast_add, Nat.cast_one, zero_add]
  rw [this, Real.sqrt_sq (by positivity)]

/-- Two agents at 0 and 1. -/
noncomputable def pairState : Cma 1 :=
  { popSize := 2, mode := 0, startMeans := fun _ => 0, startCovar := fun _ _ => 1
    population := [fun _ => 0, fun _ => 1], means := fun _ => 0, covar := fun _ _ => 1
    elite := none }

theorem update_succeeds (ha : Spec.Argsort argsort) (c : Cma n) (r : Draw n) (f : List Fit)
    (hm : c.mode = 0) (hp : 1 ≤ c.popSize) (hf : f.length = c.popSize)
    (hl : c.popSize ≤ c.population.length) :
    ∃ c', c.update argsort r f = .ok c' ∧ c'.popSize = c.popSize ∧
      c'.population.length = c.population.length := by
  obtain ⟨E, hE⟩ := rank_succeeds ha c f hp hf hl
  unfold Cma.rank at hE
  unfold Cma.update selectElite
  rw [hm]
  cases ht : truncation (eliteKeep c.popSize) (argsort f) with
  | error e => rw [ht] at hE; cases hE
  | ok idx =>
    rw [ht] at hE
    dsimp only at hE ⊢
    cases hg : gather c.population idx with
    | error e => rw [hg] at hE; cases hE
    | ok E' =>
      simp only [hg]
      refine ⟨_, rfl, rfl, ?_⟩
      simp only [resample, List.length_mapIdx]
      exact copyElite_length _ _ _

/-- C108: dividing all rewards by 100 keeps their ranking, but may make a search stop: the exception
is needed. -/
theorem scaling_reward_refuted (ha : Spec.Argsort argsort) (hG : 9 ≤ G) (r : Draw 1) :
    ∃ a a' : Run 1,
      genStep uni argsort G (fun _ v => ((v 0 : ℝ) : Fit)) 7 r ⟨pairState, [], none⟩ =
        .ok (a, false) ∧
      genStep uni argsort G (fun _ v => ((v 0 / 100 : ℝ) : Fit)) 7 r ⟨pairState, [], none⟩ =
        .ok (a', true) ∧
      ∀ v w : Vec 1, ((v 0 : ℝ) : Fit) ≤ ((w 0 : ℝ) : Fit) ↔
        ((v 0 / 100 : ℝ) : Fit) ≤ ((w 0 / 100 : ℝ) : Fit) := by
  have hpop : (pairState.population.take pairState.popSize) = [fun _ => 0, fun _ => 1] := rfl
  have hlen : ¬ pairState.population.length < pairState.popSize := by decide
  obtain ⟨c1, h1, _⟩ := update_succeeds ha pairState r
    ([fun _ => 0, fun _ => 1].map fun v : Vec 1 => ((v 0 : ℝ) : Fit)) rfl (by decide) rfl (by decide)
  obtain ⟨c2, h2, h3, h4⟩ := update_succeeds ha pairState r
    ([fun _ => 0, fun _ => 1].map fun v : Vec 1 => ((v 0 / 100 : ℝ) : Fit)) rfl (by decide) rfl
    (by decide)
  obtain ⟨E, hE⟩ := rank_succeeds ha c2
    ([fun _ => 0, fun _ => 1].map fun v : Vec 1 => ((v 0 / 100 : ℝ) : Fit)) (by rw [h3]; decide)
    (by rw [h3]; rfl) (by rw [h3, h4]; decide)
  have hA : ∃ a, genStep uni argsort G (fun _ v => ((v 0 : ℝ) : Fit)) 7 r ⟨pairState, [], none⟩ =
      .ok (a, false) := by
    rw [genStep_eq, if_neg hlen, hpop]
    unfold genNext
    rw [if_neg (by omega), h1]
    simp only [genEnd]
    rw [if_neg]
    · exact ⟨_, rfl⟩
    rintro ⟨h, _⟩
    have h' := calm_two 0 1
    rw [show calm [((0 : ℝ) : Fit), ((1 : ℝ) : Fit)] = true from h] at h'
    have := of_decide_eq_true h'.symm
    norm_num at this
  have hB : ∃ a, genStep uni argsort G (fun _ v => ((v 0 / 100 : ℝ) : Fit)) 7 r
      ⟨pairState, [], none⟩ = .ok (a, true) := by
    rw [genStep_eq, if_neg hlen, hpop]
    unfold genNext
    rw [if_neg (by omega), h2]
    simp only [genEnd]
    rw [if_pos]
    · unfold Run.rank
      dsimp only
      rw [hE]
      exact ⟨_, rfl⟩
    · refine ⟨?_, by omega⟩
      have h' := calm_two (0 / 100) (1 / 100)
      refine (show calm _ = _ from h').trans (decide_eq_true ?_)
      norm_num [abs_of_pos]
  obtain ⟨a, hA⟩ := hA
  obtain ⟨a', hB⟩ := hB
  refine ⟨a, a', hA, hB, fun v w => ?_⟩
  rw [WithTop.coe_le_coe, WithTop.coe_le_coe]
  constructor <;> intro h <;> linarith

/-- Comparing two positions of a list; positions outside come last. -/
noncomputable def posLe (f : List Fit) (i j : Nat) : Bool :=
  match f[i]?, f[j]? with
  | some a, some b => decide (a ≤ b)
  | some _, none => true
  | none, some _ => false
  | none, none => true

/-- A sort by comparison exists. -/
theorem argsort_byComparison : ∃ argsort : List Fit → List Nat,
    Spec.Argsort argsort ∧ ByComparison argsort := by
  classical
  refine ⟨fun f => (List.range f.length).mergeSort (posLe f),
    fun f => ⟨List.mergeSort_perm _ _, ?_⟩, fun V l φ φ' h => ?_⟩
  · have := List.pairwise_mergeSort (le := posLe f)
      (fun a b c h1 h2 => by
        unfold posLe at *
        revert h1 h2
        generalize f[a]? = x
        generalize f[b]? = y
        generalize f[c]? = z
        rcases x with _ | x <;> rcases y with _ | y <;> rcases z with _ | z <;> simp
        exact le_trans)
      (fun a b => by
        unfold posLe
        cases f[a]? <;> cases f[b]? <;> simp
        exact le_total _ _) (List.range f.length)
    refine this.imp ?_
    intro i j h a ha b hb
    unfold posLe at h
    rw [Option.mem_def.1 ha, Option.mem_def.1 hb] at h
    exact of_decide_eq_true h
  · have : posLe (l.map φ) = posLe (l.map φ') := by
      funext i j
      unfold posLe
      rw [List.getElem?_map, List.getElem?_map, List.getElem?_map, List.getElem?_map]
      cases hi : l[i]? with
      | none => cases l[j]? <;> rfl
      | some v =>
        cases hj : l[j]? with
        | none => rfl
        | some w =>
          simp only [Option.map_some]
          rw [decide_eq_decide]
          exact h v (List.mem_of_getElem? hi) w (List.mem_of_getElem? hj)
    dsimp only
    rw [this, List.length_map, List.length_map]

end Yuca
