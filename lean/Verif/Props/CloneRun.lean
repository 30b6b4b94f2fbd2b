import Verif.Model.CloneRun
import Verif.Model.Stored
import Verif.Props.Clone
import Verif.Props.Restore

/-! # C129: whole runs of `clone_from_ca` -/

namespace Yuca

namespace Spec

/-- Training stops at step `n`: after the first error below the threshold, or after `m` steps. -/
def StopsAt (threshold : ℚ) (m : Nat) (err : Nat → Option ℚ) (n : Nat) : Prop :=
  n ≤ m ∧ (∀ s, s + 1 < n → ∀ e, err s = some e → threshold ≤ e) ∧
    (n = m ∨ ∃ s e, s + 1 = n ∧ err s = some e ∧ e < threshold)

/-- The error at `(it, s)` is among those that were measured. -/
def Measured (steps : List Nat) (it s : Nat) : Prop := ∃ n, steps[it]? = some n ∧ s < n

/-- `it` is the first iteration with the least of the errors measured, and `e` that error. -/
def FirstBest (steps : List Nat) (err : Nat → Nat → Option ℚ) (it : Nat) (e : ℚ) : Prop :=
  (∃ s, Measured steps it s ∧ err it s = some e) ∧
    ∀ it' s' e', Measured steps it' s' → err it' s' = some e' → e ≤ e' ∧ (it' < it → e < e')

end Spec

open Spec

/-! ## One iteration -/

/-- Where training stops. -/
def stopAt (threshold : ℚ) (err : Nat → Option ℚ) : Nat → Nat → Nat
  | 0, s => s
  | k + 1, s => if errBelow (err s) (some threshold) then s + 1 else stopAt threshold err k (s + 1)

/-- One more error. -/
def noteBest (it : Nat) (best : CloneBest) (e : Option ℚ) : CloneBest :=
  if errBelow e best.error then ⟨e, some it⟩ else best

theorem errBelow_iff (e b : Option ℚ) : errBelow e b = true ↔ ∃ x, e = some x ∧ ∀ y, b = some y → x < y := by
  match e, b with
  | none, _ => simp [errBelow]
  | some x, none => simp [errBelow]
  | some x, some y => simp [errBelow]

theorem cloneTrain_eq (threshold : ℚ) (it : Nat) (err : Nat → Option ℚ) (k : Nat) :
    ∀ (s : Nat) (itBest : Option ℚ) (best : CloneBest),
      (∀ i, itBest = some i → threshold ≤ i ∧ ∃ b, best.error = some b ∧ b ≤ i) →
      cloneTrain threshold it err k s itBest best = (stopAt threshold err k s,
        (List.range' s (stopAt threshold err k s - s)).foldl (fun b t => noteBest it b (err t)) best) := by
  have hge : ∀ k s, s ≤ stopAt threshold err k s := by
    intro k
    induction k with
    | zero => intro s; exact le_rfl
    | succ k ih =>
      intro s
      rw [stopAt]
      split
      · omega
      · exact (Nat.le_succ s).trans (ih (s + 1))
  induction k with
  | zero => intro s itBest best _; simp [cloneTrain, stopAt]
  | succ k ih =>
    intro s itBest best hinv
    have hgo : ∀ itBest', (∀ i, itBest' = some i → threshold ≤ i ∧
        ∃ b, (noteBest it best (err s)).error = some b ∧ b ≤ i) →
        errBelow (err s) (some threshold) = false →
        cloneTrain threshold it err k (s + 1) itBest' (noteBest it best (err s)) =
          (stopAt threshold err (k + 1) s, (List.range' s (stopAt threshold err (k + 1) s - s)).foldl
            (fun b t => noteBest it b (err t)) best) := by
      intro itBest' h' hno
      rw [ih (s + 1) itBest' _ h']
      have e : stopAt threshold err (k + 1) s = stopAt threshold err k (s + 1) := by
        rw [stopAt, if_neg (by rw [hno]; simp)]
      rw [e]
      have h1 := hge k (s + 1)
      have e2 : stopAt threshold err k (s + 1) - s = stopAt threshold err k (s + 1) - (s + 1) + 1 := by
        omega
      rw [e2, List.range'_succ, List.foldl_cons]
    rw [cloneTrain]
    by_cases hb : errBelow (err s) itBest = true
    · rw [if_pos hb]
      dsimp only
      by_cases ht : errBelow (err s) (some threshold) = true
      · rw [if_pos ht]
        have e : stopAt threshold err (k + 1) s = s + 1 := by rw [stopAt, if_pos ht]
        rw [e, show s + 1 - s = 1 by omega]
        rfl
      · rw [if_neg ht]
        refine hgo (err s) (fun i hi => ⟨?_, ?_⟩) (by simpa using ht)
        · by_contra hc
          push Not at hc
          exact ht ((errBelow_iff _ _).2 ⟨i, hi, fun y hy => by cases hy; exact hc⟩)
        · unfold noteBest
          by_cases hbe : errBelow (err s) best.error = true
          · rw [if_pos hbe]; exact ⟨i, hi, le_rfl⟩
          · rw [if_neg hbe]
            cases hbo : best.error with
            | none => exact absurd ((errBelow_iff _ _).2 ⟨i, hi, fun y hy => by rw [hbo] at hy; cases hy⟩) hbe
            | some b =>
              refine ⟨b, rfl, ?_⟩
              by_contra hc
              push Not at hc
              exact hbe ((errBelow_iff _ _).2 ⟨i, hi, fun y hy => by rw [hbo] at hy; cases hy; exact hc⟩)
    · rw [if_neg hb]
      have hnb : errBelow (err s) best.error = false := by
        by_contra hc
        simp only [Bool.not_eq_false] at hc
        obtain ⟨x, hx, hxb⟩ := (errBelow_iff _ _).1 hc
        refine hb ((errBelow_iff _ _).2 ⟨x, hx, fun y hy => ?_⟩)
        obtain ⟨_, b, hbe, hby⟩ := hinv y hy
        exact lt_of_lt_of_le (hxb b hbe) hby
      have hnt : errBelow (err s) (some threshold) = false := by
        by_contra hc
        simp only [Bool.not_eq_false] at hc
        obtain ⟨x, hx, hxb⟩ := (errBelow_iff _ _).1 hc
        refine hb ((errBelow_iff _ _).2 ⟨x, hx, fun y hy => ?_⟩)
        exact lt_of_lt_of_le (hxb threshold rfl) (hinv y hy).1
      have e : noteBest it best (err s) = best := by unfold noteBest; rw [if_neg (by rw [hnb]; simp)]
      have := hgo itBest (by rw [e]; exact hinv) hnt
      rwa [e] at this

theorem stopAt_spec (threshold : ℚ) (err : Nat → Option ℚ) (k : Nat) : ∀ s,
    s ≤ stopAt threshold err k s ∧ stopAt threshold err k s ≤ s + k ∧
    (∀ t, s ≤ t → t + 1 < stopAt threshold err k s → ∀ e, err t = some e → threshold ≤ e) ∧
    (stopAt threshold err k s < s + k → ∃ t e, s ≤ t ∧ t + 1 = stopAt threshold err k s ∧ err t = some e ∧
      e < threshold) := by
  induction k with
  | zero => intro s; simp [stopAt]; intro t h1 h2; omega
  | succ k ih =>
    intro s
    rw [stopAt]
    by_cases ht : errBelow (err s) (some threshold) = true
    · rw [if_pos ht]
      obtain ⟨x, hx, hxb⟩ := (errBelow_iff _ _).1 ht
      exact ⟨by omega, by omega, fun t h1 h2 => by omega, fun _ => ⟨s, x, le_rfl, rfl, hx, hxb _ rfl⟩⟩
    · rw [if_neg ht]
      obtain ⟨h1, h2, h3, h4⟩ := ih (s + 1)
      refine ⟨by omega, by omega, fun t ht1 ht2 e he => ?_, fun h => ?_⟩
      · rcases Nat.eq_or_lt_of_le ht1 with h | h
        · subst h
          by_contra hc
          push Not at hc
          exact ht ((errBelow_iff _ _).2 ⟨e, he, fun y hy => by cases hy; exact hc⟩)
        · exact h3 t h ht2 e he
      · obtain ⟨t, e, ha, hb, hc⟩ := h4 (by omega)
        exact ⟨t, e, by omega, hb, hc⟩

/-! ## All iterations -/

/-- The errors measured, in order, with their iterations. -/
def recordedErrs (threshold : ℚ) (maxSteps : Nat) (err : Nat → Nat → Option ℚ) (k it : Nat) :
    List (Nat × Option ℚ) :=
  (List.range' it k).flatMap fun j =>
    (List.range' 0 (stopAt threshold (err j) maxSteps 0)).map fun t => (j, err j t)

theorem cloneRounds_eq (threshold : ℚ) (maxSteps : Nat) (err : Nat → Nat → Option ℚ) (k : Nat) :
    ∀ (it : Nat) (best : CloneBest), cloneRounds threshold maxSteps err k it best =
      ((List.range' it k).map fun j => stopAt threshold (err j) maxSteps 0,
        (recordedErrs threshold maxSteps err k it).foldl (fun b x => noteBest x.1 b x.2) best) := by
  induction k with
  | zero => intro it best; rfl
  | succ k ih =>
    intro it best
    rw [cloneRounds]
    rw [ih, cloneTrain_eq _ _ _ _ _ _ _ (by simp)]
    simp only [List.range'_succ, List.map_cons, recordedErrs, List.flatMap_cons, List.foldl_append,
      List.foldl_map, Nat.sub_zero]

/-- The best of a list of errors. -/
theorem best_of (l : List (Nat × Option ℚ)) :
    let r := l.foldl (fun b x => noteBest x.1 b x.2) ⟨none, none⟩
    (r = ⟨none, none⟩ ∧ ∀ x ∈ l, x.2 = none) ∨
      ∃ l₁ it e l₂, l = l₁ ++ (it, some e) :: l₂ ∧ r = ⟨some e, some it⟩ ∧
        (∀ x ∈ l₁, ∀ e', x.2 = some e' → e < e') ∧ ∀ x ∈ l₂, ∀ e', x.2 = some e' → e ≤ e' := by
  induction l using List.reverseRecOn with
  | nil => left; exact ⟨rfl, by simp⟩
  | append_singleton l x ih =>
    dsimp only
    rw [List.foldl_append, List.foldl_cons, List.foldl_nil]
    dsimp only at ih
    generalize l.foldl (fun b x => noteBest x.1 b x.2) ⟨none, none⟩ = r at ih
    obtain ⟨it, e⟩ := x
    rcases ih with ⟨rfl, h⟩ | ⟨l₁, it', e', l₂, rfl, rfl, h1, h2⟩
    · cases e with
      | none =>
        left
        refine ⟨rfl, fun x hx => ?_⟩
        rcases List.mem_append.1 hx with hx | hx
        · exact h x hx
        · rw [List.mem_singleton.1 hx]
      | some e =>
        right
        refine ⟨l, it, e, [], rfl, rfl, fun x hx e' he' => ?_, by simp⟩
        rw [h x hx] at he'
        cases he'
    · right
      by_cases hb : errBelow e (some e') = true
      · obtain ⟨y, rfl, hy⟩ := (errBelow_iff _ _).1 hb
        have hlt := hy e' rfl
        refine ⟨l₁ ++ (it', some e') :: l₂, it, y, [], rfl, ?_, fun x hx z hz => ?_, by simp⟩
        · show noteBest it ⟨some e', some it'⟩ (some y) = _
          unfold noteBest
          rw [if_pos hb]
        · rcases List.mem_append.1 hx with hx | hx
          · exact hlt.trans (h1 x hx z hz)
          · rcases List.mem_cons.1 hx with rfl | hx
            · cases hz; exact hlt
            · exact lt_of_lt_of_le hlt (h2 x hx z hz)
      · refine ⟨l₁, it', e', l₂ ++ [(it, e)], by simp, ?_, h1, fun x hx z hz => ?_⟩
        · show noteBest it ⟨some e', some it'⟩ e = _
          unfold noteBest
          rw [if_neg hb]
        · rcases List.mem_append.1 hx with hx | hx
          · exact h2 x hx z hz
          · rw [List.mem_singleton.1 hx] at hz
            by_contra hc
            push Not at hc
            exact hb ((errBelow_iff _ _).2 ⟨z, hz, fun y hy => by cases hy; exact hc⟩)

theorem mem_recorded {threshold : ℚ} {maxSteps : Nat} {err : Nat → Nat → Option ℚ} {k j : Nat}
    {e : Option ℚ} : (j, e) ∈ recordedErrs threshold maxSteps err k 0 ↔
      ∃ s, Measured ((List.range' 0 k).map fun j => stopAt threshold (err j) maxSteps 0) j s ∧
        err j s = e := by
  simp only [recordedErrs, List.mem_flatMap, List.mem_map, List.mem_range'_1, Nat.zero_le, true_and,
    Nat.zero_add, Prod.mk.injEq, Measured, List.getElem?_map]
  constructor
  · rintro ⟨a, ha, t, ht, rfl, rfl⟩
    refine ⟨t, ⟨_, ?_, ht⟩, rfl⟩
    rw [List.getElem?_range' (by simpa using ha)]
    simp
  · rintro ⟨s, ⟨n, hn, hs⟩, rfl⟩
    by_cases hj : j < k
    · rw [List.getElem?_range' (by simpa using hj)] at hn
      simp at hn
      exact ⟨j, hj, s, by omega, rfl, rfl⟩
    · rw [List.getElem?_eq_none (by simpa using hj)] at hn
      cases hn

theorem recorded_order {threshold : ℚ} {maxSteps : Nat} {err : Nat → Nat → Option ℚ} (k : Nat) : ∀ it,
    (recordedErrs threshold maxSteps err k it).Pairwise fun x y => x.1 ≤ y.1 := by
  induction k with
  | zero => intro it; exact List.Pairwise.nil
  | succ k ih =>
    intro it
    have e : recordedErrs threshold maxSteps err (k + 1) it =
        ((List.range' 0 (stopAt threshold (err it) maxSteps 0)).map fun t => (it, err it t)) ++
          recordedErrs threshold maxSteps err k (it + 1) := by
      simp only [recordedErrs, List.range'_succ, List.flatMap_cons]
    rw [e, List.pairwise_append]
    refine ⟨?_, ih (it + 1), ?_⟩
    · rw [List.pairwise_map]
      exact List.pairwise_of_forall (fun _ _ => le_rfl)
    · intro x hx y hy
      obtain ⟨t, _, rfl⟩ := List.mem_map.1 hx
      simp only [recordedErrs, List.mem_flatMap, List.mem_map, List.mem_range'_1] at hy
      obtain ⟨a, ha, s, _, rfl⟩ := hy
      show it ≤ a
      omega

/-- What one config comes to. -/
theorem cloneRounds_spec (threshold : ℚ) (maxSteps : Nat) (err : Nat → Nat → Option ℚ) (k : Nat) :
    let r := cloneRounds threshold maxSteps err k 0 ⟨none, none⟩
    r.1.length = k ∧ (∀ it n, r.1[it]? = some n → StopsAt threshold maxSteps (err it) n) ∧
    ((r.2 = ⟨none, none⟩ ∧ ∀ it s, Measured r.1 it s → err it s = none) ∨
      ∃ it e, r.2 = ⟨some e, some it⟩ ∧ FirstBest r.1 err it e) := by
  rw [cloneRounds_eq]
  dsimp only
  refine ⟨by simp, fun it n hn => ?_, ?_⟩
  · rw [List.getElem?_map] at hn
    by_cases hj : it < k
    · rw [List.getElem?_range' (by simpa using hj)] at hn
      simp at hn
      subst hn
      obtain ⟨_, h2, h3, h4⟩ := stopAt_spec threshold (err it) maxSteps 0
      rw [Nat.zero_add] at h2 h4
      refine ⟨h2, fun s hs => h3 s (Nat.zero_le s) hs, ?_⟩
      rcases Nat.eq_or_lt_of_le h2 with h | h
      · exact .inl h
      · obtain ⟨t, e, _, h5⟩ := h4 h
        exact .inr ⟨t, e, h5⟩
    · rw [List.getElem?_eq_none (by simpa using hj)] at hn
      cases hn
  · rcases best_of (recordedErrs threshold maxSteps err k 0) with ⟨h1, h2⟩ | ⟨l₁, it, e, l₂, hl, h1, h2, h3⟩
    · left
      exact ⟨h1, fun it s hm => h2 (it, err it s) (mem_recorded.2 ⟨s, hm, rfl⟩)⟩
    · right
      refine ⟨it, e, h1, mem_recorded.1 (hl ▸ by simp), fun it' s' e' hm he => ?_⟩
      have hmem : (it', some e') ∈ l₁ ++ (it, some e) :: l₂ := hl ▸ mem_recorded.2 ⟨s', hm, he⟩
      have hord := recorded_order (threshold := threshold) (maxSteps := maxSteps) (err := err) k 0
      rw [hl, List.pairwise_append] at hord
      obtain ⟨_, o2, o3⟩ := hord
      rcases List.mem_append.1 hmem with h | h
      · have := h2 _ h e' rfl
        exact ⟨this.le, fun _ => this⟩
      · rcases List.mem_cons.1 h with h | h
        · simp only [Prod.mk.injEq, Option.some.injEq] at h
          obtain ⟨rfl, rfl⟩ := h
          exact ⟨le_rfl, fun h => absurd h (lt_irrefl _)⟩
        · refine ⟨h3 _ h e' rfl, fun hlt => ?_⟩
          have := (List.pairwise_cons.1 o2).1 _ h
          simp only at this
          omega

namespace Spec

/-- What a run has to leave for one config: `held` is the network the config before left. -/
structure Cloned {T W : Type} (o : CloneOpts) (err : Nat → Nat → Option ℚ) (weights : Nat → Nat → W)
    (held : Option W) (r : CloneRecord T W) : Prop where
  /-- All iterations are made, whether or not the threshold is met. -/
  all : r.steps.length = o.maxIterations.toNat
  widths : r.hidden.length = o.maxIterations.toNat
  /-- The hidden channels start at the option and grow by a quarter. -/
  start : ∀ h, r.hidden[0]? = some h → h = o.hidden
  grow : ∀ j h h', r.hidden[j]? = some h → r.hidden[j + 1]? = some h' → h' = min o.maxHidden (h * 5 / 4)
  /-- Every iteration ends after the first error below the threshold or after `max_steps` steps. -/
  stops : ∀ it n, r.steps[it]? = some n → StopsAt o.threshold o.maxSteps.toNat (err it) n
  /-- The first iteration with the least error is saved, as it is after its last step; without a single
  number among the errors, what the config before left. -/
  result : (∃ it e n, FirstBest r.steps err it e ∧ r.steps[it]? = some n ∧
      r.saved = some (weights it n) ∧ (r.met = true ↔ e < o.threshold)) ∨
    ((∀ it s, Measured r.steps it s → err it s = none) ∧ r.saved = held ∧ r.met = false)

/-- The network the config before number `c` left. -/
def heldBefore {T W : Type} (rs : List (CloneRecord T W)) : Nat → Option W
  | 0 => none
  | c + 1 => rs[c]?.bind (·.saved)

end Spec

variable {T W : Type}

/-- The record of one config. -/
def cloneOne (o : CloneOpts) (err : Nat → Nat → Option ℚ) (weights : Nat → Nat → W) (t : T) (path : Str)
    (held : Option W) : CloneRecord T W :=
  let r := cloneRounds o.threshold o.maxSteps.toNat err o.maxIterations.toNat 0 ⟨none, none⟩
  ⟨t, (List.range o.maxIterations.toNat).map (hiddenAt o.maxHidden o.hidden), r.1,
    errBelow r.2.error (some o.threshold), path,
    match r.2.net with | some it => some (weights it (r.1.getD it 0)) | none => held⟩

theorem cloneOne_spec (o : CloneOpts) (err : Nat → Nat → Option ℚ) (weights : Nat → Nat → W) (t : T)
    (path : Str) (held : Option W) : Cloned o err weights held (cloneOne o err weights t path held) := by
  obtain ⟨h1, h2, h3⟩ := cloneRounds_spec o.threshold o.maxSteps.toNat err o.maxIterations.toNat
  have hh : ∀ j h, ((List.range o.maxIterations.toNat).map (hiddenAt o.maxHidden o.hidden))[j]? = some h →
      h = hiddenAt o.maxHidden o.hidden j := by
    intro j h hj
    rw [List.getElem?_map, Option.map_eq_some_iff] at hj
    obtain ⟨a, ha, rfl⟩ := hj
    rw [List.getElem?_eq_some_iff] at ha
    obtain ⟨hlt, ha⟩ := ha
    rw [List.getElem_range] at ha
    rw [ha]
  refine ⟨h1, by simp [cloneOne], fun h hj => hh 0 h hj, fun j h h' hj hj' => ?_, h2, ?_⟩
  · rw [hh _ _ hj', hh _ _ hj]
    rfl
  · rcases h3 with ⟨h3, h4⟩ | ⟨it, e, h3, h4⟩
    · right
      refine ⟨h4, ?_, ?_⟩
      · show (match (cloneRounds _ _ _ _ _ _).2.net with | some it => _ | none => held) = held
        rw [h3]
      · show errBelow (cloneRounds _ _ _ _ _ _).2.error _ = false
        rw [h3]
        rfl
    · left
      obtain ⟨s, ⟨n, hn, _⟩, _⟩ := h4.1
      refine ⟨it, e, n, h4, hn, ?_, ?_⟩
      · show (match (cloneRounds _ _ _ _ _ _).2.net with | some it => _ | none => held) = _
        rw [h3]
        show some (weights it ((cloneRounds _ _ _ _ _ _).1.getD it 0)) = _
        rw [List.getD_eq_getElem?_getD, hn]
        rfl
      · show errBelow (cloneRounds _ _ _ _ _ _).2.error _ = true ↔ _
        rw [h3, errBelow_iff]
        constructor
        · rintro ⟨x, hx, hy⟩
          cases hx
          exact hy _ rfl
        · intro h
          exact ⟨e, rfl, fun y hy => by cases hy; exact h⟩

theorem cloneConfigs_cons (o : CloneOpts) (restore : Nat → Str → Except PyErr T)
    (err : Nat → Nat → Nat → Option ℚ) (weights : Nat → Nat → Nat → W) (c : Nat) (path : Str)
    (held : Option W) (name : Str) (names : List Str) (t : T) (h : restore c name = .ok t) :
    cloneConfigs o restore err weights c path held (name :: names) =
      let r := cloneOne o (err c) (weights c) t (clonePath path name) held
      let rest := cloneConfigs o restore err weights (c + 1) (clonePath path name) r.saved names
      (r :: rest.1, rest.2) := by
  rw [cloneConfigs, h]
  rfl

theorem cloneConfigs_spec (o : CloneOpts) (restore : Nat → Str → Except PyErr T)
    (err : Nat → Nat → Nat → Option ℚ) (weights : Nat → Nat → Nat → W) (names : List Str) :
    ∀ (c : Nat) (path : Str) (held : Option W),
    let run := cloneConfigs o restore err weights c path held names
    run.1.length ≤ names.length ∧
    ((run.1.length = names.length ∧ run.2 = .ok ()) ∨ ∃ name e, names[run.1.length]? = some name ∧
      restore (c + run.1.length) name = .error e ∧ run.2 = .error e) ∧
    run.1.map (·.path) = (clonePaths path names).take run.1.length ∧
    ∀ i r, run.1[i]? = some r →
      (∃ name, names[i]? = some name ∧ restore (c + i) name = .ok r.teacher) ∧
      Cloned o (err (c + i)) (weights (c + i)) (if i = 0 then held else heldBefore run.1 i) r := by
  induction names with
  | nil =>
    intro c path held
    exact ⟨le_rfl, .inl ⟨rfl, rfl⟩, rfl, fun i r h => by simp [cloneConfigs] at h⟩
  | cons name names ih =>
    intro c path held
    cases h : restore c name with
    | error e =>
      have e1 : cloneConfigs o restore err weights c path held (name :: names) = ([], .error e) := by
        rw [cloneConfigs, h]
      rw [e1]
      exact ⟨Nat.zero_le _, .inr ⟨name, e, rfl, h, rfl⟩, rfl, fun i r h => by simp at h⟩
    | ok t =>
      rw [cloneConfigs_cons _ _ _ _ _ _ _ _ _ t h]
      dsimp only
      obtain ⟨r0, hr0⟩ : ∃ r, r = cloneOne o (err c) (weights c) t (clonePath path name) held := ⟨_, rfl⟩
      rw [← hr0]
      have hp : r0.path = clonePath path name := by rw [hr0]; rfl
      have hT : r0.teacher = t := by rw [hr0]; rfl
      have hs : Cloned o (err c) (weights c) held r0 := by rw [hr0]; exact cloneOne_spec ..
      obtain ⟨i1, i2, i3, i4⟩ := ih (c + 1) (clonePath path name) r0.saved
      generalize cloneConfigs o restore err weights (c + 1) (clonePath path name) r0.saved names = rest
        at i1 i2 i3 i4
      refine ⟨by simpa using i1, ?_, ?_, ?_⟩
      · rcases i2 with ⟨a, b⟩ | ⟨n', e, a, b, d⟩
        · exact .inl ⟨by simpa using a, b⟩
        · refine .inr ⟨n', e, by simpa using a, ?_, d⟩
          rw [List.length_cons, show c + (rest.1.length + 1) = c + 1 + rest.1.length by omega]
          exact b
      · rw [List.map_cons, List.length_cons, clonePaths, List.take_succ_cons, i3, hp]
      · intro i r hi
        cases i with
        | zero =>
          simp only [List.getElem?_cons_zero, Option.some.injEq] at hi
          subst hi
          exact ⟨⟨name, rfl, by rw [hT]; exact h⟩, by simpa using hs⟩
        | succ i =>
          rw [List.getElem?_cons_succ] at hi
          obtain ⟨⟨n', a, b⟩, d⟩ := i4 i r hi
          refine ⟨⟨n', by simpa using a, by rw [show c + (i + 1) = c + 1 + i by omega]; exact b⟩, ?_⟩
          rw [show c + (i + 1) = c + 1 + i by omega, if_neg (by omega)]
          cases i with
          | zero => simpa [heldBefore] using d
          | succ i =>
            rw [if_neg (by omega)] at d
            simpa [heldBefore] using d

/-- C129: what a run of `clone_from_ca` does.  The configs are gone through in order, and the run ends with
the first that cannot be restored; each is imitated with networks of growing width, and its file gets the
network with the first least error. -/
theorem clone_run (logs : Str) (kw : CloneKw) (restore : Nat → Str → Except PyErr T)
    (err : Nat → Nat → Nat → Option ℚ) (weights : Nat → Nat → Nat → W) :
    let run := cloneFromCa logs kw restore err weights
    run.1.length ≤ kw.opts.configs.length ∧
    ((run.1.length = kw.opts.configs.length ∧ run.2 = .ok ()) ∨
      ∃ name e, kw.opts.configs[run.1.length]? = some name ∧ restore run.1.length name = .error e ∧
        run.2 = .error e) ∧
    run.1.map (·.path) = (clonePaths (pathJoin logs kw.opts.saveName) kw.opts.configs).take run.1.length ∧
    ∀ c r, run.1[c]? = some r →
      (∃ name, kw.opts.configs[c]? = some name ∧ restore c name = .ok r.teacher) ∧
      Cloned kw.opts (err c) (weights c) (heldBefore run.1 c) r := by
  obtain ⟨h1, h2, h3, h4⟩ := cloneConfigs_spec kw.opts restore err weights kw.opts.configs 0
    (pathJoin logs kw.opts.saveName) none
  refine ⟨h1, ?_, h3, fun c r hc => ?_⟩
  · rcases h2 with h | ⟨name, e, a, b, d⟩
    · exact .inl h
    · rw [Nat.zero_add] at b
      exact .inr ⟨name, e, a, b, d⟩
  · have := h4 c r hc
    rw [Nat.zero_add] at this
    refine ⟨this.1, ?_⟩
    have h := this.2
    cases c with
    | zero => simpa [heldBefore] using h
    | succ c => rw [if_neg (by omega)] at h; exact h

/-- C129: a run ends without an exception if and only if every config can be restored. -/
theorem clone_ok_iff (logs : Str) (kw : CloneKw) (restore : Nat → Str → Except PyErr T)
    (err : Nat → Nat → Nat → Option ℚ) (weights : Nat → Nat → Nat → W) :
    (cloneFromCa logs kw restore err weights).2 = .ok () ↔
      ∀ c name, kw.opts.configs[c]? = some name → ∃ t, restore c name = .ok t := by
  obtain ⟨h1, h2, _, h4⟩ := clone_run logs kw restore err weights
  constructor
  · intro hok c name hc
    rcases h2 with ⟨hl, _⟩ | ⟨_, e, _, _, he⟩
    · have hlt : c < (cloneFromCa logs kw restore err weights).1.length := by
        rw [hl]; exact (List.getElem?_eq_some_iff.1 hc).1
      obtain ⟨⟨n', a, b⟩, _⟩ := h4 c _ (List.getElem?_eq_getElem hlt)
      rw [hc] at a
      cases a
      exact ⟨_, b⟩
    · rw [hok] at he
      cases he
  · intro hall
    rcases h2 with ⟨_, h⟩ | ⟨name, e, a, b, _⟩
    · exact h
    · obtain ⟨t, ht⟩ := hall _ name a
      rw [ht] at b
      cases b

/-- C129, where it fails: if no error of a config is a number, because training diverges or there are no
steps to make, its file gets the network of the config before, which imitates another automaton. -/
theorem clone_stale_refuted (logs : Str) (kw : CloneKw) (restore : Nat → Str → Except PyErr T)
    (err : Nat → Nat → Nat → Option ℚ) (weights : Nat → Nat → Nat → W) (c : Nat)
    (r r' : CloneRecord T W)
    (hr : (cloneFromCa logs kw restore err weights).1[c]? = some r)
    (hr' : (cloneFromCa logs kw restore err weights).1[c + 1]? = some r')
    (hn : ∀ it s, err (c + 1) it s = none) : r'.saved = r.saved ∧ r'.met = false := by
  obtain ⟨_, _, _, h4⟩ := clone_run logs kw restore err weights
  obtain ⟨_, h⟩ := h4 (c + 1) r' hr'
  rcases h.result with ⟨it, e, n, ⟨⟨s, _, h⟩, _⟩, _⟩ | ⟨_, h, h'⟩
  · rw [hn] at h; cases h
  · refine ⟨?_, h'⟩
    rw [h, heldBefore, hr]
    rfl

/-! ## The files -/

theorem fileAfter_append (l : List (CloneRecord T W)) (r : CloneRecord T W) (p : Str) :
    fileAfter (l ++ [r]) p = if r.path = p then some r.saved else fileAfter l p := by
  simp [fileAfter]

/-- C129: a file holds what the last config saved to it left. -/
theorem fileAfter_iff (rs : List (CloneRecord T W)) (p : Str) (w : Option W) :
    fileAfter rs p = some w ↔ ∃ l₁ r l₂, rs = l₁ ++ r :: l₂ ∧ r.path = p ∧ r.saved = w ∧
      ∀ x ∈ l₂, x.path ≠ p := by
  induction rs using List.reverseRecOn with
  | nil => simp [fileAfter]
  | append_singleton l r ih =>
    rw [fileAfter_append]
    by_cases h : r.path = p
    · rw [if_pos h]
      constructor
      · intro e
        cases e
        exact ⟨l, r, [], rfl, h, rfl, by simp⟩
      · rintro ⟨l₁, x, l₂, e, hx, hw, hl⟩
        rcases List.eq_nil_or_concat l₂ with rfl | ⟨l₃, y, rfl⟩
        · have := (List.append_inj' e rfl).2
          cases this
          rw [hw]
        · rw [List.concat_eq_append] at e hl
          rw [show l₁ ++ x :: (l₃ ++ [y]) = (l₁ ++ x :: l₃) ++ [y] by simp] at e
          have := (List.append_inj' e rfl).2
          cases this
          exact absurd h (hl r (by simp))
    · rw [if_neg h, ih]
      constructor
      · rintro ⟨l₁, x, l₂, rfl, hx, hw, hl⟩
        refine ⟨l₁, x, l₂ ++ [r], by simp, hx, hw, fun y hy => ?_⟩
        rcases List.mem_append.1 hy with hy | hy
        · exact hl y hy
        · rw [List.mem_singleton.1 hy]; exact h
      · rintro ⟨l₁, x, l₂, e, hx, hw, hl⟩
        rcases List.eq_nil_or_concat l₂ with rfl | ⟨l₃, y, rfl⟩
        · have := (List.append_inj' e rfl).2
          cases this
          exact absurd hx h
        · rw [List.concat_eq_append] at e hl
          rw [show l₁ ++ x :: (l₃ ++ [y]) = (l₁ ++ x :: l₃) ++ [y] by simp] at e
          have h2 := List.append_inj' e rfl
          refine ⟨l₁, x, l₃, h2.1, hx, hw, fun z hz => hl z (by simp [hz])⟩

/-- C129, where it fails: without the placeholder in the name of the file, and with the default name, a run
over several configs leaves one file, with the network of the last. -/
theorem clone_files_refuted (logs : Str) (kw : CloneKw) (restore : Nat → Str → Except PyErr T)
    (err : Nat → Nat → Nat → Option ℚ) (weights : Nat → Nat → Nat → W)
    (h : ¬ "ca_config".toList <:+: pathJoin logs kw.opts.saveName) (rs : List (CloneRecord T W))
    (r : CloneRecord T W) (hrs : (cloneFromCa logs kw restore err weights).1 = rs ++ [r]) (p : Str) :
    fileAfter (cloneFromCa logs kw restore err weights).1 p =
      if p = pathJoin logs kw.opts.saveName then some r.saved else none := by
  obtain ⟨_, _, h3, _⟩ := clone_run logs kw restore err weights
  rw [clonePaths_constant h] at h3
  have hall : ∀ x ∈ rs ++ [r], x.path = pathJoin logs kw.opts.saveName := by
    intro x hx
    rw [← hrs] at hx
    have hm : x.path ∈ (cloneFromCa logs kw restore err weights).1.map (·.path) :=
      List.mem_map_of_mem hx
    rw [h3] at hm
    obtain ⟨_, _, e⟩ := List.mem_map.1 (List.mem_of_mem_take hm)
    exact e.symm
  rw [hrs]
  split
  · rename_i hp
    rw [fileAfter_append, if_pos (by rw [hp]; exact hall r (by simp))]
  · rename_i hp
    cases hf : fileAfter (rs ++ [r]) p with
    | none => rfl
    | some w =>
      obtain ⟨l₁, x, l₂, e, hx, _⟩ := (fileAfter_iff _ _ _).1 hf
      refine absurd ?_ hp
      rw [← hx]
      exact hall x (by rw [e]; simp)

/-! ## The options -/

/-- C129: the command line passes all its options on.  Run without options it asks for other things than the
function called without arguments: the device, the threshold, the number of iterations and of steps, and
the config differ. -/
theorem clone_command (a : CloneArgs) :
    (∀ x, a.device = some x → a.kw.opts.device = x) ∧
    (∀ x, a.threshold = some x → a.kw.opts.threshold = x) ∧
    (∀ x, a.maxIterations = some x → a.kw.opts.maxIterations = x) ∧
    (∀ x, a.maxSteps = some x → a.kw.opts.maxSteps = x) ∧
    (∀ x, a.learningRate = some x → a.kw.opts.learningRate = x) ∧
    (∀ x, a.saveName = some x → a.kw.opts.saveName = x) ∧
    (∀ x, a.caConfig = some x → a.kw.opts.configs = x) ∧
    (∀ x, a.hidden = some x → a.kw.opts.hidden = x) ∧
    (∀ x, a.verbose = some x → (a.kw.opts.verbose = true ↔ x ≠ 0)) ∧
    a.kw.opts.maxHidden = 2048 ∧ a.kw.opts.batchSize = 32 := by
  refine ⟨?_, ?_, ?_, ?_, ?_, ?_, ?_, ?_, ?_, rfl, rfl⟩ <;> intro x h <;>
    simp [CloneArgs.kw, CloneKw.opts, h]

theorem clone_defaults :
    (CloneKw.opts {}) = ⟨"cpu".toList, 2048, 1 / 100, 10, 1024, 102, 32, 1 / 1000, false,
      "default_nca.pt".toList, ["orbium".toList], 32⟩ ∧
    (CloneArgs.kw {}).opts = ⟨"cuda:0".toList, 2048, 1 / 1000, 1, 100, 10, 32, 1 / 1000, false,
      "default_nca.pt".toList, ["orbium.npy".toList], 32⟩ := by
  constructor <;> rfl

/-- C129: the message about a step is never printed with a step of zero. -/
theorem clone_display (kw : CloneKw) : 1 ≤ kw.opts.displayEvery ∧
    (10 ≤ kw.opts.maxSteps → kw.opts.displayEvery = kw.opts.maxSteps.toNat / 10) := by
  refine ⟨le_max_right _ _, fun h => ?_⟩
  show max (Int.fdiv (kw.maxSteps.getD 1024) 10) 1 = _
  have h' : 10 ≤ kw.maxSteps.getD 1024 := h
  show _ = (((kw.maxSteps.getD 1024).toNat / 10 : Nat) : Int)
  generalize kw.maxSteps.getD 1024 = m at h'
  rw [Int.fdiv_eq_ediv_of_nonneg _ (by norm_num)]
  omega

/-! ## The default config -/

/-- The config files of the repository and no other files. -/
def Spec.OnlyStored (fs : Files) : Prop :=
  ∀ p, (fs p).isSome ↔ ∃ s ∈ storedConfigs, p = "ca_configs/" ++ s.file

theorem stored_not_orbium : ∀ s ∈ storedConfigs, s.file ≠ "orbium" := by decide +kernel

theorem stored_orbium : ∃ s ∈ storedConfigs, s.file = "orbium.npy" := by decide +kernel

theorem orbium_unresolved {fs : Files} (h : OnlyStored fs) : Spec.resolve fs "orbium" = none := by
  have e : String.ofList ("orbium".toList.filter (· ≠ '\n')) = "orbium" := by decide +kernel
  unfold Spec.resolve
  rw [e]
  dsimp only
  rw [if_neg, if_neg]
  · rw [h]
    rintro ⟨s, hs, he⟩
    refine stored_not_orbium s hs ?_
    have := congrArg String.toList he
    rw [String.toList_append, String.toList_append] at this
    exact (String.toList_injective (List.append_cancel_left this)).symm
  · rw [h]
    rintro ⟨s, hs, he⟩
    have := congrArg (fun x => x.toList.head?) he
    rw [String.toList_append] at this
    simp at this

theorem orbium_resolved {fs : Files} (h : OnlyStored fs) :
    Spec.resolve fs "orbium.npy" = some "ca_configs/orbium.npy" := by
  have e : String.ofList ("orbium.npy".toList.filter (· ≠ '\n')) = "orbium.npy" := by decide +kernel
  unfold Spec.resolve
  rw [e]
  dsimp only
  rw [if_neg, if_pos]
  · rfl
  · rw [h]
    obtain ⟨s, hs, he⟩ := stored_orbium
    exact ⟨s, hs, by rw [he]⟩
  · rw [h]
    rintro ⟨s, hs, he⟩
    have := congrArg (fun x => x.toList.head?) he
    rw [String.toList_append] at this
    simp at this

/-- C129, where it fails: called without arguments, `clone_from_ca` finds no config of the name `orbium`,
raises nothing and imitates the random automaton `CCA()` makes; the command line without options finds
`orbium.npy`. -/
theorem clone_default_refuted {fs : Files} (h : OnlyStored fs) (fuel : Nat) (new restored : Nat → Nat → Draws)
    (hd : Spec.MixtureLength (new 0 0).kernel.length) (logs : Str) (err : Nat → Nat → Nat → Option ℚ)
    (weights : Nat → Nat → Nat → W) :
    (∃ o, CCAObj.init fs (fuel + 1) (new 0) {} = some (.ok o) ∧
      (cloneFromCa logs {} (cloneTeacher fs fuel new restored) err weights).2 = .ok () ∧
      (cloneFromCa logs {} (cloneTeacher fs fuel new restored) err weights).1.map (·.teacher) = [o]) ∧
    Spec.resolve fs "orbium.npy" = some "ca_configs/orbium.npy" := by
  refine ⟨?_, orbium_resolved h⟩
  obtain ⟨o, ho, _⟩ := defaultInit_ok {} (new 0 0) (by decide) (by decide) (by decide) hd
  have hi : CCAObj.init fs (fuel + 1) (new 0) {} = some (.ok { o with t := 0 }) := by
    rw [CCAObj.init, ho]
    rfl
  refine ⟨_, hi, ?_⟩
  have ht : cloneTeacher fs fuel new restored 0 "orbium".toList = .ok { o with t := 0 } := by
    unfold cloneTeacher
    rw [hi]
    dsimp only
    rw [restore_missing _ _ _ _ _ (by rw [String.ofList_toList]; exact orbium_unresolved h)]
  have e : cloneFromCa logs {} (cloneTeacher fs fuel new restored) err weights =
      cloneConfigs (CloneKw.opts {}) (cloneTeacher fs fuel new restored) err weights 0
        (pathJoin logs (CloneKw.opts {}).saveName) none ["orbium".toList] := rfl
  rw [e, cloneConfigs_cons _ _ _ _ _ _ _ _ _ _ ht]
  exact ⟨rfl, rfl⟩

/-! ## Examples -/

/-- Errors of the first config fall below the threshold in the second iteration; those of the second config
are `nan`. -/
def sampleCloneErr : Nat → Nat → Nat → Option ℚ
  | 0, 0, 0 => some (1 / 2)
  | 0, 0, _ => some (1 / 4)
  | 0, 1, 0 => some (1 / 8)
  | 0, 1, 1 => some (1 / 200)
  | 0, _, _ => some (1 / 100)
  | _, _, _ => none

/-- Two configs, three iterations of at most three steps, one name for both files. -/
def sampleCloneKw : CloneKw where
  maxIterations := some 3
  maxSteps := some 3
  caConfig := some (.inr ["a.npy".toList, "b.npy".toList])

/-- A run of it whose weights tell config, iteration and steps, and one in which the second of three
configs cannot be restored. -/
def sampleClone : List (CloneRecord Str (Nat × Nat × Nat)) × Except PyErr Unit :=
  cloneFromCa "/logs".toList sampleCloneKw (fun _ n => .ok n) sampleCloneErr (fun c it n => (c, it, n))

def sampleCloneFails : List (CloneRecord Str (Nat × Nat × Nat)) × Except PyErr Unit :=
  cloneFromCa "/logs".toList
    { sampleCloneKw with caConfig := some (.inr ["a".toList, "b".toList, "c".toList]) }
    (fun c n => if c = 1 then .error .key else .ok n) sampleCloneErr (fun c it n => (c, it, n))

/-- What is left: networks with 32, 40 and 50 hidden channels; the second iteration stops after two
steps and its network is saved, for both configs. -/
example : sampleClone.2 = .ok () ∧ sampleClone.1.map (·.hidden) = [[32, 40, 50], [32, 40, 50]] ∧
    sampleClone.1.map (·.steps) = [[3, 2, 3], [3, 3, 3]] ∧ sampleClone.1.map (·.met) = [true, false] ∧
    sampleClone.1.map (·.saved) = [some (0, 1, 2), some (0, 1, 2)] ∧
    fileAfter sampleClone.1 "/logs/default_nca.pt".toList = some (some (0, 1, 2)) :=
  ⟨rfl, by decide +kernel, by decide +kernel, by decide +kernel, by decide +kernel, by decide +kernel⟩

/-- A config in the middle that cannot be restored: the first is saved, the third is not tried. -/
example : sampleCloneFails.2 = .error .key ∧ sampleCloneFails.1.map (·.teacher) = ["a".toList] :=
  ⟨rfl, by decide +kernel⟩

/-- The files of the repository alone. -/
example : ∃ fs : Files, OnlyStored fs := by
  classical
  refine ⟨fun p => if ∃ s ∈ storedConfigs, p = "ca_configs/" ++ s.file then some (orbiumConfig 13) else none,
    fun p => ?_⟩
  dsimp only
  split <;> simp_all

/-- The default names have no placeholder. -/
example : ¬ "ca_config".toList <:+: pathJoin "/logs".toList (CloneKw.opts {}).saveName := by decide +kernel

end Yuca
