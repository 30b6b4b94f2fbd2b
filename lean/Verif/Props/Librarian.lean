import Verif.Model.Librarian
import Verif.Lemmas.Text
import Mathlib.Data.Set.Finite.Basic
import Mathlib.Data.Set.Finite.Lattice
import Mathlib.Data.Fintype.EquivFin
import Mathlib.Data.List.TakeWhile

/-!
# The pattern library (C36-C39, C67)
-/

namespace Yuca

variable {A : Type}

/-! ## File names -/

theorem npyName_inj {s t : Str} (h : npyName s = npyName t) : s = t := List.append_cancel_right h

theorem csvName_inj {s t : Str} (h : csvName s = csvName t) : s = t := List.append_cancel_right h

theorem npy_ne_csv (s t : Str) : npyName s ≠ csvName t := by
  intro h
  have := congrArg List.getLast? h
  simp [npyName, csvName] at this

theorem variantName_inj {name : Str} {m n : Nat} (h : variantName name m = variantName name n) :
    m = n := padZero_inj (List.append_cancel_left h)

/-! ## Specification -/

/-- Finitely many files. -/
def Spec.FiniteDir (d : Dir A) : Prop := {p | (d p).isSome}.Finite

/-- Every pattern file has a metadata file. -/
def Spec.WithMeta (d : Dir A) : Prop := ∀ s, (d (npyName s)).isSome → (d (csvName s)).isSome

/-- The least unused counter of a name. -/
def Spec.FirstFree (d : Dir A) (name : Str) (k : Nat) : Prop :=
  d (npyName (variantName name k)) = none ∧
    ∀ j < k, (d (npyName (variantName name j))).isSome

/-- Directories reached from `d` by stores that may be killed at any point. -/
inductive Spec.Reaches : Dir A → Dir A → Prop
  | refl (d : Dir A) : Reaches d d
  | step {d d₁ d₂ : Dir A} {verbose : Bool} {fuel k : Nat} {a : StoreArgs A} {crash : Option Nat} :
      Reaches d d₁ → storeCrash verbose fuel d₁ a crash = some (k, d₂) → Reaches d d₂

/-- A directory listing. -/
def Spec.Lists (l : List Str) (d : Dir A) : Prop := l.Nodup ∧ ∀ p, p ∈ l ↔ (d p).isSome

/-! ## The counter loop -/

theorem freeCounter_eq (d : Dir A) (name : Str) (k : Nat) (hk : Spec.FirstFree d name k)
    (c fuel : Nat) (hc : c ≤ k) (hf : k < c + fuel) : freeCounter d name fuel c = some k := by
  induction fuel generalizing c with
  | zero => omega
  | succ fuel ih =>
    rw [freeCounter]
    rcases Nat.lt_or_ge c k with h | h
    · rw [if_pos (hk.2 c h)]
      exact ih (c + 1) h (by omega)
    · obtain rfl : c = k := Nat.le_antisymm hc h
      rw [if_neg (by simp [hk.1])]

theorem freeCounter_some {d : Dir A} {name : Str} {fuel c k : Nat}
    (h : freeCounter d name fuel c = some k) :
    d (npyName (variantName name k)) = none ∧
      ∀ j, c ≤ j → j < k → (d (npyName (variantName name j))).isSome := by
  induction fuel generalizing c with
  | zero => cases h
  | succ fuel ih =>
    rw [freeCounter] at h
    split at h
    · rename_i hc
      obtain ⟨h1, h2⟩ := ih h
      refine ⟨h1, fun j hj hjk => ?_⟩
      rcases Nat.eq_or_lt_of_le hj with rfl | hlt
      · exact hc
      · exact h2 j hlt hjk
    · rename_i hc
      cases h
      refine ⟨by simpa using hc, fun j h1 h2 => by omega⟩

/-- A free counter exists and is at most the number of files. -/
theorem firstFree_exists (d : Dir A) (hd : Spec.FiniteDir d) (name : Str) :
    ∃ k, Spec.FirstFree d name k ∧ k ≤ hd.toFinset.card := by
  classical
  have hex : ∃ k, d (npyName (variantName name k)) = none := by
    by_contra hno
    push Not at hno
    have hinj : Function.Injective fun k => npyName (variantName name k) :=
      fun m n h => variantName_inj (npyName_inj h)
    refine Set.infinite_range_of_injective hinj (hd.subset ?_)
    rintro _ ⟨k, rfl⟩
    exact Option.isSome_iff_ne_none.2 (hno k)
  refine ⟨Nat.find hex, ⟨Nat.find_spec hex, fun j hj => ?_⟩, ?_⟩
  · exact Option.isSome_iff_ne_none.2 (Nat.find_min hex hj)
  · have : ((Finset.range (Nat.find hex)).image fun k => npyName (variantName name k)) ⊆
        hd.toFinset := by
      intro p hp
      obtain ⟨j, hj, rfl⟩ := Finset.mem_image.1 hp
      exact hd.mem_toFinset.2 (Option.isSome_iff_ne_none.2 (Nat.find_min hex (Finset.mem_range.1 hj)))
    have h2 := Finset.card_le_card this
    rwa [Finset.card_image_of_injective _ fun m n h => variantName_inj (npyName_inj h),
      Finset.card_range] at h2

/-! ## What a store that may be killed leaves behind -/

theorem run_puts (d : Dir A) (p : Str) (t s : Str) (h : d p = some (.text t)) :
    (s.map (FsOp.put p)).foldl FsOp.run d = Function.update d p (some (.text (t ++ s))) := by
  induction s generalizing d t with
  | nil => simp [← h]
  | cons c s ih =>
    rw [List.map_cons, List.foldl_cons]
    have hr : FsOp.run d (.put p c) = Function.update d p (some (.text (t ++ [c]))) := by
      simp only [FsOp.run, h]
    rw [hr, ih _ (t ++ [c]) (by simp)]
    simp

/-- The four kinds of state a killed store can leave. -/
theorem storeOps_prefix (verbose : Bool) (a : StoreArgs A) (k j : Nat) (d : Dir A) :
    let v := variantName a.name k
    let d' := ((storeOps verbose a k).take j).foldl FsOp.run d
    d' = d ∨
    (∃ i, d' = Function.update d (csvName v) (some (.text ((a.metaText verbose).take i)))) ∨
    d' = Function.update (Function.update d (csvName v) (some (.text (a.metaText verbose))))
      (npyName v) (some .bad) ∨
    ((storeOps verbose a k).length ≤ j ∧
      d' = Function.update (Function.update d (csvName v) (some (.text (a.metaText verbose))))
        (npyName v) (some (.npy a.pattern))) := by
  intro v d'
  cases j with
  | zero => exact Or.inl rfl
  | succ j =>
    right
    have h0 : d' = ((((a.metaText verbose).map (FsOp.put (csvName v)) ++
        [FsOp.create (npyName v), FsOp.finish (npyName v) a.pattern]).take j).foldl FsOp.run
        (Function.update d (csvName v) (some (.text [])))) := rfl
    have hlen : ((a.metaText verbose).map (FsOp.put (A := A) (csvName v))).length =
      (a.metaText verbose).length := List.length_map ..
    rw [List.take_append, hlen, List.foldl_append, ← List.map_take,
      run_puts _ _ [] _ (by simp)] at h0
    simp only [List.nil_append, Function.update_idem] at h0
    rcases Nat.lt_or_ge (a.metaText verbose).length j with hj | hj
    · right
      have hfull : (a.metaText verbose).take j = a.metaText verbose :=
        List.take_of_length_le (by omega)
      rw [hfull] at h0
      obtain ⟨m, hm⟩ : ∃ m, j - (a.metaText verbose).length = m + 1 := ⟨j - (a.metaText verbose).length - 1, by omega⟩
      rw [hm] at h0
      cases m with
      | zero => left; rw [h0]; rfl
      | succ m =>
        right
        refine ⟨?_, ?_⟩
        · simp only [storeOps, List.length_cons, List.length_append, List.length_map,
            List.length_nil]
          omega
        · rw [h0]
          simp only [List.take_succ_cons, List.take_nil, List.foldl_cons, List.foldl_nil, FsOp.run,
            Function.update_idem]
    · left
      refine ⟨j, ?_⟩
      rw [h0, Nat.sub_eq_zero_of_le hj]
      rfl

theorem storeCrash_iff (verbose : Bool) (fuel : Nat) (d : Dir A) (a : StoreArgs A)
    (crash : Option Nat) (k : Nat) (d' : Dir A)
    (h : storeCrash verbose fuel d a crash = some (k, d')) :
    Spec.FirstFree d a.name k ∧
      ∃ j, d' = ((storeOps verbose a k).take j).foldl FsOp.run d ∧
        (crash = none → (storeOps verbose a k).length ≤ j) := by
  unfold storeCrash at h
  split at h
  · cases h
  · rename_i k' hk
    cases h
    obtain ⟨h1, h2⟩ := freeCounter_some hk
    exact ⟨⟨h1, fun j hj => h2 j (Nat.zero_le _) hj⟩, _, rfl, fun hc => by rw [hc]; rfl⟩

/-! ## C36 -/

/-- C36: `store` always ends: at most one more round of the loop than there are files. -/
theorem store_terminates (verbose : Bool) (d : Dir A) (hd : Spec.FiniteDir d) (a : StoreArgs A) :
    ∃ k d', k ≤ hd.toFinset.card ∧
      ∀ fuel, k < fuel → store verbose fuel d a = some (k, d') := by
  obtain ⟨k, hk, hle⟩ := firstFree_exists d hd a.name
  refine ⟨k, ((storeOps verbose a k).take (storeOps verbose a k).length).foldl FsOp.run d, hle,
    fun fuel hf => ?_⟩
  unfold store storeCrash
  rw [freeCounter_eq d a.name k hk 0 fuel (Nat.zero_le _) (by omega)]
  rfl

/-- C36: exactly what `store` changes: the two files of the first unused variant name. -/
theorem store_effect (verbose : Bool) (fuel : Nat) (d : Dir A) (a : StoreArgs A) (k : Nat)
    (d' : Dir A) (h : store verbose fuel d a = some (k, d')) :
    Spec.FirstFree d a.name k ∧
      d' = Function.update (Function.update d (csvName (variantName a.name k))
        (some (.text (a.metaText verbose)))) (npyName (variantName a.name k))
        (some (.npy a.pattern)) := by
  obtain ⟨h1, j, h2, h3⟩ := storeCrash_iff _ _ _ _ _ _ _ h
  refine ⟨h1, ?_⟩
  rcases storeOps_prefix verbose a k j d with h4 | h4
  all_goals
    have hlen := h3 rfl
    rw [List.take_of_length_le hlen] at h2
  all_goals
    rw [h2]
    have : (storeOps verbose a k).foldl FsOp.run d =
        Function.update (Function.update d (csvName (variantName a.name k))
        (some (.text (a.metaText verbose)))) (npyName (variantName a.name k))
        (some (.npy a.pattern)) := by
      unfold storeOps
      dsimp only
      rw [List.foldl_cons, List.foldl_append]
      rw [show FsOp.run d (.truncate (csvName (variantName a.name k))) =
        Function.update d (csvName (variantName a.name k)) (some (.text [])) from rfl]
      rw [run_puts _ _ [] _ (by simp)]
      simp only [List.nil_append, Function.update_idem, List.foldl_cons, List.foldl_nil, FsOp.run]
    exact this

/-- C36: a store, even one that is killed, never changes an existing pattern or its metadata. -/
theorem store_preserves (verbose : Bool) (fuel : Nat) (d : Dir A) (a : StoreArgs A)
    (crash : Option Nat) (k : Nat) (d' : Dir A)
    (h : storeCrash verbose fuel d a crash = some (k, d')) (s : Str)
    (hs : (d (npyName s)).isSome) :
    d' (npyName s) = d (npyName s) ∧ d' (csvName s) = d (csvName s) := by
  obtain ⟨h1, j, h2, _⟩ := storeCrash_iff _ _ _ _ _ _ _ h
  have hne : s ≠ variantName a.name k := by
    rintro rfl
    rw [h1.1] at hs
    cases hs
  have e1 : npyName s ≠ npyName (variantName a.name k) := fun e => hne (npyName_inj e)
  have e2 : csvName s ≠ csvName (variantName a.name k) := fun e => hne (csvName_inj e)
  have e3 := npy_ne_csv s (variantName a.name k)
  have e4 := (npy_ne_csv (variantName a.name k) s).symm
  rcases storeOps_prefix verbose a k j d with h4 | ⟨i, h4⟩ | h4 | ⟨_, h4⟩ <;> rw [h2, h4]
  · exact ⟨rfl, rfl⟩
  · exact ⟨Function.update_of_ne e3 .., Function.update_of_ne e2 ..⟩
  all_goals
    constructor
    · rw [Function.update_of_ne e1, Function.update_of_ne e3]
    · rw [Function.update_of_ne e4, Function.update_of_ne e2]

/-- C36: the same for every other file that is not the metadata file of an unused name. -/
theorem store_only_two_files (verbose : Bool) (fuel : Nat) (d : Dir A) (a : StoreArgs A)
    (crash : Option Nat) (k : Nat) (d' : Dir A)
    (h : storeCrash verbose fuel d a crash = some (k, d')) (p : Str)
    (h1 : p ≠ npyName (variantName a.name k)) (h2 : p ≠ csvName (variantName a.name k)) :
    d' p = d p := by
  obtain ⟨_, j, hj, _⟩ := storeCrash_iff _ _ _ _ _ _ _ h
  rcases storeOps_prefix verbose a k j d with h4 | ⟨i, h4⟩ | h4 | ⟨_, h4⟩ <;> rw [hj, h4]
  · exact Function.update_of_ne h2 ..
  all_goals rw [Function.update_of_ne h1, Function.update_of_ne h2]

/-- C36: exactly one more name is loadable as a pattern file. -/
theorem store_adds_one (verbose : Bool) (fuel : Nat) (d : Dir A) (a : StoreArgs A) (k : Nat)
    (d' : Dir A) (h : store verbose fuel d a = some (k, d')) (s : Str) :
    (d' (npyName s)).isSome ↔ (d (npyName s)).isSome ∨ s = variantName a.name k := by
  obtain ⟨h1, rfl⟩ := store_effect _ _ _ _ _ _ h
  by_cases hs : s = variantName a.name k
  · subst hs; simp
  · rw [Function.update_of_ne fun e => hs (npyName_inj e),
      Function.update_of_ne (npy_ne_csv _ _)]
    simp [hs]

/-- C36: two stores one after the other, of whatever names, never share a file name. -/
theorem stores_distinct (v₁ v₂ : Bool) (f₁ f₂ : Nat) (d d₁ d₂ : Dir A) (a₁ a₂ : StoreArgs A)
    (k₁ k₂ : Nat) (h₁ : store v₁ f₁ d a₁ = some (k₁, d₁)) (hr : Spec.Reaches d₁ d₂)
    (d₃ : Dir A) (h₂ : store v₂ f₂ d₂ a₂ = some (k₂, d₃)) :
    variantName a₁.name k₁ ≠ variantName a₂.name k₂ := by
  have hp : (d₁ (npyName (variantName a₁.name k₁))).isSome :=
    (store_adds_one _ _ _ _ _ _ h₁ _).2 (Or.inr rfl)
  have hp2 : (d₂ (npyName (variantName a₁.name k₁))).isSome := by
    clear h₂
    induction hr with
    | refl => exact hp
    | step _ hs ih => rw [(store_preserves _ _ _ _ _ _ _ hs _ ih).1]; exact ih
  intro he
  rw [he, (store_effect _ _ _ _ _ _ h₂).1.1] at hp2
  cases hp2

/-! ## C37 -/

theorem finite_step (verbose : Bool) (fuel : Nat) (d : Dir A) (a : StoreArgs A)
    (crash : Option Nat) (k : Nat) (d' : Dir A)
    (h : storeCrash verbose fuel d a crash = some (k, d')) (hd : Spec.FiniteDir d) :
    Spec.FiniteDir d' := by
  refine (hd.union (Set.toFinite {npyName (variantName a.name k),
    csvName (variantName a.name k)})).subset fun p hp => ?_
  by_cases h1 : p = npyName (variantName a.name k)
  · exact Or.inr (by simp [h1])
  by_cases h2 : p = csvName (variantName a.name k)
  · exact Or.inr (by simp [h2])
  left
  have := store_only_two_files _ _ _ _ _ _ _ h p h1 h2
  simp only [Set.mem_ofPred_eq] at hp ⊢
  rwa [this] at hp

/-- C37: whatever stores are killed at whatever point, every pattern file has its metadata
file. -/
theorem crash_keeps_meta {d d' : Dir A} (hr : Spec.Reaches d d') (hd : Spec.WithMeta d) :
    Spec.WithMeta d' := by
  induction hr with
  | refl => exact hd
  | @step d₁ d₂ verbose fuel k a crash _ hs ih =>
    intro s hsome
    obtain ⟨h1, j, h2, _⟩ := storeCrash_iff _ _ _ _ _ _ _ hs
    by_cases he : s = variantName a.name k
    · subst he
      rcases storeOps_prefix verbose a k j d₁ with h4 | ⟨i, h4⟩ | h4 | ⟨_, h4⟩
      · rw [h2, h4, h1.1] at hsome; cases hsome
      · rw [h2, h4, Function.update_of_ne (npy_ne_csv _ _), h1.1] at hsome; cases hsome
      · rw [h2, h4, Function.update_of_ne (npy_ne_csv _ _).symm]; simp
      · rw [h2, h4, Function.update_of_ne (npy_ne_csv _ _).symm]; simp
    · have : (d₁ (npyName s)).isSome := by
        rw [store_only_two_files _ _ _ _ _ _ _ hs _ (fun e => he (npyName_inj e))
          (npy_ne_csv _ _)] at hsome
        exact hsome
      rw [(store_preserves _ _ _ _ _ _ _ hs s this).2]
      exact ih s this

/-- C37: every pattern that was there before loads exactly as before. -/
theorem crash_keeps_patterns {d d' : Dir A} (hr : Spec.Reaches d d') (s : Str)
    (hs : (d (npyName s)).isSome) : (d' (npyName s)).isSome ∧ load d' s = load d s := by
  induction hr with
  | refl => exact ⟨hs, rfl⟩
  | step _ hstep ih =>
    obtain ⟨h1, h2⟩ := ih
    obtain ⟨h3, h4⟩ := store_preserves _ _ _ _ _ _ _ hstep s h1
    refine ⟨by rw [h3]; exact h1, ?_⟩
    rw [← h2]
    unfold load
    rw [h3, h4]

/-- C37: a later store still succeeds. -/
theorem crash_then_store {d d' : Dir A} (hr : Spec.Reaches d d') (hd : Spec.FiniteDir d)
    (verbose : Bool) (a : StoreArgs A) :
    ∃ k d'', ∀ fuel, k < fuel → store verbose fuel d' a = some (k, d'') := by
  have : Spec.FiniteDir d' := by
    induction hr with
    | refl => exact hd
    | step _ hs ih => exact finite_step _ _ _ _ _ _ _ hs ih
  obtain ⟨k, d'', _, h⟩ := store_terminates verbose d' this a
  exact ⟨k, d'', h⟩

/-- C37, exception: a store killed while `np.save` is writing leaves a pattern file that the
index lists and that cannot be loaded. -/
theorem crash_unloadable_refuted (verbose : Bool) (d : Dir A) (hd : Spec.FiniteDir d)
    (a : StoreArgs A) :
    ∃ fuel crash k d', storeCrash verbose fuel d a crash = some (k, d') ∧
      (d' (npyName (variantName a.name k))).isSome ∧
      load d' (variantName a.name k) = .error .value := by
  obtain ⟨k, hk, _⟩ := firstFree_exists d hd a.name
  refine ⟨k + 1, some ((a.metaText verbose).length + 2), k,
    ((storeOps verbose a k).take ((a.metaText verbose).length + 2)).foldl FsOp.run d, ?_, ?_⟩
  · unfold storeCrash
    rw [freeCounter_eq d a.name k hk 0 (k + 1) (Nat.zero_le _) (by omega)]
    rfl
  · have hres : ((storeOps verbose a k).take ((a.metaText verbose).length + 2)).foldl FsOp.run d =
        Function.update (Function.update d (csvName (variantName a.name k))
        (some (.text (a.metaText verbose)))) (npyName (variantName a.name k)) (some .bad) := by
      unfold storeOps
      dsimp only
      rw [List.take_succ_cons, List.foldl_cons, List.take_append, List.length_map,
        List.take_of_length_le (by rw [List.length_map]; omega), List.foldl_append]
      rw [show FsOp.run d (.truncate (csvName (variantName a.name k))) =
        Function.update d (csvName (variantName a.name k)) (some (.text [])) from rfl]
      rw [run_puts _ _ [] _ (by simp)]
      rw [show (a.metaText verbose).length + 1 - (a.metaText verbose).length = 1 by omega]
      simp only [List.nil_append, Function.update_idem]
      rfl
    rw [hres]
    constructor
    · simp
    · unfold load
      rw [Function.update_self]

/-- The empty directory meets the hypotheses. -/
example : Spec.FiniteDir (fun _ => none : Dir A) ∧ Spec.WithMeta (fun _ => none : Dir A) :=
  ⟨by simp [Spec.FiniteDir], by simp [Spec.WithMeta]⟩

/-! ## C38 -/

/-- The lines of a metadata file whose fields contain no line break. -/
theorem metaText_lines (a : StoreArgs A) (verbose : Bool)
    (h1 : '\n' ∉ a.config verbose) (h2 : '\n' ∉ a.commitHash) (h3 : '\n' ∉ a.notes)
    (h4 : '\n' ∉ a.entryPoint) (r1 : '\r' ∉ a.config verbose) (r2 : '\r' ∉ a.commitHash)
    (r3 : '\r' ∉ a.notes) (r4 : '\r' ∉ a.entryPoint) :
    lines (univNewlines (a.metaText verbose)) =
      ["ca_config".toList ++ ',' :: (a.config verbose ++ ['\n']),
       "commit_hash".toList ++ ',' :: (a.commitHash ++ ['\n']),
       "notes".toList ++ ',' :: (' ' :: a.notes ++ ['\n']),
       "entry_point".toList ++ ',' :: a.entryPoint] := by
  have hr : '\r' ∉ a.metaText verbose := by
    unfold StoreArgs.metaText
    simp only [List.mem_append, not_or]
    exact ⟨⟨by decide, r1⟩, ⟨by decide, r2⟩, ⟨by decide, r3⟩, by decide, r4⟩
  rw [univNewlines_id _ hr]
  have e : a.metaText verbose = ("ca_config,".toList ++ a.config verbose) ++ '\n' ::
      (("commit_hash,".toList ++ a.commitHash) ++ '\n' :: (("notes, ".toList ++ a.notes) ++ '\n' ::
      ("entry_point,".toList ++ a.entryPoint))) := by
    unfold StoreArgs.metaText
    simp only [List.append_assoc]
    rfl
  rw [e, lines_append, lines_append, lines_append, lines_last]
  · simp
  · simp only [List.mem_append, not_or]; exact ⟨by decide, h4⟩
  · simp
  · simp only [List.mem_append, not_or]; exact ⟨by decide, h3⟩
  · simp only [List.mem_append, not_or]; exact ⟨by decide, h2⟩
  · simp only [List.mem_append, not_or]; exact ⟨by decide, h1⟩

/-- C38: `load` after `store` returns the array and, for fields without line breaks, each field
up to its first comma; config name and commit hash have a trailing newline unless a comma cut it
off, the notes also a leading space. -/
theorem load_store (verbose : Bool) (fuel : Nat) (d : Dir A) (a : StoreArgs A) (k : Nat)
    (d' : Dir A) (h : store verbose fuel d a = some (k, d'))
    (h1 : '\n' ∉ a.config verbose) (h2 : '\n' ∉ a.commitHash) (h3 : '\n' ∉ a.notes)
    (h4 : '\n' ∉ a.entryPoint) (r1 : '\r' ∉ a.config verbose) (r2 : '\r' ∉ a.commitHash)
    (r3 : '\r' ∉ a.notes) (r4 : '\r' ∉ a.entryPoint) :
    load d' (variantName a.name k) = .ok (a.pattern,
      { caConfig := (a.config verbose ++ ['\n']).takeWhile (· ≠ ',')
        entryPoint := a.entryPoint.takeWhile (· ≠ ',')
        commitHash := (a.commitHash ++ ['\n']).takeWhile (· ≠ ',')
        notes := (' ' :: a.notes ++ ['\n']).takeWhile (· ≠ ',') }) := by
  obtain ⟨_, rfl⟩ := store_effect _ _ _ _ _ _ h
  have hf : ∀ (ls : List Str) (i : Nat) (key v : Str), ',' ∉ key →
      ls[i]? = some (key ++ ',' :: v) → metaField ls i = some (v.takeWhile (· ≠ ',')) := by
    intro ls i key v hk hl
    unfold metaField
    rw [hl, Option.bind_some, splitOn_second _ _ _ hk]
  unfold load
  rw [Function.update_self]
  dsimp only
  rw [Function.update_of_ne (npy_ne_csv _ _).symm, Function.update_self]
  dsimp only
  rw [metaText_lines a verbose h1 h2 h3 h4 r1 r2 r3 r4]
  rw [hf _ 0 "ca_config".toList _ (by decide) rfl, hf _ 1 "commit_hash".toList _ (by decide) rfl,
    hf _ 2 "notes".toList _ (by decide) rfl, hf _ 3 "entry_point".toList _ (by decide) rfl]
  rfl

theorem takeWhile_no_comma (s : Str) (h : ',' ∉ s) : s.takeWhile (· ≠ ',') = s := by
  rw [List.takeWhile_eq_self_iff]
  intro c hc
  simp only [ne_eq, decide_not, Bool.not_eq_eq_eq_not, Bool.not_true, decide_eq_false_iff_not]
  rintro rfl
  exact h hc

/-- C38: with no comma or line break in the fields, everything comes back. -/
theorem load_store_exact (verbose : Bool) (fuel : Nat) (d : Dir A) (a : StoreArgs A) (k : Nat)
    (d' : Dir A) (h : store verbose fuel d a = some (k, d'))
    (hok : ∀ s ∈ [a.config verbose, a.commitHash, a.notes, a.entryPoint],
      '\n' ∉ s ∧ '\r' ∉ s ∧ ',' ∉ s) :
    load d' (variantName a.name k) = .ok (a.pattern,
      { caConfig := a.config verbose ++ ['\n'], entryPoint := a.entryPoint
        commitHash := a.commitHash ++ ['\n'], notes := ' ' :: a.notes ++ ['\n'] }) := by
  simp only [List.mem_cons, List.not_mem_nil, or_false, forall_eq_or_imp, forall_eq] at hok
  obtain ⟨⟨a1, a2, a3⟩, ⟨b1, b2, b3⟩, ⟨c1, c2, c3⟩, ⟨d1, d2, d3⟩⟩ := hok
  rw [load_store verbose fuel d a k d' h a1 b1 c1 d1 a2 b2 c2 d2]
  rw [takeWhile_no_comma _ d3]
  rw [takeWhile_no_comma (a.config verbose ++ ['\n'])
      (by simp only [List.mem_append, not_or]; exact ⟨a3, by decide⟩),
    takeWhile_no_comma (a.commitHash ++ ['\n'])
      (by simp only [List.mem_append, not_or]; exact ⟨b3, by decide⟩),
    takeWhile_no_comma (' ' :: a.notes ++ ['\n'])
      (by simp only [List.cons_append, List.mem_cons, List.mem_append, not_or]
          exact ⟨by decide, c3, by decide, by simp⟩)]

/-- C38, refuted in general: an entry point with a comma is cut at the comma. -/
theorem comma_lost_refuted (verbose : Bool) (fuel : Nat) (d : Dir A) (a : StoreArgs A) (k : Nat)
    (d' : Dir A) (h : store verbose fuel d a = some (k, d')) (x y : Str)
    (he : a.entryPoint = x ++ ',' :: y)
    (hok : ∀ s ∈ [a.config verbose, a.commitHash, a.notes, a.entryPoint], '\n' ∉ s ∧ '\r' ∉ s) :
    ∃ p m, load d' (variantName a.name k) = .ok (p, m) ∧ m.entryPoint ≠ a.entryPoint := by
  simp only [List.mem_cons, List.not_mem_nil, or_false, forall_eq_or_imp, forall_eq] at hok
  obtain ⟨⟨a1, a2⟩, ⟨b1, b2⟩, ⟨c1, c2⟩, ⟨d1, d2⟩⟩ := hok
  refine ⟨_, _, load_store verbose fuel d a k d' h a1 b1 c1 d1 a2 b2 c2 d2, ?_⟩
  dsimp only
  intro heq
  have : ∀ c ∈ a.entryPoint, c ≠ ',' := by
    intro c hc
    rw [List.takeWhile_eq_self_iff] at heq
    simpa using heq c hc
  exact this ',' (by rw [he]; simp) rfl

/-- C38, refuted in general: notes of two lines (the second without a comma) lose the entry
point, which is loaded as "none". -/
theorem newline_lost_refuted (verbose : Bool) (fuel : Nat) (d : Dir A) (a : StoreArgs A) (k : Nat)
    (d' : Dir A) (h : store verbose fuel d a = some (k, d')) (x y : Str)
    (hn : a.notes = x ++ '\n' :: y) (hx : '\n' ∉ x) (hy : '\n' ∉ y) (hc : ',' ∉ y)
    (hr : '\r' ∉ a.notes)
    (hok : ∀ s ∈ [a.config verbose, a.commitHash, a.entryPoint], '\n' ∉ s ∧ '\r' ∉ s) :
    ∃ p m, load d' (variantName a.name k) = .ok (p, m) ∧ m.entryPoint = "none".toList := by
  simp only [List.mem_cons, List.not_mem_nil, or_false, forall_eq_or_imp, forall_eq] at hok
  obtain ⟨⟨a1, a2⟩, ⟨b1, b2⟩, ⟨d1, d2⟩⟩ := hok
  obtain ⟨_, rfl⟩ := store_effect _ _ _ _ _ _ h
  have hr' : '\r' ∉ a.metaText verbose := by
    unfold StoreArgs.metaText
    simp only [List.mem_append, not_or]
    exact ⟨⟨by decide, a2⟩, ⟨by decide, b2⟩, ⟨by decide, hr⟩, by decide, d2⟩
  have e : a.metaText verbose = ("ca_config,".toList ++ a.config verbose) ++ '\n' ::
      (("commit_hash,".toList ++ a.commitHash) ++ '\n' :: (("notes, ".toList ++ x) ++ '\n' ::
      (y ++ '\n' :: ("entry_point,".toList ++ a.entryPoint)))) := by
    unfold StoreArgs.metaText
    rw [hn]
    simp only [List.append_assoc, List.cons_append]
    rfl
  have hl : lines (univNewlines (a.metaText verbose)) =
      ["ca_config".toList ++ ',' :: (a.config verbose ++ ['\n']),
       "commit_hash".toList ++ ',' :: (a.commitHash ++ ['\n']),
       "notes".toList ++ ',' :: (' ' :: x ++ ['\n']), y ++ ['\n'],
       "entry_point".toList ++ ',' :: a.entryPoint] := by
    rw [univNewlines_id _ hr', e, lines_append, lines_append, lines_append, lines_append,
      lines_last]
    · simp
    · simp only [List.mem_append, not_or]; exact ⟨by decide, d1⟩
    · simp
    · exact hy
    · simp only [List.mem_append, not_or]; exact ⟨by decide, hx⟩
    · simp only [List.mem_append, not_or]; exact ⟨by decide, b1⟩
    · simp only [List.mem_append, not_or]; exact ⟨by decide, a1⟩
  unfold load
  rw [Function.update_self]
  dsimp only
  rw [Function.update_of_ne (npy_ne_csv _ _).symm, Function.update_self]
  dsimp only
  rw [hl]
  have h0 : metaField ["ca_config".toList ++ ',' :: (a.config verbose ++ ['\n']),
       "commit_hash".toList ++ ',' :: (a.commitHash ++ ['\n']),
       "notes".toList ++ ',' :: (' ' :: x ++ ['\n']), y ++ ['\n'],
       "entry_point".toList ++ ',' :: a.entryPoint] 0 =
      some ((a.config verbose ++ ['\n']).takeWhile (· ≠ ',')) := by
    unfold metaField
    rw [List.getElem?_cons_zero, Option.bind_some, splitOn_second _ _ _ (by decide)]
  have h3 : metaField ["ca_config".toList ++ ',' :: (a.config verbose ++ ['\n']),
       "commit_hash".toList ++ ',' :: (a.commitHash ++ ['\n']),
       "notes".toList ++ ',' :: (' ' :: x ++ ['\n']), y ++ ['\n'],
       "entry_point".toList ++ ',' :: a.entryPoint] 3 = none := by
    unfold metaField
    simp only [List.getElem?_cons_succ, List.getElem?_cons_zero, Option.bind_some]
    rw [splitOn_none _ _ (by simp only [List.mem_append, not_or]; exact ⟨hc, by decide⟩)]
    rfl
  rw [h0, h3]
  exact ⟨_, _, rfl, rfl⟩

theorem metaField_mem {ls : List Str} {i : Nat} {f : Str} {d : Char}
    (h : metaField ls i = some f) (hd : d ∈ f) : ∃ l ∈ ls, d ∈ l := by
  unfold metaField at h
  cases hl : ls[i]? with
  | none => rw [hl] at h; cases h
  | some l =>
    rw [hl] at h
    exact ⟨l, List.mem_of_getElem? hl, of_mem_splitOn (List.mem_of_getElem? h) hd⟩

/-- C38, refuted for carriage returns: no field of the metadata comes back with one, as reading in
text mode turns them into line breaks. -/
theorem return_lost_refuted (d : Dir A) (name : Str) (x : A) (pm : PatternMeta)
    (h : load d name = .ok (x, pm)) :
    '\r' ∉ pm.caConfig ∧ '\r' ∉ pm.commitHash ∧ '\r' ∉ pm.notes ∧ '\r' ∉ pm.entryPoint := by
  unfold load at h
  split at h
  · cases h
  · split at h
    · cases h
    · rename_i s _
      simp only at h
      have key : ∀ i f, metaField (lines (univNewlines s)) i = some f → '\r' ∉ f := by
        intro i f hf hd
        obtain ⟨l, hl, hdl⟩ := metaField_mem hf hd
        exact univNewlines_no_return s (of_mem_lines hl hdl)
      have key2 : ∀ i dflt, '\r' ∉ dflt →
          '\r' ∉ (metaField (lines (univNewlines s)) i).getD dflt := by
        intro i dflt hd
        cases hf : metaField (lines (univNewlines s)) i with
        | none => exact hd
        | some f => exact key i f hf
      split at h
      · cases h
      · rename_i cfg hcfg
        cases h
        exact ⟨key 0 _ hcfg, key2 1 _ (by decide), key2 2 _ (by decide), key2 3 _ (by decide)⟩
    · cases h
  · cases h

/-- C38: the config name written.  A non-verbose Librarian ignores the `ca_config` argument. -/
theorem config_written (a : StoreArgs A) (verbose : Bool) (h : a.configName = "unspecified".toList) :
    a.config verbose = if verbose = true then a.caConfig else "unspecified".toList := by
  have hu : "unspecified".toList = unspecified := rfl
  rw [hu] at h ⊢
  unfold StoreArgs.config
  cases verbose with
  | false => simp [h]
  | true =>
    simp only [h, and_self, if_true]
    split
    · rename_i hc; exact hc.symm
    · rfl

theorem config_given (a : StoreArgs A) (verbose : Bool) (h : a.configName ≠ "unspecified".toList) :
    a.config verbose = a.configName := by
  have hu : "unspecified".toList = unspecified := rfl
  rw [hu] at h
  unfold StoreArgs.config
  rw [if_neg (fun hh => h hh.1)]

/-- A concrete store. -/
example : ∃ k d', store true 5 (fun _ => none : Dir Nat)
    { pattern := 7, name := "orbium".toList, configName := unspecified
      caConfig := "orbium.npy".toList, entryPoint := "not specified".toList
      commitHash := "abc".toList, notes := "None".toList } = some (k, d') ∧
    load d' "orbium000".toList = .ok (7, { caConfig := "orbium.npy\n".toList
                                           entryPoint := "not specified".toList
                                           commitHash := "abc\n".toList
                                           notes := " None\n".toList }) := by
  have hfin : Spec.FiniteDir (fun _ => none : Dir Nat) := by simp [Spec.FiniteDir]
  obtain ⟨k, d', hle, h⟩ := store_terminates true _ hfin
    { pattern := 7, name := "orbium".toList, configName := unspecified
      caConfig := "orbium.npy".toList, entryPoint := "not specified".toList
      commitHash := "abc".toList, notes := "None".toList : StoreArgs Nat }
  have h0 : hfin.toFinset = ∅ := by ext; simp
  rw [h0, Finset.card_empty, Nat.le_zero] at hle
  subst hle
  refine ⟨0, d', h 5 (by omega), ?_⟩
  have := load_store_exact true 5 _ _ 0 d' (h 5 (by omega)) (by decide +kernel)
  exact this

/-! ## C39 -/

/-- The names that are not listed. -/
def Spec.Hidden (s : Str) : Prop :=
  ".py".toList <:+: s ∨ ".ipynb".toList <:+: s ∨ "csv".toList <:+: s ∨ "__pycache__".toList <:+: s

theorem hidden_iff (s : Str) : hidden s = true ↔ Spec.Hidden s := by
  unfold hidden Spec.Hidden
  simp only [Bool.or_eq_true, hasSub_iff, or_assoc]

theorem erase_filter {K : Type} [BEq K] [LawfulBEq K] (p : K → Bool) (l : List K) (h : l.Nodup) :
    (l.filter p).foldl List.erase l = l.filter fun x => ¬ p x := by
  have key : ∀ (r l : List K), l.Nodup → r.Nodup →
      r.foldl List.erase l = l.filter fun x => !r.contains x := by
    intro r
    induction r with
    | nil => intro l _ _; simp
    | cons x r ih =>
      intro l hl hr
      rw [List.foldl_cons, ih _ (hl.erase x) (List.nodup_cons.1 hr).2, hl.erase_eq_filter,
        List.filter_filter]
      congr 1
      funext y
      rw [List.contains_cons, Bool.not_or, Bool.and_comm]
      rfl
  rw [key _ _ h (h.filter p)]
  refine List.filter_congr fun x hx => ?_
  simp [List.mem_filter, hx]

/-- C39: what the index lists, as a sorted list of stems. -/
theorem index_spec (l : List Str) (h : l.Nodup) :
    (updateIndex l).Pairwise (· ≤ ·) ∧
      (updateIndex l).Perm ((l.filter fun s => ¬ hidden s).map stem) ∧
      ∀ s, s ∈ updateIndex l ↔ ∃ f ∈ l, ¬ Spec.Hidden f ∧ stem f = s := by
  unfold updateIndex
  rw [erase_filter _ _ h]
  refine ⟨sortStr_sorted _, sortStr_perm _, fun s => ?_⟩
  rw [(sortStr_perm _).mem_iff]
  simp only [List.mem_map, List.mem_filter, decide_eq_true_eq, and_assoc, hidden_iff]

theorem variant_not_dots (name : Str) (k : Nat) : ∃ c ∈ variantName name k, c ≠ '.' := by
  obtain ⟨c, hc⟩ := List.exists_mem_of_ne_nil _ (padZero_ne_nil 3 k)
  refine ⟨c, List.mem_append_right _ hc, ?_⟩
  rintro rfl
  have := padZero_digits 3 k _ hc
  simp at this

theorem stem_npy (s : Str) (h : ∃ c ∈ s, c ≠ '.') : stem (npyName s) = s :=
  stem_ext s ['n', 'p', 'y'] (by decide) h

/-- A zoo directory as `store` makes it: every visible file is a pattern file. -/
def Spec.CleanZoo (l : List Str) : Prop :=
  ∀ f ∈ l, ¬ Spec.Hidden f → ∃ s, f = npyName s ∧ ∃ c ∈ s, c ≠ '.'

/-- C39: in such a directory the index lists exactly the visible patterns, each once. -/
theorem index_exact (l : List Str) (h : l.Nodup) (hc : Spec.CleanZoo l) :
    (updateIndex l).Nodup ∧
      ∀ s, s ∈ updateIndex l ↔ npyName s ∈ l ∧ ¬ Spec.Hidden (npyName s) ∧ ∃ c ∈ s, c ≠ '.' := by
  obtain ⟨_, h2, h3⟩ := index_spec l h
  constructor
  · rw [h2.nodup_iff]
    refine List.Nodup.map_on ?_ (h.filter _)
    intro f hf g hg he
    simp only [List.mem_filter, decide_eq_true_eq, hidden_iff] at hf hg
    obtain ⟨s, rfl, hs⟩ := hc f hf.1 hf.2
    obtain ⟨t, rfl, ht⟩ := hc g hg.1 hg.2
    rw [stem_npy s hs, stem_npy t ht] at he
    rw [he]
  · intro s
    rw [h3]
    constructor
    · rintro ⟨f, hf, hv, rfl⟩
      obtain ⟨t, rfl, ht⟩ := hc f hf hv
      rw [stem_npy t ht]
      exact ⟨hf, hv, ht⟩
    · rintro ⟨h4, h5, h6⟩
      exact ⟨_, h4, h5, stem_npy s h6⟩

/-- C39: a pattern whose own name contains `csv` (or `.py`, …) is never listed. -/
theorem hidden_name_never_listed (l : List Str) (h : l.Nodup) (hc : Spec.CleanZoo l) (name : Str)
    (hn : Spec.Hidden name) (k : Nat) : variantName name k ∉ updateIndex l := by
  intro hm
  refine (((index_exact l h hc).2 _).1 hm).2.1 ?_
  have hsub : ∀ pat : Str, pat <:+: name → pat <:+: npyName (variantName name k) := by
    intro pat hp
    refine hp.trans ?_
    unfold npyName variantName
    rw [List.append_assoc]
    exact (List.prefix_append _ _).isInfix
  exact hn.imp (hsub _) (Or.imp (hsub _) (Or.imp (hsub _) (hsub _)))

theorem csv_hidden (s : Str) : Spec.Hidden (csvName s) := by
  right; right; left
  exact ⟨s ++ ['.'], [], by simp [csvName]⟩

/-- C39: the index before a store lacks exactly the new pattern: refreshing it afterwards gives
one more entry. -/
theorem index_after_store (verbose : Bool) (fuel : Nat) (d : Dir A) (a : StoreArgs A) (k : Nat)
    (d' : Dir A) (h : store verbose fuel d a = some (k, d')) (l l' : List Str)
    (hl : Spec.Lists l d) (hl' : Spec.Lists l' d')
    (hv : ¬ Spec.Hidden (npyName (variantName a.name k))) :
    (updateIndex l').Perm (variantName a.name k :: updateIndex l) := by
  obtain ⟨h1, rfl⟩ := store_effect _ _ _ _ _ _ h
  have hp : (l'.filter fun s => ¬ hidden s).Perm
      (npyName (variantName a.name k) :: l.filter fun s => ¬ hidden s) := by
    rw [List.perm_ext_iff_of_nodup (hl'.1.filter _)]
    · intro p
      simp only [List.mem_filter, List.mem_cons, decide_eq_true_eq, hidden_iff, hl'.2, hl.2]
      by_cases e1 : p = npyName (variantName a.name k)
      · subst e1; simp [hv]
      · rw [Function.update_of_ne e1]
        by_cases e2 : p = csvName (variantName a.name k)
        · subst e2
          simp [csv_hidden, e1]
        · rw [Function.update_of_ne e2]
          simp [e1]
    · refine List.nodup_cons.2 ⟨?_, hl.1.filter _⟩
      intro hm
      have := (hl.2 _).1 (List.mem_filter.1 hm).1
      rw [h1.1] at this
      cases this
  have e1 := (index_spec l' hl'.1).2.1
  have e2 := (index_spec l hl.1).2.1
  refine e1.trans ((hp.map stem).trans ?_)
  rw [List.map_cons, stem_npy _ (variant_not_dots _ _)]
  exact List.Perm.cons _ e2.symm

/-- C39, exception: another file with the stem of a pattern makes a duplicate entry. -/
theorem index_duplicates_refuted :
    ¬ (updateIndex ["a000.npy".toList, "a000.txt".toList]).Nodup := by
  have h : (["a000.npy".toList, "a000.txt".toList] : List Str).Nodup := by decide +kernel
  rw [(index_spec _ h).2.1.nodup_iff]
  decide +kernel

/-- A concrete listing. -/
def zoo : List Str := ["b000.npy".toList, "b000.csv".toList, "librarian.py".toList,
  "a000.npy".toList, "a000.csv".toList, "mycsv000.npy".toList]

example : Spec.CleanZoo zoo ∧ zoo.Nodup ∧ "a000".toList ∈ updateIndex zoo ∧
    "mycsv000".toList ∉ updateIndex zoo := by
  have hn : zoo.Nodup := by decide +kernel
  refine ⟨?_, hn, ?_, ?_⟩
  · intro f hf hv
    simp only [zoo, List.mem_cons, List.not_mem_nil, or_false] at hf
    rcases hf with rfl | rfl | rfl | rfl | rfl | rfl
    · exact ⟨"b000".toList, rfl, 'b', by decide, by decide⟩
    · exact absurd (csv_hidden "b000".toList) hv
    · exact absurd (Or.inl ⟨"librarian".toList, [], by decide⟩) hv
    · exact ⟨"a000".toList, rfl, 'a', by decide, by decide⟩
    · exact absurd (csv_hidden "a000".toList) hv
    · exact absurd (Or.inr (Or.inr (Or.inl ⟨"my".toList, "000.npy".toList, by decide⟩))) hv
  · rw [(index_spec zoo hn).2.2]
    refine ⟨"a000.npy".toList, by decide +kernel, ?_, by decide +kernel⟩
    rw [← hidden_iff]; decide +kernel
  · rw [(index_spec zoo hn).2.2]
    rintro ⟨f, hf, hv, he⟩
    rw [← hidden_iff] at hv
    have : ∀ f ∈ zoo, hidden f ≠ true → stem f ≠ "mycsv000".toList := by decide +kernel
    exact this f hf hv he

/-! ## C67: crop -/

/-- C67: cropping with bounds inside the pattern gives a copy of exactly that rectangle. -/
theorem crop_inside {K : Type} (p : List (List K)) (H W r₀ r₁ c₀ c₁ : Nat) (hH : p.length = H)
    (hW : ∀ row ∈ p, row.length = W) (hr : r₀ ≤ r₁) (hr' : r₁ ≤ H) (hc : c₀ ≤ c₁) (hc' : c₁ ≤ W) :
    (crop p (r₀, r₁) (c₀, c₁)).length = r₁ - r₀ ∧
      (∀ row ∈ crop p (r₀, r₁) (c₀, c₁), row.length = c₁ - c₀) ∧
      ∀ i j, i < r₁ - r₀ → j < c₁ - c₀ →
        ((crop p (r₀, r₁) (c₀, c₁))[i]?).bind (·[j]?) = (p[r₀ + i]?).bind (·[c₀ + j]?) := by
  have hb : ∀ n i : Nat, i ≤ n → sliceBound n (i : Int) = i := by
    intro n i hi
    unfold sliceBound
    rw [if_neg (by omega)]
    simp [hi]
  have hs : ∀ (row : List K), row.length = W → pySlice row c₀ c₁ = (row.take c₁).drop c₀ := by
    intro row hrow
    unfold pySlice
    rw [hrow, hb W c₁ hc', hb W c₀ (by omega)]
  have hrows : pySlice p (r₀ : Int) r₁ = (p.take r₁).drop r₀ := by
    unfold pySlice
    rw [hH, hb H r₁ hr', hb H r₀ (by omega)]
  unfold crop
  simp only [hrows]
  refine ⟨?_, ?_, ?_⟩
  · simp only [List.length_map, List.length_drop, List.length_take]
    omega
  · intro row hrow
    obtain ⟨r, hmem, rfl⟩ := List.mem_map.1 hrow
    have hp : r ∈ p := List.mem_of_mem_take (List.mem_of_mem_drop hmem)
    rw [hs r (hW r hp), List.length_drop, List.length_take, hW r hp]
    omega
  · intro i j hi hj
    rw [List.getElem?_map, List.getElem?_drop, List.getElem?_take, if_pos (by omega)]
    cases hp : p[r₀ + i]? with
    | none => rfl
    | some row =>
      have hmem : row ∈ p := List.mem_of_getElem? hp
      simp only [Option.map_some, Option.bind_some]
      rw [hs row (hW row hmem), List.getElem?_drop, List.getElem?_take, if_pos (by omega)]

/-- What `l[a:b]` of an axis of length `n` selects: a negative bound counts from the end, and both
are clamped to `[0, n]`. -/
def Spec.bound (n : Nat) (i : Int) : Int := max 0 (min n (if i < 0 then n + i else i))

theorem sliceBound_bound (n : Nat) (i : Int) : (sliceBound n i : Int) = Spec.bound n i := by
  unfold sliceBound Spec.bound
  split <;> omega

theorem pySlice_getElem? {K : Type} (l : List K) (a b : Int) (k : Nat) :
    (pySlice l a b)[k]? =
      if Spec.bound l.length a + k < Spec.bound l.length b then
        l[(Spec.bound l.length a).toNat + k]? else none := by
  rw [← sliceBound_bound, ← sliceBound_bound]
  unfold pySlice
  rw [List.getElem?_drop, List.getElem?_take]
  simp only [Int.toNat_natCast]
  by_cases h : sliceBound l.length a + k < sliceBound l.length b
  · rw [if_pos h, if_pos (by exact_mod_cast h)]
  · rw [if_neg h, if_neg (by exact_mod_cast h)]

/-- C67: in general, for arbitrary bounds, cell `(i, j)` of the crop is the cell that far from the
clamped lower bounds, as long as it is below the clamped upper bounds; no error is raised. -/
theorem crop_general {K : Type} (p : List (List K)) (W : Nat) (hW : ∀ row ∈ p, row.length = W)
    (row col : Int × Int) (i j : Nat) :
    ((crop p row col)[i]?).bind (·[j]?) =
      if Spec.bound p.length row.1 + i < Spec.bound p.length row.2 ∧
          Spec.bound W col.1 + j < Spec.bound W col.2 then
        (p[(Spec.bound p.length row.1).toNat + i]?).bind (·[(Spec.bound W col.1).toNat + j]?)
      else none := by
  unfold crop
  rw [List.getElem?_map, pySlice_getElem?]
  by_cases h : Spec.bound p.length row.1 + i < Spec.bound p.length row.2
  · simp only [h, if_true, true_and]
    cases hp : p[(Spec.bound p.length row.1).toNat + i]? with
    | none => simp
    | some r =>
      simp only [Option.map_some, Option.bind_some]
      rw [pySlice_getElem?, hW r (List.mem_of_getElem? hp)]
  · simp [h]

/-- C67: bounds beyond the pattern are silently clamped. -/
theorem crop_clamped {K : Type} (p : List (List K)) (H W : Nat) (hH : p.length = H)
    (hW : ∀ row ∈ p, row.length = W) (r₀ r₁ c₀ c₁ : Nat) :
    crop p (r₀, r₁) (c₀, c₁) = crop p (min r₀ H, min r₁ H) (min c₀ W, min c₁ W) := by
  have hb : ∀ n i : Nat, sliceBound n ((i : Int)) = sliceBound n (min (i : Int) (n : Int)) := by
    intro n i
    have h1 := sliceBound_bound n i
    have h2 := sliceBound_bound n (min (i : Int) (n : Int))
    have : Spec.bound n i = Spec.bound n (min (i : Int) (n : Int)) := by
      unfold Spec.bound; split <;> split <;> omega
    omega
  unfold crop
  have e : pySlice p (r₀ : Int) r₁ = pySlice p (min (r₀ : Int) H) (min (r₁ : Int) H) := by
    unfold pySlice
    rw [hb p.length r₁, hb p.length r₀, hH]
  simp only [e]
  apply List.map_congr_left
  intro r hr
  have hmem : r ∈ p := by
    unfold pySlice at hr
    exact List.mem_of_mem_take (List.mem_of_mem_drop hr)
  unfold pySlice
  rw [hb r.length c₁, hb r.length c₀, hW r hmem]

/-- C67: reversed rows give a crop without rows, reversed columns one whose rows are empty. -/
theorem crop_reversed {K : Type} (p : List (List K)) (r₀ r₁ c₀ c₁ : Nat) :
    (r₁ ≤ r₀ → crop p (r₀, r₁) (c₀, c₁) = []) ∧
      (c₁ ≤ c₀ → ∀ row ∈ crop p (r₀, r₁) (c₀, c₁), row = []) := by
  have hs : ∀ (K : Type) (l : List K) (a b : Nat), b ≤ a → pySlice l a b = [] := by
    intro K l a b h
    unfold pySlice sliceBound
    rw [if_neg (by omega), if_neg (by omega)]
    apply List.drop_eq_nil_of_le
    simp only [List.length_take, Int.toNat_natCast]
    omega
  unfold crop
  refine ⟨fun h => by simp only [hs _ p _ _ h, List.map_nil], fun h row hrow => ?_⟩
  obtain ⟨r, _, rfl⟩ := List.mem_map.1 hrow
  exact hs _ r _ _ h

example : crop [[1, 2, 3], [4, 5, 6], [7, 8, 9]] (0, 2) (1, 3) = [[2, 3], [5, 6]] := by decide

end Yuca
