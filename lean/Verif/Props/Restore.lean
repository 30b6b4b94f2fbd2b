import Mathlib.Order.WellFounded
import Mathlib.Data.Set.Finite.Basic
import Mathlib.Data.Fintype.Order
import Mathlib.Logic.Relation
import Mathlib.Logic.Function.Basic
import Verif.Props.Config

/-!
# Restoring configs: termination (C33), missing files (C63)
-/

namespace Yuca

/-! ## Specification -/

/-- The file a path is read from: newlines are dropped, then the path itself and the path below
the default directory are tried. -/
def Spec.resolve (fs : Files) (path : String) : Option String :=
  let p := String.ofList (path.toList.filter (· ≠ '\n'))
  if (fs p).isSome then some p
  else if (fs ("ca_configs/" ++ p)).isSome then some ("ca_configs/" ++ p)
  else none

/-- Config file `f` names config file `g` in its instantiation arguments. -/
def Spec.Refers (fs : Files) (f g : String) : Prop :=
  ∃ cfg kw p, fs f = some cfg ∧ cfg.instant = some kw ∧ kw.caConfig = some p ∧
    Spec.resolve fs p = some g

/-- The files are read without an error before a nested restore: every set of instantiation
arguments asks for at least one channel of each kind and a positive radius. -/
def Spec.SoundKw (kw : InstantKwargs) : Prop := kw.extN ≠ 0 ∧ kw.intN ≠ 0 ∧ kw.radius ≠ 0

theorem readConfig_eq (fs : Files) (path : String) :
    readConfig fs path = (Spec.resolve fs path).bind fs := by
  unfold readConfig Spec.resolve
  dsimp only
  generalize String.ofList (path.toList.filter (· ≠ '\n')) = p
  cases h : fs p with
  | some c => simp [h]
  | none =>
    cases h2 : fs ("ca_configs/" ++ p) with
    | some c => simp [h2]
    | none => simp

theorem resolve_some {fs : Files} {path f : String} (h : Spec.resolve fs path = some f) :
    ∃ cfg, fs f = some cfg := by
  unfold Spec.resolve at h
  dsimp only at h
  split at h
  · cases h; exact Option.isSome_iff_exists.1 (by assumption)
  split at h
  · cases h; exact Option.isSome_iff_exists.1 (by assumption)
  · cases h

/-! ## One level of `__init__` -/

theorem init_succ_none (fs : Files) (n : Nat) (d : Nat → Draws) (kw : InstantKwargs) :
    CCAObj.init fs (n + 1) d kw = none ↔
      (∃ o, CCAObj.defaultInit kw (d 0) = .ok o) ∧
      ∃ cfg kw', kw.caConfig.bind (readConfig fs) = some cfg ∧ cfg.instant = some kw' ∧
        CCAObj.init fs n (fun m => d (m + 1)) kw' = none := by
  rw [CCAObj.init]
  cases hd : CCAObj.defaultInit kw (d 0) with
  | error e => simp
  | ok o =>
    cases hc : kw.caConfig.bind (readConfig fs) with
    | none => simp
    | some cfg =>
      cases hi : cfg.instant with
      | none =>
        simp only [hi]
        constructor
        · intro h
          cases ha : o.applyConfig cfg (d 0).seq <;> rw [ha] at h <;> cases h
        · rintro ⟨_, cfg', kw', h1, h2, _⟩
          cases h1
          rw [hi] at h2
          cases h2
      | some kw' =>
        simp only [hi]
        cases hn : CCAObj.init fs n (fun m => d (m + 1)) kw' with
        | none => exact ⟨fun _ => ⟨⟨o, rfl⟩, cfg, kw', rfl, hi, hn⟩, fun _ => rfl⟩
        | some r =>
          constructor
          · intro h
            cases r with
            | error e => cases h
            | ok o' =>
              dsimp only at h
              cases ha : o'.applyConfig cfg (d 0).seq <;> rw [ha] at h <;> cases h
          · rintro ⟨_, cfg', kw'', h1, h2, h3⟩
            cases h1
            rw [hi] at h2
            cases h2
            rw [hn] at h3
            cases h3

/-- More fuel never changes an answer. -/
theorem init_mono (fs : Files) (n : Nat) (d : Nat → Draws) (kw : InstantKwargs)
    (r : Except PyErr CCAObj) (h : CCAObj.init fs n d kw = some r) :
    CCAObj.init fs (n + 1) d kw = some r := by
  induction n generalizing d kw r with
  | zero => cases h
  | succ n ih =>
    rw [CCAObj.init] at h ⊢
    cases hd : CCAObj.defaultInit kw (d 0) with
    | error e => rw [hd] at h; exact h
    | ok o =>
      rw [hd] at h
      dsimp only at h ⊢
      cases hc : kw.caConfig.bind (readConfig fs) with
      | none => rw [hc] at h; exact h
      | some cfg =>
        rw [hc] at h
        dsimp only at h ⊢
        cases hi : cfg.instant with
        | none => rw [hi] at h; exact h
        | some kw' =>
          rw [hi] at h
          dsimp only at h ⊢
          cases hn : CCAObj.init fs n (fun m => d (m + 1)) kw' with
          | none => rw [hn] at h; cases h
          | some r' =>
            rw [ih _ _ _ hn]
            rw [hn] at h
            exact h

theorem init_mono_le (fs : Files) {n m : Nat} (hnm : n ≤ m) (d : Nat → Draws)
    (kw : InstantKwargs) (r : Except PyErr CCAObj) (h : CCAObj.init fs n d kw = some r) :
    CCAObj.init fs m d kw = some r := by
  induction hnm with
  | refl => exact h
  | step _ ih => exact init_mono _ _ _ _ _ ih

theorem restore_none (fs : Files) (n : Nat) (d : Nat → Draws) (o : CCAObj) (path : String) :
    o.restoreConfig fs n d path = none ↔
      ∃ f cfg kw, Spec.resolve fs path = some f ∧ fs f = some cfg ∧ cfg.instant = some kw ∧
        CCAObj.init fs n (fun m => d (m + 1)) kw = none := by
  unfold CCAObj.restoreConfig CCAObj.loadConfig
  rw [readConfig_eq]
  cases hr : Spec.resolve fs path with
  | none => simp
  | some f =>
    obtain ⟨cfg, hf⟩ := resolve_some hr
    simp only [Option.bind_some, hf, Option.some.injEq]
    cases hi : cfg.instant with
    | none =>
      constructor
      · intro h; cases h
      · rintro ⟨_, _, kw, rfl, h1, h2, _⟩
        rw [hf] at h1
        cases h1
        rw [hi] at h2
        cases h2
    | some kw =>
      cases hn : CCAObj.init fs n (fun m => d (m + 1)) kw with
      | none => exact ⟨fun _ => ⟨f, cfg, kw, rfl, hf, hi, hn⟩, fun _ => by simp only [hn]⟩
      | some r =>
        constructor
        · intro h
          simp only [hn] at h
          cases r <;> cases h
        · rintro ⟨_, _, kw', rfl, h1, h2, h3⟩
          rw [hf] at h1
          cases h1
          rw [hi] at h2
          cases h2
          rw [hn] at h3
          cases h3

/-! ## C33 -/

/-- The nested `__init__` of arguments naming a file from which every chain of references ends
comes back. -/
theorem init_terminates (fs : Files) (f : String) (hacc : Acc (fun a b => Spec.Refers fs b a) f)
    (kw : InstantKwargs) (p : String) (hp : kw.caConfig = some p)
    (hf : Spec.resolve fs p = some f) :
    ∃ n, ∀ d, CCAObj.init fs n d kw ≠ none := by
  induction hacc generalizing kw p with
  | intro f _ ih =>
    obtain ⟨cfg, hcfg⟩ := resolve_some hf
    have hread : kw.caConfig.bind (readConfig fs) = some cfg := by
      rw [hp, Option.bind_some, readConfig_eq, hf, Option.bind_some, hcfg]
    have key : ∀ n, (∀ kw', cfg.instant = some kw' → ∀ d, CCAObj.init fs n d kw' ≠ none) →
        ∀ d, CCAObj.init fs (n + 1) d kw ≠ none := by
      intro n hn d h
      obtain ⟨_, cfg', kw', h1, h2, h3⟩ := (init_succ_none ..).1 h
      rw [hread] at h1
      cases h1
      exact hn kw' h2 _ h3
    cases hi : cfg.instant with
    | none => exact ⟨1, key 0 (by simp [hi])⟩
    | some kw' =>
      cases hc : kw'.caConfig with
      | none =>
        refine ⟨2, key 1 fun kw'' h => ?_⟩
        rw [hi] at h
        cases h
        intro d hnone
        obtain ⟨_, _, _, h1, _⟩ := (init_succ_none ..).1 hnone
        rw [hc] at h1
        cases h1
      | some p' =>
        cases hr : Spec.resolve fs p' with
        | none =>
          refine ⟨2, key 1 fun kw'' h => ?_⟩
          rw [hi] at h
          cases h
          intro d hnone
          obtain ⟨_, _, _, h1, _⟩ := (init_succ_none ..).1 hnone
          rw [hc, Option.bind_some, readConfig_eq, hr] at h1
          cases h1
        | some g =>
          obtain ⟨n, hn⟩ := ih g ⟨cfg, kw', p', hcfg, hi, hc, hr⟩ kw' p' hc hr
          refine ⟨n + 1, key n fun kw'' h => ?_⟩
          rw [hi] at h
          cases h
          exact hn

/-- C33, termination: `restore_config` returns (with an automaton or an exception) whenever no
infinite chain of `ca_config` references starts at the file; the number of nested calls does not
depend on the random draws or on the object. -/
theorem restore_terminates (fs : Files) (path : String)
    (h : ∀ f, Spec.resolve fs path = some f → Acc (fun a b => Spec.Refers fs b a) f) :
    ∃ n, ∀ m ≥ n, ∀ d (o : CCAObj), o.restoreConfig fs m d path ≠ none := by
  have key : ∀ n, (∀ f cfg kw, Spec.resolve fs path = some f → fs f = some cfg →
      cfg.instant = some kw → ∀ d, CCAObj.init fs n d kw ≠ none) →
      ∃ n, ∀ m ≥ n, ∀ d (o : CCAObj), o.restoreConfig fs m d path ≠ none := by
    intro n hn
    refine ⟨n, fun m hm d o hnone => ?_⟩
    obtain ⟨f, cfg, kw, h1, h2, h3, h4⟩ := (restore_none ..).1 hnone
    obtain ⟨r, hr⟩ := Option.ne_none_iff_exists'.1 (hn f cfg kw h1 h2 h3 fun m => d (m + 1))
    rw [init_mono_le fs hm _ _ _ hr] at h4
    cases h4
  cases hr : Spec.resolve fs path with
  | none => exact key 0 (by simp [hr])
  | some f =>
    obtain ⟨cfg, hcfg⟩ := resolve_some hr
    cases hi : cfg.instant with
    | none =>
      refine key 0 fun f' cfg' kw h1 h2 h3 => ?_
      rw [hr] at h1
      cases h1
      rw [hcfg] at h2
      cases h2
      rw [hi] at h3
      cases h3
    | some kw =>
      have : ∃ n, ∀ d, CCAObj.init fs n d kw ≠ none := by
        cases hc : kw.caConfig with
        | none =>
          refine ⟨1, fun d hnone => ?_⟩
          obtain ⟨_, _, _, h1, _⟩ := (init_succ_none ..).1 hnone
          rw [hc] at h1
          cases h1
        | some p =>
          cases hg : Spec.resolve fs p with
          | none =>
            refine ⟨1, fun d hnone => ?_⟩
            obtain ⟨_, _, _, h1, _⟩ := (init_succ_none ..).1 hnone
            rw [hc, Option.bind_some, readConfig_eq, hg] at h1
            cases h1
          | some g =>
            exact init_terminates fs g ((h f hr).inv ⟨cfg, kw, p, hcfg, hi, hc, hg⟩) kw p hc hg
      obtain ⟨n, hn⟩ := this
      refine key n fun f' cfg' kw' h1 h2 h3 => ?_
      rw [hr] at h1
      cases h1
      rw [hcfg] at h2
      cases h2
      rw [hi] at h3
      cases h3
      exact hn

/-- C33: with finitely many config files and no cycle of references among them, restoring any
path returns. -/
theorem restore_terminates_acyclic (fs : Files) (hfin : {f | (fs f).isSome}.Finite)
    (hac : ∀ f, ¬ Relation.TransGen (Spec.Refers fs) f f) (path : String) :
    ∃ n, ∀ m ≥ n, ∀ d (o : CCAObj), o.restoreConfig fs m d path ≠ none := by
  refine restore_terminates fs path fun f hf => ?_
  let S := {f // (fs f).isSome}
  have : Finite S := hfin
  let R : S → S → Prop := fun a b => Relation.TransGen (Spec.Refers fs) b.1 a.1
  have hirr : Std.Irrefl R := ⟨fun a => hac a.1⟩
  have htr : IsTrans S R := ⟨fun _ _ _ hab hbc => hbc.trans hab⟩
  have hwf : WellFounded R := Finite.wellFounded_of_trans_of_irrefl R
  have : ∀ a : S, Acc (fun a b => Spec.Refers fs b a) a.1 := by
    intro a
    induction a using hwf.induction with
    | _ a ih =>
      refine Acc.intro _ fun g hg => ?_
      have hs : (fs g).isSome := by
        obtain ⟨_, _, _, _, _, _, h⟩ := hg
        obtain ⟨c, hc⟩ := resolve_some h
        simp [hc]
      exact ih ⟨g, hs⟩ (Relation.TransGen.single hg)
  obtain ⟨c, hc⟩ := resolve_some hf
  exact this ⟨f, by simp [hc]⟩

/-- A file system with two files, one naming the other, is acyclic. -/
example : ∃ fs : Files, {f | (fs f).isSome}.Finite ∧
    (∀ f, ¬ Relation.TransGen (Spec.Refers fs) f f) ∧ Spec.Refers fs "a" "b" := by
  let fs : Files := fun f =>
    if f = "a" then some { orbiumConfig 13 with instant := some { caConfig := some "b" } }
    else if f = "b" then some (orbiumConfig 13) else none
  have hr : ∀ f g, Spec.Refers fs f g → f = "a" ∧ g = "b" := by
    rintro f g ⟨cfg, kw, p, h1, h2, h3, h4⟩
    dsimp only [fs] at h1
    split at h1
    · rename_i hf
      cases h1
      cases h2
      cases h3
      refine ⟨hf, ?_⟩
      have : Spec.resolve fs "b" = some "b" := by
        simp [Spec.resolve, fs]
      rw [this] at h4
      exact (Option.some.inj h4).symm
    split at h1
    · cases h1; cases h2
    · cases h1
  refine ⟨fs, ?_, ?_, _, _, "b", rfl, rfl, rfl, by simp [Spec.resolve, fs]⟩
  · refine Set.Finite.subset (Set.toFinite {"a", "b"}) fun f hf => ?_
    by_contra hne
    simp only [Set.mem_insert_iff, Set.mem_singleton_iff, not_or] at hne
    simp [fs, hne.1, hne.2] at hf
  · intro f h
    have h1 : ∀ g, Relation.TransGen (Spec.Refers fs) f g → g = "b" := by
      intro g hg
      cases hg with
      | single h => exact (hr _ _ h).2
      | tail _ h => exact (hr _ _ h).2
    have h2 : f = "a" := by
      obtain ⟨_, h, _⟩ := Relation.TransGen.head'_iff.1 h
      exact (hr _ _ h).1
    exact absurd (h2.symm.trans (h1 f h)) (by decide)

/-- C33, divergence: if every file reachable from the one restored names a further file (so some
file is reached twice, when there are finitely many) and the automata they describe can be
initialised, `restore_config` recurses beyond every bound. -/
theorem restore_diverges (fs : Files) (P : String → Prop) (d : Nat → Draws)
    (hd : ∀ n, Spec.MixtureLength (d n).kernel.length)
    (hP : ∀ f, P f → ∃ cfg kw p g, fs f = some cfg ∧ cfg.instant = some kw ∧ Spec.SoundKw kw ∧
      kw.caConfig = some p ∧ Spec.resolve fs p = some g ∧ P g)
    (o : CCAObj) (path f : String) (hf : Spec.resolve fs path = some f) (hPf : P f) (n : Nat) :
    o.restoreConfig fs n d path = none := by
  have key : ∀ (n : Nat) (d : Nat → Draws) (kw : InstantKwargs) (p g : String),
      (∀ n, Spec.MixtureLength (d n).kernel.length) → Spec.SoundKw kw → kw.caConfig = some p →
      Spec.resolve fs p = some g → P g → CCAObj.init fs n d kw = none := by
    intro n
    induction n with
    | zero => intros; rfl
    | succ n ih =>
      intro d kw p g hd hs hp hg hPg
      obtain ⟨cfg, kw', p', g', h1, h2, h3, h4, h5, h6⟩ := hP g hPg
      obtain ⟨o, ho, _⟩ := defaultInit_ok kw (d 0) hs.1 hs.2.1 hs.2.2 (hd 0)
      refine (init_succ_none ..).2 ⟨⟨o, ho⟩, cfg, kw', ?_, h2,
        ih _ kw' p' g' (fun m => hd (m + 1)) h3 h4 h5 h6⟩
      rw [hp, Option.bind_some, readConfig_eq, hg, Option.bind_some, h1]
  obtain ⟨cfg, kw, p, g, h1, h2, h3, h4, h5, h6⟩ := hP f hPf
  exact (restore_none ..).2 ⟨f, cfg, kw, hf, h1, h2,
    key n _ kw p g (fun m => hd (m + 1)) h3 h4 h5 h6⟩

/-- C33, exactly: when the automata the files describe can be initialised, restoring a path
returns if and only if no infinite chain of references starts there. -/
theorem restore_returns_iff (fs : Files) (path : String) (o : CCAObj) (d : Nat → Draws)
    (hd : ∀ n, Spec.MixtureLength (d n).kernel.length)
    (hs : ∀ f cfg kw, fs f = some cfg → cfg.instant = some kw → Spec.SoundKw kw) :
    (∃ n, o.restoreConfig fs n d path ≠ none) ↔
      ∀ f, Spec.resolve fs path = some f → Acc (fun a b => Spec.Refers fs b a) f := by
  constructor
  · rintro ⟨n, hn⟩ f hf
    by_contra hacc
    refine hn (restore_diverges fs (fun g => ¬ Acc (fun a b => Spec.Refers fs b a) g) d hd ?_ o
      path f hf hacc n)
    intro g hg
    have : ∃ g', Spec.Refers fs g g' ∧ ¬ Acc (fun a b => Spec.Refers fs b a) g' := by
      by_contra hno
      push Not at hno
      exact hg (Acc.intro _ hno)
    obtain ⟨g', ⟨cfg, kw, p, h1, h2, h3, h4⟩, h5⟩ := this
    exact ⟨cfg, kw, p, g', h1, h2, hs _ _ _ h1 h2, h3, h4, h5⟩
  · intro h
    obtain ⟨n, hn⟩ := restore_terminates fs path h
    exact ⟨n, hn n le_rfl d o⟩

theorem resolve_overwrite (fs : Files) (f : String) (cfg : Config) (hf : (fs f).isSome)
    (path : String) :
    Spec.resolve (Function.update fs f (some cfg)) path = Spec.resolve fs path := by
  have : ∀ p, (Function.update fs f (some cfg) p).isSome = (fs p).isSome := by
    intro p
    by_cases h : p = f
    · subst h; simp [hf]
    · rw [Function.update_of_ne h]
  unfold Spec.resolve
  simp only [this]

/-- `load_config` keeps the instantiation arguments of an object whose config has none. -/
theorem init_plain_kw {fs : Files} {n : Nat} {d : Nat → Draws} {kw : InstantKwargs} {o : CCAObj}
    (h : CCAObj.init fs n d kw = some (.ok o))
    (hno : ∀ cfg, kw.caConfig.bind (readConfig fs) = some cfg → cfg.instant = none) :
    o.kw = kw ∧ kw.extN ≠ 0 ∧ kw.intN ≠ 0 := by
  cases n with
  | zero => cases h
  | succ n =>
    rw [CCAObj.init] at h
    cases hdi : CCAObj.defaultInit kw (d 0) with
    | error e => rw [hdi] at h; cases h
    | ok o₀ =>
      rw [hdi] at h
      have hkw : o₀.kw = kw ∧ kw.extN ≠ 0 ∧ kw.intN ≠ 0 := by
        unfold CCAObj.defaultInit at hdi
        split at hdi
        · cases hdi
        split at hdi
        · cases hdi
        obtain ⟨κ, _, hdi⟩ := bind_ok hdi
        cases hdi
        exact ⟨rfl, by assumption, by assumption⟩
      dsimp only at h
      cases hc : kw.caConfig.bind (readConfig fs) with
      | none =>
        rw [hc] at h
        cases h
        exact hkw
      | some cfg =>
        rw [hc] at h
        dsimp only at h
        rw [hno cfg hc] at h
        dsimp only at h
        split at h
        · cases h
        · rename_i o'' happ
          cases h
          obtain ⟨idK, r, κ, g, p, _, _, _, _, _, rfl⟩ := (applyConfig_ok_iff ..).1 happ
          exact hkw

/-- C33, violation: an automaton created with `ca_config=X`, where the file has no
`instant_kwargs`, and saved over that file makes a file that cannot be restored: the recursion
exceeds every depth. -/
theorem save_over_own_config_refuted (fs : Files) (n₀ : Nat) (d₀ d : Nat → Draws)
    (kw : InstantKwargs) (X f : String) (cfg : Config) (o : CCAObj)
    (hX : kw.caConfig = some X) (hf : Spec.resolve fs X = some f) (hcfg : fs f = some cfg)
    (hno : cfg.instant = none) (ho : CCAObj.init fs n₀ d₀ kw = some (.ok o))
    (hr : o.kernelRadius ≠ 0) (hd : ∀ n, Spec.MixtureLength (d n).kernel.length)
    (o' : CCAObj) (n : Nat) :
    o'.restoreConfig (Function.update fs f (some o.makeConfig.1)) n d X = none := by
  have hread : ∀ cfg', kw.caConfig.bind (readConfig fs) = some cfg' → cfg'.instant = none := by
    intro cfg' h
    rw [hX, Option.bind_some, readConfig_eq, hf, Option.bind_some, hcfg] at h
    cases h
    exact hno
  obtain ⟨hk, he, hi⟩ := init_plain_kw ho hread
  have hs : (fs f).isSome := by simp [hcfg]
  have hres := resolve_overwrite fs f o.makeConfig.1 hs X
  rw [hf] at hres
  refine restore_diverges _ (· = f) d hd ?_ o' X f hres rfl n
  intro g hg
  subst hg
  refine ⟨_, _, X, g, Function.update_self .., rfl, ⟨?_, ?_, ?_⟩, ?_, hres, rfl⟩
  · simp only [InstantKwargs.extN, Option.getD_some, hk]
    exact he
  · simp only [InstantKwargs.intN, Option.getD_some, hk]
    exact hi
  · simp only [InstantKwargs.radius, Option.getD_some]
    exact hr
  · simp only [hk]
    exact hX

/-- The hypotheses are met by Orbium's config. -/
example (d : Nat → Draws) (hd : ∀ n, Spec.MixtureLength (d n).kernel.length) :
    ∃ (fs : Files) (kw : InstantKwargs) (o : CCAObj), kw.caConfig = some "o.npy" ∧
      Spec.resolve fs "o.npy" = some "o.npy" ∧ fs "o.npy" = some (orbiumConfig 13) ∧
      CCAObj.init fs 1 d kw = some (.ok o) ∧ o.kernelRadius ≠ 0 := by
  let fs : Files := fun f => if f = "o.npy" then some (orbiumConfig 13) else none
  let kw : InstantKwargs := { caConfig := some "o.npy" }
  have hres : Spec.resolve fs "o.npy" = some "o.npy" := by simp [Spec.resolve, fs]
  obtain ⟨o₀, h0, _⟩ := defaultInit_ok kw (d 0) (by decide) (by decide) (by decide) (hd 0)
  have hread : kw.caConfig.bind (readConfig fs) = some (orbiumConfig 13) := by
    show readConfig fs "o.npy" = _
    rw [readConfig_eq, hres]
    rfl
  have hg : Act.ofCfg (orbiumConfig 13).genesis = .ok (.mixture [(1, 0.15, 0.015)] true) := by
    simp [Act.ofCfg, orbiumConfig, mixtureComponents, mixtureComponents.pairs, bind, Except.bind,
      pure, Except.pure]
  obtain ⟨κ, hκ⟩ : ∃ κ, (orbiumConfig 13).neighborhood.kernel = .ok κ := by
    refine ⟨_, gaussian_kernel_eq 13 (by norm_num) 0.5 0.15⟩
  have happ := (applyConfig_ok_iff o₀ (orbiumConfig 13) (d 0).seq _).2
    ⟨_, 13, κ, _, _, rfl, rfl, hκ, hg, hg, rfl⟩
  have hinit : CCAObj.init fs 1 d kw = some (.ok { Spec.loaded o₀ (orbiumConfig 13) (d 0).seq
      ⟨1, identityKernel⟩ κ 13 (.mixture [(1, 0.15, 0.015)] true)
      (.mixture [(1, 0.15, 0.015)] true) with t := 0 }) := by
    rw [CCAObj.init, h0]
    simp only [hread]
    have : (orbiumConfig 13).instant = none := rfl
    simp only [this, happ]
  exact ⟨fs, kw, _, rfl, hres, rfl, hinit, (by decide : (13 : Nat) ≠ 0)⟩

/-- C63: restoring a path that does not exist raises nothing and leaves the automaton exactly as
it was; creating an automaton with a misspelt `ca_config` gives the randomly initialised default
automaton. -/
theorem restore_missing (fs : Files) (n : Nat) (d : Nat → Draws) (o : CCAObj) (path : String) :
    Spec.resolve fs path = none → o.restoreConfig fs n d path = some (.ok o) := by
  intro h
  unfold CCAObj.restoreConfig
  rw [readConfig_eq, h]
  rfl

theorem init_missing (fs : Files) (n : Nat) (d : Nat → Draws) (kw : InstantKwargs) (path : String)
    (hp : kw.caConfig = some path) (h : Spec.resolve fs path = none) (o : CCAObj)
    (ho : CCAObj.init fs (n + 1) d { kw with caConfig := none } = some (.ok o)) :
    CCAObj.init fs (n + 1) d kw = some (.ok { o with kw := kw }) := by
  rw [CCAObj.init] at ho ⊢
  have hr : kw.caConfig.bind (readConfig fs) = none := by
    rw [hp, Option.bind_some, readConfig_eq, h]; rfl
  simp only [hr]
  have he : ({ kw with caConfig := none } : InstantKwargs).extN = kw.extN := rfl
  have hi : ({ kw with caConfig := none } : InstantKwargs).intN = kw.intN := rfl
  have hra : ({ kw with caConfig := none } : InstantKwargs).radius = kw.radius := rfl
  have hca : ({ kw with caConfig := none } : InstantKwargs).ca = kw.ca := rfl
  unfold CCAObj.defaultInit at ho ⊢
  rw [he, hi, hra, hca] at ho
  split at ho
  · cases ho
  · rename_i o₀ h0
    split at h0
    · cases h0
    split at h0
    · cases h0
    rw [if_neg (by assumption), if_neg (by assumption)]
    obtain ⟨κ, hκ, h0⟩ := bind_ok h0
    cases h0
    rw [hκ]
    cases ho
    rfl

end Yuca
