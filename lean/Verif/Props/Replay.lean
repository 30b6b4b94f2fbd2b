import Verif.Props.Config
import Verif.Props.Restore
import Verif.Props.Librarian
import Verif.Props.Windows
import Verif.Props.StepFrames
import Verif.Model.Replay

/-!
# C134: a pattern stored with the name of its rule can be replayed

Exact real arithmetic.
-/

namespace Yuca

open Arith Spec

/-! ## Save, then restore -/

/-- The path ends in `.npy`. -/
def Spec.Npy (path : String) : Prop := ".npy".toList <:+ path.toList

theorem npSaved_eq (path : String) :
    (Npy path → npSaved path = path) ∧ (¬ Npy path → npSaved path = path ++ ".npy") := by
  unfold npSaved Npy
  rw [← List.isSuffixOf_iff_suffix]
  constructor
  · intro h; rw [if_pos h]
  · intro h; rw [if_neg h]

theorem filter_newline {l : List Char} (h : '\n' ∉ l) : l.filter (· ≠ '\n') = l := by
  rw [List.filter_eq_self]
  intro c hc
  simp only [ne_eq, decide_not, Bool.not_eq_eq_eq_not, Bool.not_true, decide_eq_false_iff_not]
  rintro rfl
  exact h hc

theorem readConfig_plain (fs : Files) {path : String} (h : '\n' ∉ path.toList) :
    readConfig fs path = match fs path with
      | some c => some c
      | none => fs ("ca_configs/" ++ path) := by
  unfold readConfig
  rw [filter_newline h, String.ofList_toList]
  rfl

/-- C134: what is saved under a path that ends in `.npy` is what is read back from it, also when
the path comes back with a newline, whatever was there before. -/
theorem save_read (fs : Files) (path : String) (cfg : Config) (hn : '\n' ∉ path.toList)
    (hs : Npy path) :
    readConfig (saveConfig fs path cfg) path = some cfg ∧
      readConfig (saveConfig fs path cfg) (path ++ "\n") = some cfg := by
  have h : readConfig (saveConfig fs path cfg) path = some cfg := by
    rw [readConfig_plain _ hn]
    unfold saveConfig
    rw [(npSaved_eq path).1 hs, Function.update_self]
  refine ⟨h, ?_⟩
  rw [← h]
  unfold readConfig
  have : (path ++ "\n").toList.filter (· ≠ '\n') = path.toList.filter (· ≠ '\n') := by
    rw [String.toList_append, List.filter_append]
    simp
  rw [this]

example : '\n' ∉ "my_rule.npy".toList ∧ Npy "my_rule.npy" := by
  unfold Npy; decide

/-- Other files are left as they are. -/
theorem save_others (fs : Files) (path : String) (cfg : Config) (q : String)
    (h : q ≠ npSaved path) : saveConfig fs path cfg q = fs q := by
  unfold saveConfig
  rw [Function.update_of_ne h]

theorem bare_ne (path : String) (hs : ¬ Npy path) :
    path ≠ npSaved path ∧ "ca_configs/" ++ path ≠ npSaved path := by
  rw [(npSaved_eq path).2 hs]
  constructor
  · intro h
    have := congrArg (fun s => s.toList.length) h
    simp only [String.toList_append, List.length_append] at this
    have e : ".npy".toList.length = 4 := by decide
    omega
  · intro h
    have := congrArg (fun s => s.toList.length) h
    simp only [String.toList_append, List.length_append] at this
    have e : ".npy".toList.length = 4 := by decide
    have e' : "ca_configs/".toList.length = 11 := by decide
    omega

/-- C134, refuted for a path without the ending: `restore_config` of the same path does not see
what was saved.  It reads the older file of that name if there is one and otherwise leaves the
object as it is, without raising. -/
theorem save_bare_refuted (fs : Files) (path : String) (cfg : Config) (hn : '\n' ∉ path.toList)
    (hs : ¬ Npy path) (fuel : Nat) (d : Nat → Draws) (o₀ : CCAObj) :
    readConfig (saveConfig fs path cfg) path = readConfig fs path ∧
      (readConfig fs path = none →
        o₀.restoreConfig (saveConfig fs path cfg) fuel d path = some (.ok o₀)) := by
  have h : readConfig (saveConfig fs path cfg) path = readConfig fs path := by
    obtain ⟨h1, h2⟩ := bare_ne path hs
    rw [readConfig_plain _ hn, readConfig_plain _ hn, save_others _ _ _ _ h1,
      save_others _ _ _ _ h2]
  refine ⟨h, fun h0 => ?_⟩
  unfold CCAObj.restoreConfig
  rw [h, h0]

example : '\n' ∉ "my_rule".toList ∧ ¬ Npy "my_rule" := by
  unfold Npy; decide

/-- A path is never its own place in the default directory. -/
theorem default_ne (path : String) : path ≠ "ca_configs/" ++ path := by
  intro h
  have := congrArg (fun s => s.toList.length) h
  simp only [String.toList_append, List.length_append] at this
  have e' : "ca_configs/".toList.length = 11 := by decide
  omega

/-- C134, refuted for a rule saved into the default directory: a file of the same name in the
working directory is read instead. -/
theorem save_shadowed_refuted (fs : Files) (path : String) (cfg old : Config)
    (hn : '\n' ∉ path.toList) (hs : Npy path) (hold : fs path = some old) :
    readConfig (saveConfig fs ("ca_configs/" ++ path) cfg) path = some old := by
  have h2 : Npy ("ca_configs/" ++ path) := by
    unfold Npy at hs ⊢
    rw [String.toList_append]
    exact hs.trans (List.suffix_append _ _)
  rw [readConfig_plain _ hn, save_others _ _ _ _ (by rw [(npSaved_eq _).1 h2]; exact default_ne path), hold]

/-- Without such a file it is found there. -/
theorem save_default (fs : Files) (path : String) (cfg : Config)
    (hn : '\n' ∉ path.toList) (hs : Npy path) (hold : fs path = none) :
    readConfig (saveConfig fs ("ca_configs/" ++ path) cfg) path = some cfg := by
  have h2 : Npy ("ca_configs/" ++ path) := by
    unfold Npy at hs ⊢
    rw [String.toList_append]
    exact hs.trans (List.suffix_append _ _)
  rw [readConfig_plain _ hn, save_others _ _ _ _ (by rw [(npSaved_eq _).1 h2]; exact default_ne path), hold]
  unfold saveConfig
  rw [(npSaved_eq _).1 h2, Function.update_self]

/-- C134: an automaton whose rule survives a config (C31) is restored from the file it was saved
to, into any object and whatever is drawn meanwhile. -/
theorem save_restore (fs : Files) (o : CCAObj) (path : String) (hn : '\n' ∉ path.toList)
    (hs : Npy path) (h : Saveable (o.saveConfig fs path).1 o) (fuel : Nat) (d : Nat → Draws)
    (hd : MixtureLength (d 1).kernel.length) (o₀ : CCAObj) :
    ∃ o', o₀.restoreConfig (o.saveConfig fs path).1 (fuel + 1) d (path ++ "\n") = some (.ok o') ∧
      o₀.restoreConfig (o.saveConfig fs path).1 (fuel + 1) d path = some (.ok o') ∧
      o'.dynamics = o.dynamics ∧ o'.t = 0 := by
  obtain ⟨h1, h2⟩ := save_read fs path o.makeConfig.1 hn hs
  obtain ⟨o', h3, h4, h5⟩ := config_roundtrip (o.saveConfig fs path).1 o h fuel d hd o₀
  refine ⟨o', ?_, ?_, h4, h5⟩
  · unfold CCAObj.restoreConfig
    rw [show readConfig (o.saveConfig fs path).1 (path ++ "\n") = some o.makeConfig.1 from h2]
    exact h3
  · unfold CCAObj.restoreConfig
    rw [show readConfig (o.saveConfig fs path).1 path = some o.makeConfig.1 from h1]
    exact h3

/-- An automaton with one Gaussian mixture each can be saved anywhere, and its file name may be
stored with a pattern. -/
example (fs : Files) : Saveable (Witness.mixtureObj.saveConfig fs "rules/mine.npy").1
      Witness.mixtureObj ∧ Witness.mixtureObj.kw.mode = .circular ∧
    Npy "rules/mine.npy" ∧ '\n' ∉ "rules/mine.npy".toList ∧ ',' ∉ "rules/mine.npy".toList ∧
    MixtureLength 2 := by
  refine ⟨mixtureObj_saveable _, rfl, ?_, by decide, by decide, ?_⟩
  · unfold Npy; decide
  · unfold MixtureLength; decide

/-! ## The clock does not matter -/

variable {N H W N' H' W' ext int : Nat}

theorem cca_clock_run (n : Nat) (ca : CCA ℝ ext int) (t : ℝ) (u : Univ ℝ N ext H W) :
    stepped CCA.forward n { ca with t := t } u = stepped CCA.forward n ca u := by
  unfold stepped
  induction n generalizing ca t u with
  | zero => rfl
  | succ n ih =>
    have key : ∀ s : ℝ, (iterate CCA.forward (n + 1) { ca with t := s } u).map (·.1) =
        (ca.forward u).bind fun r => (iterate CCA.forward n ca r.1).map (·.1) := by
      intro s
      simp only [iterate, bind, Except.bind]
      rw [cca_clock_only]
      cases ca.forward u with
      | error e => rfl
      | ok r =>
        simp only [Except.map]
        exact ih ca (s + ca.dt) r.1
    exact (key t).trans (key ca.t).symm

theorem lenia_clock_run (n : Nat) (ca : CCA ℝ ext int) (t : ℝ) (u : Univ ℝ N ext H W) :
    stepped CCA.leniaForward n { ca with t := t } u = stepped CCA.leniaForward n ca u := by
  unfold stepped
  induction n generalizing ca t u with
  | zero => rfl
  | succ n ih =>
    have key : ∀ s : ℝ, (iterate CCA.leniaForward (n + 1) { ca with t := s } u).map (·.1) =
        (ca.leniaForward u).bind fun r => (iterate CCA.leniaForward n ca r.1).map (·.1) := by
      intro s
      simp only [iterate, bind, Except.bind]
      rw [lenia_clock_only]
      cases ca.leniaForward u with
      | error e => rfl
      | ok r =>
        simp only [Except.map]
        exact ih ca (s + ca.dt) r.1
    exact (key t).trans (key ca.t).symm

/-! ## From the library -/

/-- C134: a pattern stored with the name of the config file of its rule, and loaded again by name:
the array is the one stored, and restoring the config it names, into any object, gives the rule it
was stored with.  (`fields` are those of the metadata file.) -/
theorem stored_rule {A : Type} (verbose : Bool) (fuel : Nat) (dir : Dir A) (a : StoreArgs A)
    (k : Nat) (dir' : Dir A) (h : store verbose fuel dir a = some (k, dir'))
    (hok : ∀ s ∈ [a.config verbose, a.commitHash, a.notes, a.entryPoint],
      '\n' ∉ s ∧ '\r' ∉ s ∧ ',' ∉ s)
    (fs : Files) (o : CCAObj) (hs : Npy (String.ofList (a.config verbose)))
    (ho : Saveable (o.saveConfig fs (String.ofList (a.config verbose))).1 o) (depth : Nat)
    (d : Nat → Draws) (hd : MixtureLength (d 1).kernel.length) (o₀ : CCAObj) :
    ∃ fields o', load dir' (variantName a.name k) = .ok (a.pattern, fields) ∧
      o₀.restoreConfig (o.saveConfig fs (String.ofList (a.config verbose))).1 (depth + 1) d
        (String.ofList fields.caConfig) = some (.ok o') ∧
      o'.dynamics = o.dynamics ∧ o'.t = 0 := by
  have hl := load_store_exact verbose fuel dir a k dir' h hok
  have hn : '\n' ∉ (String.ofList (a.config verbose)).toList := by
    rw [String.toList_ofList]
    exact (hok _ (by simp)).1
  obtain ⟨o', h1, _, h3, h4⟩ := save_restore fs o _ hn hs ho depth d hd o₀
  refine ⟨_, o', hl, ?_, h3, h4⟩
  rw [← h1]
  congr 1
  apply String.toList_inj.1
  simp

/-- A store that names the file of the rule. -/
example : ∃ (a : StoreArgs Nat) (k : Nat) (d' : Dir Nat),
    store false 5 (fun _ => none) a = some (k, d') ∧
    (∀ s ∈ [a.config false, a.commitHash, a.notes, a.entryPoint], '\n' ∉ s ∧ '\r' ∉ s ∧ ',' ∉ s) ∧
    Npy (String.ofList (a.config false)) := by
  have hfin : Spec.FiniteDir (fun _ => none : Dir Nat) := by simp [Spec.FiniteDir]
  obtain ⟨k, d', hle, h⟩ := store_terminates false _ hfin
    { pattern := 7, name := "orbium".toList, configName := "rules/mine.npy".toList
      caConfig := unspecified, entryPoint := "not specified".toList
      commitHash := "abc".toList, notes := "None".toList : StoreArgs Nat }
  have h0 : hfin.toFinset = ∅ := by ext; simp
  rw [h0, Finset.card_empty, Nat.le_zero] at hle
  subst hle
  have hc := config_given { pattern := 7, name := "orbium".toList
                            configName := "rules/mine.npy".toList
                            caConfig := unspecified, entryPoint := "not specified".toList
                            commitHash := "abc".toList, notes := "None".toList : StoreArgs Nat }
    false (by decide)
  refine ⟨_, 0, d', h 5 (by omega), ?_, ?_⟩
  · rw [hc]; decide
  · rw [hc]; unfold Npy; decide

/-- `n` steps of the automaton `D` with its clock at `t`, as a `Lenia` or as a `CCA`. -/
noncomputable def Spec.replayRun (lenia : Bool) (n : Nat) (D : CCADyn) (t : ℝ) : Runner ℝ D.ext :=
  fun u => if lenia then stepped CCA.leniaForward n (D.toCCA t) u
    else stepped CCA.forward n (D.toCCA t) u

theorem replay_clock (lenia : Bool) (n : Nat) (D : CCADyn) (t t' : ℝ) (u : Univ ℝ N D.ext H W) :
    replayRun lenia n D t u = replayRun lenia n D t' u := by
  unfold replayRun
  split
  · exact (lenia_clock_run n (D.toCCA t) t' u).symm
  · exact (cca_clock_run n (D.toCCA t) t' u).symm

theorem replay_blind (lenia : Bool) (n : Nat) (D : CCADyn) (t : ℝ) (hm : D.mode = .circular)
    (R : Nat) (h1 : D.idLayer.1 ≤ R) (h2 : D.nbLayer.1 ≤ R) :
    Blind (replayRun lenia n D t) (n * R) := by
  have p1 : (D.toCCA t).idL.pad ≤ R := by
    simp only [CCADyn.toCCA, ConvLayer.ofKernel, ConvLayer.pad]; omega
  have p2 : (D.toCCA t).nbL.pad ≤ R := by
    simp only [CCADyn.toCCA, ConvLayer.ofKernel, ConvLayer.pad]; omega
  cases lenia
  · intro N N' H W H' W' u v ru rv a b
    exact cca_blind (D.toCCA t) hm hm R p1 p2 n u v ru rv a b
  · intro N N' H W H' W' u v ru rv a b
    exact lenia_blind (D.toCCA t) hm R p2 n u v ru rv a b

/-- C134: and then the figure evolves as it did: `n` steps of the restored automaton from a
universe that shows the loaded figure give, around the figure and far from it, what `n` steps of the
original gave from a universe that shows the stored one, for tori, places and batches of any
kind, if both leave `2nR` cells around the figure (`R` the kernel radius, at least 1). -/
theorem stored_replays (verbose : Bool) (fuel : Nat) (o : CCAObj)
    (dir : Dir (Figure ℝ o.dynamics.ext)) (a : StoreArgs (Figure ℝ o.dynamics.ext))
    (k : Nat) (dir' : Dir (Figure ℝ o.dynamics.ext))
    (h : store verbose fuel dir a = some (k, dir'))
    (hok : ∀ s ∈ [a.config verbose, a.commitHash, a.notes, a.entryPoint],
      '\n' ∉ s ∧ '\r' ∉ s ∧ ',' ∉ s)
    (fs : Files) (hs : Npy (String.ofList (a.config verbose)))
    (ho : Saveable (o.saveConfig fs (String.ofList (a.config verbose))).1 o) (depth : Nat)
    (d : Nat → Draws) (hd : MixtureLength (d 1).kernel.length) (o₀ : CCAObj)
    (hcirc : o.kw.mode = .circular) (lenia : Bool) (n : Nat) (R : Nat) (hR : 1 ≤ R)
    (hR' : o.nbLayer.1 ≤ R) :
    ∃ p fields o', load dir' (variantName a.name k) = .ok (p, fields) ∧
      o₀.restoreConfig (o.saveConfig fs (String.ofList (a.config verbose))).1 (depth + 1) d
        (String.ofList fields.caConfig) = some (.ok o') ∧
      o'.dynamics = o.dynamics ∧
      ∀ (u : Univ ℝ N o.dynamics.ext H W) (v : Univ ℝ N' o.dynamics.ext H' W')
        (y₀ x₀ y₁ x₁ : Int) ru rv, Shows a.pattern u y₀ x₀ → Shows p v y₁ x₁ →
        p.h + 2 * (n * R) ≤ H → p.w + 2 * (n * R) ≤ W →
        p.h + 2 * (n * R) ≤ H' → p.w + 2 * (n * R) ≤ W' →
        replayRun lenia n o.dynamics o.t u = .ok ru →
        replayRun lenia n o.dynamics o'.t v = .ok rv →
        ∀ m m' c (i : Fin H) (j : Fin W) (i' : Fin H') (j' : Fin W'),
          (∀ y x : Int, -(n * R : ℕ) ≤ y → y < p.h + (n * R : ℕ) → -(n * R : ℕ) ≤ x →
            x < p.w + (n * R : ℕ) → At i j y₀ x₀ y x → At i' j' y₁ x₁ y x →
            ru m c i j = rv m' c i' j') ∧
          (Far p (n * R) i j y₀ x₀ → Far p (n * R) i' j' y₁ x₁ → ru m c i j = rv m' c i' j') := by
  obtain ⟨fields, o', h1, h2, h3, h4⟩ := stored_rule verbose fuel dir a k dir' h hok fs o hs ho
    depth d hd o₀
  refine ⟨a.pattern, fields, o', h1, h2, h3, ?_⟩
  intro u v y₀ x₀ y₁ x₁ ru rv hu hv hH hW hH' hW' hru hrv m m' c i j i' j'
  rw [replay_clock lenia n o.dynamics o'.t o.t] at hrv
  have hid : o.dynamics.idLayer.1 ≤ R := by
    show o.idLayer.1 ≤ R
    rw [ho.idLayer]; exact hR
  exact blind_figure (replay_blind lenia n o.dynamics o.t hcirc R hid hR') hu hv hH hW hH' hW'
    hru hrv m m' c i j i' j'

end Yuca
