import Verif.Props.CloneRun
import Verif.Props.Tests3
import Verif.Props.Tests
import Verif.Props.Launch

/-!
# Exceptions that runs and tests pass on (C122, C125, C129), and the
variable that marks the processes of a search (C105)
-/

namespace Yuca

variable {W : Type}

/-- C129: a config that is found but whose kernel cannot be made ends the run with the exception of the
kernel; nothing is saved for it. -/
theorem clone_bad_kernel (fs : Files) (fuel : Nat) (new restored : Nat → Nat → Draws)
    (hd : Spec.MixtureLength (new 0 0).kernel.length) (logs name : Str) (kw : CloneKw)
    (hn : kw.caConfig = some (.inl name)) (err : Nat → Nat → Nat → Option ℚ)
    (weights : Nat → Nat → Nat → W) {f : String} {cfg : Config} {e : PyErr}
    (hf : Spec.resolve fs (String.ofList name) = some f) (hc : fs f = some cfg)
    (hi : cfg.instant = none) (hid : cfg.identityKernelConfig = none)
    (hk : cfg.neighborhood.kernel = .error e) :
    cloneFromCa logs kw (cloneTeacher fs fuel new restored) err weights = ([], .error e) := by
  obtain ⟨o, ho, _⟩ := defaultInit_ok {} (new 0 0) (by decide) (by decide) (by decide) hd
  have hi' : CCAObj.init fs (fuel + 1) (new 0) {} = some (.ok { o with t := 0 }) := by
    rw [CCAObj.init, ho]
    rfl
  have ht : cloneTeacher fs fuel new restored 0 name = .error e := by
    unfold cloneTeacher
    rw [hi']
    dsimp only
    have hr : readConfig fs (String.ofList name) = some cfg := by
      rw [readConfig_eq, hf]; exact hc
    unfold CCAObj.restoreConfig CCAObj.loadConfig
    simp only [hr, hi, CCAObj.applyConfig, Config.identityKernel, hid, hk, bind, Except.bind]
  have hcs : kw.opts.configs = [name] := by simp [CloneKw.opts, hn]
  unfold cloneFromCa
  rw [hcs]
  simp only [cloneConfigs, ht]

/-- A kernel of radius 0. -/
example : ∃ e, ({ orbiumConfig 13 with neighborhood := ⟨"MooreLike", some 0, none⟩ } :
    Config).neighborhood.kernel = .error e := by
  refine ⟨.zeroDiv, ?_⟩
  simp [KernelCfg.kernel, getKernel]

/-- C125: so does the test of the shape of the bite. -/
theorem test_bite_shape_iff (f : Arr → ℝ → Except PyErr Arr) (x : Nat → Nat → ℝ) :
    testBiteShape f x = .ok () ↔ ∃ a, f (randArr x) 0.1 = .ok a ∧ a.shape = ⟨1, 1, 256, 256⟩ :=
  shape_check

/-- C122: without kernel parameters the tests of them raise TypeError, whatever the config says. -/
theorem test_kwargs_none (kwargs : Option (List (String × KwVal))) :
    testKwargs .none kwargs = .error .type := by
  cases kwargs <;> rfl

theorem test_params_none (fs : Files) (fuel : Nat) (d : Nat → Draws) (o o' : CCAObj)
    (raw raw' : RawConfig) (h : o.loadRaw fs fuel d raw = some (.ok o')) (hp : o'.kernelParams = .none) :
    testKernelParams fs fuel d o raw raw' = some (.error .type) := by
  unfold testKernelParams
  simp only [h, andThen, hp, KParams.timesOne]

/-- C105: the variable is `IN_MPI`: a process with `-w w`, `w ≥ 2`, takes part in a team exactly if it
finds it, and those it starts find it. -/
theorem launch_variable (w : Nat) (hw : 2 ≤ w) (exe : Str) (argv : List Str) (p : Proc) :
    (mpiFork w exe argv p = .child p.size p.rank ↔ p.env "IN_MPI".toList ≠ none) ∧
    ∀ cmd env, mpiFork w exe argv p = .parent cmd env → env "IN_MPI".toList = some "1".toList := by
  by_cases he : p.env "IN_MPI".toList = none
  · rw [fork_parent w exe argv p hw he]
    refine ⟨⟨fun h => (by cases h), fun h => absurd he h⟩, ?_⟩
    rintro cmd env h
    injection h with _ h
    rw [← h]
    exact (launch_env p.env).1
  · rw [fork_child w exe argv p (by omega) he]
    exact ⟨⟨fun _ => he, fun _ => rfl⟩, by rintro cmd env h; cases h⟩

/-- A process that finds nothing in its environment. -/
example (exe : Str) (argv : List Str) : ∃ cmd env,
    mpiFork 2 exe argv ⟨fun _ => none, 1, 0⟩ = .parent cmd env ∧
      env "IN_MPI".toList = some "1".toList :=
  ⟨_, _, rfl, (launch_variable 2 le_rfl exe argv ⟨fun _ => none, 1, 0⟩).2 _ _ rfl⟩

end Yuca
