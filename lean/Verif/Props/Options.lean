import Verif.Model.Cppn
import Verif.Model.Options
import Verif.Props.Reconfigure

/-!
# What the options of a search reach (C119)
-/

namespace Yuca

variable {disk : Disk} {fuel : Nat} {d : AllDraws}

/-! ## Small facts -/

theorem andThen_ok {α β : Type} {x : Option (Except PyErr α)} {f : α → Option (Except PyErr β)}
    {b : β} : andThen x f = some (.ok b) ↔ ∃ a, x = some (.ok a) ∧ f a = some (.ok b) := by
  unfold andThen
  rcases x with _ | (e | a) <;> simp

theorem map_map_ok {α β : Type} {x : Option (Except PyErr α)} {f : α → β} {b : β} :
    (x.map fun r => r.map f) = some (.ok b) ↔ ∃ a, x = some (.ok a) ∧ f a = b := by
  rcases x with _ | (e | a) <;> simp [Except.map]

theorem except_map_ok {α β : Type} {x : Except PyErr α} {f : α → β} {b : β} :
    x.map f = .ok b ↔ ∃ a, x = .ok a ∧ f a = b := by
  rcases x with e | a <;> simp [Except.map]

theorem except_bind_ok {α β : Type} {x : Except PyErr α} {f : α → Except PyErr β} {b : β} :
    Bind.bind x f = .ok b ↔ ∃ a, x = .ok a ∧ f a = .ok b := by
  rcases x with e | a <;> simp [Bind.bind, Except.bind]

/-- What stays when parameters are set. -/
theorem setParamsAs_keeps {lenia : Bool} {o o' : CCAObj} {v : List ℝ}
    (h : o.setParamsAs lenia v = .ok o') : o'.dt = o.dt ∧ o'.kw = o.kw := by
  unfold CCAObj.setParamsAs at h
  split at h
  · cases h
  · rename_i o₁ h₁
    cases h
    cases lenia
    · simp only [CCAObj.setParams, Bool.false_eq_true, if_false] at h₁
      split at h₁
      · cases h₁
      · split at h₁
        · cases h₁
        · split at h₁
          · cases h₁
          · split at h₁
            · cases h₁
            · cases h₁; exact ⟨rfl, rfl⟩
    · simp only [CCAObj.leniaSetParams, if_true] at h₁
      split at h₁
      · cases h₁
      · cases h₁; exact ⟨rfl, rfl⟩

theorem loadLog_keeps {lenia : Bool} {o o' : CCAObj} {i : Option String}
    (h : o.loadLog disk lenia i = .ok o') : o'.dt = o.dt ∧ o'.kw = o.kw := by
  cases i with
  | none => cases h; exact ⟨rfl, rfl⟩
  | some p =>
    obtain ⟨v, _, h⟩ := except_bind_ok.1 h
    exact setParamsAs_keeps h

/-- The step size of an object after a config. -/
theorem applyConfig_dt {o o' : CCAObj} {cfg : Config} {w} (h : o.applyConfig cfg w = .ok o') :
    o'.dt = cfg.dt.getD 0.1 ∧ o'.kw = o.kw := by
  obtain ⟨_, _, _, _, _, _, _, _, _, _, rfl⟩ := (applyConfig_ok_iff o cfg w o').1 h
  exact ⟨rfl, rfl⟩

/-- After a config has been applied the dynamics depend on the object only through the arguments it
was made with. -/
theorem applyConfig_dynamics {o₁ o₂ o₁' o₂' : CCAObj} {cfg : Config} {w} (hk : o₁.kw = o₂.kw)
    (h₁ : o₁.applyConfig cfg w = .ok o₁') (h₂ : o₂.applyConfig cfg w = .ok o₂') :
    o₁'.dynamics = o₂'.dynamics := by
  obtain ⟨a, b, c, e, f, h1, h2, h3, h4, h5, rfl⟩ := (applyConfig_ok_iff o₁ cfg w o₁').1 h₁
  obtain ⟨a', b', c', e', f', g1, g2, g3, g4, g5, rfl⟩ := (applyConfig_ok_iff o₂ cfg w o₂').1 h₂
  rw [h1] at g1; rw [h3] at g3; rw [h4] at g4; rw [h5] at g5
  cases g1; cases g3; cases g4; cases g5
  cases o₁; cases o₂; cases hk; rfl

/-- Whether `load_config` succeeds does not depend on the object. -/
theorem applyConfig_ok_any {o₁ o₂ o₁' : CCAObj} {cfg : Config} {w}
    (h₁ : o₁.applyConfig cfg w = .ok o₁') : ∃ o₂', o₂.applyConfig cfg w = .ok o₂' := by
  obtain ⟨a, b, c, e, f, h1, h2, h3, h4, h5, rfl⟩ := (applyConfig_ok_iff o₁ cfg w o₁').1 h₁
  exact ⟨_, (applyConfig_ok_iff o₂ cfg w _).2 ⟨a, b, c, e, f, h1, h2, h3, h4, h5, rfl⟩⟩

/-! ## `--dt` -/

/-- C119: the option `--dt` ("step size used by model") is read by nothing: two searches that differ
only in it are the same search. -/
theorem dt_option_unread (o : Options) (x : ℝ) :
    setup disk fuel d { o with dt := x } = setup disk fuel d o := rfl

/-- The step size named by a config file, for the class that reads it. -/
noncomputable def Spec.fileDt (disk : Disk) (cls : CaClass) (path : String) : Option (Option ℝ) :=
  match cls with
  | .rxnDfn => (lookCfg disk.rxn path).map (·.dt)
  | .nca => (lookCfg disk.nca path).map (·.config.dt)
  | _ => (lookCfg disk.cca path).map (·.config.dt)

/-- The step size of an automaton. -/
noncomputable def Spec.dtOf : BuiltCA → Option ℝ
  | .cca b => some b.obj.dt
  | .rxn o => some o.dt
  | .nca b => b.obj.map (·.dt)

/-- The step size an automaton of a class has if no file says otherwise. -/
noncomputable def Spec.classDt : CaClass → ℝ
  | .rxnDfn => 0.5
  | _ => 0.1

/-- The config files a search reads: the constructor of `RxnDfn` does not look at `ca_config`, so
with the wrappers that do not restore it themselves the file is not read. -/
def Spec.configRead (cls : CaClass) (env : EnvClass) (o : Options) : Option String :=
  match cls, env with
  | .rxnDfn, .simpleHalting => none
  | .rxnDfn, .random => none
  | _, _ => o.caConfig

/-- The step size a search runs with: that of the config file, else the one of the class. -/
noncomputable def Spec.searchDt (disk : Disk) (cls : CaClass) (env : EnvClass) (o : Options) : ℝ :=
  match (Spec.configRead cls env o).bind (Spec.fileDt disk cls) with
  | some (some x) => x
  | _ => Spec.classDt cls

theorem restore_dt {again} {w} {b b' : BuiltCCA} {path : String}
    (h : b.restore again disk w path = some (.ok b')) :
    b'.obj.dt = match lookCfg disk.cca path with
      | none => b.obj.dt
      | some s => s.config.dt.getD 0.1 := by
  unfold BuiltCCA.restore at h
  split at h
  · rename_i h0; rw [h0]; cases h; rfl
  · rename_i s h0
    rw [h0]
    obtain ⟨b₁, _, h⟩ := andThen_ok.1 h
    obtain ⟨o, h', rfl⟩ := except_map_ok.1 (Option.some.inj h)
    exact (applyConfig_dt h').1

theorem ccaInit_dt {lenia : Bool} {dr : Nat → Draws} {kw : InstantKwargs} {i : Option String}
    {b : BuiltCCA} (h : ccaInit disk lenia fuel dr kw i = some (.ok b)) :
    b.obj.dt = match kw.caConfig.bind (lookCfg disk.cca) with
      | none => 0.1
      | some s => s.config.dt.getD 0.1 := by
  cases fuel with
  | zero => cases h
  | succ fuel =>
    unfold ccaInit at h
    split at h
    · cases h
    · rename_i o ho
      obtain ⟨b₁, h₁, h₂⟩ := andThen_ok.1 h
      obtain ⟨o', h₃, rfl⟩ := except_map_ok.1 (Option.some.inj h₂)
      have hdt : o.dt = 0.1 := by
        unfold CCAObj.defaultInit at ho
        split at ho
        · cases ho
        · split at ho
          · cases ho
          · obtain ⟨κ, _, ho⟩ := except_bind_ok.1 ho
            cases ho; rfl
      show o'.dt = _
      rw [(loadLog_keeps h₃).1]
      split at h₁
      · rename_i hc; rw [hc]; cases h₁; exact hdt
      · rename_i path hc
        rw [hc, restore_dt h₁]
        show _ = match lookCfg disk.cca path with
          | none => 0.1
          | some s => s.config.dt.getD 0.1
        split <;> [exact hdt; rfl]

theorem rxn_restore_dt {o o' : RxnObj} {path : String} (h : o.restore disk path = .ok o') :
    o'.dt = match lookCfg disk.rxn path with
      | none => o.dt
      | some c => c.dt.getD 0.5 := by
  unfold RxnObj.restore at h
  split at h
  · rename_i h0; rw [h0]; cases h; rfl
  · rename_i c h0
    rw [h0]
    unfold RxnObj.loadConfig at h
    obtain ⟨_, _, h⟩ := except_bind_ok.1 h
    obtain ⟨_, _, h⟩ := except_bind_ok.1 h
    dsimp only at h
    split at h
    · cases h
    · rename_i v _
      split at h
      · cases h
      · rename_i o₁ h1
        cases h
        unfold RxnObj.setParams at h1
        split at h1 <;> cases h1
        rfl

theorem nca_setParams_dt (o : NCAObj) (v : List ℝ) : (o.setParams v).1.dt = o.dt := by
  unfold NCAObj.setParams
  split
  · rfl
  · dsimp only
    split
    · rfl
    · rfl
    · split <;> rfl

theorem nca_restore_dt {again} {w} {b b' : BuiltNCA} {path : String}
    (h : b.restore again disk w path = some (.ok b')) :
    b'.obj.map (·.dt) = match lookCfg disk.nca path with
      | none => b.obj.map (·.dt)
      | some s => some (s.config.dt.getD 0.1) := by
  unfold BuiltNCA.restore at h
  split at h
  · rename_i h0; rw [h0]; cases h; rfl
  · rename_i s h0
    rw [h0]
    obtain ⟨b₁, _, h⟩ := andThen_ok.1 h
    split at h
    · cases h
    · rename_i o ho
      cases h
      unfold NCAObj.loadConfig at ho
      split at ho
      · cases ho
      · split at ho
        · cases ho
        · have := congrArg (fun p => p.1.dt) ho
          simp only [nca_setParams_dt] at this
          simp [this]

theorem ncaInit_dt {dr : Nat → NCADraws} {kw : NCAKwargs}
    {b : BuiltNCA} (h : ncaInit disk fuel dr kw = some (.ok b)) :
    b.obj.map (·.dt) = match kw.caConfig with
      | none => some 0.1
      | some path => (lookCfg disk.nca path).map fun s => s.config.dt.getD 0.1 := by
  cases fuel with
  | zero => cases h
  | succ fuel =>
    unfold ncaInit at h
    split at h
    · rename_i hc
      rw [hc]
      obtain ⟨o, ho, rfl⟩ := except_map_ok.1 (Option.some.inj h)
      unfold NCAObj.defaultInit at ho
      split at ho
      · cases ho
      · obtain ⟨κ, _, ho⟩ := except_bind_ok.1 ho
        cases ho; rfl
    · rename_i path hc
      rw [hc, nca_restore_dt h]
      dsimp only
      cases lookCfg disk.nca path <;> rfl

theorem setParams_dt {cls : CaClass} {ca ca' : BuiltCA} {v : List ℝ}
    (h : ca.setParams cls v = .ok ca') : Spec.dtOf ca' = Spec.dtOf ca := by
  unfold BuiltCA.setParams at h
  split at h
  · rename_i b
    obtain ⟨o, h', rfl⟩ := except_map_ok.1 h
    exact congrArg some (setParamsAs_keeps h').1
  · rename_i o
    split at h
    · cases h
    · rename_i o' ho
      cases h
      unfold RxnObj.setParams at ho
      split at ho <;> cases ho
      rfl
  · rename_i b
    split at h
    · cases h
    · rename_i o hb
      split at h
      · cases h
      · rename_i o' ho
        cases h
        have := nca_setParams_dt o v
        rw [ho] at this
        simpa [Spec.dtOf, hb] using this

/-- The automaton is of the class. -/
def Spec.BuiltFor (cls : CaClass) : BuiltCA → Prop
  | .cca _ => cls ≠ .rxnDfn ∧ cls ≠ .nca
  | .rxn _ => cls = .rxnDfn
  | .nca _ => cls = .nca

theorem construct_fits {cls : CaClass} {o : Options} {ext hid : Nat} {ca : BuiltCA}
    (h : construct disk fuel d cls o ext hid = some (.ok ca)) : Spec.BuiltFor cls ca := by
  cases cls <;> simp only [construct] at h <;>
    first
    | (cases h; rfl)
    | (obtain ⟨_, _, rfl⟩ := map_map_ok.1 h; simp [Spec.BuiltFor])

theorem restore_fits {cls : CaClass} {ca ca' : BuiltCA} {path : String} (hf : Spec.BuiltFor cls ca)
    (h : ca.restore disk fuel d cls path = some (.ok ca')) : Spec.BuiltFor cls ca' := by
  cases ca <;> simp only [BuiltCA.restore] at h
  · obtain ⟨_, _, rfl⟩ := map_map_ok.1 h; exact hf
  · obtain ⟨_, _, rfl⟩ := except_map_ok.1 (Option.some.inj h); exact hf
  · obtain ⟨_, _, rfl⟩ := map_map_ok.1 h; exact hf

theorem construct_dt {cls : CaClass} {o : Options} {ext hid : Nat} {ca : BuiltCA}
    (h : construct disk fuel d cls o ext hid = some (.ok ca)) (y : ℝ) (hy : Spec.dtOf ca = some y) :
    y = match (Spec.configRead cls .random o).bind (Spec.fileDt disk cls) with
      | some (some x) => x
      | _ => Spec.classDt cls := by
  by_cases h1 : cls = .rxnDfn
  · subst h1
    cases h
    cases hy
    rfl
  by_cases h2 : cls = .nca
  · subst h2
    obtain ⟨b, hb, rfl⟩ := map_map_ok.1 h
    have := ncaInit_dt hb
    rw [show b.obj.map (·.dt) = some y from hy] at this
    simp only [Options.ncaKwargs] at this
    simp only [Spec.configRead, Spec.classDt, Spec.fileDt]
    cases hc : o.caConfig with
    | none => rw [hc] at this; simpa using this
    | some path =>
      rw [hc] at this
      dsimp only at this
      simp only [Option.bind_some]
      cases hl : lookCfg disk.nca path with
      | none => rw [hl] at this; cases this
      | some s =>
        rw [hl] at this
        simp only [Option.map_some] at this ⊢
        cases hs : s.config.dt with
        | none => simpa [hs, Spec.fileDt, hl] using this
        | some x => simpa [hs, Spec.fileDt, hl] using this
  · have key : ∀ b : BuiltCCA, ccaInit disk cls.isLenia fuel d.cca (o.instant ext) o.inputFilepath =
        some (.ok b) → b.obj.dt = y →
        y = match o.caConfig.bind (fun path => (lookCfg disk.cca path).map (·.config.dt)) with
          | some (some x) => x
          | _ => (0.1 : ℝ) := by
      intro b hb hy
      have := ccaInit_dt hb
      rw [hy] at this
      simp only [Options.instant] at this
      cases hc : o.caConfig with
      | none => rw [hc] at this; simpa using this
      | some path =>
        rw [hc] at this
        simp only [Option.bind_some] at this ⊢
        cases hl : lookCfg disk.cca path with
        | none => rw [hl] at this; simpa using this
        | some s =>
          rw [hl] at this
          simp only [Option.map_some] at this ⊢
          cases hs : s.config.dt with
          | none => simpa [hs] using this
          | some x => simpa [hs] using this
    cases cls <;> first | exact absurd rfl h1 | exact absurd rfl h2 | skip
    all_goals
      obtain ⟨b, hb, rfl⟩ := map_map_ok.1 h
      exact key b hb (Option.some.inj hy)

theorem restore_dt_any {cls : CaClass} {ca ca' : BuiltCA} {path : String} (hf : Spec.BuiltFor cls ca)
    (h : ca.restore disk fuel d cls path = some (.ok ca')) :
    Spec.dtOf ca' = match Spec.fileDt disk cls path with
      | none => Spec.dtOf ca
      | some none => some (Spec.classDt cls)
      | some (some x) => some x := by
  cases ca with
  | cca b =>
    obtain ⟨b', hb, rfl⟩ := map_map_ok.1 h
    have := restore_dt hb
    obtain ⟨h1, h2⟩ := hf
    have hfd : Spec.fileDt disk cls path = (lookCfg disk.cca path).map (·.config.dt) := by
      cases cls <;> first | exact absurd rfl h1 | exact absurd rfl h2 | rfl
    have hcd : Spec.classDt cls = 0.1 := by
      cases cls <;> first | exact absurd rfl h1 | rfl
    rw [hfd, hcd]
    simp only [Spec.dtOf, this]
    cases hl : lookCfg disk.cca path with
    | none => rfl
    | some s => simp only [Option.map_some]; cases s.config.dt <;> rfl
  | rxn o =>
    cases hf
    obtain ⟨o', ho, rfl⟩ := except_map_ok.1 (Option.some.inj h)
    have := rxn_restore_dt ho
    simp only [Spec.dtOf, this, Spec.fileDt, Spec.classDt]
    cases hl : lookCfg disk.rxn path with
    | none => rfl
    | some s => simp only [Option.map_some]; cases s.dt <;> rfl
  | nca b =>
    cases hf
    obtain ⟨b', hb, rfl⟩ := map_map_ok.1 h
    have := nca_restore_dt hb
    simp only [Spec.dtOf, this, Spec.fileDt, Spec.classDt]
    cases hl : lookCfg disk.nca path with
    | none => rfl
    | some s => simp only [Option.map_some]; cases s.config.dt <;> rfl

/-- How a search came about. -/
theorem setup_parts {o : Options} {x : Experiment} (h : setup disk fuel d o = some (.ok x)) :
    ∃ plan ca₀, evolve o.args = .ok plan ∧
      construct disk fuel d plan.ca o plan.external (plan.hidden.getD 0) = some (.ok ca₀) ∧
      wrap disk fuel d plan.ca plan.env o ca₀ = some (.ok x.ca) ∧
      startSize plan.kind plan.ca plan.external x.ca = .ok x.numParams ∧
      x.cls = plan.ca ∧ x.env = plan.env ∧ x.kind = plan.kind ∧ x.agentExt = x.ca.ext ∧
      x.input = o.inputFilepath := by
  unfold setup at h
  split at h
  · cases h
  · rename_i plan hp
    obtain ⟨ca₀, h1, h⟩ := andThen_ok.1 h
    obtain ⟨ca, h2, h⟩ := andThen_ok.1 h
    split at h
    · cases h
    · rename_i n hn
      cases h
      exact ⟨plan, ca₀, hp, h1, h2, hn, rfl, rfl, rfl, rfl, rfl⟩

theorem asked_eq {cls : CaClass} {ca ca' : BuiltCA}
    (h : some ((ca.getParams cls).map fun _ => ca) = some (Except.ok ca')) : ca' = ca := by
  obtain ⟨_, _, rfl⟩ := except_map_ok.1 (Option.some.inj h)
  rfl

/-- C119: the step size of a search is that of the config file it reads, and 0.1 (0.5 for `RxnDfn`) if
there is none or it does not name one.  A config for `RxnDfn` is read by `HaltingWrapper` and
`GliderWrapper` only. -/
theorem search_step_size {o : Options} {x : Experiment} (h : setup disk fuel d o = some (.ok x))
    (y : ℝ) (hy : Spec.dtOf x.ca = some y) : y = Spec.searchDt disk x.cls x.env o := by
  obtain ⟨plan, ca₀, _, hc, hw, _, h1, h2, _⟩ := setup_parts h
  rw [h1, h2]
  generalize plan.ca = cls at hc hw ⊢
  generalize plan.env = env at hw ⊢
  have key : ∀ ca, (∀ y, Spec.dtOf ca = some y →
        y = match (Spec.configRead cls .random o).bind (Spec.fileDt disk cls) with
          | some (some x) => x
          | _ => Spec.classDt cls) → Spec.BuiltFor cls ca →
      ∀ path, o.caConfig = some path → ∀ ca', ca.restore disk fuel d cls path = some (.ok ca') →
      ∀ y, Spec.dtOf ca' = some y → y = match (Spec.fileDt disk cls path) with
          | some (some x) => x
          | _ => Spec.classDt cls := by
    intro ca hca hf path hp ca' hr y hy
    rw [restore_dt_any hf hr] at hy
    split at hy
    · rename_i hn
      rw [hca y hy, hn]
      unfold Spec.configRead
      cases cls <;> simp [hp, hn]
    · rename_i hn
      rw [hn]
      exact (Option.some.inj hy).symm
    · rename_i z hn
      rw [hn]
      exact (Option.some.inj hy).symm
  have hsame : Spec.configRead cls env o = o.caConfig ∨ (env = .simpleHalting ∨ env = .random) := by
    cases env <;> simp [Spec.configRead]
  unfold wrap at hw
  dsimp only at hw
  cases env with
  | simpleHalting =>
    dsimp only at hw
    rw [asked_eq hw] at hy
    rw [construct_dt hc y hy]
    unfold Spec.searchDt
    cases cls <;> rfl
  | random =>
    dsimp only at hw
    rw [asked_eq hw] at hy
    exact construct_dt hc y hy
  | halting =>
    dsimp only at hw
    obtain ⟨ca₁, h₁, h₂⟩ := andThen_ok.1 hw
    rw [asked_eq h₂] at hy
    unfold Spec.searchDt
    have hcr : Spec.configRead cls .halting o = o.caConfig := by cases cls <;> rfl
    rw [hcr]
    split at h₁
    · rename_i hn
      cases h₁
      rw [construct_dt hc y hy]
      have : Spec.configRead cls .random o = none := by cases cls <;> simp [Spec.configRead, hn]
      rw [this, hn]
    · rename_i path hp
      rw [hp]
      exact key ca₀ (fun y hy => construct_dt hc y hy) (construct_fits hc) path hp ca₁ h₁ y hy
  | glider =>
    dsimp only at hw
    unfold Spec.searchDt
    have hcr : Spec.configRead cls .glider o = o.caConfig := by cases cls <;> rfl
    rw [hcr]
    have hnone : o.caConfig = none → Spec.configRead cls .random o = none := by
      intro hn; cases cls <;> simp [Spec.configRead, hn]
    split at hw
    · rename_i _ _ path hp
      rw [hp]
      exact key ca₀ (fun y hy => construct_dt hc y hy) (construct_fits hc) path hp _ hw y hy
    · rename_i p hn _
      obtain ⟨v, _, hv⟩ := except_bind_ok.1 (Option.some.inj hw)
      rw [setParams_dt hv] at hy
      rw [construct_dt hc y hy, hnone hn, hn]
    · rename_i hn _
      rw [Option.some.inj hw |> Except.ok.inj] at hc
      rw [construct_dt hc y hy, hnone hn, hn]

/-- What `evolve` passes on when it chooses a class. -/
theorem evolve_class {o : Options} {plan : EvolvePlan} (h : evolve o.args = .ok plan) :
    caFn o.caFn = .ok plan.ca ∧
    plan.external = (if plan.ca = .rxnDfn then 2 else o.external) ∧
    plan.hidden = some o.hidden ∧
    plan.kind = searchKind o.tag ∧
    (plan.kind ≠ .universe_ → plan.env = .glider) ∧
    (plan.kind = .universe_ → plan.env ≠ .glider) := by
  have hplan : ∀ (k : SearchKind) (env : EnvClass),
      (caFn o.caFn).map (evolvePlan k env o.args) = .ok plan →
      caFn o.caFn = .ok plan.ca ∧
      plan.external = (if plan.ca = .rxnDfn then 2 else o.external) ∧
      plan.hidden = some o.hidden ∧ plan.kind = k ∧ plan.env = env := by
    intro k env hp
    obtain ⟨ca, hca, rfl⟩ := except_map_ok.1 hp
    refine ⟨hca, ?_, ?_, rfl, rfl⟩
    · cases ca <;> rfl
    · cases ca <;> rfl
  have hpat : ∀ k : SearchKind, k ≠ .universe_ → searchKind o.tag = k →
      (caFn o.caFn).map (evolvePlan k .glider o.args) = .ok plan →
      caFn o.caFn = .ok plan.ca ∧
      plan.external = (if plan.ca = .rxnDfn then 2 else o.external) ∧
      plan.hidden = some o.hidden ∧
      plan.kind = searchKind o.tag ∧
      (plan.kind ≠ .universe_ → plan.env = .glider) ∧
      (plan.kind = .universe_ → plan.env ≠ .glider) := by
    intro k hk hs hp
    obtain ⟨h1, h2, h3, h4, h5⟩ := hplan k .glider hp
    exact ⟨h1, h2, h3, h4.trans hs.symm, fun _ => h5, fun h => absurd (h4.symm.trans h) hk⟩
  unfold evolve at h
  cases hs : searchKind o.args.tag with
  | universe_ =>
    rw [hs] at h
    dsimp only at h
    cases he : envFn o.args.envFn with
    | error e => rw [he] at h; cases h
    | ok env =>
      rw [he] at h
      obtain ⟨h1, h2, h3, h4, h5⟩ := hplan _ env h
      refine ⟨h1, h2, h3, h4.trans hs.symm, fun hk => absurd h4 hk, fun _ hg => ?_⟩
      rw [h5] at hg
      subst hg
      unfold envFn at he
      split_ifs at he <;> cases he
  | pattern => rw [hs] at h; exact hpat _ (by simp) hs h
  | coevo => rw [hs] at h; exact hpat _ (by simp) hs h

/-! ## Options that a class does not read -/

/-- C119: with `RxnDfn` the options for the kernel, the padding, the channels and the network change
nothing. -/
theorem rxn_options_unread (o : Options) (h : caFn o.caFn = .ok .rxnDfn) (radius peaks int ext hid : Nat)
    (mode : PadMode) (act : Str) :
    setup disk fuel d { o with
      kernelRadius := radius, kernelPeaks := peaks, internal := int, external := ext, hidden := hid
      convMode := mode, activation := act } = setup disk fuel d o := by
  have hevo : evolve o.args = (match searchKind o.tag with
      | .universe_ => (envFn o.envFn).map fun env =>
          (⟨.universe_, .rxnDfn, env, hasSub "float64".toList o.dtype, some o.hidden, 2⟩ : EvolvePlan)
      | k => .ok ⟨k, .rxnDfn, .glider, hasSub "float64".toList o.dtype, some o.hidden, 2⟩) := by
    unfold evolve
    simp only [Options.args, h, Except.map]
    cases searchKind o.tag <;> simp only
    · rfl
    · rfl
    · cases envFn o.envFn <;> rfl
  have hevo' : evolve (Options.args { o with
      kernelRadius := radius, kernelPeaks := peaks, internal := int, external := ext, hidden := hid
      convMode := mode, activation := act }) = (match searchKind o.tag with
      | .universe_ => (envFn o.envFn).map fun env =>
          (⟨.universe_, .rxnDfn, env, hasSub "float64".toList o.dtype, some hid, 2⟩ : EvolvePlan)
      | k => .ok ⟨k, .rxnDfn, .glider, hasSub "float64".toList o.dtype, some hid, 2⟩) := by
    unfold evolve
    simp only [Options.args, h, Except.map]
    cases searchKind o.tag <;> simp only
    · rfl
    · rfl
    · cases envFn o.envFn <;> rfl
  unfold setup
  rw [hevo, hevo']
  cases searchKind o.tag with
  | pattern => rfl
  | coevo => rfl
  | universe_ => cases envFn o.envFn <;> rfl

/-- C119: without a network the options `--activation` and `--hidden_channels` change nothing. -/
theorem network_options_unread (o : Options) (cls : CaClass) (h : caFn o.caFn = .ok cls)
    (hn : cls ≠ .nca) (hid : Nat) (act : Str) :
    setup disk fuel d { o with hidden := hid, activation := act } = setup disk fuel d o := by
  unfold setup evolve
  simp only [Options.args, h, Except.map]
  cases searchKind o.tag with
  | pattern => cases cls <;> first | exact absurd rfl hn | rfl
  | coevo => cases cls <;> first | exact absurd rfl hn | rfl
  | universe_ =>
    simp only
    cases envFn o.envFn with
    | error e => rfl
    | ok env => cases cls <;> first | exact absurd rfl hn | rfl

/-- C119: `--prediction_mode` names files and, apart from that, only tells a `HaltingWrapper` what to
predict. -/
theorem prediction_mode_reach (o : Options) (m : Nat) {x : Experiment}
    (h : setup disk fuel d o = some (.ok x)) :
    setup disk fuel d { o with predictionMode := m } =
      some (.ok { x with immode := m, predicts := if x.env = .halting then some m else none }) := by
  unfold setup at h ⊢
  have he : evolve (Options.args { o with predictionMode := m }) = evolve o.args := rfl
  rw [he]
  split at h
  · cases h
  · rename_i plan hp
    obtain ⟨ca₀, h1, h⟩ := andThen_ok.1 h
    obtain ⟨ca, h2, h⟩ := andThen_ok.1 h
    dsimp only
    refine andThen_ok.2 ⟨ca₀, h1, andThen_ok.2 ⟨ca, h2, ?_⟩⟩
    split at h
    · cases h
    · rename_i n hn
      cases h
      dsimp only
      congr 3
      cases plan.env <;> rfl

/-- C119: the settings of the step rules of `MetaCA`, `CODE` and `RandomStepCA` are fixed by the
class. -/
theorem stepper_fixed {o : Options} {x : Experiment} (h : setup disk fuel d o = some (.ok x)) :
    x.stepper = match x.cls with
      | .metaCA => .momentum (1 / 4)
      | .code => .adaptive (3 / 10) (1 / 2) (1 / 100) (1 / 1000) 1
      | .randomStepCA => .random (3 / 10) (1 / 4) (1 / 20) (1 / 1000)
      | _ => .fixed := by
  unfold setup at h
  split at h
  · cases h
  · rename_i plan hp
    obtain ⟨ca₀, h1, h⟩ := andThen_ok.1 h
    obtain ⟨ca, h2, h⟩ := andThen_ok.1 h
    split at h
    · cases h
    · cases h
      dsimp only
      cases plan.ca <;> simp only [stepperOf] <;> norm_num

/-! ## Configs and logs -/

/-- The classes that are `CCA` or inherit its constructor. -/
def Spec.Continuous (cls : CaClass) : Prop := cls ≠ .rxnDfn ∧ cls ≠ .nca

theorem construct_cca {cls : CaClass} (hc : Spec.Continuous cls) (o : Options) (ext hid : Nat) :
    construct disk fuel d cls o ext hid =
      (ccaInit disk cls.isLenia fuel d.cca (o.instant ext) o.inputFilepath).map
        fun r => r.map .cca := by
  obtain ⟨h1, h2⟩ := hc
  cases cls <;> first | exact absurd rfl h1 | exact absurd rfl h2 | rfl

/-- The config files a search for patterns, or one with `HaltingWrapper`, restores a second time. -/
def Spec.restoresAgain (env : EnvClass) : Prop := env = .halting ∨ env = .glider

theorem setup_cca {o : Options} {x : Experiment} (h : setup disk fuel d o = some (.ok x))
    (hc : Spec.Continuous x.cls) :
    ∃ b₀ b, x.ca = .cca b ∧
      ccaInit disk x.cls.isLenia fuel d.cca (o.instant o.external) o.inputFilepath = some (.ok b₀) ∧
      wrap disk fuel d x.cls x.env o (.cca b₀) = some (.ok (.cca b)) := by
  obtain ⟨plan, ca₀, hp, h1, h2, _, e1, e2, _⟩ := setup_parts h
  rw [e1] at hc ⊢
  rw [e2]
  rw [construct_cca hc] at h1
  obtain ⟨b₀, h3, rfl⟩ := map_map_ok.1 h1
  have hext : plan.external = o.external := by
    rw [(evolve_class hp).2.1, if_neg hc.1]
  rw [hext] at h3
  have hb : ∃ b, x.ca = .cca b := by
    unfold wrap at h2
    dsimp only at h2
    have hres : ∀ path ca', BuiltCA.restore disk fuel d plan.ca (.cca b₀) path = some (.ok ca') →
        ∃ b, ca' = .cca b := by
      intro path ca' hr
      obtain ⟨b, _, rfl⟩ := map_map_ok.1 hr
      exact ⟨b, rfl⟩
    split at h2
    · exact ⟨_, asked_eq h2⟩
    · exact ⟨_, asked_eq h2⟩
    · obtain ⟨ca₁, h3, h4⟩ := andThen_ok.1 h2
      rw [asked_eq h4]
      split at h3
      · cases h3; exact ⟨_, rfl⟩
      · exact hres _ _ h3
    · split at h2
      · exact hres _ _ h2
      · obtain ⟨v, _, hv⟩ := except_bind_ok.1 (Option.some.inj h2)
        obtain ⟨o', _, ho⟩ := except_map_ok.1 hv
        exact ⟨_, ho.symm⟩
      · exact ⟨_, (Except.ok.inj (Option.some.inj h2)).symm⟩
  obtain ⟨b, hb⟩ := hb
  exact ⟨b₀, b, hb, h3, hb ▸ h2⟩

theorem defaultInit_kw {kw : InstantKwargs} {dr : Draws} {o : CCAObj}
    (h : CCAObj.defaultInit kw dr = .ok o) :
    o.kw = kw ∧ o.kernelRadius = kw.radius ∧ kw.extN ≠ 0 ∧ kw.intN ≠ 0 ∧
      o.kernelParams = .vec dr.kernel := by
  unfold CCAObj.defaultInit at h
  split at h
  · cases h
  · rename_i h1
    split at h
    · cases h
    · rename_i h2
      obtain ⟨κ, _, h⟩ := except_bind_ok.1 h
      cases h; exact ⟨rfl, rfl, h1, h2, rfl⟩

/-- What the constructor of a `CCA` does, in one formula. -/
theorem ccaInit_step {lenia : Bool} {dr : Nat → Draws} {kw : InstantKwargs} {i : Option String}
    {b : BuiltCCA} (h : ccaInit disk lenia fuel dr kw i = some (.ok b)) :
    ∃ n o b₁ o', fuel = n + 1 ∧ CCAObj.defaultInit kw (dr 0) = .ok o ∧
      (match kw.caConfig with
        | none => some (.ok ⟨o, i⟩)
        | some path => BuiltCCA.restore (fun kw' i' => ccaInit disk lenia n (fun m => dr (m + 1)) kw' i')
            disk (dr 0).seq ⟨o, i⟩ path) = some (.ok b₁) ∧
      b₁.obj.loadLog disk lenia i = .ok o' ∧ b = { b₁ with obj := { o' with t := 0 } } := by
  cases fuel with
  | zero => cases h
  | succ n =>
    unfold ccaInit at h
    split at h
    · cases h
    · rename_i o ho
      obtain ⟨b₁, h1, h2⟩ := andThen_ok.1 h
      obtain ⟨o', h3, h4⟩ := except_map_ok.1 (Option.some.inj h2)
      exact ⟨n, o, b₁, o', rfl, ho, h1, h3, h4.symm⟩

/-- What `restore_config` does when the file exists. -/
theorem restore_found {again} {w} {b b' : BuiltCCA} {path : String} {s : SavedCfg}
    (hs : lookCfg disk.cca path = some s) (h : b.restore again disk w path = some (.ok b')) :
    ∃ b₁ o, (match s.config.instant with
        | none => some (.ok b)
        | some kw => again kw s.input) = some (.ok b₁) ∧
      b₁.obj.applyConfig s.config w = .ok o ∧ b' = { b₁ with obj := o } := by
  unfold BuiltCCA.restore at h
  rw [hs] at h
  obtain ⟨b₁, h1, h2⟩ := andThen_ok.1 h
  obtain ⟨o, h3, h4⟩ := except_map_ok.1 (Option.some.inj h2)
  exact ⟨b₁, o, h1, h3, h4.symm⟩

/-- C119: a config that has `instant_kwargs` replaces the options: two searches with the same config
and log have the same automaton, whatever `--kernel_radius`, `--kernel_peaks`, `--conv_mode`,
`--internal_channels` and `--external_channels` say. -/
theorem config_replaces_options {o : Options} {x x' : Experiment} {path : String} {s : SavedCfg}
    {kw : InstantKwargs} (hp : o.caConfig = some path) (hs : lookCfg disk.cca path = some s)
    (hi : s.config.instant = some kw) (radius peaks int ext : Nat) (mode : PadMode)
    (h : setup disk fuel d o = some (.ok x))
    (h' : setup disk fuel d { o with
      kernelRadius := radius, kernelPeaks := peaks, internal := int, external := ext
      convMode := mode } = some (.ok x'))
    (hc : Spec.Continuous x.cls) : x'.ca = x.ca := by
  have hcls : x'.cls = x.cls ∧ x'.env = x.env := by
    obtain ⟨plan, _, e, _, _, _, e1, e2, _⟩ := setup_parts h
    obtain ⟨plan', _, e', _, _, _, e1', e2', _⟩ := setup_parts h'
    have a := (evolve_class e).1
    have a' := (evolve_class e').1
    rw [a] at a'
    have : plan'.env = plan.env := by
      unfold evolve at e e'
      simp only [Options.args] at e e'
      cases hk : searchKind o.tag with
      | universe_ =>
        rw [hk] at e e'
        simp only at e e'
        cases he : envFn o.envFn with
        | error _ => rw [he] at e; cases e
        | ok env =>
          rw [he] at e e'
          obtain ⟨_, _, rfl⟩ := except_map_ok.1 e
          obtain ⟨_, _, rfl⟩ := except_map_ok.1 e'
          rfl
      | pattern =>
        rw [hk] at e e'
        obtain ⟨_, _, rfl⟩ := except_map_ok.1 e
        obtain ⟨_, _, rfl⟩ := except_map_ok.1 e'
        rfl
      | coevo =>
        rw [hk] at e e'
        obtain ⟨_, _, rfl⟩ := except_map_ok.1 e
        obtain ⟨_, _, rfl⟩ := except_map_ok.1 e'
        rfl
    exact ⟨e1'.trans ((Except.ok.inj a').symm.trans e1.symm), e2'.trans (this.trans e2.symm)⟩
  obtain ⟨b₀, b, e, h1, h2⟩ := setup_cca h hc
  obtain ⟨b₀', b', e', h1', h2'⟩ := setup_cca h' (by rw [hcls.1]; exact hc)
  rw [hcls.1] at h1' h2'
  rw [hcls.2] at h2'
  have hb : b₀' = b₀ := by
    obtain ⟨n, o₁, b₁, o₂, rfl, i1, i2, i3, rfl⟩ := ccaInit_step h1
    obtain ⟨n', o₁', b₁', o₂', hn, i1', i2', i3', rfl⟩ := ccaInit_step h1'
    cases hn
    simp only [Options.instant, hp] at i2 i2'
    obtain ⟨c, a, r1, r2, rfl⟩ := restore_found hs i2
    obtain ⟨c', a', r1', r2', rfl⟩ := restore_found hs i2'
    rw [hi] at r1 r1'
    dsimp only at r1 r1'
    rw [r1] at r1'
    cases r1'
    rw [r2] at r2'
    cases r2'
    rw [i3] at i3'
    cases i3'
    rfl
  rw [hb] at h2'
  have : wrap disk fuel d x.cls x.env { o with
      kernelRadius := radius, kernelPeaks := peaks, internal := int, external := ext
      convMode := mode } (.cca b₀) = wrap disk fuel d x.cls x.env o (.cca b₀) := rfl
  rw [this, h2] at h2'
  rw [e, e']
  exact (Except.ok.inj (Option.some.inj h2')).symm

/-- Setting parameters and setting the clock leave the arguments of an automaton. -/
theorem ccaInit_kw {lenia : Bool} {dr : Nat → Draws} {kw : InstantKwargs} {i : Option String}
    {b : BuiltCCA} (h : ccaInit disk lenia fuel dr kw i = some (.ok b))
    (hp : ∀ path s, kw.caConfig = some path → lookCfg disk.cca path = some s →
      s.config.instant = none) : b.obj.kw = kw ∧ b.input = i := by
  obtain ⟨n, o, b₁, o', rfl, h1, h2, h3, rfl⟩ := ccaInit_step h
  have hkw : b₁.obj.kw = kw ∧ b₁.input = i := by
    split at h2
    · cases h2; exact ⟨(defaultInit_kw h1).1, rfl⟩
    · rename_i path hc
      cases hs : lookCfg disk.cca path with
      | none =>
        unfold BuiltCCA.restore at h2
        rw [hs] at h2
        cases h2; exact ⟨(defaultInit_kw h1).1, rfl⟩
      | some s =>
        obtain ⟨c, a, r1, r2, rfl⟩ := restore_found hs h2
        rw [hp path s hc hs] at r1
        cases r1
        exact ⟨(applyConfig_dt r2).2.trans (defaultInit_kw h1).1, rfl⟩
  exact ⟨((loadLog_keeps h3).2).trans hkw.1, hkw.2⟩

/-- The arguments of an automaton after the constructor of a wrapper. -/
theorem wrap_kw {cls : CaClass} {env : EnvClass} {o : Options} {b₀ b : BuiltCCA}
    (h : wrap disk fuel d cls env o (.cca b₀) = some (.ok (.cca b)))
    (hp : ∀ path s, o.caConfig = some path → lookCfg disk.cca path = some s →
      s.config.instant = none) : b.obj.kw = b₀.obj.kw ∧ b.input = b₀.input := by
  have hres : ∀ path b', o.caConfig = some path →
      BuiltCA.restore disk fuel d cls (.cca b₀) path = some (.ok (.cca b')) →
      b'.obj.kw = b₀.obj.kw ∧ b'.input = b₀.input := by
    intro path b' hc hr
    obtain ⟨b₁, hr, hb⟩ := map_map_ok.1 hr
    cases hb
    cases hs : lookCfg disk.cca path with
    | none =>
      unfold BuiltCCA.restore at hr
      rw [hs] at hr
      cases hr; exact ⟨rfl, rfl⟩
    | some s =>
      obtain ⟨c, a, r1, r2, rfl⟩ := restore_found hs hr
      rw [hp path s hc hs] at r1
      cases r1
      exact ⟨(applyConfig_dt r2).2, rfl⟩
  unfold wrap at h
  dsimp only at h
  split at h
  · have := asked_eq h
    cases this; exact ⟨rfl, rfl⟩
  · have := asked_eq h
    cases this; exact ⟨rfl, rfl⟩
  · obtain ⟨ca₁, h3, h4⟩ := andThen_ok.1 h
    have := asked_eq h4
    subst this
    split at h3
    · cases h3; exact ⟨rfl, rfl⟩
    · rename_i path hc
      exact hres path b hc h3
  · split at h
    · rename_i _ _ path hc
      exact hres path b hc h
    · obtain ⟨v, _, hv⟩ := except_bind_ok.1 (Option.some.inj h)
      obtain ⟨o', ho, hb⟩ := except_map_ok.1 hv
      cases hb
      exact ⟨(setParamsAs_keeps ho).2, rfl⟩
    · cases h; exact ⟨rfl, rfl⟩

/-- C119: without a config, or with one that has no `instant_kwargs` (like the built-in ones), the
automaton has the channels, the padding and the number of peaks of the options, and remembers the
log. -/
theorem config_keeps_options {o : Options} {x : Experiment} (h : setup disk fuel d o = some (.ok x))
    (hc : Spec.Continuous x.cls)
    (hp : ∀ path s, o.caConfig = some path → lookCfg disk.cca path = some s →
      s.config.instant = none) :
    ∃ b, x.ca = .cca b ∧ b.obj.kw.extN = o.external ∧ b.obj.kw.intN = o.internal ∧
      b.obj.kw.mode = o.convMode ∧ b.obj.kw.peaks = o.kernelPeaks ∧ b.obj.kw.caConfig = o.caConfig ∧
      b.input = o.inputFilepath := by
  obtain ⟨b₀, b, e, h1, h2⟩ := setup_cca h hc
  obtain ⟨k1, k2⟩ := ccaInit_kw h1 hp
  obtain ⟨k3, k4⟩ := wrap_kw h2 hp
  rw [k1] at k3
  exact ⟨b, e, by rw [k3]; rfl, by rw [k3]; rfl, by rw [k3]; rfl, by rw [k3]; rfl, by rw [k3]; rfl,
    k4.trans k2⟩

/-- The final restore of the wrappers that do it. -/
theorem wrap_restores {cls : CaClass} {env : EnvClass} {o : Options} {b₀ b : BuiltCCA} {path : String}
    {s : SavedCfg} (he : Spec.restoresAgain env) (hp : o.caConfig = some path)
    (hs : lookCfg disk.cca path = some s)
    (h : wrap disk fuel d cls env o (.cca b₀) = some (.ok (.cca b))) :
    ∃ b₁ o', (match s.config.instant with
        | none => some (.ok b₀)
        | some kw => ccaInit disk cls.isLenia fuel (fun n => d.cca' (n + 1)) kw s.input) =
          some (.ok b₁) ∧
      b₁.obj.applyConfig s.config (d.cca' 0).seq = .ok o' ∧ b = { b₁ with obj := o' } := by
  have hres : BuiltCA.restore disk fuel d cls (.cca b₀) path = some (.ok (.cca b)) := by
    unfold wrap at h
    dsimp only at h
    rcases he with rfl | rfl
    · rw [hp] at h
      obtain ⟨ca₁, h3, h4⟩ := andThen_ok.1 h
      have := asked_eq h4
      subst this
      exact h3
    · rw [hp] at h
      exact h
  obtain ⟨b₁, hr, hb⟩ := map_map_ok.1 hres
  cases hb
  exact restore_found hs hr

/-- C119: `GliderWrapper` and `HaltingWrapper` restore the config once more, so the log has no
influence on the automaton if a config is found. -/
theorem config_over_log {o : Options} {x x' : Experiment} {path : String} {s : SavedCfg}
    (hp : o.caConfig = some path) (hs : lookCfg disk.cca path = some s) (log : Option String)
    (h : setup disk fuel d o = some (.ok x))
    (h' : setup disk fuel d { o with inputFilepath := log } = some (.ok x'))
    (hc : Spec.Continuous x.cls) (he : Spec.restoresAgain x.env) :
    ∃ b b', x.ca = .cca b ∧ x'.ca = .cca b' ∧ b'.obj.dynamics = b.obj.dynamics := by
  have hcls : x'.cls = x.cls ∧ x'.env = x.env := by
    obtain ⟨plan, _, e, _, _, _, e1, e2, _⟩ := setup_parts h
    obtain ⟨plan', _, e', _, _, _, e1', e2', _⟩ := setup_parts h'
    have : evolve (Options.args { o with inputFilepath := log }) = evolve o.args := rfl
    rw [this, e] at e'
    cases e'
    exact ⟨e1'.trans e1.symm, e2'.trans e2.symm⟩
  obtain ⟨b₀, b, e, h1, h2⟩ := setup_cca h hc
  obtain ⟨b₀', b', e', h1', h2'⟩ := setup_cca h' (by rw [hcls.1]; exact hc)
  rw [hcls.1] at h1' h2'
  rw [hcls.2] at h2'
  refine ⟨b, b', e, e', ?_⟩
  obtain ⟨c, a, r1, r2, rfl⟩ := wrap_restores he hp hs h2
  obtain ⟨c', a', r1', r2', rfl⟩ := wrap_restores he (by exact hp) hs h2'
  cases hi : s.config.instant with
  | none =>
    rw [hi] at r1 r1'
    cases r1; cases r1'
    have hp' : ∀ path' s', o.caConfig = some path' → lookCfg disk.cca path' = some s' →
        s'.config.instant = none := by
      intro path' s' e1 e2
      rw [hp] at e1; cases e1
      rw [hs] at e2; cases e2
      exact hi
    have k := (ccaInit_kw h1 hp').1
    have k' := (ccaInit_kw h1' hp').1
    exact applyConfig_dynamics (by rw [k, k']; rfl) r2' r2
  | some kw =>
    rw [hi] at r1 r1'
    dsimp only at r1 r1'
    rw [r1] at r1'
    cases r1'
    rw [r2] at r2'
    cases r2'
    rfl

/-- `set_params` neither reads nor writes the clock. -/
theorem setParamsAs_clock {lenia : Bool} {o o' : CCAObj} {v : List ℝ} {t : ℝ}
    (h : o.setParamsAs lenia v = .ok o') :
    CCAObj.setParamsAs lenia { o with t := t } v = .ok { o' with t := t } := by
  unfold CCAObj.setParamsAs at h ⊢
  cases lenia with
  | true =>
    simp only [if_true] at h ⊢
    unfold CCAObj.leniaSetParams at h ⊢
    dsimp only at h ⊢
    cases hw : writeActs o.genesis v with
    | mk gs r =>
      rw [hw] at h
      cases r with
      | error e => cases h
      | ok v₁ => cases h; rfl
  | false =>
    simp only [Bool.false_eq_true, if_false] at h ⊢
    unfold CCAObj.setParams at h ⊢
    dsimp only at h ⊢
    cases hw : writeActs o.genesis v with
    | mk gs r =>
      rw [hw] at h
      cases r with
      | error e => cases h
      | ok v₁ =>
        dsimp only at h ⊢
        cases hw' : writeActs o.persistence v₁ with
        | mk ps r =>
          rw [hw'] at h
          cases r with
          | error e => cases h
          | ok v₂ =>
            dsimp only at h ⊢
            cases hl : o.kernelParams.len with
            | error e => rw [hl] at h; cases h
            | ok n =>
              rw [hl] at h
              dsimp only at h ⊢
              cases hk : gaussianMixtureKernel o.kernelRadius (v₂.take n) with
              | error e => rw [hk] at h; cases h
              | ok κ => rw [hk] at h; cases h; rfl

theorem isLenia_iff (cls : CaClass) : cls.isLenia = decide (cls = .lenia) := by cases cls <;> rfl

/-- C119: with `SimpleHaltingWrapper` and `RandomWrapper` it is the other way round: the parameters of
the log are set after the config has been restored. -/
theorem log_over_config {o : Options} {x x' : Experiment} {p : String}
    (hl : o.inputFilepath = some p) (h : setup disk fuel d o = some (.ok x))
    (h' : setup disk fuel d { o with inputFilepath := none } = some (.ok x'))
    (hc : Spec.Continuous x.cls) (he : ¬ Spec.restoresAgain x.env) :
    ∃ b b' v o', x.ca = .cca b ∧ x'.ca = .cca b' ∧ disk.elite p = .ok v ∧
      b'.obj.setParamsAs (decide (x.cls = .lenia)) v = .ok o' ∧ b.obj.dynamics = o'.dynamics := by
  have hcls : x'.cls = x.cls ∧ x'.env = x.env := by
    obtain ⟨plan, _, e, _, _, _, e1, e2, _⟩ := setup_parts h
    obtain ⟨plan', _, e', _, _, _, e1', e2', _⟩ := setup_parts h'
    have : evolve (Options.args { o with inputFilepath := none }) = evolve o.args := rfl
    rw [this, e] at e'
    cases e'
    exact ⟨e1'.trans e1.symm, e2'.trans e2.symm⟩
  obtain ⟨b₀, b, e, h1, h2⟩ := setup_cca h hc
  obtain ⟨b₀', b', e', h1', h2'⟩ := setup_cca h' (by rw [hcls.1]; exact hc)
  rw [hcls.1] at h1' h2'
  rw [hcls.2] at h2'
  have hb : ∀ (o : Options) (b₀ b : BuiltCCA),
      wrap disk fuel d x.cls x.env o (.cca b₀) = some (.ok (.cca b)) → b = b₀ := by
    intro o b₀ b hw
    unfold wrap at hw
    dsimp only at hw
    cases hx : x.env with
    | halting => exact absurd (Or.inl hx) he
    | glider => exact absurd (Or.inr hx) he
    | simpleHalting =>
      rw [hx] at hw
      have := asked_eq hw
      cases this; rfl
    | random =>
      rw [hx] at hw
      have := asked_eq hw
      cases this; rfl
  rw [hb _ _ _ h2] at e
  rw [hb _ _ _ h2'] at e'
  obtain ⟨n, o₁, b₁, o₂, rfl, i1, i2, i3, rfl⟩ := ccaInit_step h1
  obtain ⟨n', o₁', b₁', o₂', hn, i1', i2', i3', rfl⟩ := ccaInit_step h1'
  cases hn
  have hk : (Options.instant { o with inputFilepath := none } o.external) = o.instant o.external := rfl
  rw [hk, i1] at i1'
  cases i1'
  cases i3'
  rw [hl] at i3
  obtain ⟨v, hv, hset⟩ := except_bind_ok.1 i3
  have hobj : b₁'.obj = b₁.obj := by
    rw [hk] at i2'
    rw [hl] at i2
    split at i2
    · rename_i hc0
      rw [hc0] at i2'
      cases i2; cases i2'; rfl
    · rename_i path hc0
      rw [hc0] at i2'
      dsimp only at i2'
      cases hs : lookCfg disk.cca path with
      | none =>
        unfold BuiltCCA.restore at i2 i2'
        rw [hs] at i2 i2'
        cases i2; cases i2'; rfl
      | some s =>
        obtain ⟨c, a, r1, r2, rfl⟩ := restore_found hs i2
        obtain ⟨c', a', r1', r2', rfl⟩ := restore_found hs i2'
        have hcc : c'.obj = c.obj := by
          cases hi : s.config.instant with
          | none => rw [hi] at r1 r1'; cases r1; cases r1'; rfl
          | some kw =>
            rw [hi] at r1 r1'
            dsimp only at r1 r1'
            rw [r1] at r1'
            cases r1'; rfl
        rw [hcc, r2] at r2'
        cases r2'; rfl
  refine ⟨_, _, v, { o₂ with t := 0 }, e, e', hv, ?_, rfl⟩
  rw [hobj, ← isLenia_iff]
  exact setParamsAs_clock hset

/-- C119: a search for universes of `Lenia` is over the numbers of its genesis functions only, so neither
over the kernel nor over persistence; one of another continuous class is over all of `CCA`. -/
theorem universe_size {o : Options} {x : Experiment} (h : setup disk fuel d o = some (.ok x))
    (hc : Spec.Continuous x.cls) (hk : x.kind = .universe_) :
    ∃ b, x.ca = .cca b ∧
      (x.cls = .lenia → x.numParams = (readActs b.obj.genesis).length) ∧
      (x.cls ≠ .lenia → ∃ v, b.obj.getParams = .ok v ∧ x.numParams = v.length) := by
  obtain ⟨_, b, e, _, _⟩ := setup_cca h hc
  obtain ⟨plan, _, _, _, _, h4, h5, _, h7, _⟩ := setup_parts h
  rw [← h7, hk, e, ← h5] at h4
  obtain ⟨v, hv, hn⟩ := except_bind_ok.1 h4
  simp only [BuiltCA.getParams, isLenia_iff] at hv
  refine ⟨b, e, fun hl => ?_, fun hl => ⟨v, ?_, ?_⟩⟩
  · rw [if_pos (by simpa using hl)] at hv
    cases hv; exact (Except.ok.inj hn).symm
  · rwa [if_neg (by simpa using hl)] at hv
  · exact (Except.ok.inj hn).symm

/-! ## A search that can be set up -/

theorem setParamsAs_of {o o' : CCAObj} {v : List ℝ} (h : o.setParams v = (o', none)) :
    o.setParamsAs false v = .ok o' := by
  unfold CCAObj.setParamsAs
  simp only [Bool.false_eq_true, if_false, h]

/-- Without files the automaton of a search is the default one. -/
theorem plain_setup {o : Options} {plan : EvolvePlan} (hp : evolve o.args = .ok plan)
    (hc : Spec.Continuous plan.ca) (h1 : o.external ≠ 0) (h2 : o.internal ≠ 0)
    (h3 : o.kernelRadius ≠ 0) (hd : Spec.MixtureLength (d.cca 0).kernel.length)
    (hcfg : o.caConfig = none) (hlog : o.inputFilepath = none) :
    ∃ b x, setup disk (fuel + 1) d o = some (.ok x) ∧ x.ca = .cca b ∧ x.cls = plan.ca ∧
      x.env = plan.env ∧ x.kind = plan.kind ∧
      CCAObj.defaultInit (o.instant o.external) (d.cca 0) = .ok b.obj ∧ b.input = none := by
  obtain ⟨o₁, k1, k2, k3⟩ := defaultInit_ok (o.instant o.external) (d.cca 0) h1 h2 h3 hd
  have hvec := (defaultInit_kw k1).2.2.2.2
  have hext : plan.external = o.external := by rw [(evolve_class hp).2.1, if_neg hc.1]
  have hinit : ccaInit disk plan.ca.isLenia (fuel + 1) d.cca (o.instant o.external) none =
      some (.ok ⟨o₁, none⟩) := by
    unfold ccaInit
    rw [k1]
    have : (o.instant o.external).caConfig = none := hcfg
    rw [this]
    have ht : ({ o₁ with t := 0 } : CCAObj) = o₁ := by cases o₁; cases k3; rfl
    simp only [andThen, CCAObj.loadLog, Except.map, ht]
  have hcon : construct disk (fuel + 1) d plan.ca o plan.external (plan.hidden.getD 0) =
      some (.ok (.cca ⟨o₁, none⟩)) := by
    rw [construct_cca hc, hext, hlog, hinit]; rfl
  obtain ⟨ps, hps⟩ : ∃ ps, BuiltCA.getParams plan.ca (.cca ⟨o₁, none⟩) = .ok ps := by
    unfold BuiltCA.getParams
    dsimp only
    split
    · exact ⟨_, rfl⟩
    · unfold CCAObj.getParams
      rw [hvec]
      exact ⟨_, rfl⟩
  have hw : wrap disk (fuel + 1) d plan.ca plan.env o (.cca ⟨o₁, none⟩) =
      some (.ok (.cca ⟨o₁, none⟩)) := by
    unfold wrap
    rw [hcfg, hlog]
    cases plan.env <;> simp only [hps, andThen, Except.map]
  obtain ⟨n, hn⟩ : ∃ n, startSize plan.kind plan.ca plan.external (.cca ⟨o₁, none⟩) = .ok n := by
    unfold startSize
    rw [hps]
    cases plan.kind <;> exact ⟨_, rfl⟩
  refine ⟨⟨o₁, none⟩, ?_⟩
  unfold setup
  rw [hp]
  simp only [hcon, hw, andThen, hn]
  exact ⟨_, rfl, rfl, rfl, rfl, rfl, k1, trivial⟩

/-- C119: `--dt 0.3`, the default, gives automata with `dt` 0.1. -/
theorem dt_option_refuted (hd : Spec.MixtureLength (d.cca 0).kernel.length) :
    ∃ (o : Options) (x : Experiment), setup disk (fuel + 1) d o = some (.ok x) ∧
      o = {} ∧ o.dt = 3 / 10 ∧ Spec.dtOf x.ca = some (1 / 10) := by
  obtain ⟨b, x, h1, h2, _, _, _, h3, _⟩ := plain_setup (o := {}) (disk := disk) (fuel := fuel) (d := d)
    (plan := ⟨.pattern, .cca, .glider, false, some 16, 1⟩) (by decide +kernel)
    ⟨by decide, by decide⟩ (by decide) (by decide) (by decide) hd rfl rfl
  refine ⟨{}, x, h1, rfl, by norm_num, ?_⟩
  rw [h2]
  have : b.obj.dt = 0.1 := by
    unfold CCAObj.defaultInit at h3
    split at h3
    · cases h3
    · split at h3
      · cases h3
      · obtain ⟨κ, _, h3⟩ := except_bind_ok.1 h3
        exact (congrArg CCAObj.dt (Except.ok.inj h3)).symm
  show some b.obj.dt = _
  rw [this]
  norm_num

/-! ## Logs -/

/-- A vector that is long enough is stored, cut to the number of parameters. -/
theorem setParams_prefix (o : CCAObj) (l : List ℝ) (hk : o.kernelParams = .vec l)
    (hl : Spec.MixtureLength l.length) (hr : o.kernelRadius ≠ 0) (old v : List ℝ)
    (ho : o.getParams = .ok old) (hv : old.length ≤ v.length) :
    ∃ o' l', o.setParams v = (o', none) ∧ o'.getParams = .ok (v.take old.length) ∧
      o'.kernelParams = .vec l' ∧ l'.length = l.length ∧ o'.kernelRadius = o.kernelRadius := by
  have hlen : (v.take old.length).length = old.length := by
    rw [List.length_take]; omega
  obtain ⟨o', h1, h2, _, _, ⟨l', h3, h4, _⟩, _, h5⟩ :=
    cca_params_roundtrip o l hk hl hr old (v.take old.length) ho hlen
  have hold : old = readActs o.genesis ++ readActs o.persistence ++ l := by
    simpa [CCAObj.getParams, hk, KParams.ravel, Bind.bind, Except.bind, pure, Except.pure]
      using ho.symm
  refine ⟨o', l', ?_, h2, h3, h4, by rw [h5]⟩
  have := cca_params_longer o l hk (v.take old.length) (v.drop old.length) (by
    rw [hlen, hold]; simp [Nat.add_assoc])
  rw [List.take_append_drop] at this
  rw [this, h1]

/-- C119: without a config the log named by `--input_filepath` is taken for the parameters of the
universe, whatever the search is for: if its elite is as long as the parameters of the universe or
longer, it becomes the rule, cut to length.  So a search for patterns that continues an earlier one
runs in a universe made of the weights of a network. -/
theorem log_is_rule {o : Options} {plan : EvolvePlan} {p : String} {v : List ℝ}
    (hp : evolve o.args = .ok plan) (hc : Spec.Continuous plan.ca) (hn : plan.ca ≠ .lenia)
    (h3 : o.kernelRadius ≠ 0) (hd : Spec.MixtureLength (d.cca 0).kernel.length)
    (hcfg : o.caConfig = none) (hlog : o.inputFilepath = some p) (hv : disk.elite p = .ok v)
    {o₁ : CCAObj} {old : List ℝ}
    (hdef : CCAObj.defaultInit (o.instant o.external) (d.cca 0) = .ok o₁)
    (hold : o₁.getParams = .ok old) (hlen : old.length ≤ v.length) :
    ∃ b x, setup disk (fuel + 1) d o = some (.ok x) ∧ x.ca = .cca b ∧ x.kind = plan.kind ∧
      x.cls = plan.ca ∧ x.env = plan.env ∧ b.obj.getParams = .ok (v.take old.length) := by
  have hl : plan.ca.isLenia = false := by
    cases hca : plan.ca <;> first | rfl | exact absurd hca hn
  obtain ⟨k1, k2, _, _, k5⟩ := defaultInit_kw hdef
  have hr : o₁.kernelRadius ≠ 0 := by rw [k2]; exact h3
  obtain ⟨o₂, l₂, s1, s2, s3, s4, s5⟩ := setParams_prefix o₁ _ k5 hd hr old v hold hlen
  have hext : plan.external = o.external := by rw [(evolve_class hp).2.1, if_neg hc.1]
  have hinit : ccaInit disk plan.ca.isLenia (fuel + 1) d.cca (o.instant o.external) (some p) =
      some (.ok ⟨{ o₂ with t := 0 }, some p⟩) := by
    unfold ccaInit
    rw [hdef]
    have : (o.instant o.external).caConfig = none := hcfg
    rw [this, hl]
    simp only [andThen, CCAObj.loadLog, hv, Bind.bind, Except.bind, setParamsAs_of s1, Except.map]
  have hcon : construct disk (fuel + 1) d plan.ca o plan.external (plan.hidden.getD 0) =
      some (.ok (.cca ⟨{ o₂ with t := 0 }, some p⟩)) := by
    rw [construct_cca hc, hext, hlog, hinit]; rfl
  have hlt : (v.take old.length).length = old.length := by rw [List.length_take]; omega
  obtain ⟨o₃, l₃, r1, r2, r3, _, _⟩ := setParams_prefix { o₂ with t := 0 } l₂ s3 (by rw [s4]; exact hd)
    (show o₂.kernelRadius ≠ 0 by rw [s5]; exact hr) (v.take old.length) v s2 (by rw [hlt]; exact hlen)
  have hget : ∀ o' : CCAObj, o'.getParams = .ok (v.take old.length) →
      BuiltCA.getParams plan.ca (.cca ⟨o', some p⟩) = .ok (v.take old.length) := by
    intro o' h
    unfold BuiltCA.getParams
    simp only [hl, Bool.false_eq_true, if_false]
    exact h
  obtain ⟨o₄, hw, h4⟩ : ∃ o₄ : CCAObj,
      wrap disk (fuel + 1) d plan.ca plan.env o (.cca ⟨{ o₂ with t := 0 }, some p⟩) =
        some (.ok (.cca ⟨o₄, some p⟩)) ∧ o₄.getParams = .ok (v.take old.length) := by
    have h2 : ({ o₂ with t := 0 } : CCAObj).getParams = .ok (v.take old.length) := s2
    unfold wrap
    rw [hcfg, hlog]
    cases plan.env with
    | glider =>
      refine ⟨o₃, ?_, by rw [r2, hlt]⟩
      simp only [hv, Bind.bind, Except.bind, BuiltCA.setParams, hl, setParamsAs_of r1, Except.map]
    | halting => exact ⟨_, by simp only [hget _ h2, andThen, Except.map], h2⟩
    | simpleHalting => exact ⟨_, by simp only [hget _ h2, Except.map], h2⟩
    | random => exact ⟨_, by simp only [hget _ h2, Except.map], h2⟩
  obtain ⟨n, hn⟩ : ∃ n, startSize plan.kind plan.ca plan.external (.cca ⟨o₄, some p⟩) = .ok n := by
    unfold startSize
    rw [hget _ h4]
    cases plan.kind <;> exact ⟨_, rfl⟩
  refine ⟨⟨o₄, some p⟩, ?_⟩
  unfold setup
  rw [hp]
  simp only [hcon, hw, andThen, hn]
  exact ⟨_, rfl, rfl, rfl, rfl, rfl, h4⟩

/-- A constructor that names a log that is not there raises. -/
theorem missing_log {lenia : Bool} {dr : Nat → Draws} {kw : InstantKwargs} {p : String}
    (hp : disk.logs p = none) (b : BuiltCCA) :
    ccaInit disk lenia fuel dr kw (some p) ≠ some (.ok b) := by
  intro h
  obtain ⟨n, o, b₁, o', _, _, _, h3, _⟩ := ccaInit_step h
  obtain ⟨v, hv, _⟩ := except_bind_ok.1 h3
  unfold Disk.elite at hv
  rw [hp] at hv
  cases hv

/-- C119: the config of an automaton that was built with a log can only be restored where that log
is, though nothing of it is used. -/
theorem saved_needs_log {b c : BuiltCCA} {p path : String} {lenia : Bool} {dr : Nat → Draws} {w}
    (hb : b.input = some p) (hs : lookCfg disk.cca path = some b.save) (hp : disk.logs p = none)
    (c' : BuiltCCA) :
    c.restore (fun kw i => ccaInit disk lenia fuel dr kw i) disk w path ≠ some (.ok c') := by
  intro h
  obtain ⟨b₁, o, h1, _, _⟩ := restore_found hs h
  have : b.save.config.instant = some b.obj.makeConfig.2.kw := rfl
  rw [this] at h1
  have hi : b.save.input = some p := hb
  rw [hi] at h1
  exact missing_log hp _ h1

/-- C119: the error, for an automaton that was built without a config. -/
theorem saved_needs_log_error {b c : BuiltCCA} {p path : String} {lenia : Bool} {dr : Nat → Draws} {w}
    (hb : b.input = some p) (hs : lookCfg disk.cca path = some b.save) (hp : disk.logs p = none)
    (hk : b.obj.kw.caConfig = none) (h1 : b.obj.kw.extN ≠ 0) (h2 : b.obj.kw.intN ≠ 0)
    (h3 : b.obj.kernelRadius ≠ 0) (hd : Spec.MixtureLength (dr 0).kernel.length) :
    c.restore (fun kw i => ccaInit disk lenia (fuel + 1) dr kw i) disk w path =
      some (.error .notFound) := by
  have hi : b.save.input = some p := hb
  have hinst : b.save.config.instant = some b.obj.makeConfig.2.kw := rfl
  obtain ⟨o₁, k1, _, _⟩ := defaultInit_ok b.obj.makeConfig.2.kw (dr 0) h1 h2 h3 hd
  have hc : b.obj.makeConfig.2.kw.caConfig = none := hk
  unfold BuiltCCA.restore
  rw [hs]
  dsimp only
  rw [hinst, hi]
  dsimp only
  unfold ccaInit
  rw [k1, hc]
  simp only [andThen, CCAObj.loadLog, Disk.elite, hp, Bind.bind, Except.bind, Except.map]

/-- The arguments an automaton ends up with do not depend on the log. -/
theorem ccaInit_kw_log {lenia : Bool} {dr : Nat → Draws} {kw : InstantKwargs} {i i' : Option String}
    {b b' : BuiltCCA} (h : ccaInit disk lenia fuel dr kw i = some (.ok b))
    (h' : ccaInit disk lenia fuel dr kw i' = some (.ok b')) : b'.obj.kw = b.obj.kw := by
  obtain ⟨n, o, b₁, o₁, rfl, i1, i2, i3, rfl⟩ := ccaInit_step h
  obtain ⟨n', o', b₁', o₁', hn, i1', i2', i3', rfl⟩ := ccaInit_step h'
  cases hn
  rw [i1] at i1'
  cases i1'
  show o₁'.kw = o₁.kw
  rw [(loadLog_keeps i3).2, (loadLog_keeps i3').2]
  split at i2
  · rename_i hc0
    rw [hc0] at i2'
    cases i2; cases i2'; rfl
  · rename_i path hc0
    rw [hc0] at i2'
    dsimp only at i2'
    cases hs : lookCfg disk.cca path with
    | none =>
      unfold BuiltCCA.restore at i2 i2'
      rw [hs] at i2 i2'
      cases i2; cases i2'; rfl
    | some s =>
      obtain ⟨c, a, r1, r2, rfl⟩ := restore_found hs i2
      obtain ⟨c', a', r1', r2', rfl⟩ := restore_found hs i2'
      show a'.kw = a.kw
      rw [(applyConfig_dt r2).2, (applyConfig_dt r2').2]
      cases hi : s.config.instant with
      | none => rw [hi] at r1 r1'; cases r1; cases r1'; rfl
      | some kw' =>
        rw [hi] at r1 r1'
        dsimp only at r1 r1'
        rw [r1] at r1'
        cases r1'; rfl

/-- C119: if the log is there, whatever is in it, the restored automaton is the same as from the config
without it. -/
theorem saved_log_harmless {c c₁ c₂ : BuiltCCA} {s : SavedCfg} {path path' : String} {lenia : Bool}
    {dr : Nat → Draws} {w} (hs : lookCfg disk.cca path = some s)
    (hs' : lookCfg disk.cca path' = some { s with input := none })
    (h : c.restore (fun kw i => ccaInit disk lenia fuel dr kw i) disk w path = some (.ok c₁))
    (h' : c.restore (fun kw i => ccaInit disk lenia fuel dr kw i) disk w path' = some (.ok c₂)) :
    c₁.obj.dynamics = c₂.obj.dynamics := by
  obtain ⟨b₁, o₁, r1, r2, rfl⟩ := restore_found hs h
  obtain ⟨b₂, o₂, r1', r2', rfl⟩ := restore_found hs' h'
  refine applyConfig_dynamics ?_ r2 r2'
  dsimp only at r1'
  cases hi : s.config.instant with
  | none => rw [hi] at r1 r1'; cases r1; cases r1'; rfl
  | some kw =>
    rw [hi] at r1 r1'
    dsimp only at r1 r1'
    exact ccaInit_kw_log r1' r1

/-! ## Channels of the agents -/

/-- The channels `CMAES` is told about. -/
def Spec.toldChannels (cls : CaClass) (o : Options) : Nat := if cls = .rxnDfn then 2 else o.external

/-- C119: the covariance of the first generation can be computed unless the search is for patterns and
the automaton, as restored from its config, has another number of channels than the options say; then
it is a ValueError. -/
theorem first_covar {o : Options} {x : Experiment} (h : setup disk fuel d o = some (.ok x)) :
    x.firstCovar = (if x.kind = .pattern ∧ x.ca.ext ≠ Spec.toldChannels x.cls o
      then .error .value else .ok x.numParams) := by
  obtain ⟨plan, ca₀, hp, _, _, hn, e1, e2, e3, e4, _⟩ := setup_parts h
  have hext : plan.external = Spec.toldChannels x.cls o := by
    rw [(evolve_class hp).2.1, e1]; rfl
  unfold Experiment.firstCovar Experiment.agentSize
  rw [e3, e4]
  rw [hext] at hn
  cases hk : plan.kind with
  | pattern =>
    rw [hk] at hn
    have hn := (Except.ok.inj hn).symm
    rw [hn]
    dsimp only
    by_cases hx : x.ca.ext = Spec.toldChannels x.cls o
    · rw [hx]; simp [subtractLast]
    · rw [if_pos ⟨rfl, hx⟩]
      unfold subtractLast cppnSize
      rw [if_neg (by omega), if_neg (by omega), if_neg (by omega)]
  | coevo =>
    rw [hk] at hn
    obtain ⟨ps, _, hn'⟩ := except_bind_ok.1 hn
    have hn' := (Except.ok.inj hn').symm
    rw [hn']
    simp [subtractLast]
  | universe_ => simp [subtractLast]

/-- The number of parameters of linear layers of these widths, each with bias and followed by a
Gaussian. -/
def Spec.netSize : List Nat → Nat
  | a :: b :: ws => (a * b + b + 2) + netSize (b :: ws)
  | _ => 0

/-- C119: the parameters of the networks of a search for patterns; the first layer fits the picture of
one or two channels. -/
theorem cppn_size (ext hidden : Nat) (m : CppnScale) (x y : ℝ) :
    cppnSize ext hidden = Spec.netSize [16 * ext, hidden, hidden, hidden, ext] ∧
    (1 ≤ ext ∧ ext ≤ 2 → (cppnRepeat (ext - 1) (cppnFeatures m x y)).length = 16 * ext) := by
  refine ⟨by simp [cppnSize, Spec.netSize]; ring, fun h => ?_⟩
  obtain rfl | rfl : ext = 1 ∨ ext = 2 := by omega
  · simp [cppnRepeat, cppnFeatures]
  · simp [cppnRepeat, cppnFeatures]

/-- C119: a search with `RxnDfn` is never stopped there. -/
theorem first_covar_rxn {o : Options} {x : Experiment} (h : setup disk fuel d o = some (.ok x))
    (hc : x.cls = .rxnDfn) : x.ca.ext = 2 ∧ x.firstCovar = .ok x.numParams := by
  obtain ⟨plan, ca₀, hp, h1, h2, _, e1, _⟩ := setup_parts h
  have hext : x.ca.ext = 2 := by
    rw [← e1, hc] at h1 h2
    have hf := construct_fits h1
    cases ca₀ with
    | cca b => exact absurd rfl hf.1
    | nca b => cases hf
    | rxn o₀ =>
      have : ∀ ca', wrap disk fuel d .rxnDfn plan.env o (.rxn o₀) = some (.ok ca') → ca'.ext = 2 := by
        intro ca' hw
        unfold wrap at hw
        dsimp only at hw
        split at hw
        · obtain ⟨_, _, rfl⟩ := except_map_ok.1 (Option.some.inj hw); rfl
        · obtain ⟨_, _, rfl⟩ := except_map_ok.1 (Option.some.inj hw); rfl
        · obtain ⟨ca₁, hr, hw⟩ := andThen_ok.1 hw
          obtain ⟨_, _, rfl⟩ := except_map_ok.1 (Option.some.inj hw)
          split at hr
          · cases hr; rfl
          · obtain ⟨_, _, rfl⟩ := except_map_ok.1 (Option.some.inj hr); rfl
        · split at hw
          · obtain ⟨_, _, rfl⟩ := except_map_ok.1 (Option.some.inj hw); rfl
          · obtain ⟨v, _, hw⟩ := except_bind_ok.1 (Option.some.inj hw)
            unfold BuiltCA.setParams at hw
            dsimp only at hw
            split at hw <;> cases hw
            rfl
          · cases hw; rfl
      exact this _ h2
  refine ⟨hext, ?_⟩
  rw [first_covar h, if_neg (by rintro ⟨_, hn⟩; exact hn (by rw [hext, hc]; rfl))]

/-! ## NCA -/

/-- C119: an `NCA` with a config that is not found never gets layers: a search for universes or
coevolution stops at the wrapper or at the first agent, a search for patterns goes on with an
automaton that cannot take a step. -/
theorem nca_missing_config {o : Options} {plan : EvolvePlan} {path : String}
    (hp : evolve o.args = .ok plan) (hc : plan.ca = .nca) (hcfg : o.caConfig = some path)
    (hs : lookCfg disk.nca path = none) :
    (plan.kind ≠ .pattern → setup disk (fuel + 1) d o = some (.error .attribute)) ∧
    (plan.kind = .pattern → ∃ x kw, setup disk (fuel + 1) d o = some (.ok x) ∧ x.ca = .nca ⟨kw, none⟩) := by
  have hcon : construct disk (fuel + 1) d plan.ca o plan.external (plan.hidden.getD 0) =
      some (.ok (.nca ⟨o.ncaKwargs plan.external (plan.hidden.getD 0), none⟩)) := by
    rw [hc]
    unfold construct ncaInit
    have : (o.ncaKwargs plan.external (plan.hidden.getD 0)).caConfig = some path := hcfg
    rw [this]
    simp only [BuiltNCA.restore, hs, Option.map, Except.map]
  have hres : ∀ kw, BuiltCA.restore disk (fuel + 1) d plan.ca (.nca ⟨kw, none⟩) path =
      some (.ok (.nca ⟨kw, none⟩)) := by
    intro kw
    simp only [BuiltCA.restore, BuiltNCA.restore, hs, Option.map, Except.map]
  have hget : ∀ kw, BuiltCA.getParams plan.ca (.nca ⟨kw, none⟩) = .error .attribute := fun kw => rfl
  constructor
  · intro hk
    unfold setup
    rw [hp]
    simp only [hcon, andThen]
    unfold wrap
    rw [hcfg]
    cases hkk : plan.kind with
    | pattern => exact absurd hkk hk
    | coevo =>
      rw [(evolve_class hp).2.2.2.2.1 (by rw [hkk]; decide)]
      dsimp only
      rw [hres]
      simp only [startSize, hget, Bind.bind, Except.bind]
    | universe_ =>
      have := (evolve_class hp).2.2.2.2.2 hkk
      cases henv : plan.env with
      | glider => exact absurd henv this
      | simpleHalting => simp only [hget, Except.map]
      | random => simp only [hget, Except.map]
      | halting => simp only [hres, hget, Except.map, andThen]
  · intro hk
    unfold setup
    rw [hp]
    simp only [hcon, andThen]
    unfold wrap
    rw [hcfg, (evolve_class hp).2.2.2.2.1 (by rw [hk]; decide)]
    dsimp only
    rw [hres, hk]
    exact ⟨_, _, rfl, rfl⟩

/-- C119: an `NCA` without a config has the radius, the peaks, the padding, the channels, the hidden
channels and the activation of the options. -/
theorem nca_options {o : Options} {x : Experiment} (h : setup disk fuel d o = some (.ok x))
    (hc : x.cls = .nca) (hcfg : o.caConfig = none) :
    ∃ b, x.ca = .nca b ∧ b.kw.radius = o.kernelRadius ∧ b.kw.peaks = o.kernelPeaks ∧
      b.kw.mode = o.convMode ∧ b.kw.ext = o.external ∧ b.kw.int = o.internal ∧
      b.kw.hidden = o.hidden ∧ b.kw.act = chooseAct (some o.activation) ∧
      ∃ o₀ : NCAObj, NCAObj.defaultInit (chooseAct (some o.activation)) o.kernelRadius o.kernelPeaks
        (d.nca 0).1 (d.nca 0).2.1 (d.nca 0).2.2 = .ok o₀ ∧
      (o.inputFilepath = none → b.obj = some o₀) := by
  obtain ⟨plan, ca₀, h1, h2, h3, _, h5, _⟩ := setup_parts h
  obtain ⟨_, he, hh, _⟩ := evolve_class h1
  rw [h5] at hc
  rw [hc] at h2 he
  rw [if_neg (by decide)] at he
  rw [he, hh] at h2
  obtain ⟨b₀, hb, rfl⟩ := map_map_ok.1 h2
  cases fuel with
  | zero => cases hb
  | succ fuel =>
    unfold ncaInit at hb
    rw [show (o.ncaKwargs o.external ((some o.hidden).getD 0)).caConfig = none from hcfg] at hb
    obtain ⟨o₀, ho, rfl⟩ := except_map_ok.1 (Option.some.inj hb)
    have key : ∃ b, x.ca = .nca b ∧ b.kw = o.ncaKwargs o.external o.hidden ∧
        (o.inputFilepath = none → b.obj = some o₀) := by
      unfold wrap at h3
      rw [hcfg] at h3
      dsimp only at h3
      split at h3
      · exact ⟨_, asked_eq h3, rfl, fun _ => rfl⟩
      · exact ⟨_, asked_eq h3, rfl, fun _ => rfl⟩
      · exact ⟨_, asked_eq h3, rfl, fun _ => rfl⟩
      · split at h3
        · rename_i hx; cases hx
        · rename_i p _ hi
          obtain ⟨v, _, hv⟩ := except_bind_ok.1 (Option.some.inj h3)
          simp only [BuiltCA.setParams] at hv
          split at hv
          · cases hv
          · exact ⟨_, (Except.ok.inj hv).symm, rfl, fun h => by rw [h] at hi; cases hi⟩
        · exact ⟨_, (Except.ok.inj (Option.some.inj h3)).symm, rfl, fun _ => rfl⟩
    obtain ⟨b, e1, e2, e3⟩ := key
    exact ⟨b, e1, by rw [e2]; rfl, by rw [e2]; rfl, by rw [e2]; rfl, by rw [e2]; rfl, by rw [e2]; rfl,
      by rw [e2]; rfl, by rw [e2]; rfl, o₀, ho, e3⟩

/-- C119: in a search for universes `NCA` and `RxnDfn` do not read `--input_filepath`; it only starts
the population. -/
theorem universe_log_unread (o : Options) {plan : EvolvePlan} (hp : evolve o.args = .ok plan)
    (hc : ¬ Spec.Continuous plan.ca) (hk : plan.kind = .universe_) (i : Option String) :
    setup disk fuel d { o with inputFilepath := i } =
      (setup disk fuel d o).map fun r => r.map fun x => { x with input := i } := by
  have he : evolve (Options.args { o with inputFilepath := i }) = .ok plan := hp
  have hcon : construct disk fuel d plan.ca { o with inputFilepath := i } plan.external
      (plan.hidden.getD 0) = construct disk fuel d plan.ca o plan.external (plan.hidden.getD 0) := by
    unfold Spec.Continuous at hc
    cases hca : plan.ca <;> first | rfl | exact absurd ⟨by rw [hca]; decide, by rw [hca]; decide⟩ hc
  have henv := (evolve_class hp).2.2.2.2.2 hk
  have hw : ∀ ca, wrap disk fuel d plan.ca plan.env { o with inputFilepath := i } ca =
      wrap disk fuel d plan.ca plan.env o ca := by
    intro ca
    cases hcc : plan.env <;> first | rfl | exact absurd hcc henv
  unfold setup
  rw [he, hp]
  simp only [hcon, hw]
  rcases construct disk fuel d plan.ca o plan.external (plan.hidden.getD 0) with _ | (e | ca)
  · rfl
  · rfl
  simp only [andThen]
  rcases wrap disk fuel d plan.ca plan.env o ca with _ | (e | ca')
  · rfl
  · rfl
  dsimp only
  cases startSize plan.kind plan.ca plan.external ca' <;> rfl

/-! ## The hypotheses are met -/

/-- Conway's rule as a config file, with optional `instant_kwargs` and log. -/
noncomputable def Witness.lifeFile (kw : Option InstantKwargs) (log : Option String) : SavedCfg :=
  ⟨{ lifeLikeConfig 1 [3] [2, 3] with instant := kw }, log⟩

/-- A disk that has that file everywhere, and a log of one long vector. -/
noncomputable def Witness.lifeDisk (kw : Option InstantKwargs) : Disk where
  cca := fun _ => some (Witness.lifeFile kw none)
  rxn := fun _ => none
  nca := fun _ => none
  logs := fun _ => some [[List.replicate 1000 1]]

theorem lifeFile_apply (o : CCAObj) (kw : Option InstantKwargs) (log : Option String) (w) :
    ∃ o', o.applyConfig (Witness.lifeFile kw log).config w = .ok o' ∧ o'.kw = o.kw ∧
      o'.kernelParams = o.kernelParams ∧ o'.kernelRadius = 1 ∧
      (readActs o'.genesis).length + (readActs o'.persistence).length ≤ 50 := by
  have hk : (lifeLikeConfig 1 [3] [2, 3]).neighborhood.kernel = .ok ⟨1, mooreLike 1⟩ := by
    simp [lifeLikeConfig, KernelCfg.kernel, getKernel]
  refine ⟨_, (applyConfig_ok_iff o (Witness.lifeFile kw log).config w _).2
    ⟨_, 1, _, _, _, rfl, rfl, hk, ofCfg_intervals [3], ofCfg_intervals [2, 3], rfl⟩, rfl, rfl, rfl, ?_⟩
  simp [Spec.loaded, readActs, readTensors, Act.tensors, smoothInterval]

theorem lifeDisk_look (kw : Option InstantKwargs) (path : String) :
    lookCfg (Witness.lifeDisk kw).cca path = some (Witness.lifeFile kw none) := rfl

theorem lifeDisk_init {lenia : Bool} (hl : lenia = false) (kw' : Option InstantKwargs)
    (hkw : ∀ k, kw' = some k → k.extN ≠ 0 ∧ k.intN ≠ 0 ∧ k.radius ≠ 0 ∧ k.caConfig = none)
    {dr : Nat → Draws} (hd : ∀ n, Spec.MixtureLength (dr n).kernel.length ∧ (dr n).kernel.length ≤ 900)
    (kw : InstantKwargs) (h1 : kw.extN ≠ 0) (h2 : kw.intN ≠ 0) (h3 : kw.radius ≠ 0) {path : String}
    (hc : kw.caConfig = some path) (i : Option String) :
    ∃ b l, ccaInit (Witness.lifeDisk kw') lenia (fuel + 2) dr kw i = some (.ok b) ∧
      b.obj.kernelParams = .vec l ∧ b.obj.kw = kw'.getD kw := by
  subst hl
  obtain ⟨o, k1, k2, _⟩ := defaultInit_ok kw (dr 0) h1 h2 h3 (hd 0).1
  obtain ⟨b₀, r1, r2, l, r3, r4⟩ : ∃ b₀ : BuiltCCA, (match kw' with
      | none => some (.ok (⟨o, i⟩ : BuiltCCA))
      | some k => ccaInit (Witness.lifeDisk kw') false (fuel + 1) (fun n => dr (n + 1)) k none) =
        some (.ok b₀) ∧ b₀.obj.kw = kw'.getD kw ∧
      ∃ l, b₀.obj.kernelParams = .vec l ∧ (Spec.MixtureLength l.length ∧ l.length ≤ 900) := by
    cases kw' with
    | none => exact ⟨_, rfl, k2, _, (defaultInit_kw k1).2.2.2.2, hd 0⟩
    | some k =>
      obtain ⟨a1, a2, a3, a4⟩ := hkw k rfl
      obtain ⟨o₁, c1, c2, _⟩ := defaultInit_ok k (dr 1) a1 a2 a3 (hd 1).1
      refine ⟨⟨{ o₁ with t := 0 }, none⟩, ?_, c2, _, (defaultInit_kw c1).2.2.2.2, hd 1⟩
      dsimp only
      unfold ccaInit
      rw [c1, a4]
      rfl
  obtain ⟨o', p1, p2, p3, p4, p5⟩ := lifeFile_apply b₀.obj kw' none (dr 0).seq
  rw [r3] at p3
  have hres : BuiltCCA.restore (fun k i' => ccaInit (Witness.lifeDisk kw') false (fuel + 1)
      (fun m => dr (m + 1)) k i') (Witness.lifeDisk kw') (dr 0).seq ⟨o, i⟩ path =
      some (.ok { b₀ with obj := o' }) := by
    unfold BuiltCCA.restore
    rw [lifeDisk_look]
    dsimp only
    have hi : (Witness.lifeFile kw' none).config.instant = kw' := rfl
    have hj : (Witness.lifeFile kw' none).input = none := rfl
    rw [hi, hj]
    exact andThen_ok.2 ⟨b₀, r1, by rw [p1]; rfl⟩
  obtain ⟨o'', q1, q2, l', q3⟩ : ∃ o'' : CCAObj,
      o'.loadLog (Witness.lifeDisk kw') false i = .ok o'' ∧ o''.kw = o'.kw ∧
      ∃ l', o''.kernelParams = .vec l' := by
    cases i with
    | none => exact ⟨o', rfl, rfl, l, p3⟩
    | some p =>
      obtain ⟨o'', l', s1, _, s3, _, _⟩ := setParams_prefix o' l p3 r4.1 (by rw [p4]; decide)
        (readActs o'.genesis ++ readActs o'.persistence ++ l) (List.replicate 1000 1)
        (by simp [CCAObj.getParams, p3, KParams.ravel, Bind.bind, Except.bind, pure, Except.pure])
        (by simp only [List.length_append, List.length_replicate]; omega)
      have := setParamsAs_of s1
      exact ⟨o'', this, (setParamsAs_keeps this).2, l', s3⟩
  refine ⟨{ b₀ with obj := { o'' with t := 0 } }, l', ?_, q3, ?_⟩
  · unfold ccaInit
    rw [k1, hc]
    dsimp only
    rw [hres]
    simp only [andThen, q1, Except.map]
  · show o''.kw = _
    rw [q2, p2, r2]

/-- Searches with Conway's rule can be set up, with or without a log. -/
theorem life_search {kw' : Option InstantKwargs}
    (hkw : ∀ k, kw' = some k → k.extN ≠ 0 ∧ k.intN ≠ 0 ∧ k.radius ≠ 0 ∧ k.caConfig = none)
    (hd : ∀ n, Spec.MixtureLength (d.cca n).kernel.length ∧ (d.cca n).kernel.length ≤ 900)
    (hd' : ∀ n, Spec.MixtureLength (d.cca' n).kernel.length)
    {o : Options} {plan : EvolvePlan} (hp : evolve o.args = .ok plan)
    (hc : Spec.Continuous plan.ca) (hn : plan.ca ≠ .lenia) (h1 : o.external ≠ 0) (h2 : o.internal ≠ 0)
    (h3 : o.kernelRadius ≠ 0) {path : String} (hcfg : o.caConfig = some path) :
    ∃ x b, setup (Witness.lifeDisk kw') (fuel + 2) d o = some (.ok x) ∧ x.ca = .cca b ∧
      x.cls = plan.ca ∧ x.env = plan.env ∧ x.kind = plan.kind ∧
      b.obj.kw = kw'.getD (o.instant o.external) := by
  have hl : plan.ca.isLenia = false := by
    cases hca : plan.ca <;> first | rfl | exact absurd hca hn
  have hext : plan.external = o.external := by rw [(evolve_class hp).2.1, if_neg hc.1]
  obtain ⟨b, l, i1, i2, i3⟩ := lifeDisk_init (fuel := fuel) hl kw' hkw hd (o.instant o.external) h1 h2 h3
    hcfg o.inputFilepath
  have hcon : construct (Witness.lifeDisk kw') (fuel + 2) d plan.ca o plan.external
      (plan.hidden.getD 0) = some (.ok (.cca b)) := by
    rw [construct_cca hc, hext, i1]; rfl
  have hget : ∀ (b : BuiltCCA) (l : List ℝ), b.obj.kernelParams = .vec l →
      ∃ ps, BuiltCA.getParams plan.ca (.cca b) = .ok ps := by
    intro b l hb
    unfold BuiltCA.getParams
    simp only [hl, Bool.false_eq_true, if_false]
    unfold CCAObj.getParams
    rw [hb]
    exact ⟨_, rfl⟩
  obtain ⟨b₁, l₁, r1, r2, r3⟩ : ∃ (b₁ : BuiltCCA) (l₁ : List ℝ), BuiltCA.restore (Witness.lifeDisk kw')
      (fuel + 2) d plan.ca (.cca b) path = some (.ok (.cca b₁)) ∧ b₁.obj.kernelParams = .vec l₁ ∧
      b₁.obj.kw = kw'.getD (o.instant o.external) := by
    obtain ⟨b₀, q1, q2, l₀, q3⟩ : ∃ b₀ : BuiltCCA, (match kw' with
        | none => some (.ok b)
        | some k => ccaInit (Witness.lifeDisk kw') plan.ca.isLenia (fuel + 2)
            (fun n => d.cca' (n + 1)) k none) = some (.ok b₀) ∧
        b₀.obj.kw = kw'.getD (o.instant o.external) ∧ ∃ l₀, b₀.obj.kernelParams = .vec l₀ := by
      cases kw' with
      | none => exact ⟨b, rfl, i3, l, i2⟩
      | some k =>
        obtain ⟨a1, a2, a3, a4⟩ := hkw k rfl
        obtain ⟨o₁, c1, c2, _⟩ := defaultInit_ok k (d.cca' 1) a1 a2 a3 (hd' 1)
        refine ⟨⟨{ o₁ with t := 0 }, none⟩, ?_, c2, _, (defaultInit_kw c1).2.2.2.2⟩
        dsimp only
        unfold ccaInit
        rw [c1, a4]
        rfl
    obtain ⟨o', p1, p2, p3, p4, p5⟩ := lifeFile_apply b₀.obj kw' none (d.cca' 0).seq
    refine ⟨{ b₀ with obj := o' }, l₀, ?_, p3.trans q3, p2.trans q2⟩
    unfold BuiltCA.restore BuiltCCA.restore
    dsimp only
    rw [lifeDisk_look]
    dsimp only
    have hi : (Witness.lifeFile kw' none).config.instant = kw' := rfl
    have hj : (Witness.lifeFile kw' none).input = none := rfl
    rw [hi, hj]
    exact map_map_ok.2 ⟨_, andThen_ok.2 ⟨b₀, q1, by rw [p1]; rfl⟩, rfl⟩
  obtain ⟨b₂, l₂, w1, w2, w3⟩ : ∃ (b₂ : BuiltCCA) (l₂ : List ℝ), wrap (Witness.lifeDisk kw') (fuel + 2) d
      plan.ca plan.env o (.cca b) = some (.ok (.cca b₂)) ∧ b₂.obj.kernelParams = .vec l₂ ∧
      b₂.obj.kw = kw'.getD (o.instant o.external) := by
    obtain ⟨ps, hps⟩ := hget b l i2
    obtain ⟨ps', hps'⟩ := hget b₁ l₁ r2
    unfold wrap
    rw [hcfg]
    cases plan.env with
    | glider => exact ⟨b₁, l₁, r1, r2, r3⟩
    | halting => exact ⟨b₁, l₁, by simp only [r1, andThen, hps', Except.map], r2, r3⟩
    | simpleHalting => exact ⟨b, l, by simp only [hps, Except.map], i2, i3⟩
    | random => exact ⟨b, l, by simp only [hps, Except.map], i2, i3⟩
  obtain ⟨ps, hps⟩ := hget b₂ l₂ w2
  obtain ⟨n, hn⟩ : ∃ n, startSize plan.kind plan.ca plan.external (.cca b₂) = .ok n := by
    unfold startSize
    rw [hps]
    cases plan.kind <;> exact ⟨_, rfl⟩
  unfold setup
  rw [hp]
  simp only [hcon, w1, andThen, hn]
  exact ⟨_, b₂, rfl, rfl, rfl, rfl, rfl, w3⟩

/-- Random numbers of the right shape. -/
noncomputable def Witness.draws : AllDraws where
  cca := fun _ => ⟨List.replicate 9 1, fun _ => ⟨0, 0, false, false, [], []⟩, (fun _ _ => 0, fun _ _ => 0)⟩
  cca' := fun _ => ⟨List.replicate 9 1, fun _ => ⟨0, 0, false, false, [], []⟩, (fun _ _ => 0, fun _ _ => 0)⟩
  nca := fun _ => ([], [], [])
  nca' := fun _ => ([], [], [])

/-- C119: a search for patterns with the default options and the config of an automaton with two
channels stops with a ValueError after the first generation. -/
theorem pattern_channels_refuted :
    ∃ x, setup (Witness.lifeDisk (some { ext := some 2 })) 2 Witness.draws
        { caConfig := some "two" } = some (.ok x) ∧ x.kind = .pattern ∧
      x.firstCovar = .error .value := by
  obtain ⟨x, b, h1, h2, h3, _, h4, h5⟩ := life_search (fuel := 0) (d := Witness.draws)
    (kw' := some { ext := some 2 }) (by rintro k ⟨⟩; decide) (fun n => by constructor <;> simp [Witness.draws, Spec.MixtureLength])
    (fun n => by simp [Witness.draws, Spec.MixtureLength])
    (o := { caConfig := some "two" }) (plan := ⟨.pattern, .cca, .glider, false, some 16, 1⟩)
    (by decide +kernel) ⟨by decide, by decide⟩ (by decide) (by decide) (by decide) (by decide) rfl
  refine ⟨x, h1, h4, ?_⟩
  rw [first_covar h1, if_pos]
  refine ⟨h4, ?_⟩
  rw [h2]
  show b.obj.kw.extN ≠ _
  rw [h5, h3]
  decide

theorem witness_draws (n : Nat) : Spec.MixtureLength (Witness.draws.cca n).kernel.length ∧
    (Witness.draws.cca n).kernel.length ≤ 900 ∧ Spec.MixtureLength (Witness.draws.cca' n).kernel.length := by
  refine ⟨?_, ?_, ?_⟩ <;> simp [Witness.draws, Spec.MixtureLength]

/-- Searches for patterns and for universes with Conway's rule, with and without a log. -/
theorem witness_search (kw' : Option InstantKwargs)
    (hkw : ∀ k, kw' = some k → k.extN ≠ 0 ∧ k.intN ≠ 0 ∧ k.radius ≠ 0 ∧ k.caConfig = none)
    (log : Option String) (radius : Nat) (hr : radius ≠ 0) :
    (∃ x, setup (Witness.lifeDisk kw') 2 Witness.draws
        { caConfig := some "life", kernelRadius := radius, inputFilepath := log } = some (.ok x) ∧
      x.cls = .cca ∧ x.env = .glider ∧ x.kind = .pattern) ∧
    (∃ x, setup (Witness.lifeDisk kw') 2 Witness.draws
        { caConfig := some "life", kernelRadius := radius, inputFilepath := log, tag := "universe".toList
          envFn := "SimpleHaltingWrapper".toList } = some (.ok x) ∧
      x.cls = .cca ∧ x.env = .simpleHalting ∧ x.kind = .universe_) := by
  constructor
  · obtain ⟨x, b, h1, _, h3, h4, h5, _⟩ := life_search (fuel := 0) (d := Witness.draws) (kw' := kw') hkw
      (fun n => ⟨(witness_draws n).1, (witness_draws n).2.1⟩) (fun n => (witness_draws n).2.2)
      (o := { caConfig := some "life", kernelRadius := radius, inputFilepath := log })
      (plan := ⟨.pattern, .cca, .glider, false, some 16, 1⟩)
      (show evolve (Options.args {}) = _ by decide +kernel)
      ⟨by decide, by decide⟩ (by decide) (show 1 ≠ 0 by decide) (show 1 ≠ 0 by decide) hr rfl
    exact ⟨x, h1, h3, h4, h5⟩
  · obtain ⟨x, b, h1, _, h3, h4, h5, _⟩ := life_search (fuel := 0) (d := Witness.draws) (kw' := kw') hkw
      (fun n => ⟨(witness_draws n).1, (witness_draws n).2.1⟩) (fun n => (witness_draws n).2.2)
      (o := { caConfig := some "life", kernelRadius := radius, inputFilepath := log
              tag := "universe".toList, envFn := "SimpleHaltingWrapper".toList })
      (plan := ⟨.universe_, .cca, .simpleHalting, false, some 16, 1⟩)
      (show evolve (Options.args { tag := "universe".toList, envFn := "SimpleHaltingWrapper".toList }) = _
        by decide +kernel)
      ⟨by decide, by decide⟩ (by decide) (show 1 ≠ 0 by decide) (show 1 ≠ 0 by decide) hr rfl
    exact ⟨x, h1, h3, h4, h5⟩

/-- The hypotheses of `config_replaces_options` are met, with different radii. -/
example : ∃ x x', setup (Witness.lifeDisk (some {})) 2 Witness.draws
      { caConfig := some "life", kernelRadius := 5 } = some (.ok x) ∧
    setup (Witness.lifeDisk (some {})) 2 Witness.draws
      { caConfig := some "life", kernelRadius := 9 } = some (.ok x') ∧ x'.ca = x.ca := by
  obtain ⟨⟨x, h1, h2, _⟩, _⟩ := witness_search (some {}) (by rintro k ⟨⟩; decide) none 5 (by decide)
  obtain ⟨⟨x', h1', _⟩, _⟩ := witness_search (some {}) (by rintro k ⟨⟩; decide) none 9 (by decide)
  exact ⟨x, x', h1, h1', config_replaces_options (o := { caConfig := some "life", kernelRadius := 5 })
    rfl (lifeDisk_look _ _) rfl 9 3 1 1 .circular h1 h1' ⟨by rw [h2]; decide, by rw [h2]; decide⟩⟩

/-- Those of `config_keeps_options` and `config_over_log`. -/
example : ∃ x x', setup (Witness.lifeDisk none) 2 Witness.draws
      { caConfig := some "life", kernelRadius := 5 } = some (.ok x) ∧
    setup (Witness.lifeDisk none) 2 Witness.draws
      { caConfig := some "life", kernelRadius := 5, inputFilepath := some "log" } = some (.ok x') ∧
    (∃ b b', x.ca = .cca b ∧ x'.ca = .cca b' ∧ b'.obj.dynamics = b.obj.dynamics) ∧
    ∃ b, x'.ca = .cca b ∧ b.obj.kw.extN = 1 ∧ b.obj.kw.intN = 1 ∧ b.obj.kw.mode = .circular ∧
      b.obj.kw.peaks = 3 ∧ b.obj.kw.caConfig = some "life" ∧ b.input = some "log" := by
  obtain ⟨⟨x, h1, h2, h3, _⟩, _⟩ := witness_search none (by rintro k ⟨⟩) none 5 (by decide)
  obtain ⟨⟨x', h1', h2', h3', _⟩, _⟩ := witness_search none (by rintro k ⟨⟩) (some "log") 5 (by decide)
  exact ⟨x, x', h1, h1',
    config_over_log (o := { caConfig := some "life", kernelRadius := 5 }) rfl (lifeDisk_look _ _)
      (some "log") h1 h1' ⟨by rw [h2]; decide, by rw [h2]; decide⟩ (.inr h3),
    config_keeps_options h1' ⟨by rw [h2']; decide, by rw [h2']; decide⟩ (by
      intro path s _ hs
      rw [lifeDisk_look] at hs
      cases hs; rfl)⟩

/-- Those of `log_over_config`. -/
example : ∃ x x' b b' v o', setup (Witness.lifeDisk none) 2 Witness.draws
      { caConfig := some "life", kernelRadius := 5, inputFilepath := some "log", tag := "universe".toList
        envFn := "SimpleHaltingWrapper".toList } = some (.ok x) ∧
    setup (Witness.lifeDisk none) 2 Witness.draws
      { caConfig := some "life", kernelRadius := 5, inputFilepath := none, tag := "universe".toList
        envFn := "SimpleHaltingWrapper".toList } = some (.ok x') ∧
    x.ca = .cca b ∧ x'.ca = .cca b' ∧ (Witness.lifeDisk none).elite "log" = .ok v ∧
      b'.obj.setParamsAs (decide (x.cls = .lenia)) v = .ok o' ∧ b.obj.dynamics = o'.dynamics := by
  obtain ⟨_, x, h1, h2, h3, _⟩ := witness_search none (by rintro k ⟨⟩) (some "log") 5 (by decide)
  obtain ⟨_, x', h1', h2', h3', _⟩ := witness_search none (by rintro k ⟨⟩) none 5 (by decide)
  obtain ⟨b, b', v, o', e⟩ := log_over_config (p := "log") rfl h1 h1'
    ⟨by rw [h2]; decide, by rw [h2]; decide⟩ (by rw [h3]; unfold Spec.restoresAgain; decide)
  exact ⟨x, x', b, b', v, o', h1, h1', e⟩

/-- Those of `log_is_rule`: a search for patterns with default options and a log of 841 weights, the
number of parameters of its networks. -/
example (o : Options) (ho : o = { inputFilepath := some "log" }) (disk : Disk)
    (hlog : disk.logs "log" = some [[List.replicate 841 1]]) :
    cppnSize 1 16 = 841 ∧ ∃ b x old, setup disk 1 Witness.draws o = some (.ok x) ∧ x.ca = .cca b ∧
      x.kind = .pattern ∧ b.obj.getParams = .ok (List.replicate old 1) ∧ old = 13 := by
  refine ⟨by decide, ?_⟩
  subst ho
  obtain ⟨o₁, k1, _, _⟩ := defaultInit_ok (Options.instant { inputFilepath := some "log" } 1)
    (Witness.draws.cca 0) (by decide) (by decide) (by decide) (witness_draws 0).1
  obtain ⟨old, hold, hlen⟩ : ∃ old, o₁.getParams = .ok old ∧ old.length = 13 := by
    unfold CCAObj.defaultInit at k1
    rw [if_neg (by decide), if_neg (by decide)] at k1
    obtain ⟨κ, _, k1⟩ := except_bind_ok.1 k1
    cases k1
    simp [CCAObj.getParams, KParams.ravel, Bind.bind, Except.bind, pure, Except.pure, Witness.draws,
      readActs, readTensors, defaultFns, Options.instant, InstantKwargs.ca, InstantKwargs.intN, Act.tensors]
  obtain ⟨b, x, h1, h2, h3, _, _, h4⟩ := log_is_rule (fuel := 0) (disk := disk) (d := Witness.draws)
    (o := { inputFilepath := some "log" }) (plan := ⟨.pattern, .cca, .glider, false, some 16, 1⟩)
    (v := List.replicate 841 1) (by decide +kernel) ⟨by decide, by decide⟩ (by decide) (by decide)
    (witness_draws 0).1 rfl rfl (by unfold Disk.elite; rw [hlog]; rfl) k1 hold
    (by rw [hlen, List.length_replicate]; omega)
  refine ⟨b, x, 13, h1, h2, h3, ?_, rfl⟩
  rw [h4, hlen, List.take_replicate]
  rfl

/-- Those of `saved_needs_log_error`. -/
example (o : CCAObj) (h : CCAObj.defaultInit {} (Witness.draws.cca 0) = .ok o) (c : BuiltCCA) (w) :
    c.restore (fun kw i => ccaInit { Witness.lifeDisk none with
        cca := fun _ => some (BuiltCCA.save ⟨o, some "log"⟩), logs := fun _ => none } false 1
          Witness.draws.cca kw i)
      { Witness.lifeDisk none with
        cca := fun _ => some (BuiltCCA.save ⟨o, some "log"⟩), logs := fun _ => none } w "saved" =
      some (.error .notFound) := by
  obtain ⟨k1, k2, _⟩ := defaultInit_kw h
  exact saved_needs_log_error (b := ⟨o, some "log"⟩) (p := "log") rfl rfl rfl
    (by show o.kw.caConfig = none; rw [k1]) (by show o.kw.extN ≠ 0; rw [k1]; decide)
    (by show o.kw.intN ≠ 0; rw [k1]; decide) (by show o.kernelRadius ≠ 0; rw [k2]; decide)
    (witness_draws 0).1

/-- Those of `universe_size`. -/
example : ∃ x, setup (Witness.lifeDisk none) 2 Witness.draws
      { caConfig := some "life", kernelRadius := 5, inputFilepath := none, tag := "universe".toList
        envFn := "SimpleHaltingWrapper".toList } = some (.ok x) ∧ Spec.Continuous x.cls ∧
      x.kind = .universe_ := by
  obtain ⟨_, x, h1, h2, _, h4⟩ := witness_search none (by rintro k ⟨⟩) none 5 (by decide)
  exact ⟨x, h1, ⟨by rw [h2]; decide, by rw [h2]; decide⟩, h4⟩

/-- Those of `nca_options`. -/
example : ∃ x, setup (Witness.lifeDisk none) 1 Witness.draws
    { caFn := "NCA".toList, tag := "universe".toList, kernelPeaks := 1 } = some (.ok x) ∧
      x.cls = .nca := by
  obtain ⟨κ, hκ⟩ : ∃ κ, gaussianMixtureKernel 13 (defaultPeaks 1) = .ok κ := by
    simp [gaussianMixtureKernel, getKernel, kernelFn, defaultPeaks, mixtureComponents,
      mixtureComponents.triples, bind, Except.bind, pure, Except.pure]
  have hp : evolve (Options.args { caFn := "NCA".toList, tag := "universe".toList, kernelPeaks := 1 }) =
      .ok ⟨.universe_, .nca, .halting, false, some 16, 1⟩ := by decide +kernel
  simp only [setup, hp, construct, ncaInit, Options.ncaKwargs, NCAObj.defaultInit, hκ, Except.map,
    Option.map, andThen, wrap, BuiltCA.getParams, startSize, bind, Except.bind, pure, Except.pure,
    if_neg one_ne_zero]
  exact ⟨_, rfl, rfl⟩

/-- Those of `nca_missing_config`. -/
example : setup (Witness.lifeDisk none) 1 Witness.draws
    { caFn := "NCA".toList, caConfig := some "lost", tag := "universe".toList } =
      some (.error .attribute) :=
  (nca_missing_config (plan := ⟨.universe_, .nca, .halting, false, some 16, 1⟩) (path := "lost")
    (by decide +kernel) rfl rfl rfl).1 (by decide)

/-- Those of `universe_log_unread` and `rxn_options_unread`. -/
example (i : Option String) : setup (Witness.lifeDisk none) 1 Witness.draws
    { caFn := "RxnDfn".toList, tag := "universe".toList, inputFilepath := i, kernelRadius := 4 } =
      (setup (Witness.lifeDisk none) 1 Witness.draws
        { caFn := "RxnDfn".toList, tag := "universe".toList }).map
        fun r => r.map fun x => { x with input := i } := by
  have h := rxn_options_unread (disk := Witness.lifeDisk none) (fuel := 1) (d := Witness.draws)
    { caFn := "RxnDfn".toList, tag := "universe".toList, inputFilepath := i }
    (show caFn "RxnDfn".toList = _ by decide +kernel) 4 3 1 1 16 .circular "Gaussian".toList
  refine h.trans ?_
  exact universe_log_unread { caFn := "RxnDfn".toList, tag := "universe".toList }
    (plan := ⟨.universe_, .rxnDfn, .halting, false, some 16, 2⟩) (by decide +kernel)
    (fun h => h.1 rfl) rfl i

/-- A new `RxnDfn` is the default one of C84. -/
example : RxnObj.new = Spec.defaultRxn := rfl

/-! ## What the constructors find on the disk -/

/-- C119: where a config is looked for.  Newlines in the name do not matter, blanks do.  The name as
it is comes first, the folder `ca_configs` second. -/
theorem config_lookup {α : Type} (fs : String → Option α) (a b : String) :
    lookCfg fs (a ++ "\n" ++ b) = lookCfg fs (a ++ b) ∧
    ('\n' ∉ a.toList →
      (∀ c, fs a = some c → lookCfg fs a = some c) ∧
      (fs a = none → lookCfg fs a = fs ("ca_configs/" ++ a))) := by
  refine ⟨?_, fun h => ?_⟩
  · have : ((a ++ "\n" ++ b).toList.filter (· ≠ '\n')) = ((a ++ b).toList.filter (· ≠ '\n')) := by
      simp [String.toList_append, List.filter_append]
    unfold lookCfg
    rw [this]
  · have : String.ofList (a.toList.filter (· ≠ '\n')) = a := by
      rw [List.filter_eq_self.2]
      · exact String.ofList_toList
      · intro c hc
        simp only [ne_eq, decide_not, Bool.not_eq_true', decide_eq_false_iff_not]
        rintro rfl
        exact h hc
    unfold lookCfg
    simp only [this]
    exact ⟨fun c hc => by rw [hc], fun hn => by rw [hn]⟩

/-- Two such disks: one with the file in place, one with it in the folder. -/
example : lookCfg (fun p => if p = "rule.npy" then some 1 else none) "rule.npy" = some 1 ∧
    lookCfg (fun p => if p = "ca_configs/rule.npy" then some 2 else none) "rule.npy\n" = some 2 := by
  decide +kernel

/-- C119: the parameters taken from a log are the first of the elite of the last generation. -/
theorem elite_of_log (disk : Disk) (path : String) :
    (disk.logs path = none → disk.elite path = .error .notFound) ∧
    (disk.logs path = some [] → disk.elite path = .error .index) ∧
    (∀ gens, disk.logs path = some (gens ++ [[]]) → disk.elite path = .error .index) ∧
    ∀ gens v rest, disk.logs path = some (gens ++ [v :: rest]) → disk.elite path = .ok v := by
  refine ⟨fun h => ?_, fun h => ?_, fun g h => ?_, fun g v r h => ?_⟩ <;>
    simp [Disk.elite, h]

/-- A log of two generations with two elites each. -/
example : ∃ disk : Disk, disk.logs "log.npy" = some ([[[1], [2]]] ++ [[3] :: [[4]]]) :=
  ⟨⟨fun _ => none, fun _ => none, fun _ => none, fun _ => some [[[1], [2]], [[3], [4]]]⟩, rfl⟩

end Yuca
