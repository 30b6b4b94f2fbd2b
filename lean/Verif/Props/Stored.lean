import Verif.Model.Stored
import Verif.Props.Faint
import Verif.Props.Zoo
import Verif.Props.Neural
import Verif.Props.Reconfigure

/-!
# C121: what the stored configs are, and which automata load them
-/

namespace Yuca

open Arith Spec

variable {N H W : Nat}

namespace Spec

/-- Height, place and width of every ring. -/
def ringList : List ℚ → List (ℝ × ℝ × ℝ)
  | a :: m :: s :: rest => ((a : ℝ), (m : ℝ), (s : ℝ)) :: ringList rest
  | _ => []

/-- The radial profile a stored kernel stands for. -/
noncomputable def ringProfile : StoredKernel → ℝ → ℝ
  | .moore, _ => 0
  | .ring, x => bell 0.5 (0.15 + 1e-9) x
  | .rings ps, x =>
    max 0 (min 1 ((ringList ps).map fun c => c.1 * bell c.2.1 (c.2.2 + 1e-9) x).sum)

/-- The growth function two stored numbers stand for. -/
noncomputable def storedBell (g : ℚ × ℚ) : ℝ → ℝ := leniaGrowth g.1 (g.2 + 1e-9)

/-- An object that steps by the rule of Glaberish: genesis `g` where there is room, persistence `p`
where there is something.  Used as a `Lenia` it has genesis only. -/
def StepsAsGlaberish (o : CCAObj) (dt : ℝ) {r : Nat} (κ : Fin (2 * r + 1) → Fin (2 * r + 1) → ℝ)
    (g p : ℝ → ℝ) : Prop :=
  o.dynamics.ext = 1 ∧ ∀ {N H W : Nat} (u : Univ ℝ N o.dynamics.ext H W) (t : ℝ),
    1 ≤ H ∧ r ≤ H → 1 ≤ W ∧ r ≤ W →
    (∃ u', (o.dynamics.toCCA t).forward u = .ok (u', o.dynamics.toCCA (t + dt)) ∧
      ∀ n e i j, u' n e i j = clip (u n e i j + dt * ((1 - u n e i j) * g (gathered κ (u n e) i j) +
        u n e i j * p (gathered κ (u n e) i j)))) ∧
    ∃ u', (o.dynamics.toCCA t).leniaForward u = .ok (u', o.dynamics.toCCA (t + dt)) ∧
      ∀ n e i j, u' n e i j = clip (u n e i j + dt * g (gathered κ (u n e) i j))

/-- The level below which a stored rule takes away: two widths below both means. -/
def faintLevel (s : StoredRule) : ℚ :=
  min (s.genesis.1 - 2 * s.genesis.2) (s.persistence.1 - 2 * s.persistence.2)

/-- As a `CCA` and as a `Lenia` the object empties every universe with no cell above `m` within `k`
steps, for ever. -/
def EmptiesBothWays (o : CCAObj) (r : Nat) (m : ℝ) (k : Nat) : Prop :=
  ∀ {N H W : Nat} (_ : 1 ≤ H ∧ r ≤ H) (_ : 1 ≤ W ∧ r ≤ W) (t : ℝ)
    (u : Univ ℝ N o.dynamics.ext H W), Faint m u → ∀ n ≥ k,
      (∃ s, iterate CCA.forward n (o.dynamics.toCCA t) u = .ok ((fun _ _ _ _ => 0), s)) ∧
      ∃ s, iterate CCA.leniaForward n (o.dynamics.toCCA t) u = .ok ((fun _ _ _ _ => 0), s)

end Spec

/-! ## Raw dictionaries -/

/-- With all entries present, nothing changes. -/
theorem load_raw (fs : Files) (fuel : Nat) (d : Nat → Draws) (o : CCAObj) (c : Config)
    (h : c.instant = none) : o.loadRaw fs fuel d c.raw = o.loadConfig fs fuel d c := by
  unfold CCAObj.loadRaw CCAObj.loadConfig
  rw [h]
  show some (o.applyRaw c.raw (d 0).seq) = some (o.applyConfig c (d 0).seq)
  rfl

/-- C121: a file with `instant_kwargs` makes a new object and leaves nothing of the old one. -/
theorem raw_forgets (fs : Files) (fuel : Nat) (d : Nat → Draws) (o o' : CCAObj) (c : RawConfig)
    (h : c.instant ≠ none) : o.loadRaw fs fuel d c = o'.loadRaw fs fuel d c := by
  unfold CCAObj.loadRaw
  cases hi : c.instant with
  | none => exact absurd hi h
  | some kw => rfl

/-- The entry `id_kernel_config` is not read. -/
theorem load_idKernel (fs : Files) (fuel : Nat) (d : Nat → Draws) (o : CCAObj) (c : Config)
    (k : Option KernelCfg) :
    o.loadConfig fs fuel d { c with idKernelConfig := k } = o.loadConfig fs fuel d c := rfl

/-- The dictionary of a stored rule as a `Config`. -/
noncomputable def Spec.ruleConfig (s : StoredRule) : Config where
  neighborhood := s.kernel.cfg s.radius
  genesis := storedGrowth s.genesis
  persistence := storedGrowth s.persistence
  dt := s.dt.map (↑)

theorem rule_raw (fs : Files) (fuel : Nat) (d : Nat → Draws) (o : CCAObj) (s : StoredRule) :
    o.loadRaw fs fuel d s.raw = o.loadConfig fs fuel d (ruleConfig s) := by
  rw [← load_idKernel fs fuel d o (ruleConfig s) (some innerMoore), ← load_raw _ _ _ _ _ rfl]
  rfl

/-! ## The kernels -/

theorem triples_ringList : ∀ (ps : List ℚ), ps.length % 3 = 0 →
    mixtureComponents.triples (ps.map ((↑) : ℚ → ℝ)) = .ok (ringList ps)
  | [], _ => rfl
  | [_], h => by simp at h
  | [_, _], h => by simp at h
  | a :: m :: s :: rest, h => by
    have ih := triples_ringList rest (by simp only [List.length_cons] at h; omega)
    simp only [List.map_cons, mixtureComponents.triples, ih, bind, Except.bind, pure, Except.pure,
      ringList]

theorem ringList_ne {ps : List ℚ} (h : ps.length % 3 = 0) (h0 : ps ≠ []) : ringList ps ≠ [] := by
  match ps, h, h0 with
  | [_], h, _ => simp at h
  | [_, _], h, _ => simp at h
  | _ :: _ :: _ :: _, _, _ => simp [ringList]

/-- Kernels with complete rings. -/
def Spec.Complete : StoredKernel → Prop
  | .moore => False
  | .ring => True
  | .rings ps => ps.length % 3 = 0 ∧ ps ≠ []

instance (k : StoredKernel) : Decidable (Complete k) := by
  cases k <;> unfold Complete <;> infer_instance

theorem stored_kernel (k : StoredKernel) (hk : Complete k) (r : Nat) (hr : r ≠ 0) :
    ∃ κ, (k.cfg r).kernel = .ok ⟨r, κ⟩ ∧ gaussianMixtureKernel r k.numbers = .ok ⟨r, κ⟩ ∧
      Profile r (ringProfile k) κ := by
  cases k with
  | moore => exact hk.elim
  | ring =>
    refine ⟨normaliseKernel fun a b => bump 0.5 0.15 (radialGrid r a b), ?_,
      mixture_kernel_pair r hr 0.5 0.15, ?_⟩
    · rw [← gaussian_kernel_eq r hr]
      simp [StoredKernel.cfg, StoredKernel.kwargs, KernelCfg.kernel, kernelKwargs, kwLookup, optM,
        KwVal.asNum, bind, Except.bind, pure, Except.pure]
    · rw [show ringProfile .ring = bump 0.5 0.15 from funext fun x => (bump_bell _ _ x).symm]
      exact normalise_profile _
  | rings ps =>
    have hm : gaussianMixtureKernel r (ps.map (↑)) =
        .ok ⟨r, normaliseKernel fun a b => mixtureFn (ringList ps) false (radialGrid r a b)⟩ := by
      have hc : mixtureComponents (1 : ℝ) (ps.map (↑)) = .ok (ringList ps) := by
        rw [mixtureComponents, if_pos (by rw [List.length_map]; exact hk.1)]
        exact triples_ringList ps hk.1
      have hne := ringList_ne hk.1 hk.2
      unfold gaussianMixtureKernel getKernel kernelFn
      simp [hc, hr, hne, bind, Except.bind, pure, Except.pure]
    refine ⟨_, ?_, hm, ?_⟩
    · rw [← hm]
      exact mixture_cfg_kernel r _
    · rw [show ringProfile (.rings ps) = mixtureFn (ringList ps) false from
        funext fun x => ((growth_values x).2.2.2.2.1 (ringList ps)).symm]
      exact normalise_profile _

/-! ## The 42 rules -/

/-- What is used of the numbers in the files. -/
structure Spec.RuleSound (s : StoredRule) : Prop where
  radius : s.radius ≠ 0
  kernel : Complete s.kernel
  dt : 0.1 ≤ s.dt.getD 0.1
  low : 0 < faintLevel s
  high : faintLevel s ≤ 0.28
  gen : 0.004 ≤ s.genesis.2
  per : 0.004 ≤ s.persistence.2

instance (s : StoredRule) : Decidable (RuleSound s) :=
  decidable_of_iff (s.radius ≠ 0 ∧ Complete s.kernel ∧ 0.1 ≤ s.dt.getD 0.1 ∧ 0 < faintLevel s ∧
    faintLevel s ≤ 0.28 ∧ 0.004 ≤ s.genesis.2 ∧ 0.004 ≤ s.persistence.2)
    ⟨fun ⟨a, b, c, d, e, f, g⟩ => ⟨a, b, c, d, e, f, g⟩,
     fun ⟨a, b, c, d, e, f, g⟩ => ⟨a, b, c, d, e, f, g⟩⟩

theorem rules_sound : ∀ s ∈ storedRules, RuleSound s := by decide +kernel

theorem stored_growth (g : ℚ × ℚ) :
    Act.ofCfg (storedGrowth g) = .ok (.mixture [(1, (g.1 : ℝ), (g.2 : ℝ))] true) := by
  simp [storedGrowth, Act.ofCfg, mixtureComponents, mixtureComponents.pairs, bind, Except.bind,
    pure, Except.pure]

theorem stored_eval (g : ℚ × ℚ) :
    (Act.mixture [(1, (g.1 : ℝ), (g.2 : ℝ))] true).eval = storedBell g :=
  funext fun x => mixture_pair_growth _ _ x

/-- What loading a sound rule does to any object. -/
theorem rule_loaded (fs : Files) (fuel : Nat) (d : Nat → Draws) (o : CCAObj) (s : StoredRule)
    (hs : RuleSound s) :
    ∃ κ, o.loadRaw fs fuel d s.raw = some (.ok (loaded o (ruleConfig s) (d 0).seq
        ⟨1, identityKernel⟩ ⟨s.radius, κ⟩ s.radius (.mixture [(1, (s.genesis.1 : ℝ), s.genesis.2)] true)
        (.mixture [(1, (s.persistence.1 : ℝ), s.persistence.2)] true))) ∧
      Profile s.radius (ringProfile s.kernel) κ := by
  obtain ⟨κ, h1, _, h2⟩ := stored_kernel s.kernel hs.kernel s.radius hs.radius
  refine ⟨κ, ?_, h2⟩
  rw [rule_raw]
  have happ := (applyConfig_ok_iff o (ruleConfig s) (d 0).seq _).2
    ⟨⟨1, identityKernel⟩, s.radius, ⟨s.radius, κ⟩, _, _, rfl, rfl, h1, stored_growth _,
      stored_growth _, rfl⟩
  show some (o.applyConfig (ruleConfig s) (d 0).seq) = _
  rw [happ]

theorem rule_dt (s : StoredRule) : (s.dt.map ((↑) : ℚ → ℝ)).getD 0.1 = ((s.dt.getD 0.1 : ℚ) : ℝ) := by
  cases s.dt <;> norm_num

/-- C121: every stored rule of the Lenia family loads into every `CCA`.  In a default one it steps
with the kernel, the growth functions and the step size of the file; all of them take effect, except
that a `Lenia` leaves out persistence. -/
theorem stored_rule_steps (fs : Files) (fuel : Nat) (d : Nat → Draws) (o : CCAObj)
    (s : StoredRule) (hs : s ∈ storedRules) :
    ∃ o' κ, o.loadRaw fs fuel d s.raw = some (.ok o') ∧
      Profile s.radius (ringProfile s.kernel) κ ∧
      (Plain1 o → StepsAsGlaberish o' ((s.dt.getD 0.1 : ℚ) : ℝ) κ (storedBell s.genesis)
        (storedBell s.persistence)) := by
  obtain ⟨κ, h1, h2⟩ := rule_loaded fs fuel d o s (rules_sound s hs)
  refine ⟨_, κ, h1, h2, fun hp => ?_⟩
  set o' := loaded o (ruleConfig s) (d 0).seq ⟨1, identityKernel⟩ ⟨s.radius, κ⟩ s.radius
    (.mixture [(1, (s.genesis.1 : ℝ), s.genesis.2)] true)
    (.mixture [(1, (s.persistence.1 : ℝ), s.persistence.2)] true) with ho'
  have hw : o'.dynamics.seqWeights = none := by simp [CCAObj.dynamics, ho', loaded, hp.ca]
  have hdt : o'.dynamics.dt = ((s.dt.getD 0.1 : ℚ) : ℝ) := rule_dt s
  refine ⟨hp.ext, fun u t hH hW => ⟨?_, ?_⟩⟩
  · obtain ⟨u', e1, e2⟩ := cca_rule_one o'.dynamics t hp.mode rfl hw hp.ext hp.int _ _ rfl rfl u hH hW
    simp only [stored_eval] at e2
    rw [hdt] at e1 e2
    exact ⟨u', e1, e2⟩
  · obtain ⟨u', e1, e2⟩ := lenia_rule_one o'.dynamics t hp.mode rfl hw hp.ext hp.int _ rfl u hH hW
    simp only [stored_eval] at e2
    rw [hdt] at e1 e2
    exact ⟨u', e1, e2⟩

/-- Two widths below its mean a stored growth function takes away 0.7 and more. -/
theorem stored_takes_away (g : ℚ × ℚ) (h : 0.004 ≤ g.2) {m : ℚ} (hm : m ≤ g.1 - 2 * g.2) :
    TakesAway (m : ℝ) 0.7 (storedBell g) := by
  intro x _ hx
  have h' : (0.004 : ℝ) ≤ g.2 := by
    have := (Rat.cast_le (K := ℝ)).2 h
    norm_num at this ⊢
    exact this
  have hm' : (m : ℝ) ≤ g.1 - 2 * g.2 := by exact_mod_cast hm
  unfold storedBell leniaGrowth bell
  have hz : -(x - g.1) ^ 2 / (2 * ((g.2 : ℝ) + 1e-9) ^ 2) ≤ -(4 * 0.49) := by
    rw [div_le_iff₀ (by positivity)]
    have h1 : 2 * (g.2 : ℝ) ≤ g.1 - x := by linarith
    have h2 : (2 * (g.2 : ℝ)) ^ 2 ≤ (g.1 - x) ^ 2 := pow_le_pow_left₀ (by linarith) h1 2
    have h3 : ((g.2 : ℝ) + 1e-9) ^ 2 * (4 * 0.49 * 2) ≤ (2 * g.2) ^ 2 := by
      have : (g.2 : ℝ) + 1e-9 ≤ 1.000001 * g.2 := by norm_num at h' ⊢; linarith
      have h4 : ((g.2 : ℝ) + 1e-9) ^ 2 ≤ (1.000001 * g.2) ^ 2 := pow_le_pow_left₀ (by positivity) this 2
      nlinarith
    have h5 : (x - g.1) ^ 2 = ((g.1 : ℝ) - x) ^ 2 := by ring
    rw [h5]
    linarith
  have := exp_neg_four_le (by norm_num) hz
  norm_num at this ⊢
  linarith

/-- C121: every stored rule of the Lenia family empties within four steps, for ever, any universe
with no cell above the level two widths below the smaller of its means. -/
theorem stored_rule_dies (fs : Files) (fuel : Nat) (d : Nat → Draws) (o : CCAObj) (hp : Plain1 o)
    (s : StoredRule) (hs : s ∈ storedRules) :
    ∃ o', o.loadRaw fs fuel d s.raw = some (.ok o') ∧
      EmptiesBothWays o' s.radius (faintLevel s) 4 := by
  have S := rules_sound s hs
  obtain ⟨κ, h1, h2⟩ := rule_loaded fs fuel d o s S
  refine ⟨_, h1, ?_⟩
  set o' := loaded o (ruleConfig s) (d 0).seq ⟨1, identityKernel⟩ ⟨s.radius, κ⟩ s.radius
    (.mixture [(1, (s.genesis.1 : ℝ), s.genesis.2)] true)
    (.mixture [(1, (s.persistence.1 : ℝ), s.persistence.2)] true) with ho'
  intro N H W hH hW t u hu n hn
  have hw : o'.dynamics.seqWeights = none := by simp [CCAObj.dynamics, ho', loaded, hp.ca]
  have hdt : o'.dynamics.dt = ((s.dt.getD 0.1 : ℚ) : ℝ) := rule_dt s
  have he : o'.dynamics.ext = 1 := hp.ext
  have hi : o'.dynamics.int = 1 := hp.int
  have P : Plain o'.dynamics := ⟨hp.mode, rfl, hw, by omega, by rw [he]; exact one_dvd _,
    by rw [hi]; rfl, by rw [hi]; rfl⟩
  have hlow : (0 : ℝ) < faintLevel s := by exact_mod_cast S.low
  have hhigh : (faintLevel s : ℝ) ≤ 0.28 := by
    have := (Rat.cast_le (K := ℝ)).2 S.high
    norm_num at this ⊢
    exact this
  have hdt1 : (0.1 : ℝ) ≤ o'.dynamics.dt := by
    rw [hdt]
    have := (Rat.cast_le (K := ℝ)).2 S.dt
    norm_num at this ⊢
    exact this
  have tg : TakesAway (faintLevel s : ℝ) 0.7
      (Act.mixture [(1, (s.genesis.1 : ℝ), (s.genesis.2 : ℝ))] true).eval := by
    rw [stored_eval]
    exact stored_takes_away _ S.gen (min_le_left _ _)
  have tp : TakesAway (faintLevel s : ℝ) 0.7
      (Act.mixture [(1, (s.persistence.1 : ℝ), (s.persistence.2 : ℝ))] true).eval := by
    rw [stored_eval]
    exact stored_takes_away _ S.per (min_le_right _ _)
  have w1 : Withers o'.dynamics (o'.dynamics.genesis ++ o'.dynamics.persistence) (faintLevel s) 0.7 :=
    ⟨by omega, profile_averages h2, by
      intro a ha
      have : a = .mixture [(1, (s.genesis.1 : ℝ), s.genesis.2)] true ∨
          a = .mixture [(1, (s.persistence.1 : ℝ), s.persistence.2)] true := by
        simpa [o', CCAObj.dynamics, loaded] using ha
      rcases this with rfl | rfl
      · exact tg
      · exact tp, ⟨hlow.le, by linarith⟩, by norm_num⟩
  have w2 : Withers o'.dynamics o'.dynamics.genesis (faintLevel s) 0.7 :=
    ⟨w1.channels, w1.kernel, fun a ha => w1.acts a (List.mem_append_left _ ha), w1.range, w1.loss⟩
  have hz : max 0 ((faintLevel s : ℝ) - n * o'.dynamics.dt * (0.7 / o'.dynamics.ext)) ≤ 0 := by
    refine max_le le_rfl ?_
    rw [he]
    have hn' : (4 : ℝ) ≤ n := by exact_mod_cast hn
    have : (4 : ℝ) * 0.1 ≤ n * o'.dynamics.dt := mul_le_mul hn' hdt1 (by norm_num) (by linarith)
    norm_num at this ⊢
    norm_num at hhigh
    linarith
  obtain ⟨u1, s1, a1, a2⟩ := cca_dies P w1 (by linarith) n t u hu hH hW
  obtain ⟨u2, s2, b1, b2⟩ := lenia_dies P w2 (by linarith) n t u hu hH hW
  have e1 := faint_empty hz a2
  have e2 := faint_empty hz b2
  subst e1 e2
  exact ⟨⟨s1, a1⟩, ⟨s2, b1⟩⟩

/-! ## Two rules of the same kind -/

/-- C121: 23 of the 42 rules have the same numbers twice: used as `CCA` and used as `Lenia` they step
alike.  The other 19 lose their persistence function in a `Lenia`, without a word. -/
theorem stored_lenia (fs : Files) (fuel : Nat) (d : Nat → Draws) (o : CCAObj) (hp : Plain1 o)
    (s : StoredRule) (hs : s ∈ storedRules) (h : s.genesis = s.persistence) :
    ∃ o' κ, o.loadRaw fs fuel d s.raw = some (.ok o') ∧
      Profile s.radius (ringProfile s.kernel) κ ∧
      StepsAsLenia o' ((s.dt.getD 0.1 : ℚ) : ℝ) κ (storedBell s.genesis) := by
  obtain ⟨o', κ, h1, h2, h3⟩ := stored_rule_steps fs fuel d o s hs
  refine ⟨o', κ, h1, h2, (h3 hp).1, fun u t hH hW => ?_⟩
  obtain ⟨⟨u', a1, a2⟩, v', b1, b2⟩ := (h3 hp).2 u t hH hW
  have : u' = v' := by
    funext n e i j
    rw [a2, b2, ← h]
    congr 2
    ring
  subst this
  exact ⟨u', a1, b1, b2⟩

theorem stored_lenia_count :
    (storedRules.filter fun s => s.genesis = s.persistence).length = 23 ∧ storedRules.length = 42 := by
  decide +kernel

/-! ## The files that hold what the code builds -/

/-- The entry of a file. -/
def Spec.ruleOf (file : String) : Option StoredRule := storedRules.find? fun s => s.file = file

/-- C121: ca_configs/orbium.npy is `get_orbium_config`, geminium.npy and geminium2.npy are
`get_geminium_config`, smoothlife.npy is `get_smooth_life_config`, conway_life.npy and morley.npy are
`get_life_like_config`: loaded into any `CCA` they have the same effect. -/
theorem stored_builtin (fs : Files) (fuel : Nat) (d : Nat → Draws) (o : CCAObj) :
    (∀ s, ruleOf "orbium.npy" = some s →
      o.loadRaw fs fuel d s.raw = o.loadConfig fs fuel d (orbiumConfig 13)) ∧
    (∀ s, ruleOf "geminium.npy" = some s ∨ ruleOf "geminium2.npy" = some s →
      o.loadRaw fs fuel d s.raw = o.loadConfig fs fuel d (geminiumConfig 31)) ∧
    o.loadRaw fs fuel d StoredLife.smooth.raw = o.loadConfig fs fuel d (smoothLifeConfig 10) ∧
    o.loadRaw fs fuel d StoredLife.conway.raw = o.loadConfig fs fuel d (lifeLikeConfig 1 [3] [2, 3]) ∧
    o.loadRaw fs fuel d StoredLife.morley.raw =
      o.loadConfig fs fuel d (lifeLikeConfig 1 [3, 6, 8] [2, 4, 5]) := by
  refine ⟨fun s hs => ?_, fun s hs => ?_, load_raw _ _ _ _ _ rfl, ?_, ?_⟩
  · have : s = ⟨"orbium.npy", 13, .ring, (0.15, 0.015), (0.15, 0.015), none⟩ := by
      rw [show ruleOf "orbium.npy" =
        some ⟨"orbium.npy", 13, .ring, (0.15, 0.015), (0.15, 0.015), none⟩ by decide +kernel] at hs
      exact (Option.some.inj hs).symm
    subst this
    rw [rule_raw]
    congr 1
  · have : ∃ f, s = ⟨f, 31, geminiumRings, (0.26, 0.036), (0.26, 0.036), none⟩ := by
      rw [show ruleOf "geminium.npy" =
          some ⟨"geminium.npy", 31, geminiumRings, (0.26, 0.036), (0.26, 0.036), none⟩ by
            decide +kernel,
        show ruleOf "geminium2.npy" =
          some ⟨"geminium2.npy", 31, geminiumRings, (0.26, 0.036), (0.26, 0.036), none⟩ by
            decide +kernel] at hs
      rcases hs with hs | hs
      · exact ⟨_, (Option.some.inj hs).symm⟩
      · exact ⟨_, (Option.some.inj hs).symm⟩
    obtain ⟨f, rfl⟩ := this
    rw [rule_raw]
    congr 1
    simp only [ruleConfig, geminiumConfig, geminiumRings, StoredKernel.cfg, StoredKernel.kwargs,
      storedGrowth, Option.map_none, List.map_cons, List.map_nil]
    norm_num
  · rw [← load_idKernel fs fuel d o _ (some ⟨"InnerMoore", none, none⟩), ← stored_conway_eq]
    exact load_raw _ _ _ _ _ rfl
  · rw [← load_idKernel fs fuel d o _ (some ⟨"InnerMoore", none, none⟩), ← stored_morley_eq]
    exact load_raw _ _ _ _ _ rfl

/-! ## Files for one class in an object of another -/

theorem kernel_ok (k : StoredKernel) (hk : k = .moore ∨ Complete k) (r : Nat) (hr : r ≠ 0) :
    ∃ κ : Fin (2 * r + 1) → Fin (2 * r + 1) → ℝ, (k.cfg r).kernel = .ok ⟨r, κ⟩ := by
  rcases hk with rfl | hk
  · exact ⟨mooreLike r, by simp [StoredKernel.cfg, KernelCfg.kernel, getKernel, hr]⟩
  · obtain ⟨κ, h, _⟩ := stored_kernel k hk r hr
    exact ⟨κ, h⟩

/-- A file without `params` raises KeyError in a `RxnDfn` and in an `NCA`. -/
theorem no_params (c : RawConfig) (hp : c.params = none) (hi : c.instant = none)
    (hk : ∃ κ, c.identityKernel = .ok κ) (r : Nat) (hr : c.neighborhood.radius = some r)
    (hn : ∃ κ, c.neighborhood.kernel = .ok κ) :
    (∀ o : RxnObj, o.loadRaw c = .error .key) ∧
    ∀ again w (b : BuiltNCA), b.loadRaw again w c = some (.error .key) := by
  obtain ⟨κ, hk⟩ := hk
  obtain ⟨κ', hn⟩ := hn
  constructor
  · intro o
    have : c.rxn.identityKernel = .ok κ := hk
    have h2 : c.rxn.neighborhood.kernel = .ok κ' := hn
    have h3 : c.rxn.params = none := hp
    simp only [RxnObj.loadRaw, RxnObj.loadConfig, this, h2, h3, bind, Except.bind]
  · intro again w b
    simp only [BuiltNCA.loadRaw, hi, andThen, hk, KernelCfg.radiusKey, hr, hn, hp, entry, bind,
      Except.bind]

theorem life_kernels (s : StoredLife) : (∃ κ, s.raw.identityKernel = .ok κ) ∧
    (∃ r, s.raw.neighborhood.radius = some r) ∧ ∃ κ, s.raw.neighborhood.kernel = .ok κ := by
  cases s
  · exact ⟨⟨_, rfl⟩, ⟨_, rfl⟩, ⟨1, mooreLike 1⟩,
      by simp [StoredLife.raw, Config.raw, storedConway, KernelCfg.kernel, getKernel]⟩
  · exact ⟨⟨_, rfl⟩, ⟨_, rfl⟩, ⟨1, mooreLike 1⟩,
      by simp [StoredLife.raw, Config.raw, storedMorley, KernelCfg.kernel, getKernel]⟩
  · obtain ⟨κ, _, h1, _⟩ := smoothLife_kernel 10 (by norm_num) { ra := some (1 / 3), ri := some 0 } 0
      (1 / 3) rfl rfl
    obtain ⟨κ', _, h2, _⟩ := smoothLife_kernel 10 (by norm_num) { ra := some 1.05, ri := some (1 / 3) }
      (1 / 3) 1.05 rfl rfl
    have hk : ∀ x y : ℝ, (KernelCfg.mk "SmoothLifeKernel" (some 10)
        (some [("r_a", .num x), ("r_i", .num y)])).kernel =
        getKernel ⟨"SmoothLifeKernel", some 10, some { ra := some x, ri := some y }⟩ := by
      intro x y
      simp [KernelCfg.kernel, kernelKwargs, kwLookup, optM, KwVal.asNum, bind, Except.bind, pure,
        Except.pure]
    exact ⟨⟨_, (hk _ _).trans h1⟩, ⟨_, rfl⟩, ⟨_, (hk _ _).trans h2⟩⟩

/-- C121: the files for `CCA` raise KeyError in every `RxnDfn` and every `NCA`. -/
theorem stored_rule_elsewhere (c : Stored)
    (hc : (∃ s ∈ storedRules, c = .rule s) ∨ ∃ s, c = .life s) (v : StoredNet → List ℝ) :
    (∀ o : RxnObj, o.loadRaw (c.raw v) = .error .key) ∧
    ∀ again w (b : BuiltNCA), b.loadRaw again w (c.raw v) = some (.error .key) := by
  rcases hc with ⟨s, hs, rfl⟩ | ⟨s, rfl⟩
  · have S := rules_sound s hs
    obtain ⟨κ, h⟩ := kernel_ok s.kernel (.inr S.kernel) s.radius S.radius
    exact no_params s.raw rfl rfl ⟨_, rfl⟩ s.radius rfl ⟨_, h⟩
  · obtain ⟨h1, ⟨r, h2⟩, h3⟩ := life_kernels s
    exact no_params s.raw (by cases s <;> rfl) (by cases s <;> rfl) h1 r h2 h3

/-- What is used of the entries of the networks. -/
def Spec.NetSound (s : StoredNet) : Prop :=
  s.radius ≠ 0 ∧ (s.kernel = .moore ∨ Complete s.kernel) ∧ 4 ≤ s.weights ∧
    (∀ h, s.instant = some h → s.weights = 3 * h.1 + h.1 * h.1 + 2 * actParams h.2) ∧
    (s.instant = none → s.weights = 66308 ∧ ∃ ps, s.kernel = .rings ps ∧ ps.length = 9)

theorem nets_sound : ∀ s ∈ storedNets, NetSound s := by
  intro s hs
  simp only [storedNets, List.mem_cons, List.not_mem_nil, or_false] at hs
  rcases hs with rfl | rfl | rfl | rfl | rfl | rfl | rfl | rfl | rfl | rfl | rfl
  all_goals
    refine ⟨by decide, by decide, by norm_num, fun h hh => ?_, fun hh => ?_⟩
    · cases hh <;> decide
    · first
        | exact ⟨rfl, _, rfl, rfl⟩
        | cases hh

theorem numbers_kwargs (k : StoredKernel) (hk : Complete k) (r : Nat) :
    updateKernelParams ((k.cfg r).kwargs.getD []) = .vec k.numbers := by
  cases k with
  | moore => exact hk.elim
  | ring => rfl
  | rings ps =>
    simp [StoredKernel.cfg, StoredKernel.kwargs, StoredKernel.numbers, updateKernelParams, KwVal.ravel]

theorem numbers_length (k : StoredKernel) (hk : Complete k) : MixtureLength k.numbers.length := by
  cases k with
  | moore => exact hk.elim
  | ring => exact ⟨by decide, by decide⟩
  | rings ps =>
    simp only [StoredKernel.numbers, List.length_map]
    exact ⟨by simpa using hk.2, .inl hk.1⟩

theorem uskate_kernel : storedUskate.neighborhood.kernel =
    .ok ⟨1, logKernel (r := 1) 0.5 (radialGrid 1)⟩ := by
  simp [storedUskate, KernelCfg.kernel, getKernel, kernelKwargs, kwLookup, optM, KwVal.asNum, bind,
    Except.bind, pure, Except.pure]

/-- A file without growth functions raises KeyError in a `CCA`. -/
theorem no_growth (o : CCAObj) (c : RawConfig) (w : (Nat → Nat → ℝ) × (Nat → Nat → ℝ))
    (h1 : c.identityKernelConfig = none) (h2 : c.genesis = none)
    (h3 : ∃ r, c.neighborhood.radius = some r) (h4 : ∃ κ, c.neighborhood.kernel = .ok κ) :
    o.applyRaw c w = .error .key := by
  obtain ⟨r, h3⟩ := h3
  obtain ⟨κ, h4⟩ := h4
  have h5 : ({ c.neighborhood with radius := some r } : KernelCfg).kernel = .ok κ := by
    rw [← h3]; exact h4
  simp only [CCAObj.applyRaw, RawConfig.identityKernel, h1, h2, h4, CCAObj.setKernelConfig,
    KernelCfg.radiusKey, h3, CCAObj.setKernelRadius, CCAObj.updateParams, h5, entry, bind,
    Except.bind, pure, Except.pure]

theorem uskate_in_cca (o : CCAObj) (w : (Nat → Nat → ℝ) × (Nat → Nat → ℝ)) :
    o.applyRaw storedUskate w = .error .key :=
  no_growth o storedUskate w rfl rfl ⟨_, rfl⟩ ⟨_, uskate_kernel⟩

/-- C121: the files of networks (and the one of `RxnDfn`) raise KeyError in every `CCA`. -/
theorem stored_net_in_cca (fs : Files) (fuel : Nat) (d : Nat → Draws) (o : CCAObj)
    (hd : MixtureLength (d 1).kernel.length) (v : StoredNet → List ℝ) (c : Stored)
    (hc : (∃ s ∈ storedNets, c = .net s) ∨ c = .uskate) :
    o.loadRaw fs (fuel + 1) d (c.raw v) = some (.error .key) := by
  rcases hc with ⟨s, hs, rfl⟩ | rfl
  · obtain ⟨n1, n2, n3, n4, n5⟩ := nets_sound s hs
    obtain ⟨κ, hκ⟩ := kernel_ok s.kernel n2 s.radius n1
    have hkey := fun o => no_growth o (s.raw (v s)) (d 0).seq rfl rfl ⟨_, rfl⟩ ⟨_, hκ⟩
    show CCAObj.loadRaw fs (fuel + 1) d o (s.raw (v s)) = _
    unfold CCAObj.loadRaw
    cases hi : s.instant with
    | none =>
      have : (s.raw (v s)).instant = none := by simp [StoredNet.raw, hi]
      simp only [this, andThen, hkey]
    | some h =>
      have : (s.raw (v s)).instant = some (s.kwargs h) := by simp [StoredNet.raw, hi]
      obtain ⟨o', e, _⟩ := init_plain fs fuel (fun n => d (n + 1)) (s.kwargs h).asCCA (by simp [NCAKwargs.asCCA, StoredNet.kwargs, InstantKwargs.extN]) (by simp [NCAKwargs.asCCA, StoredNet.kwargs, InstantKwargs.intN]) (by simpa [NCAKwargs.asCCA, StoredNet.kwargs, InstantKwargs.radius] using n1) hd rfl
      simp only [this, e, andThen, hkey]
  · show CCAObj.loadRaw fs (fuel + 1) d o storedUskate = _
    simp only [CCAObj.loadRaw, show storedUskate.instant = none from rfl, andThen, uskate_in_cca]

/-- Such files, and draws of a size a kernel can have. -/
example : (∃ s ∈ storedNets, s.instant = none) ∧ (∃ s ∈ storedNets, s.instant ≠ none) ∧
    MixtureLength (List.replicate 9 (1 : ℝ)).length :=
  ⟨by decide +kernel, by decide +kernel, by simp [MixtureLength]⟩

/-- C121: every network loads into every `RxnDfn`, without a word; its first four weights become the
two diffusion constants, the feed rate and the kill rate. -/
theorem stored_net_in_rxn_refuted (o : RxnObj) (s : StoredNet) (hs : s ∈ storedNets) (v : List ℝ)
    (hv : v.length = s.weights) :
    ∃ o', o.loadRaw (s.raw v) = .ok o' ∧ o'.getParams = v.take 4 := by
  obtain ⟨n1, n2, n3, n4, n5⟩ := nets_sound s hs
  obtain ⟨κ, hκ⟩ := kernel_ok s.kernel n2 s.radius n1
  have hk : (s.raw v).rxn.neighborhood.kernel = .ok ⟨s.radius, κ⟩ := hκ
  have hi : (s.raw v).rxn.identityKernel = .ok ⟨1, identityKernel⟩ := rfl
  match v, hv with
  | [], hv => simp at hv; omega
  | [_], hv => simp at hv; omega
  | [_, _], hv => simp at hv; omega
  | [_, _, _], hv => simp at hv; omega
  | a :: b :: c :: e :: rest, _ =>
    have hp : (s.raw (a :: b :: c :: e :: rest)).rxn.params =
      some (a :: b :: c :: e :: (rest ++ s.kernel.numbers)) := rfl
    refine ⟨?_, ?_, ?_⟩
    rotate_left
    · simp only [RxnObj.loadRaw, RxnObj.loadConfig, hk, hi, hp, bind, Except.bind, RxnObj.setParams]
      rfl
    · rfl

/-- C121: a network with `instant_kwargs` loads into every `NCA` whatever its width and activation,
and all its numbers come back: the weights, the kernel and the step size are those of the file. -/
theorem stored_net_loads (disk : Disk) (fuel : Nat) (d : Nat → NCADraws) (w : NCADraws) (b : BuiltNCA)
    (s : StoredNet) (hs : s ∈ storedNets) (h : Nat × ActKind) (hh : s.instant = some h) (v : List ℝ)
    (hv : v.length = s.weights) (h1 : w.1.length = h.1 * 2) (h2 : w.2.1.length = h.1 * h.1)
    (h3 : w.2.2.length = 1 * h.1) :
    ∃ b' o' κ, b.loadRaw (ncaInit disk (fuel + 1) d) w (s.raw v) = some (.ok b') ∧
      b'.kw = s.kwargs h ∧ b'.obj = some o' ∧
      o'.getParams = v ++ s.kernel.numbers ∧
      o'.tensors.map List.length = shape h.2 1 1 h.1 ∧
      (s.kernel.cfg s.radius).kernel = .ok κ ∧ o'.nbLayer = κ ∧
      o'.dt = ((s.dt.getD 0.1 : ℚ) : ℝ) := by
  obtain ⟨n1, n2, n3, n4, n5⟩ := nets_sound s hs
  have hsize : size (initialTensors h.2 w.1 w.2.1 w.2.2) = s.weights := by
    rw [size, initialTensors_shape (ext := 1) (int := 1) (hid := h.1) h.2 _ _ _ (by rw [h1]) h2 h3,
      n4 h hh, shape, actParams]
    split <;> simp <;> ring
  have hshape := initialTensors_shape (ext := 1) (int := 1) (hid := h.1) h.2 w.1 w.2.1 w.2.2
    (by rw [h1]) h2 h3
  obtain ⟨κ₀, hκ₀⟩ := (mixture_kernel_iff s.radius (defaultPeaks 3)).2
    ⟨⟨by simp [defaultPeaks], by simp [defaultPeaks]⟩, n1⟩
  have hinst : (s.raw v).instant = some (s.kwargs h) := by simp [StoredNet.raw, hh]
  obtain ⟨b₀, hb₀, hkw⟩ : ∃ b₀, ncaInit disk (fuel + 1) d (s.kwargs h) = some (.ok b₀) ∧
      b₀.kw = s.kwargs h := by
    have : ∃ o, NCAObj.defaultInit h.2 s.radius 3 (d 0).1 (d 0).2.1 (d 0).2.2 = .ok o := by
      simp [NCAObj.defaultInit, hκ₀, bind, Except.bind, pure, Except.pure]
    obtain ⟨o, this⟩ := this
    refine ⟨⟨s.kwargs h, some o⟩, ?_, rfl⟩
    simp only [ncaInit, StoredNet.kwargs, this, Except.map]
  have hdt : (s.raw v).dt.getD 0.1 = ((s.dt.getD 0.1 : ℚ) : ℝ) := by
    show (s.dt.map _).getD _ = _
    cases s.dt <;> norm_num
  have hact : b₀.kw.act = h.2 := by rw [hkw]; rfl
  have hlen : (v ++ s.kernel.numbers).length = s.weights + s.kernel.numbers.length := by
    rw [List.length_append, hv]
  have fin : ∀ κ o', (s.kernel.cfg s.radius).kernel = .ok κ →
      NCAObj.loadConfig (b₀.obj.getD (.bare b₀.kw)) (initialTensors h.2 w.1 w.2.1 w.2.2)
        ⟨s.kernel.cfg s.radius, v ++ s.kernel.numbers, (s.raw v).dt⟩ = (o', none) →
      b.loadRaw (ncaInit disk (fuel + 1) d) w (s.raw v) = some (.ok { b₀ with obj := some o' }) := by
    intro κ o' hκ ho'
    have e1 : (s.raw v).identityKernel = .ok ⟨1, identityKernel⟩ := rfl
    have e2 : (s.raw v).neighborhood = s.kernel.cfg s.radius := rfl
    have e3 : (s.raw v).params = some (v ++ s.kernel.numbers) := rfl
    have e4 : (s.kernel.cfg s.radius).radiusKey = .ok s.radius := rfl
    simp only [BuiltNCA.loadRaw, hinst, hb₀, andThen, e1, e2, e3, e4, hκ, entry, bind, Except.bind,
      hact, ho']
  rcases n2 with hm | hk
  · obtain ⟨κ, hκ⟩ := kernel_ok s.kernel (.inl hm) s.radius n1
    have hnum : s.kernel.numbers = [] := by rw [hm]; rfl
    have hkw' : (s.kernel.cfg s.radius).kwargs.getD [] = [] := by rw [hm]; rfl
    obtain ⟨o', e1, e2, e3, e4, _, e5, _⟩ := nca_load_plain (b₀.obj.getD (.bare b₀.kw))
      (initialTensors h.2 w.1 w.2.1 w.2.2) ⟨s.kernel.cfg s.radius, v ++ s.kernel.numbers, (s.raw v).dt⟩
      s.radius _ rfl hκ hkw' (by rw [hsize, hlen, hnum]; rfl)
    have e6 : o'.kernelParams = .none := by
      have := congrArg (fun x => x.1.kernelParams) e1
      rw [← this]
      obtain ⟨ts, t1, _⟩ := writeTensors_enough (initialTensors h.2 w.1 w.2.1 w.2.2)
        (v ++ s.kernel.numbers) (by rw [hsize, hlen]; omega)
      have hr : (s.kernel.cfg s.radius).radius = some s.radius := rfl
      simp only [NCAObj.loadConfig, hr, hκ, NCAObj.setParams, t1, hkw', updateKernelParams]
    refine ⟨_, o', _, fin _ _ hκ e1, hkw, rfl, ?_, e3.trans hshape, hκ, e4, e5.trans hdt⟩
    rw [NCAObj.getParams, e6, e2]
    simp
  · obtain ⟨κ, hκ, hmix, _⟩ := stored_kernel s.kernel hk s.radius n1
    obtain ⟨o', e1, e2, e3, e4, e5, e6⟩ := nca_load_vec (b₀.obj.getD (.bare b₀.kw))
      (initialTensors h.2 w.1 w.2.1 w.2.2) ⟨s.kernel.cfg s.radius, v ++ s.kernel.numbers, (s.raw v).dt⟩
      s.radius _ _ rfl hκ (numbers_kwargs s.kernel hk s.radius) (by rw [hsize]; exact hlen)
      (numbers_length s.kernel hk) n1
    refine ⟨_, o', _, fin _ _ hκ e1, hkw, rfl, e2, e3.trans hshape, hκ, ?_, e5.trans hdt⟩
    dsimp only at e4
    rw [hsize, ← hv, List.drop_left, hmix] at e4
    exact (Except.ok.inj e4).symm

/-- Such a network, weights and draws. -/
example : ∃ s ∈ storedNets, ∃ h, ∃ v : List ℝ, ∃ w : NCADraws, s.file = "neurolife_a.npy" ∧ s.instant = some h ∧
    v.length = s.weights ∧ w.1.length = h.1 * 2 ∧ w.2.1.length = h.1 * h.1 ∧
    w.2.2.length = 1 * h.1 := by
  obtain ⟨s, hs, hf, h, hh⟩ : ∃ s ∈ storedNets, s.file = "neurolife_a.npy" ∧ ∃ h, s.instant = some h := by
    have : ∃ s ∈ storedNets, s.file = "neurolife_a.npy" ∧ s.instant ≠ none := by decide +kernel
    obtain ⟨s, hs, hf, h⟩ := this
    exact ⟨s, hs, hf, Option.ne_none_iff_exists'.1 h⟩
  exact ⟨s, hs, h, List.replicate s.weights 0, (List.replicate (h.1 * 2) 0,
    List.replicate (h.1 * h.1) 0, List.replicate (1 * h.1) 0), hf, hh, by simp, by simp, by simp,
    by simp⟩

/-- What an `NCA` does with a config of a mixture kernel and any number of `params`: it raises, or its
parameters are the first of those in the file. -/
theorem nca_load_cut (o : NCAObj) (fresh : List (List ℝ)) (cfg : NCAConfig) (r : Nat) (κ₀ : AnyKernel)
    (l : List ℝ) (hr : cfg.neighborhood.radius = some r) (hκ : cfg.neighborhood.kernel = .ok κ₀)
    (hl : updateKernelParams (cfg.neighborhood.kwargs.getD []) = .vec l) (hr0 : r ≠ 0) :
    (size fresh ≤ cfg.params.length ∧ MixtureLength (min l.length (cfg.params.length - size fresh)) →
      ∃ o', o.loadConfig fresh cfg = (o', none) ∧
        o'.getParams = cfg.params.take (size fresh + l.length) ∧
        o'.tensors.map List.length = fresh.map List.length) ∧
    (¬(size fresh ≤ cfg.params.length ∧
        MixtureLength (min l.length (cfg.params.length - size fresh))) →
      ∃ e, (o.loadConfig fresh cfg).2 = some e) := by
  constructor
  · intro h
    obtain ⟨ts, h1, h2, h3⟩ := writeTensors_enough fresh cfg.params h.1
    have hlen : ((cfg.params.drop (size fresh)).take l.length).length =
        min l.length (cfg.params.length - size fresh) := by
      rw [List.length_take, List.length_drop]
    obtain ⟨κ, hκ'⟩ := (mixture_kernel_iff r ((cfg.params.drop (size fresh)).take l.length)).2
      ⟨by rw [hlen]; exact h.2, hr0⟩
    refine ⟨{ tensors := ts, kernelRadius := r, kernelPeaks := o.kernelPeaks
              kernelParams := .vec ((cfg.params.drop (size fresh)).take l.length)
              nbKernel := κ, nbLayer := κ
              nbCfg := some { cfg.neighborhood with kwargs := some (cfg.neighborhood.kwargs.getD []) }
              dt := cfg.dt.getD 0.1 }, ?_, ?_, h2⟩
    · unfold NCAObj.loadConfig
      rw [hr, hκ]
      dsimp only
      rw [NCAObj.setParams]
      simp only [h1, hl, hκ']
    · rw [NCAObj.getParams]
      simp only
      rw [h3, List.take_add]
  · intro h
    unfold NCAObj.loadConfig
    rw [hr, hκ]
    dsimp only
    rw [NCAObj.setParams]
    by_cases h1 : size fresh ≤ cfg.params.length
    · obtain ⟨ts, h2, _⟩ := writeTensors_enough fresh cfg.params h1
      have hlen : ((cfg.params.drop (size fresh)).take l.length).length =
          min l.length (cfg.params.length - size fresh) := by
        rw [List.length_take, List.length_drop]
      have hno : ¬∃ κ, gaussianMixtureKernel r ((cfg.params.drop (size fresh)).take l.length) =
          .ok κ := by
        rw [mixture_kernel_iff, hlen]
        exact fun h' => h ⟨h1, h'.1⟩
      simp only [h2, hl]
      cases hg : gaussianMixtureKernel r ((cfg.params.drop (size fresh)).take l.length) with
      | ok κ => exact (hno ⟨κ, hg⟩).elim
      | error e => exact ⟨e, rfl⟩
    · obtain ⟨k, ts, _, _, _, h2, _⟩ := writeTensors_short fresh cfg.params (by omega)
      simp only [h2]
      exact ⟨_, rfl⟩

/-- C121: the networks without `instant_kwargs` do not say what width and activation they have.
They load into an `NCA` with `n` numbers of its own exactly if `n` is at most 66317 and what is left,
cut to nine, can be a kernel; the numbers it then has are the first `n + 9` of the file.  So the
file comes back whole exactly if `n` is 66308. -/
theorem stored_clone_loads (again : NCAKwargs → Option (Except PyErr BuiltNCA)) (w : NCADraws)
    (b : BuiltNCA) (s : StoredNet) (hs : s ∈ storedNets) (hh : s.instant = none) (v : List ℝ)
    (hv : v.length = s.weights) (n : Nat) (hn : size (initialTensors b.kw.act w.1 w.2.1 w.2.2) = n) :
    (n ≤ 66317 ∧ MixtureLength (min 9 (66317 - n)) →
      ∃ b' o', b.loadRaw again w (s.raw v) = some (.ok b') ∧ b'.kw = b.kw ∧ b'.obj = some o' ∧
        o'.getParams = (v ++ s.kernel.numbers).take (n + 9) ∧
        (o'.getParams = v ++ s.kernel.numbers ↔ 66308 ≤ n)) ∧
    (¬(n ≤ 66317 ∧ MixtureLength (min 9 (66317 - n))) →
      ∃ e, b.loadRaw again w (s.raw v) = some (.error e)) := by
  obtain ⟨n1, n2, n3, n4, n5⟩ := nets_sound s hs
  obtain ⟨n6, ps, hps, hlen⟩ := n5 hh
  have hc : Complete s.kernel := by
    rcases n2 with h | h
    · rw [h] at hps; cases hps
    · exact h
  obtain ⟨κ, hκ⟩ := kernel_ok s.kernel n2 s.radius n1
  have hnum : s.kernel.numbers.length = 9 := by
    rw [hps]; simp [StoredKernel.numbers, hlen]
  have hlen : (v ++ s.kernel.numbers).length = 66317 := by rw [List.length_append, hv, hnum, n6]
  have hinst : (s.raw v).instant = none := by simp [StoredNet.raw, hh]
  have e1 : (s.raw v).identityKernel = .ok ⟨1, identityKernel⟩ := rfl
  have e2 : (s.raw v).neighborhood = s.kernel.cfg s.radius := rfl
  have e3 : (s.raw v).params = some (v ++ s.kernel.numbers) := rfl
  have e4 : (s.kernel.cfg s.radius).radiusKey = .ok s.radius := rfl
  have key := nca_load_cut (b.obj.getD (.bare b.kw)) (initialTensors b.kw.act w.1 w.2.1 w.2.2)
    ⟨s.kernel.cfg s.radius, v ++ s.kernel.numbers, (s.raw v).dt⟩ s.radius _ _ rfl hκ
    (numbers_kwargs s.kernel hc s.radius) n1
  dsimp only at key
  rw [hn, hlen, hnum] at key
  constructor
  · intro h
    obtain ⟨o', k1, k2, _⟩ := key.1 h
    refine ⟨{ b with obj := some o' }, o', ?_, rfl, rfl, k2, ?_⟩
    · simp only [BuiltNCA.loadRaw, hinst, andThen, e1, e2, e3, e4, hκ, entry, bind, Except.bind, k1]
    · rw [k2, List.take_eq_self_iff, hlen]
      omega
  · intro h
    obtain ⟨e, k1⟩ := key.2 h
    refine ⟨e, ?_⟩
    simp only [BuiltNCA.loadRaw, hinst, andThen, e1, e2, e3, e4, hκ, entry, bind, Except.bind]
    cases hl : NCAObj.loadConfig (b.obj.getD (.bare b.kw)) (initialTensors b.kw.act w.1 w.2.1 w.2.2)
        ⟨s.kernel.cfg s.radius, v ++ s.kernel.numbers, (s.raw v).dt⟩ with
    | mk o' e' =>
      rw [hl] at k1
      dsimp only at k1
      subst k1
      rfl

/-- C121: so the `NCA()` of the command line, with 64 hidden channels and Gaussian activations, loads
such a file without a word and holds 4301 of its 66317 numbers. -/
theorem stored_clone_default_refuted (again : NCAKwargs → Option (Except PyErr BuiltNCA))
    (w : NCADraws) (b : BuiltNCA) (hb : b.kw.act = .gaussian) (h1 : w.1.length = 64 * 2)
    (h2 : w.2.1.length = 64 * 64) (h3 : w.2.2.length = 1 * 64) (s : StoredNet) (hs : s ∈ storedNets)
    (hh : s.instant = none) (v : List ℝ) (hv : v.length = s.weights) :
    ∃ b' o', b.loadRaw again w (s.raw v) = some (.ok b') ∧ b'.obj = some o' ∧
      o'.getParams = v.take 4301 ∧ o'.getParams ≠ v ++ s.kernel.numbers := by
  have hsize : size (initialTensors b.kw.act w.1 w.2.1 w.2.2) = 4292 := by
    rw [size, initialTensors_shape (ext := 1) (int := 1) (hid := 64) _ _ _ _ (by rw [h1]) h2 h3, hb]
    rfl
  have key := (stored_clone_loads again w b s hs hh v hv 4292 hsize).1
    ⟨by norm_num, by norm_num [MixtureLength]⟩
  obtain ⟨b', o', k1, _, k3, k4, k5⟩ := key
  obtain ⟨_, _, _, _, n5⟩ := nets_sound s hs
  refine ⟨b', o', k1, k3, ?_, ?_⟩
  · rw [k4, List.take_append_of_le_length (by rw [hv, (n5 hh).1]; norm_num)]
  · intro h
    exact absurd (k5.1 h) (by norm_num)

/-- Such a file, and draws for such an `NCA`. -/
example : ∃ s ∈ storedNets, s.instant = none ∧ s.weights = 66308 ∧ (∃ v : List ℝ, v.length = s.weights) ∧
    ∃ w : NCADraws, w.1.length = 64 * 2 ∧ w.2.1.length = 64 * 64 ∧ w.2.2.length = 1 * 64 := by
  obtain ⟨s, hs, h⟩ : ∃ s ∈ storedNets, s.instant = none := by decide +kernel
  obtain ⟨_, _, _, _, n5⟩ := nets_sound s hs
  exact ⟨s, hs, h, (n5 h).1, ⟨List.replicate s.weights 0, by simp⟩, (List.replicate (64 * 2) 0,
    List.replicate (64 * 64) 0, List.replicate (1 * 64) 0), List.length_replicate,
    List.length_replicate, List.length_replicate⟩

/-- C121: the uskate file raises in every `NCA`. -/
theorem uskate_in_nca (again : NCAKwargs → Option (Except PyErr BuiltNCA)) (w : NCADraws)
    (b : BuiltNCA) : ∃ e, b.loadRaw again w storedUskate = some (.error e) := by
  have e0 : storedUskate.instant = none := rfl
  have e1 : storedUskate.identityKernel = .ok ⟨1, identityKernel⟩ := rfl
  have e3 : ∃ v, storedUskate.params = some v := ⟨_, rfl⟩
  obtain ⟨v, e3⟩ := e3
  have e4 : storedUskate.neighborhood.radiusKey = .ok 1 := rfl
  simp only [BuiltNCA.loadRaw, e0, andThen, e1, e3, e4, uskate_kernel, entry, bind, Except.bind]
  have key : ∃ e, (NCAObj.loadConfig (b.obj.getD (.bare b.kw))
      (initialTensors b.kw.act w.1 w.2.1 w.2.2) ⟨storedUskate.neighborhood, v, storedUskate.dt⟩).2 =
      some e := by
    by_cases h : size (initialTensors b.kw.act w.1 w.2.1 w.2.2) ≤ v.length
    · exact ⟨_, nca_load_scalar _ _ _ 1 _ 0.5 rfl uskate_kernel rfl h⟩
    · obtain ⟨k, ts, _, _, _, h2, _⟩ := writeTensors_short
        (initialTensors b.kw.act w.1 w.2.1 w.2.2) v (by omega)
      have hr : storedUskate.neighborhood.radius = some 1 := rfl
      simp only [NCAObj.loadConfig, hr, uskate_kernel, NCAObj.setParams, h2]
      exact ⟨_, rfl⟩
  obtain ⟨e, k1⟩ := key
  refine ⟨e, ?_⟩
  cases hl : NCAObj.loadConfig (b.obj.getD (.bare b.kw)) (initialTensors b.kw.act w.1 w.2.1 w.2.2)
      ⟨storedUskate.neighborhood, v, storedUskate.dt⟩ with
  | mk o' e' =>
    rw [hl] at k1
    dsimp only at k1
    subst k1
    rfl

/-- C121: the uskate file loads into every `RxnDfn` and makes it, but for the rounding of six numbers,
a new `RxnDfn`. -/
theorem uskate_in_rxn (o : RxnObj) : ∃ o', o.loadRaw storedUskate = .ok o' ∧
    o'.nbLayer = RxnObj.new.nbLayer ∧ o'.idLayer = RxnObj.new.idLayer ∧ o'.dt = RxnObj.new.dt ∧
    |o'.diffU - RxnObj.new.diffU| ≤ 1e-12 ∧ |o'.diffV - RxnObj.new.diffV| ≤ 1e-12 ∧
    |o'.f - RxnObj.new.f| ≤ 2e-9 ∧ |o'.k - RxnObj.new.k| ≤ 2e-9 ∧
    |o'.dx - RxnObj.new.dx| ≤ 1e-9 := by
  have hi : storedUskate.rxn.identityKernel = .ok ⟨1, identityKernel⟩ := rfl
  have hk : storedUskate.rxn.neighborhood.kernel = .ok _ := uskate_kernel
  have hp : storedUskate.rxn.params = some [1.9999999494757503e-05, 9.999999747378752e-06,
    0.06199999898672104, 0.0608999989926815] := rfl
  refine ⟨?_, ?_, ?_⟩
  rotate_left
  · simp only [RxnObj.loadRaw, RxnObj.loadConfig, hk, hi, hp, bind, Except.bind, RxnObj.setParams]
    rfl
  · refine ⟨rfl, rfl, rfl, ?_, ?_, ?_, ?_, ?_⟩ <;>
    · simp only [RxnObj.new, storedUskate, RawConfig.rxn, Option.getD_some]
      norm_num [abs_le]

/-- C121: the files for `CCA` load into every `CCA`. -/
theorem stored_rule_loads (fs : Files) (fuel : Nat) (d : Nat → Draws) (o : CCAObj) (c : Stored)
    (hc : (∃ s ∈ storedRules, c = .rule s) ∨ ∃ s, c = .life s) (v : StoredNet → List ℝ) :
    ∃ o', o.loadRaw fs fuel d (c.raw v) = some (.ok o') := by
  rcases hc with ⟨s, hs, rfl⟩ | ⟨s, rfl⟩
  · obtain ⟨κ, h, _⟩ := rule_loaded fs fuel d o s (rules_sound s hs)
    exact ⟨_, h⟩
  · obtain ⟨⟨i, h1⟩, ⟨r, h2⟩, ⟨κ, h3⟩⟩ := life_kernels s
    have key : ∀ c : Config, s.raw = c.raw → c.instant = none →
        (∃ g, Act.ofCfg c.genesis = .ok g) → (∃ p, Act.ofCfg c.persistence = .ok p) →
        ∃ o', o.loadRaw fs fuel d s.raw = some (.ok o') := by
      rintro c hs hi ⟨g, hg⟩ ⟨p, hp⟩
      rw [hs] at h1 h2 h3 ⊢
      have := (applyConfig_ok_iff o c (d 0).seq _).2 ⟨i, r, κ, g, p, h1, h2, h3, hg, hp, rfl⟩
      refine ⟨loaded o c (d 0).seq i κ r g p, ?_⟩
      rw [load_raw _ _ _ _ _ hi, CCAObj.loadConfig, hi]
      simp only [this]
    cases s
    · exact key storedConway rfl rfl ⟨_, rfl⟩ ⟨_, rfl⟩
    · exact key storedMorley rfl rfl ⟨_, rfl⟩ ⟨_, rfl⟩
    · exact key storedSmooth rfl rfl ⟨_, rfl⟩ ⟨_, rfl⟩

/-! ## The pattern library -/

/-- The config of a name. -/
def Spec.configOf (file : String) : Option Stored := storedConfigs.find? fun c => c.file = file

/-- The class a config is for. -/
inductive Spec.ConfigClass where
  | cca
  | nca
  | rxn
  deriving DecidableEq

/-- The class of a config. -/
def Spec.classOf : Stored → ConfigClass
  | .rule _ => .cca
  | .life _ => .cca
  | .net _ => .nca
  | .uskate => .rxn

/-- C121: no two files have the same name, every pattern of the library names one of them, and
36 patterns need a `CCA`, 7 an `NCA` and 6 a `RxnDfn`. -/
theorem zoo_configs :
    (storedConfigs.map Stored.file).Nodup ∧ (zooConfigs.map Prod.fst).Nodup ∧
    (∀ p ∈ zooConfigs, ∃ c ∈ storedConfigs, c.file = p.2) ∧
    (zooConfigs.countP fun p => (configOf p.2).map classOf = some .cca) = 36 ∧
    (zooConfigs.countP fun p => (configOf p.2).map classOf = some .nca) = 7 ∧
    (zooConfigs.countP fun p => (configOf p.2).map classOf = some .rxn) = 6 := by
  refine ⟨by decide +kernel, by decide +kernel, by decide +kernel, by decide +kernel,
    by decide +kernel, by decide +kernel⟩

/-- C121: the networks the pattern library names all say their width and activation. -/
theorem zoo_networks : ∀ p ∈ zooConfigs, ∀ s ∈ storedNets, s.file = p.2 → ∃ h, s.instant = some h := by
  have : ∀ p ∈ zooConfigs, ∀ s ∈ storedNets, s.file = p.2 → s.instant ≠ none := by decide +kernel
  intro p hp s hs h
  exact Option.ne_none_iff_exists'.1 (this p hp s hs h)

/-- C121: whatever automaton is used, the config of some pattern of the library raises in it. -/
theorem zoo_needs_classes (v : StoredNet → List ℝ) :
    (∀ fs fuel d (o : CCAObj), ∃ p ∈ zooConfigs, ∃ c ∈ storedConfigs, c.file = p.2 ∧
      o.loadRaw fs fuel d (c.raw v) = some (.error .key)) ∧
    (∀ o : RxnObj, ∃ p ∈ zooConfigs, ∃ c ∈ storedConfigs, c.file = p.2 ∧
      o.loadRaw (c.raw v) = .error .key) ∧
    ∀ again w (b : BuiltNCA), ∃ p ∈ zooConfigs, ∃ c ∈ storedConfigs, c.file = p.2 ∧
      b.loadRaw again w (c.raw v) = some (.error .key) := by
  have hl : Stored.life .conway ∈ storedConfigs := by decide +kernel
  have hp : ("gol_reflex_glider000", "conway_life.npy") ∈ zooConfigs := by decide +kernel
  have e := stored_rule_elsewhere (.life .conway) (.inr ⟨_, rfl⟩) v
  refine ⟨fun fs fuel d o => ?_, fun o => ⟨_, hp, _, hl, rfl, e.1 o⟩,
    fun again w b => ⟨_, hp, _, hl, rfl, e.2 again w b⟩⟩
  refine ⟨("uskate_glider000", "uskate_rxndfn.npy"), by decide +kernel, .uskate, by decide +kernel, rfl,
    ?_⟩
  show o.loadRaw fs fuel d storedUskate = _
  simp only [CCAObj.loadRaw, show storedUskate.instant = none from rfl, andThen, uskate_in_cca]

end Yuca
