import Verif.Model.Tests
import Verif.Props.Stored
import Verif.Props.Options

/-!
# What the project's own tests establish (C122)
-/

namespace Yuca

open Arith Spec

/-! ## Assertions and loops -/

theorem check_ok {p : Prop} : check p = .ok () ↔ p := by
  unfold check
  split <;> simp [*]

theorem check_yes {p : Prop} (h : p) : check p = .ok () := check_ok.2 h

theorem check_not {p : Prop} (h : ¬ p) : check p = .error .assertion := by
  unfold check
  rw [if_neg h]

theorem each_ok {β : Type} {f : β → Except PyErr Unit} : ∀ {l : List β},
    each f l = .ok () ↔ ∀ x ∈ l, f x = .ok ()
  | [] => by simp [each]
  | x :: xs => by
    simp only [each, List.mem_cons, forall_eq_or_imp, ← each_ok (l := xs)]
    cases h : f x with
    | error e => simp [bind, Except.bind]
    | ok u => simp [bind, Except.bind]

theorem zip_abs_nonneg : ∀ a b : List ℝ, 0 ≤ (List.zipWith (fun x y => |x - y|) a b).sum
  | [], _ => by simp
  | _ :: _, [] => by simp
  | x :: xs, y :: ys => by
    simp only [List.zipWith_cons_cons, List.sum_cons]
    exact add_nonneg (abs_nonneg _) (zip_abs_nonneg xs ys)

theorem zip_abs_zero : ∀ a b : List ℝ, a.length = b.length →
    ((List.zipWith (fun x y => |x - y|) a b).sum = 0 ↔ a = b)
  | [], [], _ => by simp
  | [], _ :: _, h => by simp at h
  | _ :: _, [], h => by simp at h
  | x :: xs, y :: ys, h => by
    have ih := zip_abs_zero xs ys (by simpa using h)
    have h0 := zip_abs_nonneg xs ys
    simp only [List.zipWith_cons_cons, List.sum_cons, List.cons.injEq]
    constructor
    · intro hs
      have h1 := abs_nonneg (x - y)
      exact ⟨sub_eq_zero.1 (abs_eq_zero.1 (by linarith)), ih.1 (by linarith)⟩
    · rintro ⟨rfl, h2⟩
      rw [ih.2 h2]; simp

theorem sumAbs_ok {a b : List ℝ} (h : a.length = b.length) :
    ∃ s, sumAbs a b = .ok s ∧ (0 = s ↔ a = b) := by
  refine ⟨_, if_pos h, ?_⟩
  rw [eq_comm, zip_abs_zero a b h]

/-- The assertions on five parameter vectors of the same length. -/
theorem compareParams_ok {p₁ p₁' p₂ p₃ p₄ : List ℝ} (h1 : p₁.length = p₁'.length)
    (h2 : p₁.length = p₂.length) (h3 : p₁.length = p₃.length) (h4 : p₁.length = p₄.length) :
    compareParams p₁ p₁' p₂ p₃ p₄ = .ok () ↔
      p₁ = p₁' ∧ p₁ = p₂ ∧ p₁ ≠ p₃ ∧ p₂ ≠ p₃ ∧ p₁ = p₄ := by
  obtain ⟨s1, e1, f1⟩ := sumAbs_ok h1
  obtain ⟨s2, e2, f2⟩ := sumAbs_ok h2
  obtain ⟨s3, e3, f3⟩ := sumAbs_ok h3
  obtain ⟨s4, e4, f4⟩ := sumAbs_ok h4
  obtain ⟨s5, e5, f5⟩ := sumAbs_ok (h2.symm.trans h3)
  unfold compareParams
  simp only [e1, e2, e3, e4, e5, bind, Except.bind]
  by_cases c1 : p₁ = p₁'
  · rw [check_ok.2 (f1.2 c1)]
    by_cases c2 : p₁ = p₂
    · rw [check_ok.2 (f2.2 c2)]
      by_cases c3 : p₁ = p₃
      · rw [check_not (p := 0 ≠ s3) (by simpa using f3.2 c3)]
        simp [c3]
      · rw [check_yes (p := 0 ≠ s3) (fun h => c3 (f3.1 h))]
        by_cases c5 : p₂ = p₃
        · exact absurd (c2.trans c5) c3
        · rw [check_yes (p := 0 ≠ s5) (fun h => c5 (f5.1 h))]
          simp only [check_ok, f4]
          tauto
    · rw [check_not fun h => c2 (f2.1 h)]
      simp [c2]
  · rw [check_not fun h => c1 (f1.1 h)]
    simp [c1]

theorem compareConfigs_ok {k : List String} {p : Except PyErr Unit} :
    compareConfigs k k k p = .ok () ↔ ("params" ∈ k → p = .ok ()) := by
  unfold compareConfigs
  rw [each_ok]
  constructor
  · intro h hk
    have := h _ hk
    rw [check_ok.2 hk] at this
    simpa [bind, Except.bind] using this
  · intro h key hk
    rw [check_ok.2 hk]
    by_cases hp : key = "params"
    · subst hp
      simpa [bind, Except.bind] using h hk
    · simp [bind, Except.bind, hp]

/-! ## New automata -/

namespace Spec

/-- The random numbers of a new `CCA` with three kernel peaks: nine for the kernel. -/
def Drawn (d : Draws) : Prop := d.kernel.length = 9

end Spec

theorem drawn_mixture {d : Draws} (h : Drawn d) : MixtureLength d.kernel.length := by
  rw [h]; exact ⟨by decide, .inl rfl⟩

/-- Nine numbers drawn. -/
noncomputable def Witness.drawn (coin : Bool) : Draws where
  kernel := List.replicate 9 0.3
  channel _ := ⟨0.2, 0.05, coin, coin, [], []⟩
  seq := (fun _ _ => 0.5, fun _ _ => 0.5)

theorem Witness.drawn_drawn (coin : Bool) : Drawn (Witness.drawn coin) := by
  simp [Drawn, Witness.drawn]

/-- A new `CCA` with the default radius. -/
theorem fresh_cca (kw : InstantKwargs) (d : Draws) (he : kw.extN ≠ 0) (hi : kw.intN ≠ 0)
    (hr : kw.radius = 13) (hd : MixtureLength d.kernel.length) :
    ∃ o, CCAObj.defaultInit kw d = .ok o ∧ o.kw = kw ∧ o.t = 0 ∧ o.idLayer = ⟨1, identityKernel⟩ ∧
      o.nbLayer.1 = 13 ∧ o.kernelParams = .vec d.kernel ∧ o.kernelRadius = 13 ∧
      o.genesis.length = (if kw.ca = .other then 0 else kw.intN) ∧
      o.persistence.length = (if kw.ca = .other then 0 else kw.intN) := by
  obtain ⟨κ, hκ⟩ := (mixture_kernel_iff kw.radius d.kernel).2 ⟨hd, by omega⟩
  unfold CCAObj.defaultInit
  rw [if_neg he, if_neg hi, hκ]
  refine ⟨_, rfl, rfl, rfl, rfl, (mixture_kernel_radius hκ).trans hr, rfl, hr, ?_, ?_⟩ <;>
  · dsimp only
    split <;> simp

theorem fresh_twice (kw : InstantKwargs) (d d' : Draws) (he : kw.extN ≠ 0) (hi : kw.intN ≠ 0)
    (hr : kw.radius = 13) (hd : MixtureLength d.kernel.length) :
    CCAObj.newTwice kw d d' = CCAObj.defaultInit kw { d' with kernel := d.kernel } := by
  obtain ⟨o, ho, _⟩ := fresh_cca kw d he hi hr hd
  unfold CCAObj.newTwice
  rw [ho]; rfl

/-! ## testing/yuca/ca/test_continuous.py -/

/-- C122: `test_get_frame` passes whatever is drawn. -/
theorem test_get_frame_passes (d d' : Draws) (hd : Drawn d) (rand : Nat → Nat → Nat → Nat → ℝ) :
    testGetFrame d d' rand = .ok () := by
  obtain ⟨o, ho, hkw, ht, hid, hnb, _, _, hg, hp⟩ := fresh_cca {} { d' with kernel := d.kernel }
    (by decide) (by decide) rfl (drawn_mixture hd)
  unfold testGetFrame
  rw [fresh_twice {} d d' (by decide) (by decide) rfl (drawn_mixture hd), ho]
  show each (testFrameMode o rand) _ = _
  have P : Plain o.dynamics :=
    { mode := by show o.kw.mode = _; rw [hkw]; rfl
      idLayer := hid
      functional := by
        show (if o.kw.ca = .functional then none else _) = _
        rw [hkw]; rfl
      ext_pos := by show 0 < o.kw.extN; rw [hkw]; decide
      dvd := by show o.kw.extN ∣ o.kw.intN; rw [hkw]; decide
      gen := by show o.genesis.length = o.kw.intN; rw [hg, hkw]; rfl
      per := by show o.persistence.length = o.kw.intN; rw [hp, hkw]; rfl }
  have hR : o.dynamics.nbLayer.1 ≤ 32 := by
    show o.nbLayer.1 ≤ 32
    omega
  obtain ⟨new, nb, upd, _, _, _, f0, f1, f2, f3, f4, _⟩ := frame_rule P o.t
    (tensor 1 o.dynamics.ext 32 32 rand) ⟨by omega, hR⟩ ⟨by omega, hR⟩
  rw [each_ok]
  intro m hm
  simp only [List.mem_cons, List.not_mem_nil, or_false] at hm
  unfold testFrameMode
  rcases hm with rfl | rfl | rfl | rfl | rfl
  · rw [show ((0 : ℕ) : ℤ) = 0 from rfl, f0]
    simp [bind, Except.bind, Frame.len, check_ok]
  · rw [show ((1 : ℕ) : ℤ) = 1 from rfl, f1]
    simp [bind, Except.bind, Frame.len, check_ok]
  · rw [show ((2 : ℕ) : ℤ) = 2 from rfl, f2]
    simp [bind, Except.bind, Frame.len, check_ok]
  · rw [show ((3 : ℕ) : ℤ) = 3 from rfl, f3]
    simp [bind, Except.bind, Frame.len, check_ok]
  · rw [show ((4 : ℕ) : ℤ) = 4 from rfl, f4]
    simp [bind, Except.bind, Frame.len, check_ok]

/-- Such draws. -/
example : testGetFrame (Witness.drawn true) (Witness.drawn false) (fun _ _ i j => i + 2 * j) = .ok () :=
  test_get_frame_passes _ _ (Witness.drawn_drawn _) _

/-- C122: `test_configs` of `CCA` asserts nothing about what `restore_config` restores: it passes with
every `restore_config` that returns, because the config of a `CCA` has no `params`. -/
theorem test_configs_blind (restore : Config → CCAObj → Option (Except PyErr CCAObj))
    (d₁ d₂ : Draws) (h1 : Drawn d₁) (h2 : Drawn d₂)
    (hr : ∀ o₁, CCAObj.defaultInit {} d₁ = .ok o₁ → ∀ o,
      ∃ o', restore o₁.makeConfig.2.makeConfig.2.makeConfig.1 o = some (.ok o')) :
    testConfigsCCA restore d₁ d₂ = some (.ok ()) := by
  obtain ⟨o₁, e1, _⟩ := fresh_cca {} d₁ (by decide) (by decide) rfl (drawn_mixture h1)
  obtain ⟨o₂, e2, _⟩ := fresh_cca {} d₂ (by decide) (by decide) rfl (drawn_mixture h2)
  unfold testConfigsCCA
  rw [e1, e2]
  dsimp only [andThen]
  obtain ⟨a, ha⟩ := hr o₁ e1 o₁.makeConfig.2.makeConfig.2.makeConfig.2
  obtain ⟨b, hb⟩ := hr o₁ e1 o₂.makeConfig.2
  rw [ha]
  dsimp only
  rw [hb]
  dsimp only
  rw [compareConfigs_ok.2 fun h => absurd h (by decide)]

/-- A `restore_config` that does nothing at all. -/
example : testConfigsCCA (fun _ o => some (.ok o)) (Witness.drawn true) (Witness.drawn false) =
    some (.ok ()) :=
  test_configs_blind _ _ _ (Witness.drawn_drawn _) (Witness.drawn_drawn _) fun _ _ o => ⟨o, rfl⟩

/-- The config `test_configs` saves: its third `make_config` of a new `CCA`. -/
theorem saved_third (d : Draws) (hd : Drawn d) :
    ∃ o, CCAObj.defaultInit {} d = .ok o ∧ o.genesis = [(defaultFns 0 (d.channel 0)).1] ∧
      ∃ kw, (kw.extN = 1 ∧ kw.intN = 1 ∧ kw.radius = 13 ∧ kw.caConfig = none) ∧
      o.makeConfig.2.makeConfig.2.makeConfig.1 =
        { instant := some kw, idKernelConfig := some ⟨"InnerMoore", none, none⟩
          neighborhood := ⟨"GaussianMixture", some 13, some [("parameters", .vec d.kernel)]⟩
          genesis := { assumedGrowth with parameters := some (.vec (readActs o.genesis)) }
          persistence := { assumedGrowth with parameters := some (.vec (readActs o.persistence)) }
          dt := some 0.1 } ∧
      (readActs o.genesis).length = 2 ∧ (readActs o.persistence).length = 2 := by
  obtain ⟨κ, hκ⟩ := (mixture_kernel_iff (InstantKwargs.radius {}) d.kernel).2
    ⟨drawn_mixture hd, by decide⟩
  refine ⟨_, by unfold CCAObj.defaultInit; rw [if_neg (by decide), if_neg (by decide), hκ]; rfl, ?_,
    ?_⟩
  · rfl
  refine ⟨_, ⟨?_, ?_, ?_, ?_⟩, rfl, ?_, ?_⟩
  · rfl
  · rfl
  · rfl
  · rfl
  · show (readActs [(defaultFns 0 (d.channel 0)).1]).length = 2
    unfold defaultFns
    rw [if_pos (by decide)]
    cases (d.channel 0).coinGen <;> rfl
  · show (readActs [(defaultFns 0 (d.channel 0)).2]).length = 2
    unfold defaultFns
    rw [if_pos (by decide)]
    cases (d.channel 0).coinPer <;> rfl

theorem length_two {l : List ℝ} (h : l.length = 2) : ∃ a b, l = [a, b] := by
  match l, h with
  | [a, b], _ => exact ⟨a, b, rfl⟩

/-- Loading that config. -/
theorem saved_restored (fs : Files) (fuel : Nat) (d : Nat → Draws) (hd : Drawn (d 1)) (d₁ : Draws)
    (h1 : Drawn d₁) (o₁ : CCAObj) (ho : CCAObj.defaultInit {} d₁ = .ok o₁) (o : CCAObj) :
    ∃ o' m s, o.loadConfig fs (fuel + 1) d o₁.makeConfig.2.makeConfig.2.makeConfig.1 =
      some (.ok o') ∧ readActs o₁.genesis = [m, s] ∧ o'.genesis = [.mixture [(1, m, s)] true] := by
  obtain ⟨o₁', ho', _, kw, ⟨k1, k2, k3, k4⟩, hc, l1, l2⟩ := saved_third d₁ h1
  cases ho.symm.trans ho'
  obtain ⟨m, s, e1⟩ := length_two l1
  obtain ⟨m', s', e2⟩ := length_two l2
  obtain ⟨κ, hκ⟩ := (mixture_kernel_iff 13 d₁.kernel).2 ⟨drawn_mixture h1, by decide⟩
  obtain ⟨o'', hi, _⟩ := init_plain fs fuel (fun n => d (n + 1)) kw (by omega) (by omega) (by omega)
    (drawn_mixture hd) (by rw [k4]; rfl)
  rw [hc, e1, e2]
  have hg : ∀ a b : ℝ, Act.ofCfg { assumedGrowth with parameters := some (.vec [a, b]) } =
      .ok (.mixture [(1, a, b)] true) := by
    intro a b
    simp [assumedGrowth, Act.ofCfg, mixtureComponents, mixtureComponents.pairs, bind, Except.bind,
      pure, Except.pure]
  let cfg : Config :=
    { instant := some kw, idKernelConfig := some ⟨"InnerMoore", none, none⟩
      neighborhood := ⟨"GaussianMixture", some 13, some [("parameters", .vec d₁.kernel)]⟩
      genesis := { assumedGrowth with parameters := some (.vec [m, s]) }
      persistence := { assumedGrowth with parameters := some (.vec [m', s']) }
      dt := some 0.1 }
  have happ := (applyConfig_ok_iff o'' cfg (d 0).seq _).2
    ⟨⟨1, identityKernel⟩, 13, κ, _, _, rfl, rfl, (mixture_cfg_kernel 13 d₁.kernel).trans hκ, hg m s,
      hg m' s', rfl⟩
  refine ⟨loaded o'' cfg (d 0).seq ⟨1, identityKernel⟩ κ 13 (.mixture [(1, m, s)] true)
    (.mixture [(1, m', s')] true), m, s, ?_, rfl, rfl⟩
  unfold CCAObj.loadConfig
  dsimp only
  rw [hi]
  dsimp only
  rw [happ]

/-- C122: with the actual `restore_config` the test passes whatever is drawn, also when the first
automaton has drawn a `DoGaussian` and what is restored is another function. -/
theorem test_configs_misses (fs : Files) (fuel : Nat) (d : Nat → Draws) (hd : Drawn (d 1))
    (d₁ d₂ : Draws) (h1 : Drawn d₁) (h2 : Drawn d₂) :
    testConfigsCCA (fun c o => o.loadConfig fs (fuel + 1) d c) d₁ d₂ = some (.ok ()) ∧
    ((d₁.channel 0).coinGen = false →
      ∃ o₁ o' g g', CCAObj.defaultInit {} d₁ = .ok o₁ ∧
        o₁.loadConfig fs (fuel + 1) d o₁.makeConfig.2.makeConfig.2.makeConfig.1 = some (.ok o') ∧
        o₁.genesis = [g] ∧ o'.genesis = [g'] ∧ ∃ x, g'.eval x ≠ g.eval x) := by
  obtain ⟨o₁, e1, hgen, _⟩ := saved_third d₁ h1
  refine ⟨test_configs_blind _ d₁ d₂ h1 h2 fun o ho o' => ?_, fun hc => ?_⟩
  · obtain ⟨r, _, _, hr, _⟩ := saved_restored fs fuel d hd d₁ h1 o ho o'
    exact ⟨r, hr⟩
  · obtain ⟨o', m, s, hr, hm, hg'⟩ := saved_restored fs fuel d hd d₁ h1 o₁ e1 o₁
    refine ⟨o₁, o', _, _, e1, hr, hgen, hg', m, ?_⟩
    rw [hgen] at hm
    unfold defaultFns at hm ⊢
    rw [if_pos (by decide)] at hm ⊢
    simp only [hc, Bool.false_eq_true, if_false] at hm ⊢
    have hm' : clip01 (0.15 * (1 + (d₁.channel 0).nMu * 0.1)) = m := by
      simpa [readActs, readTensors, Act.tensors] using (List.cons.inj hm).1
    rw [hm']
    have hb : bump m s m = 1 := by simp [bump]
    have p1 := Real.exp_pos (-((m + 0.01 - m) / (eps9 +
      clip01 (0.015 * (1 + (d₁.channel 0).nSigma * 0.01)))) ^ 2 / 2)
    have hs : ∀ σ, bump m σ (m + 0.01) = bump m σ (m - 0.01) := by
      intro σ
      unfold bump
      congr 2
      rw [show m + 0.01 - m = 0.01 by ring, show m - 0.01 - m = -0.01 by ring, neg_div, neg_sq]
    simp only [Act.eval, mixtureFn, doGaussianFn, if_true, List.map_cons, List.map_nil, List.sum_cons,
      List.sum_nil, hb, hs]
    have p2 : 0 < bump m (clip01 (0.015 * (1 + (d₁.channel 0).nSigma * 0.01))) (m - 0.01) :=
      Real.exp_pos _
    unfold clampR
    norm_num
    intro h
    linarith

/-- A `DoGaussian` drawn for genesis. -/
example : Drawn (Witness.drawn false) ∧ ((Witness.drawn false).channel 0).coinGen = false :=
  ⟨Witness.drawn_drawn _, rfl⟩

/-- One round of `test_id_conv`, for any number of channels. -/
theorem identity_tested (C : Nat) (hC : 0 < C) (rand : Nat → Nat → Nat → Nat → ℝ) :
    testIdentity C (identityLayer C C .circular) rand = .ok () := by
  obtain ⟨y, hy, h⟩ := identity_copies (N := 1) (H := 32) (W := 32) hC (dvd_refl C) .circular
    (by decide) (by decide) (tensor 1 C 32 32 rand)
  have he : y = tensor 1 C 32 32 rand := by
    funext n o i j
    exact h n o i j o (by rw [Nat.div_self hC, Nat.div_one])
  unfold testIdentity
  dsimp only
  rw [hy, he]
  simp only [bind, Except.bind, sub_self, Finset.sum_const_zero]
  rw [check_yes (by unfold AlmostEqual; norm_num)]
  exact check_yes trivial

/-- C122: `test_id_conv` of `CCA` passes whatever is drawn. -/
theorem test_id_conv_passes (d : Nat → Draws) (hd : ∀ c, Drawn (d c))
    (rand : Nat → Nat → Nat → Nat → ℝ) : testIdConv d rand = .ok () := by
  unfold testIdConv
  rw [each_ok]
  intro c hc
  have h0 : 0 < c := by
    simp only [List.mem_cons, List.not_mem_nil, or_false] at hc
    omega
  obtain ⟨o, ho, hkw, _, hid, _⟩ := fresh_cca { int := some c, ext := some c } (d c)
    (Nat.pos_iff_ne_zero.1 h0) (Nat.pos_iff_ne_zero.1 h0) rfl (drawn_mixture (hd c))
  rw [ho]
  simp only [bind, Except.bind]
  have hm : o.kw.mode = .circular := by rw [hkw]; rfl
  rw [hm, hid]
  exact identity_tested c h0 rand

/-- Such draws. -/
example : testIdConv (fun _ => Witness.drawn true) (fun _ c i j => c + i + 2 * j) = .ok () :=
  test_id_conv_passes _ (fun _ => Witness.drawn_drawn _) _

/-- A new automaton steps on 32 × 32 cells. -/
theorem fresh_steps (o : CCAObj) (hm : o.kw.mode = .circular) (hid : o.idLayer = ⟨1, identityKernel⟩)
    (hnb : o.nbLayer.1 = 13) (hg : o.genesis.length = o.kw.intN)
    (hp : o.persistence.length = o.kw.intN) (rand : Nat → Nat → Nat → Nat → ℝ) (N : Nat) :
    stepShape rand o N = .ok [N, o.kw.extN, 32, 32] := by
  have hf := (cca_runs_iff (o.dynamics.toCCA o.t) (tensor N o.dynamics.ext 32 32 rand)).2
    ⟨⟨by show (2 * o.idLayer.1 + 1) % 2 = 1; omega,
      by show padOK o.kw.mode ((2 * o.idLayer.1 + 1 - 1) / 2) 32 = true; rw [hm, hid]; decide,
      by show padOK o.kw.mode ((2 * o.idLayer.1 + 1 - 1) / 2) 32 = true; rw [hm, hid]; decide⟩,
     ⟨by show (2 * o.nbLayer.1 + 1) % 2 = 1; omega,
      by show padOK o.kw.mode ((2 * o.nbLayer.1 + 1 - 1) / 2) 32 = true; rw [hm, hnb]; decide,
      by show padOK o.kw.mode ((2 * o.nbLayer.1 + 1 - 1) / 2) 32 = true; rw [hm, hnb]; decide⟩,
     by show (o.genesis.map Act.eval).length = o.kw.intN; rw [List.length_map, hg],
     by show (o.persistence.map Act.eval).length = o.kw.intN; rw [List.length_map, hp]⟩
  obtain ⟨r, hr⟩ := hf
  unfold stepShape
  rw [hr]
  rfl

theorem fresh_steps' (kw : InstantKwargs) (d : Draws) (he : kw.extN ≠ 0) (hi : kw.intN ≠ 0)
    (hr : kw.radius = 13) (hm : kw.mode = .circular) (hc : kw.ca ≠ .other)
    (hd : MixtureLength d.kernel.length) :
    ∃ o, CCAObj.defaultInit kw d = .ok o ∧ o.kw = kw ∧ o.kernelParams = .vec d.kernel ∧
      ∀ rand N, stepShape rand o N = .ok [N, kw.extN, 32, 32] := by
  obtain ⟨o, ho, hkw, _, hid, hnb, hk, _, hg, hp⟩ := fresh_cca kw d he hi hr hd
  rw [if_neg hc] at hg hp
  refine ⟨o, ho, hkw, hk, fun rand N => ?_⟩
  rw [fresh_steps o (by rw [hkw]; exact hm) hid hnb (by rw [hkw]; exact hg) (by rw [hkw]; exact hp),
    hkw]

/-- C122: `test_alive_mask`, which asserts nothing, raises nothing. -/
theorem test_alive_mask_passes (d d' : Draws) (hd : Drawn d) (rand : Nat → Nat → Nat → Nat → ℝ) :
    testAliveMask (stepShape rand) d d' = .ok () := by
  obtain ⟨o, ho, _, _, hs⟩ := fresh_steps' { ext := some 4 } { d' with kernel := d.kernel }
    (by decide) (by decide) rfl rfl (by decide) (drawn_mixture hd)
  unfold testAliveMask
  rw [fresh_twice _ d d' (by decide) (by decide) rfl (drawn_mixture hd), ho]
  simp only [bind, Except.bind, hs]
  rfl

/-- C122: nor would it fail if the mask, or anything else in the step, were wrong. -/
theorem test_alive_mask_blind (step : CCAObj → Nat → Except PyErr (List Nat))
    (hs : ∀ o N, ∃ s, step o N = .ok s) (d d' : Draws) (hd : Drawn d) :
    testAliveMask step d d' = .ok () := by
  obtain ⟨o, ho, _⟩ := fresh_steps' { ext := some 4 } { d' with kernel := d.kernel }
    (by decide) (by decide) rfl rfl (by decide) (drawn_mixture hd)
  unfold testAliveMask
  obtain ⟨s, e⟩ := hs o 1
  rw [fresh_twice _ d d' (by decide) (by decide) rfl (drawn_mixture hd), ho]
  simp only [bind, Except.bind, e]
  rfl

/-- A step that gives a universe of the wrong shape. -/
example : testAliveMask (fun _ _ => .ok [7]) (Witness.drawn true) (Witness.drawn false) = .ok () :=
  test_alive_mask_blind _ (fun _ _ => ⟨_, rfl⟩) _ _ (Witness.drawn_drawn _)

/-- What the loop over the numbers of channels leaves: the automaton of the last number. -/
theorem last_of (mode : CAMode) (d : Nat → Draws) (hd : ∀ c, Drawn (d c)) :
    ∃ o, lastOf mode d none [1, 8, 16, 4] = .ok (some o) ∧
      o.kw = { caMode := some mode, int := some 4 } ∧ o.kernelParams = .vec (d 4).kernel := by
  have key : ∀ c, c ≠ 0 → ∃ o, CCAObj.defaultInit { caMode := some mode, int := some c } (d c) = .ok o ∧
      o.kw = { caMode := some mode, int := some c } ∧ o.kernelParams = .vec (d c).kernel := by
    intro c hc
    obtain ⟨o, ho, hkw, _, _, _, hk, _⟩ := fresh_cca { caMode := some mode, int := some c } (d c)
      Nat.one_ne_zero hc rfl (drawn_mixture (hd c))
    exact ⟨o, ho, hkw, hk⟩
  obtain ⟨_, h1, _⟩ := key 1 (by decide)
  obtain ⟨_, h8, _⟩ := key 8 (by decide)
  obtain ⟨_, h16, _⟩ := key 16 (by decide)
  obtain ⟨o, h4, hkw, hk⟩ := key 4 (by decide)
  refine ⟨o, ?_, hkw, hk⟩
  simp only [lastOf, h1, h8, h16, h4, bind, Except.bind]

/-- C122: `test_multiverse_forward` of `CCA` passes with every step function that keeps the shapes of
automata with one and with four internal channels, whatever it does to others: those with 8 and 16
are built, but never step. -/
theorem test_forward_blind (step : CCAObj → Nat → Except PyErr (List Nat))
    (hs : ∀ o N, o.kw.extN = 1 → o.kw.intN = 1 ∨ o.kw.intN = 4 →
      (∃ rand, stepShape rand o N = .ok [N, 1, 32, 32]) → step o N = .ok [N, 1, 32, 32])
    (d : CAMode → Nat → Draws) (d' d₂ d₂' : CAMode → Draws) (hd : ∀ m c, Drawn (d m c))
    (hd₂ : ∀ m, Drawn (d₂ m)) : testForward step d d' d₂ d₂' = .ok () := by
  unfold testForward
  rw [each_ok]
  intro mode hmode
  have hmo : mode ≠ .other := by
    rintro rfl
    simp at hmode
  obtain ⟨o, ho, hkw, hk⟩ := last_of mode (d mode) (hd mode)
  have hL : MixtureLength (d mode 4).kernel.length := drawn_mixture (hd mode 4)
  obtain ⟨a, ha, hakw, _, hsa⟩ := fresh_steps' { caMode := some mode, int := some 4 }
    { d' mode with kernel := (d mode 4).kernel } Nat.one_ne_zero (Nat.succ_ne_zero _) rfl rfl hmo hL
  obtain ⟨b, hb, hbkw, _, hsb⟩ := fresh_steps' { caMode := some mode }
    { d₂' mode with kernel := (d₂ mode).kernel } Nat.one_ne_zero (Nat.succ_ne_zero _) rfl rfl hmo
    (drawn_mixture (hd₂ mode))
  have worlds : ∀ o : CCAObj, (∀ N, step o N = .ok [N, 1, 32, 32]) → testWorlds step o = .ok () := by
    intro o h
    unfold testWorlds
    rw [each_ok]
    intro N _
    rw [h]
    exact check_yes rfl
  have wa := worlds a fun N => hs a N (by rw [hakw]; rfl) (.inr (by rw [hakw]; rfl))
    ⟨fun _ _ _ _ => 0, hsa _ N⟩
  have wb := worlds b fun N => hs b N (by rw [hbkw]; rfl) (.inl (by rw [hbkw]; rfl))
    ⟨fun _ _ _ _ => 0, hsb _ N⟩
  rw [ho]
  simp only [bind, Except.bind]
  rw [hkw, hk]
  dsimp only
  rw [ha]
  dsimp only
  rw [wa]
  dsimp only
  rw [fresh_twice { caMode := some mode } _ _ Nat.one_ne_zero (Nat.succ_ne_zero _) rfl (drawn_mixture (hd₂ mode)), hb]
  exact wb

/-- A step that raises with 8 and 16 internal channels. -/
example : testForward (fun o N => if o.kw.intN = 8 ∨ o.kw.intN = 16 then .error .runtime
      else .ok [N, 1, 32, 32]) (fun _ _ => Witness.drawn true) (fun _ => Witness.drawn true)
    (fun _ => Witness.drawn true) (fun _ => Witness.drawn true) = .ok () := by
  refine test_forward_blind _ (fun o N _ h _ => ?_) _ _ _ _ (fun _ _ => Witness.drawn_drawn _)
    fun _ => Witness.drawn_drawn _
  rw [if_neg (by omega)]

/-- C122: in particular with the actual one. -/
theorem test_forward_passes (rand : Nat → Nat → Nat → Nat → ℝ)
    (d : CAMode → Nat → Draws) (d' d₂ d₂' : CAMode → Draws) (hd : ∀ m c, Drawn (d m c))
    (hd₂ : ∀ m, Drawn (d₂ m)) : testForward (stepShape rand) d d' d₂ d₂' = .ok () := by
  refine test_forward_blind _ (fun o N _ _ ⟨r, hr⟩ => ?_) d d' d₂ d₂' hd hd₂
  unfold stepShape at hr ⊢
  cases h : (o.dynamics.toCCA o.t).forward (tensor N o.dynamics.ext 32 32 r) with
  | error e => rw [h] at hr; cases hr
  | ok v =>
    obtain ⟨v', h'⟩ := (cca_runs_iff (o.dynamics.toCCA o.t) (tensor N o.dynamics.ext 32 32 rand)).2
      ((cca_runs_iff _ _).1 ⟨v, h⟩)
    rw [h'] 
    rw [h] at hr
    exact hr

/-- Reading and writing back a vector of random numbers. -/
theorem set_and_get (rnd : ℝ → ℝ) (rand : Nat → List ℝ) (hrand : ∀ n, (rand n).length = n) (o : CCAObj)
    (l : List ℝ) (hk : o.kernelParams = .vec l) (hl : MixtureLength l.length)
    (hr : o.kernelRadius ≠ 0) :
    setAndGet rnd rand o = .ok () ∧ ∃ p, o.getParams = .ok p ∧
      ∃ l', (o.setParams (rand p.length)).1.kernelParams = .vec l' ∧ l'.length = l.length := by
  have hp : ∃ p, o.getParams = .ok p := by
    unfold CCAObj.getParams
    rw [hk]
    exact ⟨_, rfl⟩
  obtain ⟨p, hp⟩ := hp
  obtain ⟨o', h1, h2, _, _, ⟨l', h3, h4, _⟩, _⟩ := cca_params_roundtrip o l hk hl hr p
    (rand p.length) hp (hrand _)
  refine ⟨?_, p, hp, l', by rw [h1]; exact h3, h4⟩
  unfold setAndGet
  rw [hp]
  simp only [bind, Except.bind, h1, h2]
  exact check_yes trivial

/-- C122: `test_multiverse_set_params` of `CCA` passes whatever is drawn and however numbers are
rounded. -/
theorem test_set_params_passes (rnd : ℝ → ℝ) (rand rand' : Nat → List ℝ)
    (h : ∀ n, (rand n).length = n) (h' : ∀ n, (rand' n).length = n) (d d' d₂ : CAMode → Draws)
    (hd : ∀ m, Drawn (d m)) : testSetParams rnd rand rand' d d' d₂ = .ok () := by
  unfold testSetParams
  rw [each_ok]
  intro mode _
  obtain ⟨o, ho, _, _, _, _, hk, hr, _⟩ := fresh_cca { caMode := some mode }
    { d' mode with kernel := (d mode).kernel } Nat.one_ne_zero (Nat.succ_ne_zero _) rfl (drawn_mixture (hd mode))
  obtain ⟨h1, p, hp, l', h2, h3⟩ := set_and_get rnd rand h o _ hk (drawn_mixture (hd mode))
    (by rw [hr]; decide)
  have hl' : MixtureLength l'.length := by rw [h3]; exact drawn_mixture (hd mode)
  obtain ⟨o₂, ho₂, _, _, _, _, hk₂, hr₂, _⟩ := fresh_cca { caMode := some mode }
    { d₂ mode with kernel := l' } Nat.one_ne_zero (Nat.succ_ne_zero _) rfl hl'
  obtain ⟨h4, _⟩ := set_and_get rnd rand' h' o₂ _ hk₂ hl' (by rw [hr₂]; decide)
  rw [fresh_twice { caMode := some mode } _ _ Nat.one_ne_zero (Nat.succ_ne_zero _) rfl (drawn_mixture (hd mode)), ho]
  simp only [bind, Except.bind, h1, hp, h2]
  rw [ho₂]
  exact h4


/-- Such numbers. -/
example : testSetParams id (List.replicate · 0.5) (List.replicate · 0.7) (fun _ => Witness.drawn true)
    (fun _ => Witness.drawn false) (fun _ => Witness.drawn true) = .ok () :=
  test_set_params_passes _ _ _ (fun _ => List.length_replicate) (fun _ => List.length_replicate) _ _ _
    fun _ => Witness.drawn_drawn _

/-! ## Loaded rules -/

theorem then_ok {β γ : Type} (b : β) (f : β → Option (Except PyErr γ)) :
    andThen (some (.ok b)) f = f b := rfl

theorem radius_tested (o : CCAObj) (k : StoredKernel) (hk : Complete k) (r₀ r : Nat) (hr : r ≠ 0)
    (hc : o.nbCfg = some (k.cfg r₀)) :
    ∃ o', testRadius o r = .ok o' ∧ o'.nbCfg = some (k.cfg r) := by
  obtain ⟨κ, h1, _⟩ := stored_kernel k hk r hr
  have hset : ∃ o', o.setKernelRadius r = .ok o' ∧ o'.nbCfg = some (k.cfg r) ∧
      o'.kernelRadius = r ∧ o'.nbKernel.1 = r := by
    unfold CCAObj.setKernelRadius
    rw [hc]
    dsimp only
    rw [show (KernelCfg.mk (k.cfg r₀).name (some r) (k.cfg r₀).kwargs).kernel = .ok ⟨r, κ⟩ from h1]
    exact ⟨_, rfl, rfl, rfl, rfl⟩
  obtain ⟨o', e1, e2, e3, e4⟩ := hset
  have e5 : o'.makeConfig.1.neighborhood = k.cfg r := by
    unfold CCAObj.makeConfig
    rw [e2]
  refine ⟨o'.makeConfig.2, ?_, ?_⟩
  · unfold testRadius
    rw [e1]
    simp only [bind, Except.bind, e5, e3, e4]
    rw [check_yes trivial]
    dsimp only
    rw [check_yes (show some r = (k.cfg r).radius from rfl)]
    dsimp only
    rw [check_yes (show r * 2 + 1 = 2 * r + 1 by ring)]
    rfl
  · unfold CCAObj.makeConfig
    rw [e2]

/-- C122: `test_set_kernel_radius` of `CCA` passes, with ca_configs/geminium.npy and with every other
stored rule. -/
theorem test_set_radius_passes (fs : Files) (fuel : Nat) (s : StoredRule) (hs : s ∈ storedRules)
    (d : Draws) (hd : Drawn d) (d' : Nat → Draws) :
    testSetRadius fs fuel s.raw d d' = some (.ok ()) := by
  have S := rules_sound s hs
  obtain ⟨o, ho, _⟩ := fresh_cca {} d (by decide) (by decide) rfl (drawn_mixture hd)
  obtain ⟨κ, h1, _⟩ := rule_loaded fs fuel d' o s S
  obtain ⟨o1, e1, c1⟩ := radius_tested (loaded o (ruleConfig s) (d' 0).seq ⟨1, identityKernel⟩
    ⟨s.radius, κ⟩ s.radius (.mixture [(1, (s.genesis.1 : ℝ), s.genesis.2)] true)
    (.mixture [(1, (s.persistence.1 : ℝ), s.persistence.2)] true)) s.kernel S.kernel s.radius 13
    (by decide) rfl
  obtain ⟨o2, e2, c2⟩ := radius_tested o1 s.kernel S.kernel _ 17 (by decide) c1
  obtain ⟨o3, e3, _⟩ := radius_tested o2 s.kernel S.kernel _ 29 (by decide) c2
  unfold testSetRadius
  rw [ho, then_ok, h1, then_ok, e1]
  simp only [bind, Except.bind, e2, e3]
  rfl

/-- Such a rule. -/
example : ∃ s ∈ storedRules, s.file = "orbium.npy" := by decide +kernel

/-- The numbers of the file, in the object and in the config it makes. -/
theorem kwargs_tested (k : StoredKernel) (hk : Complete k) (r : Nat) :
    testKwargs (updateKernelParams k.kwargs) (k.cfg r).kwargs = .ok () := by
  have h := numbers_kwargs k hk r
  have e : (k.cfg r).kwargs = some k.kwargs := rfl
  rw [e, Option.getD_some] at h
  unfold testKwargs
  rw [e, h]
  simp only [KParams.timesOne, bind, Except.bind, h]
  obtain ⟨x, hx, h0⟩ := sumAbs_ok (a := k.numbers) (b := k.numbers) rfl
  rw [check_yes trivial, hx]
  exact check_yes (h0.2 rfl)

/-- C122: `test_kernel_params_config` of `CCA` passes with any stored rules in any order. -/
theorem test_kernel_configs_passes (fs : Files) (fuel : Nat) (d : Nat → Draws) :
    ∀ (o : CCAObj) (rules : List StoredRule), (∀ s ∈ rules, s ∈ storedRules) →
      testKernelConfigs fs fuel d o (rules.map StoredRule.raw) = some (.ok ())
  | _, [], _ => rfl
  | o, s :: rest, h => by
    have S := rules_sound s (h s (List.mem_cons_self ..))
    obtain ⟨κ, h1, _⟩ := rule_loaded fs fuel d o s S
    rw [List.map_cons, testKernelConfigs, h1, then_ok]
    have hk := kwargs_tested s.kernel S.kernel s.radius
    rw [show testKwargs (loaded o (ruleConfig s) (d 0).seq ⟨1, identityKernel⟩
      ⟨s.radius, κ⟩ s.radius (.mixture [(1, (s.genesis.1 : ℝ), s.genesis.2)] true)
      (.mixture [(1, (s.persistence.1 : ℝ), s.persistence.2)] true)).kernelParams
      (loaded o (ruleConfig s) (d 0).seq ⟨1, identityKernel⟩
      ⟨s.radius, κ⟩ s.radius (.mixture [(1, (s.genesis.1 : ℝ), s.genesis.2)] true)
      (.mixture [(1, (s.persistence.1 : ℝ), s.persistence.2)] true)).makeConfig.1.neighborhood.kwargs
      = .ok () from hk, then_ok]
    exact test_kernel_configs_passes fs fuel d _ rest fun s hs => h s (List.mem_cons_of_mem _ hs)

/-- C122: the assertion of `test_kernel_params` says that the two files have different numbers of
kernel parameters; orbium.npy and geminium.npy have. -/
theorem test_kernel_params_iff (fs : Files) (fuel : Nat) (d : Nat → Draws) (o : CCAObj)
    (s s' : StoredRule) (hs : s ∈ storedRules) (hs' : s' ∈ storedRules) :
    testKernelParams fs fuel d o s.raw s'.raw = some (.ok ()) ↔
      s.kernel.numbers.length ≠ s'.kernel.numbers.length := by
  have S := rules_sound s hs
  have S' := rules_sound s' hs'
  obtain ⟨κ, h1, _⟩ := rule_loaded fs fuel d o s S
  unfold testKernelParams
  rw [h1, then_ok]
  obtain ⟨κ', h1', _⟩ := rule_loaded fs fuel d (loaded o (ruleConfig s) (d 0).seq ⟨1, identityKernel⟩
      ⟨s.radius, κ⟩ s.radius (.mixture [(1, (s.genesis.1 : ℝ), s.genesis.2)] true)
      (.mixture [(1, (s.persistence.1 : ℝ), s.persistence.2)] true)) s' S'
  have e : (loaded o (ruleConfig s) (d 0).seq ⟨1, identityKernel⟩
      ⟨s.radius, κ⟩ s.radius (.mixture [(1, (s.genesis.1 : ℝ), s.genesis.2)] true)
      (.mixture [(1, (s.persistence.1 : ℝ), s.persistence.2)] true)).kernelParams =
      .vec s.kernel.numbers := numbers_kwargs s.kernel S.kernel s.radius
  rw [e]
  show andThen (some (.ok (KParams.vec s.kernel.numbers))) _ = _ ↔ _
  rw [then_ok, h1', then_ok]
  rw [show (loaded (loaded o (ruleConfig s) (d 0).seq ⟨1, identityKernel⟩
      ⟨s.radius, κ⟩ s.radius (.mixture [(1, (s.genesis.1 : ℝ), s.genesis.2)] true)
      (.mixture [(1, (s.persistence.1 : ℝ), s.persistence.2)] true)) (ruleConfig s') (d 0).seq
      ⟨1, identityKernel⟩ ⟨s'.radius, κ'⟩ s'.radius
      (.mixture [(1, (s'.genesis.1 : ℝ), s'.genesis.2)] true)
      (.mixture [(1, (s'.persistence.1 : ℝ), s'.persistence.2)] true)).kernelParams =
      .vec s'.kernel.numbers from numbers_kwargs s'.kernel S'.kernel s'.radius]
  show andThen (some (.ok (KParams.vec s'.kernel.numbers))) _ = _ ↔ _
  rw [then_ok, Option.some_inj, check_ok]
  simp [KParams.shape]

/-- Both cases occur. -/
example : (∃ s ∈ storedRules, ∃ s' ∈ storedRules, s.kernel = .ring ∧ s'.kernel = geminiumRings) ∧
    ∃ s ∈ storedRules, ∃ s' ∈ storedRules, s ≠ s' ∧ s.kernel = s'.kernel := by decide +kernel

/-- C122: `test_kernel_params` passes. -/
theorem test_kernel_params_passes (fs : Files) (fuel : Nat) (d : Nat → Draws) (o : CCAObj)
    (s s' : StoredRule) (hs : ruleOf "orbium.npy" = some s) (hs' : ruleOf "geminium.npy" = some s') :
    testKernelParams fs fuel d o s.raw s'.raw = some (.ok ()) := by
  have e : s.kernel = .ring := by
    have : (ruleOf "orbium.npy").map (·.kernel) = some .ring := by decide +kernel
    rw [hs] at this
    simpa using this
  have e' : s'.kernel = geminiumRings := by
    have : (ruleOf "geminium.npy").map (·.kernel) = some geminiumRings := by decide +kernel
    rw [hs'] at this
    simpa using this
  rw [test_kernel_params_iff fs fuel d o s s' (List.mem_of_find?_eq_some hs)
    (List.mem_of_find?_eq_some hs'), e, e']
  simp [StoredKernel.numbers, geminiumRings]


/-! ## Networks -/

namespace Spec

/-- The random weights of `NCA()`: from 2 channels to 64, from 64 to 64, from 64 to 1. -/
def DrawnNCA (w : NCADraws) : Prop := w.1.length = 128 ∧ w.2.1.length = 4096 ∧ w.2.2.length = 64

/-- Two draws give the same network: the weights are squared. -/
def SameSquares (w w' : NCADraws) : Prop :=
  w.1.map (· ^ 2) = w'.1.map (· ^ 2) ∧ w.2.1.map (· ^ 2) = w'.2.1.map (· ^ 2) ∧
    w.2.2.map (· ^ 2) = w'.2.2.map (· ^ 2)

/-- An `NCA` with the layers of `NCA()`. -/
structure NetShape (o : NCAObj) : Prop where
  tensors : o.tensors.map List.length = [128, 1, 1, 4096, 1, 1, 64]
  params : ∃ l, o.kernelParams = .vec l ∧ l.length = 9
  radius : o.kernelRadius = 13

/-- After `restore_config` of a file that such an `NCA` wrote, the parameters are those of the
file. -/
def RestoresParams (restore : NCAConfig → NCAObj → Except PyErr NCAObj) : Prop :=
  ∀ o x : NCAObj, NetShape o → NCASaveable o (defaultPeaks 3) → NetShape x →
    ∃ o', restore o.makeConfig.1 x = .ok o' ∧ o'.getParams = o.getParams

end Spec

theorem peaks_length : (defaultPeaks 3).length = 9 := by simp [defaultPeaks]

theorem fresh_nca (w : NCADraws) (hw : DrawnNCA w) :
    ∃ o, NCAObj.new w = .ok o ∧ NetShape o ∧ NCASaveable o (defaultPeaks 3) ∧ o.nbCfg = none ∧
      o.kernelPeaks = 3 ∧ o.tensors = initialTensors .gaussian w.1 w.2.1 w.2.2 := by
  have hm : MixtureLength (defaultPeaks 3).length := by rw [peaks_length]; exact ⟨by decide, .inl rfl⟩
  obtain ⟨κ, hκ⟩ := (mixture_kernel_iff 13 (defaultPeaks 3)).2 ⟨hm, by decide⟩
  unfold NCAObj.new NCAObj.defaultInit
  rw [if_neg (by decide), hκ]
  refine ⟨_, rfl, ⟨?_, ⟨_, rfl, peaks_length⟩, rfl⟩, ⟨rfl, hm, by show 13 ≠ 0; decide, hκ, peaks_length⟩,
    rfl, rfl, rfl⟩
  have := initialTensors_shape (ext := 1) (int := 1) (hid := 64) .gaussian w.1 w.2.1 w.2.2 hw.1 hw.2.1
    hw.2.2
  exact this

/-- The draws of a new network. -/
noncomputable def Witness.weights (a : ℝ) : NCADraws :=
  (List.replicate 128 a, List.replicate 4096 a, List.replicate 64 a)

theorem Witness.weights_drawn (a : ℝ) : DrawnNCA (Witness.weights a) :=
  ⟨List.length_replicate, List.length_replicate, List.length_replicate⟩

theorem made_shape {o : NCAObj} (h : NetShape o) : NetShape o.makeConfig.2 :=
  ⟨h.tensors, h.params, h.radius⟩

theorem last_params {o : NCAObj} (h : NCASaveable o (defaultPeaks 3)) :
    lastN 9 o.getParams = defaultPeaks 3 := by
  have hgp : o.getParams = readTensors o.tensors ++ defaultPeaks 3 := by
    rw [NCAObj.getParams, h.params]
  rw [hgp, lastN, if_neg (by decide), List.length_append, peaks_length, Nat.add_sub_cancel,
    List.drop_left]

theorem made_cfg {o : NCAObj} (h : NCASaveable o (defaultPeaks 3)) (hn : o.nbCfg = none)
    (hp : o.kernelPeaks = 3) : o.makeConfig.1.neighborhood =
      ⟨"GaussianMixture", some o.kernelRadius, some [("parameters", .vec (defaultPeaks 3))]⟩ := by
  unfold NCAObj.makeConfig
  rw [hn]
  dsimp only
  rw [hp]
  show KernelCfg.mk _ _ (some [("parameters", .vec (lastN 9 o.getParams))]) = _
  rw [last_params h]

theorem made_saveable {o : NCAObj} (h : NCASaveable o (defaultPeaks 3)) :
    NCASaveable o.makeConfig.2 (defaultPeaks 3) := by
  refine ⟨h.params, h.mix, h.radius, h.layer, ?_⟩
  have hc := h.cfg
  unfold NCAObj.makeConfig
  cases hn : o.nbCfg with
  | some c =>
    rw [hn] at hc
    exact hc
  | none =>
    rw [hn] at hc
    dsimp only at hc ⊢
    have hp : o.kernelPeaks * 3 = 9 := by rw [← hc, peaks_length]
    rw [hp, last_params h]
    refine ⟨rfl, ?_, _, _, rfl, rfl⟩
    rw [mixture_cfg_kernel]
    exact ⟨_, h.layer⟩

/-- The parameters of two networks. -/
theorem network_params_eq {w w' : NCADraws} (hw : DrawnNCA w) (hw' : DrawnNCA w') {o o' : NCAObj}
    (h : o.tensors = initialTensors .gaussian w.1 w.2.1 w.2.2) (hk : o.kernelParams = .vec (defaultPeaks 3))
    (h' : o'.tensors = initialTensors .gaussian w'.1 w'.2.1 w'.2.2)
    (hk' : o'.kernelParams = .vec (defaultPeaks 3)) :
    o.getParams = o'.getParams ↔ SameSquares w w' := by
  rw [NCAObj.getParams, NCAObj.getParams, hk, hk', h, h']
  dsimp only
  rw [List.append_left_inj]
  constructor
  · intro e
    have hs := initialTensors_shape (ext := 1) (int := 1) (hid := 64) .gaussian w.1 w.2.1 w.2.2 hw.1
      hw.2.1 hw.2.2
    have hs' := initialTensors_shape (ext := 1) (int := 1) (hid := 64) .gaussian w'.1 w'.2.1 w'.2.2
      hw'.1 hw'.2.1 hw'.2.2
    have := flatten_inj_shape _ _ (hs.trans hs'.symm) e
    simp only [initialTensors, ActKind.tensors, List.map_cons, List.map_nil, List.cons_append,
      List.nil_append, List.cons.injEq, and_true, true_and] at this
    exact this
  · rintro ⟨a, b, c⟩
    congr 1
    simp only [initialTensors, ActKind.tensors, List.map_append, List.map_cons, List.map_nil, a, b, c]

/-- C122: `test_configs` of `NCA` passes unless two networks are drawn whose weights differ in signs
only.  The test needs of `restore_config` nothing but that it restores the parameters. -/
theorem test_configs_nca_iff (restore : NCAConfig → NCAObj → Except PyErr NCAObj)
    (hr : RestoresParams restore) (w₁ w₂ : NCADraws) (h₁ : DrawnNCA w₁) (h₂ : DrawnNCA w₂) :
    testConfigsNCA restore w₁ w₂ = .ok () ↔ ¬ SameSquares w₁ w₂ := by
  obtain ⟨o₁, e1, s1, v1, _, _, t1⟩ := fresh_nca w₁ h₁
  obtain ⟨o₂, e2, s2, v2, _, _, t2⟩ := fresh_nca w₂ h₂
  obtain ⟨a, ha, pa⟩ := hr o₁.makeConfig.2.makeConfig.2 o₁.makeConfig.2.makeConfig.2.makeConfig.2
    (made_shape (made_shape s1)) (made_saveable (made_saveable v1))
    (made_shape (made_shape (made_shape s1)))
  obtain ⟨b, hb, pb⟩ := hr o₁.makeConfig.2.makeConfig.2 o₂.makeConfig.2
    (made_shape (made_shape s1)) (made_saveable (made_saveable v1)) (made_shape s2)
  have g : ∀ o : NCAObj, o.makeConfig.1.params = o.getParams := fun _ => rfl
  have g' : ∀ o : NCAObj, o.makeConfig.2.getParams = o.getParams := fun _ => rfl
  have hlen : o₁.getParams.length = o₂.getParams.length := by
    rw [NCAObj.getParams, NCAObj.getParams, v1.params, v2.params]
    simp only [List.length_append, readTensors, List.length_flatten, s1.tensors, s2.tensors]
  unfold testConfigsNCA
  simp only [bind, Except.bind, e1, e2, ha, hb, g, g']
  rw [g', g'] at pa pb
  rw [pa, pb, compareConfigs_ok, compareParams_ok rfl rfl hlen rfl,
    ← network_params_eq h₁ h₂ t1 v1.params t2 v2.params]
  constructor
  · intro h
    exact (h (by decide)).2.2.1
  · intro h _
    exact ⟨rfl, rfl, h, h, rfl⟩

/-- The test passes or fails. -/
example : ¬ SameSquares (Witness.weights 0.1) (Witness.weights 0.2) ∧
    SameSquares (Witness.weights 0.1) (Witness.weights (-0.1)) := by
  have key : ∀ (n : Nat) (a b : ℝ), n ≠ 0 →
      ((List.replicate n a).map (· ^ 2) = (List.replicate n b).map (· ^ 2) ↔ a ^ 2 = b ^ 2) := by
    intro n a b hn
    simp [List.map_replicate, hn]
  constructor
  · rintro ⟨h, _⟩
    have := (key 128 0.1 0.2 (by decide)).1 h
    norm_num at this
  · exact ⟨(key 128 _ _ (by decide)).2 (by norm_num), (key 4096 _ _ (by decide)).2 (by norm_num),
      (key 64 _ _ (by decide)).2 (by norm_num)⟩

/-- C122: the actual `restore_config` does. -/
theorem restore_nca_params (restore : NCAConfig → NCAObj → Except PyErr NCAObj)
    (hr : ∀ cfg o, ∃ w w', DrawnNCA w ∧ DrawnNCA w' ∧ restore cfg o = restoreNCA w w' cfg o) :
    RestoresParams restore := by
  intro o x s v _
  obtain ⟨w, w', hw, hw', e⟩ := hr o.makeConfig.1 x
  obtain ⟨o₀, e0, _⟩ := fresh_nca w hw
  obtain ⟨o', e1, _, _, _, e2⟩ := nca_config_roundtrip o o₀ _ v
    (initialTensors .gaussian w'.1 w'.2.1 w'.2.2)
    ((initialTensors_shape (ext := 1) (int := 1) (hid := 64) .gaussian w'.1 w'.2.1 w'.2.2 hw'.1 hw'.2.1
      hw'.2.2).trans s.tensors.symm)
  refine ⟨o', ?_, e2⟩
  rw [e, restoreNCA, e0]
  simp only [bind, Except.bind, e1]

/-- C122: so does one that reads `params` and leaves the kernel, its radius and the step size as they
are. -/
theorem restore_only_params : RestoresParams fun cfg o =>
    match o.setParams cfg.params with
    | (_, some e) => .error e
    | (o', none) => .ok o' := by
  intro o x s v sx
  obtain ⟨l, hl, h9⟩ := sx.params
  have hlen : o.makeConfig.1.params.length = x.getParams.length := by
    show o.getParams.length = _
    rw [NCAObj.getParams, NCAObj.getParams, hl, v.params]
    simp only [List.length_append, readTensors, List.length_flatten, s.tensors, sx.tensors, h9,
      peaks_length]
  obtain ⟨o', e1, e2, _⟩ := nca_params_roundtrip x l hl (by rw [h9]; exact ⟨by decide, .inl rfl⟩)
    (by rw [sx.radius]; decide) _ hlen
  refine ⟨o', ?_, e2⟩
  dsimp only
  rw [e1]

/-- C122: with a `restore_config` that does nothing, it fails, whatever is drawn. -/
theorem test_configs_nca_detects (w₁ w₂ : NCADraws) :
    testConfigsNCA (fun _ o => .ok o) w₁ w₂ ≠ .ok () := by
  unfold testConfigsNCA
  intro h
  obtain ⟨o₁, e1, h⟩ := bind_ok h
  obtain ⟨a, ha, h⟩ := bind_ok h
  obtain ⟨o₂, e2, h⟩ := bind_ok h
  obtain ⟨b, hb, h⟩ := bind_ok h
  cases ha
  cases hb
  rw [compareConfigs_ok] at h
  have h := h (by decide)
  have g : ∀ o : NCAObj, o.makeConfig.1.params = o.getParams := fun _ => rfl
  have g' : ∀ o : NCAObj, o.makeConfig.2.getParams = o.getParams := fun _ => rfl
  simp only [g, g'] at h
  by_cases hl : o₁.getParams.length = o₂.getParams.length
  · rw [compareParams_ok rfl rfl hl hl] at h
    exact h.2.2.1 h.2.2.2.2
  · unfold compareParams at h
    obtain ⟨_, _, h⟩ := bind_ok h
    obtain ⟨_, _, h⟩ := bind_ok h
    obtain ⟨_, h', h⟩ := bind_ok h
    rw [sumAbs, if_neg hl] at h'
    cases h'

/-- C122: `test_multiverse_set_params` of `NCA` passes. -/
theorem test_set_params_nca (rnd : ℝ → ℝ) (rand : Nat → List ℝ) (h : ∀ n, (rand n).length = n)
    (o : NCAObj) (ho : NetShape o) : setAndGetNCA rnd rand o = .ok () := by
  obtain ⟨l, hl, h9⟩ := ho.params
  obtain ⟨o', e1, e2, _⟩ := nca_params_roundtrip o l hl (by rw [h9]; exact ⟨by decide, .inl rfl⟩)
    (by rw [ho.radius]; decide) (rand o.getParams.length) (h _)
  unfold setAndGetNCA
  dsimp only
  rw [e1]
  exact check_yes (by rw [e2])

/-- Such an automaton. -/
example : ∃ o, NetShape o := by
  obtain ⟨o, _, h, _⟩ := fresh_nca _ (Witness.weights_drawn 0.1)
  exact ⟨o, h⟩

theorem radius_tested_nca (o : NCAObj) (l : List ℝ) (hl : MixtureLength l.length) (r₀ r : Nat)
    (hr : r ≠ 0)
    (hc : o.nbCfg = some ⟨"GaussianMixture", some r₀, some [("parameters", .vec l)]⟩) :
    ∃ o', testRadiusNCA o r = .ok o' ∧
      o'.nbCfg = some ⟨"GaussianMixture", some r, some [("parameters", .vec l)]⟩ := by
  obtain ⟨κ, h1⟩ := (mixture_kernel_iff r l).2 ⟨hl, hr⟩
  have h2 := mixture_kernel_radius h1
  have hset : ∃ o', o.setKernelRadius r = .ok o' ∧
      o'.nbCfg = some ⟨"GaussianMixture", some r, some [("parameters", .vec l)]⟩ ∧
      o'.kernelRadius = r ∧ o'.nbKernel.1 = r := by
    unfold NCAObj.setKernelRadius
    rw [hc]
    dsimp only
    rw [mixture_cfg_kernel, h1]
    exact ⟨_, rfl, rfl, rfl, h2⟩
  obtain ⟨o', e1, e2, e3, e4⟩ := hset
  have e5 : o'.makeConfig.1.neighborhood =
      ⟨"GaussianMixture", some r, some [("parameters", .vec l)]⟩ := by
    unfold NCAObj.makeConfig
    rw [e2]
  refine ⟨o'.makeConfig.2, ?_, ?_⟩
  · unfold testRadiusNCA
    rw [e1]
    simp only [bind, Except.bind, e5, e3, e4]
    rw [check_yes trivial]
    dsimp only
    rw [check_yes (show r * 2 + 1 = 2 * r + 1 by ring)]
    rfl
  · unfold NCAObj.makeConfig
    rw [e2]

/-- C122: `test_set_kernel_radius` of `NCA` passes. -/
theorem test_set_radius_nca (w : NCADraws) (hw : DrawnNCA w) : testSetRadiusNCA w = .ok () := by
  obtain ⟨o, e, s, v, hn, hp, _⟩ := fresh_nca w hw
  have hc : o.makeConfig.2.nbCfg =
      some ⟨"GaussianMixture", some o.kernelRadius, some [("parameters", .vec (defaultPeaks 3))]⟩ := by
    rw [← made_cfg v hn hp]
    rfl
  obtain ⟨o1, e1, c1⟩ := radius_tested_nca _ _ v.mix _ 13 (by decide) hc
  obtain ⟨o2, e2, c2⟩ := radius_tested_nca _ _ v.mix _ 17 (by decide) c1
  obtain ⟨o3, e3, _⟩ := radius_tested_nca _ _ v.mix _ 29 (by decide) c2
  unfold testSetRadiusNCA
  simp only [bind, Except.bind, e, e1, e2, e3]
  rfl

/-- C122: `test_kernel_params_config` of `NCA` passes. -/
theorem test_kwargs_nca (w : NCADraws) (hw : DrawnNCA w) : testKwargsNCA w = .ok () := by
  obtain ⟨o, e, s, v, hn, hp, _⟩ := fresh_nca w hw
  unfold testKwargsNCA
  simp only [bind, Except.bind, e]
  rw [made_cfg v hn hp, v.params]
  obtain ⟨x, hx, h0⟩ := sumAbs_ok (a := defaultPeaks 3) (b := defaultPeaks 3) rfl
  simp only [testKwargs, KParams.timesOne, bind, Except.bind, updateKernelParams, KwVal.ravel,
    List.flatMap_cons, List.flatMap_nil, List.append_nil, hx]
  rw [check_yes trivial]
  exact check_yes (h0.2 rfl)

/-! ## Reaction and diffusion -/

/-- C122: `test_configs` of `RxnDfn` passes unless the random numbers are the default rates; again
only the parameters matter. -/
theorem test_configs_rxn_iff (restore : RxnConfig → RxnObj → Except PyErr RxnObj)
    (hr : ∀ x, ∃ o', restore RxnObj.new.makeConfig x = .ok o' ∧ o'.getParams = RxnObj.new.getParams)
    (v : List ℝ) (hv : v.length = 4) :
    testConfigsRxn restore v = .ok () ↔ v ≠ [2e-5, 1e-5, 0.0620, 0.0609] := by
  obtain ⟨o', h1, h2, _⟩ := rxn_params_roundtrip RxnObj.new v hv
  obtain ⟨a, ha, pa⟩ := hr RxnObj.new
  obtain ⟨b, hb, pb⟩ := hr o'
  unfold testConfigsRxn
  simp only [bind, Except.bind, ha, h1, hb, pa, pb, h2]
  rw [compareConfigs_ok, compareParams_ok rfl rfl (by rw [hv]; rfl) rfl]
  have e : RxnObj.new.getParams = [2e-5, 1e-5, 0.0620, 0.0609] := rfl
  rw [e]
  constructor
  · intro h h'
    exact (h (by decide)).2.2.1 h'.symm
  · intro h _
    exact ⟨rfl, rfl, fun h' => h h'.symm, fun h' => h h'.symm, rfl⟩

/-- Such parameters. -/
example : ([0.1, 0.2, 0.3, 0.4] : List ℝ).length = 4 ∧
    ([0.1, 0.2, 0.3, 0.4] : List ℝ) ≠ [2e-5, 1e-5, 0.0620, 0.0609] := by
  refine ⟨rfl, fun h => ?_⟩
  have := congrArg List.head? h
  norm_num at this

theorem restore_rxn_params (x : RxnObj) :
    ∃ o', x.loadConfig RxnObj.new.makeConfig = .ok o' ∧ o'.getParams = RxnObj.new.getParams := by
  obtain ⟨o'', h, _, _, _, h'⟩ := rxn_config_roundtrip RxnObj.new x default_rxn_sound
  exact ⟨o'', h, h'⟩

/-- C122: `test_multiverse_set_params` of `RxnDfn` passes. -/
theorem test_set_params_rxn (rnd : ℝ → ℝ) (rand : Nat → List ℝ) (h : ∀ n, (rand n).length = n)
    (o : RxnObj) : setAndGetRxn rnd rand o = .ok () := by
  obtain ⟨o', e1, e2, _⟩ := rxn_params_roundtrip o (rand o.getParams.length) (h _)
  unfold setAndGetRxn
  dsimp only
  rw [e1]
  exact check_yes (by rw [e2])


theorem sqrt_rate : (0.2489979 : ℝ) < Real.sqrt 0.0620 ∧ Real.sqrt 0.0620 < 0.248998 := by
  constructor
  · exact Real.lt_sqrt_of_sq_lt (by norm_num)
  · rw [Real.sqrt_lt' (by norm_num)]
    norm_num

/-- The background of `RxnDfn()`. -/
theorem background_near : |0.42012 - RxnObj.new.toRxn.background.1| ≤ 1 / 2 / 10 ^ 5 ∧
    |0.29253 - RxnObj.new.toRxn.background.2| ≤ 1 / 2 / 10 ^ 5 := by
  obtain ⟨h1, h2⟩ := sqrt_rate
  set s := Real.sqrt (0.0620 : ℝ) with hs
  have hss : s * s = 0.0620 := Real.mul_self_sqrt (by norm_num)
  have e : RxnObj.new.toRxn.background = (((s / (0.0620 + 0.0609) - Real.sqrt
      (s / (0.0620 + 0.0609) * (s / (0.0620 + 0.0609)) - 4)) / (2 * (s / (0.0620 + 0.0609)))),
      s * (s / (0.0620 + 0.0609) + Real.sqrt
      (s / (0.0620 + 0.0609) * (s / (0.0620 + 0.0609)) - 4)) / 2) := by
    unfold RxnDfn.background RxnObj.toRxn RxnObj.new
    simp only [Arith.div, Arith.add, Arith.sub, Arith.mul, Arith.lit, Transc.sqrt, hs]
    norm_num
  have hA : s / (0.0620 + 0.0609) * (s / (0.0620 + 0.0609)) - 4 = 0.0620 / 0.1229 ^ 2 - 4 := by
    rw [div_mul_div_comm, hss]
    norm_num
  rw [e, hA]
  set S := Real.sqrt (0.0620 / 0.1229 ^ 2 - 4) with hS
  have s1 : (0.3236685 : ℝ) < S := Real.lt_sqrt_of_sq_lt (by norm_num)
  have s2 : S < 0.3236689 := by
    rw [hS, Real.sqrt_lt' (by norm_num)]
    norm_num
  have a1 : (2.026020 : ℝ) < s / (0.0620 + 0.0609) := by
    rw [lt_div_iff₀ (by norm_num)]
    linarith
  have a2 : s / (0.0620 + 0.0609) < 2.026022 := by
    rw [div_lt_iff₀ (by norm_num)]
    linarith
  set A := s / (0.0620 + 0.0609 : ℝ) with hAdef
  have hsA : s * A = 0.0620 / 0.1229 := by
    rw [hAdef, mul_div_assoc', hss]
    norm_num
  constructor
  · dsimp only
    rw [abs_le]
    constructor
    · have : (A - S) / (2 * A) ≤ 0.420125 := by
        rw [div_le_iff₀ (by linarith)]
        linarith
      norm_num at this ⊢
      linarith
    · have : 0.420115 ≤ (A - S) / (2 * A) := by
        rw [le_div_iff₀ (by linarith)]
        linarith
      norm_num at this ⊢
      linarith
  · dsimp only
    have h3 : s * (A + S) = 0.0620 / 0.1229 + s * S := by rw [mul_add, hsA]
    have p1 : (0.2489979 : ℝ) * 0.3236685 ≤ s * S := mul_le_mul h1.le s1.le (by norm_num) (by linarith)
    have p2 : s * S ≤ 0.248998 * 0.3236689 := mul_le_mul h2.le s2.le (by linarith) (by norm_num)
    rw [h3, abs_le]
    constructor <;> norm_num at p1 p2 ⊢ <;> linarith

theorem mean_const {N H W : Nat} (hN : N ≠ 0) (hH : H ≠ 0) (hW : W ≠ 0) (x : Univ ℝ N 2 H W) (c : Fin 2)
    (a : ℝ) (h : ∀ n i j, x n c i j = a) : channelMean x c = a := by
  unfold channelMean
  simp only [h, Finset.sum_const, Finset.card_univ, Fintype.card_fin, nsmul_eq_mul]
  have h1 : (N : ℝ) ≠ 0 := by exact_mod_cast hN
  have h2 : (H : ℝ) ≠ 0 := by exact_mod_cast hH
  have h3 : (W : ℝ) ≠ 0 := by exact_mod_cast hW
  field_simp

/-- C122: `test_grid_equilibrium` passes. -/
theorem test_equilibrium_passes : testEquilibrium = .ok () := by
  unfold testEquilibrium
  rw [each_ok]
  intro s hs
  have hne : s.1 ≠ 0 ∧ s.2.1 ≠ 0 ∧ s.2.2 ≠ 0 := by
    simp only [List.mem_cons, List.not_mem_nil, or_false] at hs
    rcases hs with rfl | rfl | rfl | rfl <;> decide
  have h0 := mean_const hne.1 hne.2.1 hne.2.2
    (RxnObj.new.toRxn.initializeGrid s.1 s.2.1 s.2.2) 0 RxnObj.new.toRxn.background.1 fun _ _ _ => rfl
  have h1 := mean_const hne.1 hne.2.1 hne.2.2
    (RxnObj.new.toRxn.initializeGrid s.1 s.2.1 s.2.2) 1 RxnObj.new.toRxn.background.2 fun _ _ _ => rfl
  unfold testGrid
  dsimp only
  rw [h0, h1, check_yes (p := AlmostEqual 0.42012 _ 5) background_near.1]
  exact check_yes background_near.2

theorem default_fits : Fits RxnObj.new.toRxn.idL 64 64 ∧ Fits RxnObj.new.toRxn.nbL 64 64 := by
  have f0 : (2 * 1 + 1) % 2 = 1 ∧ padOK .circular ((2 * 1 + 1 - 1) / 2) 64 = true := by decide
  exact ⟨⟨f0.1, f0.2, f0.2⟩, ⟨f0.1, f0.2, f0.2⟩⟩

theorem update_tested {N H W : Nat} (ca : RxnDfn ℝ) (f1 : Fits ca.idL H W) (f2 : Fits ca.nbL H W)
    (update : Univ ℝ N 2 H W → Univ ℝ N 2 H W → Univ ℝ N 2 H W)
    (forward : Univ ℝ N 2 H W → Except PyErr (Univ ℝ N 2 H W))
    (hf : ∀ x a b, ca.idL.apply x = .ok a → ca.nbL.apply x = .ok b →
      forward x = .ok fun n c i j => max 0 (min 1 (x n c i j + ca.dt * update a b n c i j)))
    (x : Univ ℝ N 2 H W) :
    (do
      let idn ← ca.idL.apply x
      let nb ← ca.nbL.apply x
      let upd := update idn nb
      let r ← forward x
      check (AlmostEqual (∑ n, ∑ c, ∑ i, ∑ j,
        |r n c i j - clampR 0 1 (x n c i j + ca.dt * upd n c i j)|) 0 7) : Except PyErr Unit) =
      .ok () := by
  obtain ⟨a, ha⟩ : ∃ y, ca.idL.apply x = .ok y := ⟨_, if_pos f1⟩
  obtain ⟨b, hb⟩ : ∃ y, ca.nbL.apply x = .ok y := ⟨_, if_pos f2⟩
  have hc : ∀ x : ℝ, max 0 (min 1 x) - clampR 0 1 x = 0 := by
    intro x
    rw [clampR, sub_eq_zero, max_min_distrib_left, max_comm 0 x, max_eq_right zero_le_one, min_comm]
  simp only [bind, Except.bind, ha, hb, hf _ _ _ ha hb, hc, abs_zero, Finset.sum_const_zero]
  exact check_yes (by unfold AlmostEqual; norm_num)

/-- C122: `test_update_universe` passes whatever `update_universe` computes: the result is compared
with itself.  So it says nothing about the equations. -/
theorem test_update_blind
    (update : Univ ℝ 1 2 64 64 → Univ ℝ 1 2 64 64 → Univ ℝ 1 2 64 64)
    (forward : Univ ℝ 1 2 64 64 → Except PyErr (Univ ℝ 1 2 64 64))
    (hf : ∀ x a b, RxnObj.new.toRxn.idL.apply x = .ok a → RxnObj.new.toRxn.nbL.apply x = .ok b →
      forward x = .ok fun n c i j => max 0 (min 1 (x n c i j + 0.5 * update a b n c i j)))
    (rand : Nat → Nat → Nat → Nat → ℝ) : testUpdate update forward rand = .ok () := by
  unfold testUpdate
  exact update_tested RxnObj.new.toRxn default_fits.1 default_fits.2 update forward hf _

/-- An update of the wrong sign. -/
example : ∃ (update : Univ ℝ 1 2 64 64 → Univ ℝ 1 2 64 64 → Univ ℝ 1 2 64 64)
    (forward : Univ ℝ 1 2 64 64 → Except PyErr (Univ ℝ 1 2 64 64)),
    (∀ a b n c i j, update a b n c i j = - RxnObj.new.toRxn.updateUniverse a b n c i j) ∧
    ∀ rand, testUpdate update forward rand = .ok () := by
  refine ⟨fun a b n c i j => - RxnObj.new.toRxn.updateUniverse a b n c i j, fun x => do
    let a ← RxnObj.new.toRxn.idL.apply x
    let b ← RxnObj.new.toRxn.nbL.apply x
    return fun n c i j => max 0 (min 1 (x n c i j +
      0.5 * - RxnObj.new.toRxn.updateUniverse a b n c i j)), fun _ _ _ _ _ _ => rfl, fun rand => ?_⟩
  refine test_update_blind _ _ (fun x a b ha hb => ?_) rand
  simp only [ha, hb, bind, Except.bind, pure, Except.pure]

/-- C122: in particular with the actual one. -/
theorem test_update_passes (rand : Nat → Nat → Nat → Nat → ℝ) :
    testUpdate RxnObj.new.toRxn.updateUniverse
      (fun x => (RxnObj.new.toRxn.forward x).map Prod.fst) rand = .ok () := by
  refine test_update_blind _ _ (fun x a b ha hb => ?_) rand
  rw [RxnDfn.forward, ha]
  simp only [bind, Except.bind, hb, pure, Except.pure, Except.map]
  congr 1
  funext n c i j
  exact clamp01_real _

/-! ## Kernels -/

/-- The sum of a normalised kernel that is not nearly flat. -/
theorem normalised_near {r : Nat} (κ : Fin (2 * r + 1) → Fin (2 * r + 1) → ℝ) (a b c d : Fin (2 * r + 1))
    (h : 0.001 ≤ κ a b - κ c d) : AlmostEqual 1 (∑ a, ∑ b, normaliseKernel κ a b) 5 := by
  obtain ⟨_, _, h3, h4⟩ := normalise_facts κ
  have hS : 0.001 ≤ ∑ a, ∑ b, (κ a b - kernelMin κ) := by
    have h5 : κ a b - kernelMin κ ≤ ∑ b, (κ a b - kernelMin κ) :=
      Finset.single_le_sum (f := fun b => κ a b - kernelMin κ)
        (fun b _ => sub_nonneg.2 (kernelMin_le κ a b)) (Finset.mem_univ b)
    have h6 : ∑ b, (κ a b - kernelMin κ) ≤ ∑ a, ∑ b, (κ a b - kernelMin κ) :=
      Finset.single_le_sum (f := fun a => ∑ b, (κ a b - kernelMin κ))
        (fun a _ => Finset.sum_nonneg fun b _ => sub_nonneg.2 (kernelMin_le κ a b)) (Finset.mem_univ a)
    have := kernelMin_le κ c d
    linarith
  rw [h3]
  set S := ∑ a, ∑ b, (κ a b - kernelMin κ)
  have he : eps9 = 1e-9 := rfl
  have : 1 - S / (eps9 + S) = 1e-9 / (1e-9 + S) := by
    rw [he]
    have : (1e-9 : ℝ) + S ≠ 0 := by norm_num; linarith
    field_simp
    ring
  unfold AlmostEqual
  rw [this, abs_of_nonneg (by positivity), div_le_iff₀ (by positivity)]
  norm_num at hS ⊢
  linarith

theorem grid_centre : radialGrid 1 1 1 = 0 := by simp [radialGrid]

theorem grid_edge : radialGrid 1 1 2 = 1 := by simp [radialGrid]; norm_num

theorem grid_corner : radialGrid 1 2 2 = Real.sqrt 2 := by
  simp [radialGrid]
  norm_num

theorem exp_small {t : ℝ} (ht : 0 < t) : Real.exp (-t) ≤ 1 / (1 + t) := by
  rw [Real.exp_neg, ← one_div]
  exact one_div_le_one_div_of_le (by linarith) (by linarith [Real.add_one_le_exp t])

/-- C122: `test_get_kernel` passes. -/
theorem test_get_kernel_passes : testGetKernel = .ok () := by
  have key : ∀ (name : String) (f : ℝ → ℝ) (a b c d : Fin (2 * 1 + 1)),
      name ∈ radialNames → kernelFn name {} = .ok f →
      0.001 ≤ f (radialGrid 1 a b) - f (radialGrid 1 c d) → testKernelName name = .ok () := by
    intro name f a b c d hn hf h
    have hk : (KernelCfg.mk name (some 1) (some [("radius", .num 1)])).kernel =
        .ok ⟨1, normaliseKernel fun a b => f (radialGrid 1 a b)⟩ := by
      have hkw : kernelKwargs [("radius", .num 1)] = .ok {} := by
        simp [kernelKwargs, kwLookup, optM, bind, Except.bind, pure, Except.pure]
      simp only [radialNames, List.mem_cons, List.not_mem_nil, or_false] at hn
      rcases hn with rfl | rfl | rfl | rfl | rfl <;>
        simp [KernelCfg.kernel, getKernel, hkw, hf]
    have hne : name ≠ "LaplacianOfGaussian" ∧ ¬(name = "InnerMoore" ∨ name = "MooreLike") := by
      simp only [radialNames, List.mem_cons, List.not_mem_nil, or_false] at hn
      rcases hn with rfl | rfl | rfl | rfl | rfl <;> decide
    unfold testKernelName
    simp only [bind, Except.bind, hk]
    rw [if_neg hne.1, if_neg hne.2]
    exact check_yes (normalised_near _ a b c d h)
  unfold testGetKernel
  rw [each_ok]
  intro name hn
  simp only [List.mem_cons, List.not_mem_nil, or_false] at hn
  rcases hn with rfl | rfl | rfl | rfl | rfl | rfl | rfl
  · refine key _ (gaussianFn 0 0.1 false) 1 1 1 2 (by simp [radialNames]) (by simp [kernelFn]) ?_
    rw [grid_centre, grid_edge]
    have h1 : gaussianFn 0 0.1 false 0 = 1 := by simp [gaussianFn, bump]
    have h2 : gaussianFn 0 0.1 false 1 ≤ 1 / 2 := by
      have : gaussianFn 0 0.1 false 1 = Real.exp (-((1 / (eps9 + 0.1)) ^ 2 / 2)) := by
        simp [gaussianFn, bump, neg_div]
      rw [this]
      refine (exp_small (by unfold eps9; positivity)).trans ?_
      unfold eps9
      norm_num
    rw [h1]
    norm_num at h2 ⊢
    linarith
  · refine key _ (mixtureFn [(1, 0.5, 0.15)] false) 1 1 2 2 (by simp [radialNames])
      (by simp [kernelFn, mixtureComponents, mixtureComponents.pairs, bind, Except.bind, pure,
        Except.pure]) ?_
    rw [grid_centre, grid_corner]
    have hb : ∀ x, mixtureFn [(1, 0.5, 0.15)] false x = bump 0.5 0.15 x := by
      intro x
      have h0 : 0 ≤ bump 0.5 0.15 x := (Real.exp_pos _).le
      have h1 : bump 0.5 0.15 x ≤ 1 := Real.exp_le_one_iff.2 (by
        have := sq_nonneg ((x - 0.5) / (eps9 + 0.15))
        linarith)
      simp [mixtureFn, clampR, max_eq_left h0, min_eq_left h1]
    have hq : Real.exp (-6) ≤ bump 0.5 0.15 0 := by
      unfold bump eps9
      rw [Real.exp_le_exp]
      norm_num
    have hr : bump 0.5 0.15 (Real.sqrt 2) ≤ Real.exp (-6) ^ 3 := by
      unfold bump eps9
      rw [← Real.exp_nat_mul, Real.exp_le_exp]
      have h2 : (1.41 : ℝ) < Real.sqrt 2 := Real.lt_sqrt_of_sq_lt (by norm_num)
      have h3 : (6.06 : ℝ) ≤ (Real.sqrt 2 - 0.5) / (1e-9 + 0.15) := by
        rw [le_div_iff₀ (by norm_num)]
        norm_num at h2 ⊢
        linarith
      have h4 : (6.06 : ℝ) ^ 2 ≤ ((Real.sqrt 2 - 0.5) / (1e-9 + 0.15)) ^ 2 :=
        pow_le_pow_left₀ (by norm_num) h3 2
      norm_num at h4 ⊢
      linarith
    have q1 : Real.exp (-6) ≤ 1 / 7 := (exp_small (by norm_num)).trans (by norm_num)
    have q2 : (0.002 : ℝ) ≤ Real.exp (-6) := by
      have h1 := Real.exp_one_lt_d9
      have h2 : Real.exp 1 ^ 6 ≤ 2.7182818286 ^ 6 := pow_le_pow_left₀ (Real.exp_pos 1).le h1.le 6
      rw [← Real.exp_nat_mul] at h2
      rw [Real.exp_neg, ← one_div, le_div_iff₀ (Real.exp_pos _)]
      norm_num at h2 ⊢
      linarith
    have q3 : Real.exp (-6) ^ 3 ≤ Real.exp (-6) / 49 := by
      have : Real.exp (-6) ^ 2 ≤ (1 / 7) ^ 2 := pow_le_pow_left₀ (Real.exp_pos _).le q1 2
      have := mul_le_mul_of_nonneg_left this (Real.exp_pos (-6)).le
      linarith [show Real.exp (-6) ^ 3 = Real.exp (-6) * Real.exp (-6) ^ 2 by ring]
    rw [hb, hb]
    linarith
  · refine key _ (cosOverX2Fn 0 25.12 false) 1 1 1 2 (by simp [radialNames]) (by simp [kernelFn]) ?_
    rw [grid_centre, grid_edge]
    have h1 : cosOverX2Fn 0 25.12 false 0 = 2 := by simp [cosOverX2Fn]; norm_num
    have h2 : cosOverX2Fn 0 25.12 false 1 ≤ 1 / 101 + 1 := by
      have : cosOverX2Fn 0 25.12 false 1 = Real.cos 25.12 / 101 + 1 := by
        simp [cosOverX2Fn]; norm_num
      rw [this]
      have := Real.cos_le_one 25.12
      have : Real.cos 25.12 / 101 ≤ 1 / 101 := by gcongr
      linarith
    rw [h1]
    norm_num at h2 ⊢
    linarith
  · refine key _ (smoothLifeFn 1 (1 / 3)) 1 2 1 1 (by simp [radialNames]) (by simp [kernelFn]) ?_
    rw [grid_centre, grid_edge]
    norm_num [smoothLifeFn]
  · have hk : (KernelCfg.mk "InnerMoore" (some 1) (some [("radius", .num 1)])).kernel =
        .ok ⟨1, identityKernel⟩ := rfl
    unfold testKernelName
    rw [hk]
    rfl
  · have hk : (KernelCfg.mk "MooreLike" (some 1) (some [("radius", .num 1)])).kernel =
        .ok ⟨1, mooreLike 1⟩ := rfl
    unfold testKernelName
    rw [hk]
    rfl
  · have hkw : kernelKwargs [("radius", .num 1)] = .ok {} := by
      simp [kernelKwargs, kwLookup, optM, bind, Except.bind, pure, Except.pure]
    have hk : (KernelCfg.mk "LaplacianOfGaussian" (some 1) (some [("radius", .num 1)])).kernel =
        .ok ⟨1, logKernel 0.5 (radialGrid 1)⟩ := by
      unfold KernelCfg.kernel
      rw [if_neg (by decide)]
      dsimp only
      rw [hkw]
      rfl
    unfold testKernelName
    rw [hk]
    simp only [bind, Except.bind]
    rw [if_pos trivial, log_sum]
    exact check_yes (by unfold AlmostEqual; norm_num)

/-- C122: `test_get_laplacian_kernel` passes. -/
theorem test_laplacian_passes : testLaplacian = .ok () := by
  refine check_yes ?_
  unfold laplacian9
  norm_num

/-- C122: the test of `get_gaussian_kernel` and its siblings passes with kernels of any positive side:
the side expected is the message of `assertTrue`. -/
theorem test_generic_kernel_blind (side : Nat → Except PyErr Nat)
    (h : ∀ r, ∃ k, side r = .ok k ∧ k ≠ 0) : testGenericKernel side = .ok () := by
  unfold testGenericKernel
  rw [each_ok]
  intro r _
  obtain ⟨k, hk, h0⟩ := h r
  simp only [bind, Except.bind, hk]
  rw [check_yes h0]

/-- Kernels with one cell for every radius. -/
example : testGenericKernel (fun _ => .ok 1) = .ok () :=
  test_generic_kernel_blind _ fun _ => ⟨1, rfl, Nat.one_ne_zero⟩

/-! ## Activations -/

theorem bump_lt {mu s x y : ℝ} (hs : 0 < s) (h : |y - mu| < |x - mu|) : bump mu s x < bump mu s y := by
  unfold bump
  rw [Real.exp_lt_exp]
  have he : 0 < eps9 + s := by have := eps9_pos; linarith
  have : ((y - mu) / (eps9 + s)) ^ 2 < ((x - mu) / (eps9 + s)) ^ 2 := by
    rw [sq_lt_sq, abs_div, abs_div]
    exact div_lt_div_of_pos_right h (by rw [abs_of_pos he]; exact he)
  linarith

theorem bump_eq {mu s x y : ℝ} (h : |y - mu| = |x - mu|) : bump mu s x = bump mu s y := by
  unfold bump
  have : (y - mu) ^ 2 = (x - mu) ^ 2 := (sq_eq_sq_iff_abs_eq_abs _ _).2 h
  simp only [div_pow, neg_div, this]

/-- C122: `test_gaussian` passes; the means play no part. -/
theorem test_gaussian_passes : testGaussian = .ok () := by
  unfold testGaussian
  rw [each_ok]
  intro mu _
  have e : ∀ x, (Act.gaussian mu 0.1 false).eval x = bump mu 0.1 x := fun _ => rfl
  simp only [e]
  rw [check_yes (p := bump mu 0.1 (mu - 0.1) < bump mu 0.1 mu) (bump_lt (by norm_num) (by norm_num))]
  exact check_yes (bump_lt (by norm_num) (by norm_num))

/-- C122: `test_dogaussian` passes. -/
theorem test_dogaussian_passes : testDoGaussian = .ok () := by
  unfold testDoGaussian
  rw [each_ok]
  intro mu _
  have e : ∀ dx x, (Act.doGaussian mu 0.1 dx false).eval x =
    bump mu 0.1 (x + dx) - bump mu 0.1 (x - dx) := fun _ _ => rfl
  simp only [e]
  have z : ∀ dx, bump mu 0.1 (mu + dx) - bump mu 0.1 (mu - dx) = 0 := by
    intro dx
    rw [bump_eq (x := mu + dx) (y := mu - dx) (by rw [sub_sub_cancel_left, add_sub_cancel_left, abs_neg]),
      sub_self]
  have h1 : bump mu 0.1 (mu - 0.1 - 0.01) < bump mu 0.1 (mu - 0.1 + 0.01) := bump_lt (by norm_num) (by
    rw [abs_of_neg, abs_of_neg] <;> linarith)
  have h2 : bump mu 0.1 (mu + 0.1 + 0.01) < bump mu 0.1 (mu + 0.1 - 0.01) := bump_lt (by norm_num) (by
    rw [abs_of_pos, abs_of_pos] <;> linarith)
  have h3 : bump mu 0.1 (mu - 0.1 + -0.01) < bump mu 0.1 (mu - 0.1 - -0.01) := bump_lt (by norm_num) (by
    rw [abs_of_neg, abs_of_neg] <;> linarith)
  have h4 : bump mu 0.1 (mu + 0.1 - -0.01) < bump mu 0.1 (mu + 0.1 + -0.01) := bump_lt (by norm_num) (by
    rw [abs_of_pos, abs_of_pos] <;> linarith)
  simp only [z, bind, Except.bind]
  rw [check_yes (sub_pos.2 h1)]
  dsimp only
  rw [check_yes (p := (0 : ℝ) > _) (sub_neg.2 h2)]
  dsimp only
  rw [check_yes (p := AlmostEqual 0 0 7) (by unfold AlmostEqual; norm_num)]
  dsimp only
  rw [check_yes (p := (0 : ℝ) > _) (sub_neg.2 h3)]
  dsimp only
  rw [check_yes (sub_pos.2 h4)]

theorem clamp_between {lo hi : ℝ} (h : lo ≤ hi) (x : ℝ) : lo ≤ clampR lo hi x ∧ clampR lo hi x ≤ hi :=
  ⟨le_min (le_max_right _ _) h, min_le_right _ _⟩

theorem bump_small {mu s x : ℝ} (hs : 0 < s) (h : 3 * (eps9 + s) ≤ x - mu) : bump mu s x ≤ 1 / 5 := by
  have he : 0 < eps9 + s := by have := eps9_pos; linarith
  have h3 : 3 ≤ (x - mu) / (eps9 + s) := (le_div_iff₀ he).2 h
  have : bump mu s x = Real.exp (-(((x - mu) / (eps9 + s)) ^ 2 / 2)) := by unfold bump; rw [neg_div]
  rw [this]
  refine (exp_small (by nlinarith)).trans ?_
  rw [div_le_div_iff₀ (by nlinarith) (by norm_num)]
  nlinarith

/-- C122: the test of `GaussianMixture` passes. -/
theorem test_mixtures_passes : testMixtures = .ok () := by
  have key : ∀ (ps : List ℝ) (cs : List (ℝ × ℝ × ℝ)), mixtureComponents 1 ps = .ok cs →
      (cs.map fun c => c.1 * bump c.2.1 c.2.2 (((99 : Fin 100) : Nat) * 0.01)).sum < 1 / 2 →
      each (testMixture ps) [false, true] = .ok () := by
    intro ps cs hc h
    rw [each_ok]
    intro mode _
    have m0 : ∀ x, 0 ≤ mixtureFn cs false x ∧ mixtureFn cs false x ≤ 1 :=
      fun x => clamp_between zero_le_one _
    have m1 : ∀ x, -1 ≤ mixtureFn cs true x ∧ mixtureFn cs true x ≤ 1 :=
      fun x => clamp_between (by norm_num) _
    unfold testMixture
    simp only [bind, Except.bind, hc]
    cases mode with
    | false =>
      simp only [Bool.false_eq_true, if_false]
      rw [check_yes fun k => (m0 _).1]
      exact check_yes fun k => (m0 _).2
    | true =>
      simp only [if_true]
      rw [check_yes fun k => (m1 _).1]
      dsimp only
      have hlow : mixtureFn cs true (((99 : Fin 100) : Nat) * 0.01) < 0 := by
        refine min_lt_of_left_lt (max_lt ?_ (by norm_num))
        linarith
      rw [check_yes ⟨99, hlow⟩]
      exact check_yes fun k => (m1 _).2
  unfold testMixtures
  rw [each_ok]
  intro ps hps
  simp only [List.mem_cons, List.not_mem_nil, or_false] at hps
  have x99 : (((99 : Fin 100) : Nat) : ℝ) * 0.01 = 0.99 := by norm_num
  rcases hps with rfl | rfl
  · refine key _ [(1, 0.1, 0.1)] (by simp [mixtureComponents, mixtureComponents.pairs, bind,
      Except.bind, pure, Except.pure]) ?_
    rw [x99]
    have := bump_small (mu := 0.1) (s := 0.1) (x := 0.99) (by norm_num) (by unfold eps9; norm_num)
    norm_num at this ⊢
    linarith
  · refine key _ [(1, 0.1, 0.01), (1, 0.15, 0.015)] (by simp [mixtureComponents,
      mixtureComponents.pairs, bind, Except.bind, pure, Except.pure]) ?_
    rw [x99]
    have h1 := bump_small (mu := 0.1) (s := 0.01) (x := 0.99) (by norm_num) (by unfold eps9; norm_num)
    have h2 := bump_small (mu := 0.15) (s := 0.015) (x := 0.99) (by norm_num) (by unfold eps9; norm_num)
    norm_num at h1 h2 ⊢
    linarith

/-- C122: the test of `LaplacianOfGaussian` passes, and would with every `sigma`. -/
theorem test_log_passes : testLoG = .ok () := by
  unfold testLoG
  rw [each_ok]
  intro k _
  rw [log_sum]
  exact check_yes (by unfold AlmostEqual; norm_num)

/-! ## test_configs -/

theorem test_stored_iff (fs : Files) (disk : Disk) (fuel : Nat) (d : Nat → Draws)
    (e : Nat → NCADraws) (w : Stored → NCADraws) (weights : StoredNet → List ℝ) (cs : List Stored) :
    testStored fs disk fuel d e w weights cs = some (.ok ()) ↔
      ∀ c ∈ cs, isTested c.file = true → testStoredFile fs disk fuel d e w weights c = some (.ok ()) := by
  induction cs with
  | nil => simp [testStored]
  | cons c cs ih =>
    rw [testStored, andThen_ok]
    simp only [List.forall_mem_cons, ih]
    constructor
    · rintro ⟨_, h1, h2⟩
      exact ⟨fun h => by rw [if_pos h] at h1; exact h1, h2⟩
    · rintro ⟨h1, h2⟩
      refine ⟨(), ?_, h2⟩
      split
      · exact h1 ‹_›
      · rfl

/-- C122: 34 of the 57 stored files are tested.  The others are the 17 rules whose path begins with
`exp` or `evolved/`, the five networks `nca_clone_tanh_*` and the one for `RxnDfn`. -/
theorem tested_files :
    (storedConfigs.filter fun c => isTested c.file).length = 34 ∧
    (∀ s ∈ storedRules, isTested s.file = false ↔
      "exp".toList <+: s.file.toList ∨ "evolved/".toList <+: s.file.toList) ∧
    (storedRules.filter fun s => !isTested s.file).length = 17 ∧
    (∀ s : StoredLife, isTested s.file = true) ∧
    (∀ s ∈ storedNets, isTested s.file = false ↔ s.instant = none) ∧
    isTested Stored.uskate.file = false := by
  refine ⟨by decide +kernel, by decide +kernel, by decide +kernel, fun s => ?_, by decide +kernel,
    by decide +kernel⟩
  cases s <;> decide +kernel

/-- Which class reads which file. -/
theorem neur_files :
    (∀ s ∈ storedRules, hasSub "neur".toList s.file.toList = false) ∧
    (∀ s : StoredLife, hasSub "neur".toList s.file.toList = false) ∧
    (∀ s ∈ storedNets, hasSub "neur".toList s.file.toList = s.instant.isSome) ∧
    hasSub "neur".toList Stored.uskate.file.toList = false := by
  refine ⟨by decide +kernel, fun s => ?_, by decide +kernel, by decide +kernel⟩
  cases s <;> decide +kernel

namespace Spec

/-- torch draws as many numbers for the layers made while loading a network as these have weights. -/
def DrawnFor (w : Stored → NCADraws) : Prop :=
  ∀ s h, s.instant = some h → (w (.net s)).1.length = h.1 * 2 ∧
    (w (.net s)).2.1.length = h.1 * h.1 ∧ (w (.net s)).2.2.length = 1 * h.1

/-- A file for `CCA`, whatever numbers it has. -/
def RuleFile : Stored → Prop
  | .rule s => (s.radius ≠ 0 ∧ Complete s.kernel) ∧ hasSub "neur".toList s.file.toList = false
  | .life _ => True
  | _ => False

end Spec

/-- A rule with a kernel loads, whatever its numbers. -/
theorem rule_loads (fs : Files) (fuel : Nat) (d : Nat → Draws) (o : CCAObj) (s : StoredRule)
    (hr : s.radius ≠ 0) (hk : Complete s.kernel) :
    ∃ o', o.loadRaw fs fuel d s.raw = some (.ok o') := by
  obtain ⟨κ, h1, _⟩ := stored_kernel s.kernel hk s.radius hr
  rw [rule_raw]
  have happ := (applyConfig_ok_iff o (ruleConfig s) (d 0).seq _).2
    ⟨⟨1, identityKernel⟩, s.radius, ⟨s.radius, κ⟩, _, _, rfl, rfl, h1, stored_growth _,
      stored_growth _, rfl⟩
  exact ⟨_, congrArg some happ⟩

/-- Every file for `CCA` passes. -/
theorem rule_file_passes (fs : Files) (disk : Disk) (fuel : Nat) (d : Nat → Draws)
    (e : Nat → NCADraws) (w : Stored → NCADraws) (weights : StoredNet → List ℝ) (hd : Drawn (d 0))
    (c : Stored) (hc : RuleFile c) :
    testStoredFile fs disk fuel d e w weights c = some (.ok ()) := by
  obtain ⟨o, ho, _⟩ := fresh_cca { caConfig := some c.file } (d 0) Nat.one_ne_zero Nat.one_ne_zero rfl
    (drawn_mixture hd)
  have hn : ¬ hasSub "neur".toList c.file.toList = true := by
    cases c with
    | rule s => exact Bool.eq_false_iff.1 hc.2
    | life s => exact Bool.eq_false_iff.1 (neur_files.2.1 s)
    | net s => exact hc.elim
    | uskate => exact hc.elim
  have hl : ∃ o', o.loadRaw fs fuel (fun n => d (n + 1)) (c.raw weights) = some (.ok o') := by
    cases c with
    | rule s => exact rule_loads fs fuel _ o s hc.1.1 hc.1.2
    | life s => exact stored_rule_loads fs fuel _ o (.life s) (.inr ⟨s, rfl⟩) weights
    | net s => exact hc.elim
    | uskate => exact hc.elim
  obtain ⟨o', hl⟩ := hl
  unfold testStoredFile
  dsimp only
  rw [if_neg hn, ho, then_ok, hl]
  rfl

/-- Every network with `instant_kwargs` passes. -/
theorem net_file_passes (fs : Files) (disk : Disk) (fuel : Nat) (d : Nat → Draws)
    (e : Nat → NCADraws) (w : Stored → NCADraws) (weights : StoredNet → List ℝ) (hw : DrawnFor w)
    (hv : ∀ s, (weights s).length = s.weights) (s : StoredNet) (hs : s ∈ storedNets) (h : Nat × ActKind)
    (hh : s.instant = some h) :
    testStoredFile fs disk (fuel + 1) d e w weights (.net s) = some (.ok ()) := by
  have hn : hasSub "neur".toList (Stored.net s).file.toList = true := by
    rw [show (Stored.net s).file = s.file from rfl, neur_files.2.2.1 s hs, hh]; rfl
  obtain ⟨w1, w2, w3⟩ := hw s h hh
  unfold testStoredFile
  dsimp only
  rw [if_pos hn]
  obtain ⟨b', o', κ, hb, _⟩ := stored_net_loads disk fuel e (w (.net s))
    ⟨{ radius := 13, peaks := 3, mode := .circular, ext := 1, int := 1, hidden := 64
       act := .gaussian, caConfig := some (Stored.net s).file }, none⟩ s hs h hh (weights s) (hv s) w1 w2 w3
  rw [show (Stored.net s).raw weights = s.raw (weights s) from rfl, hb]
  rfl

/-- C122: `test_configs` passes on the stored files, and on every other set of files for `CCA`: no
number in them is looked at. -/
theorem test_stored_passes (fs : Files) (disk : Disk) (fuel : Nat) (d : Nat → Draws)
    (e : Nat → NCADraws) (w : Stored → NCADraws) (weights : StoredNet → List ℝ) (hd : Drawn (d 0))
    (hw : DrawnFor w) (hv : ∀ s, (weights s).length = s.weights) :
    testStored fs disk (fuel + 1) d e w weights storedConfigs = some (.ok ()) ∧
    ∀ cs : List Stored, (∀ c ∈ cs, RuleFile c) →
      testStored fs disk (fuel + 1) d e w weights (cs ++ storedConfigs) = some (.ok ()) := by
  have key : ∀ c ∈ storedConfigs, isTested c.file = true →
      testStoredFile fs disk (fuel + 1) d e w weights c = some (.ok ()) := by
    intro c hc ht
    simp only [storedConfigs, List.mem_append, List.mem_map, List.mem_cons, List.not_mem_nil,
      or_false] at hc
    rcases hc with ((⟨s, hs, rfl⟩ | hc) | ⟨s, hs, rfl⟩) | rfl
    · exact rule_file_passes _ _ _ _ _ _ _ hd _ ⟨⟨(rules_sound s hs).radius, (rules_sound s hs).kernel⟩, neur_files.1 s hs⟩
    · rcases hc with rfl | rfl | rfl <;> exact rule_file_passes _ _ _ _ _ _ _ hd _ trivial
    · cases hi : s.instant with
      | none =>
        have := (tested_files.2.2.2.2.1 s hs).2 hi
        rw [show (Stored.net s).file = s.file from rfl, this] at ht
        cases ht
      | some h => exact net_file_passes _ _ _ _ _ _ _ hw hv s hs h hi
    · rw [tested_files.2.2.2.2.2] at ht
      cases ht
  refine ⟨(test_stored_iff ..).2 key, fun cs hcs => (test_stored_iff ..).2 fun c hc ht => ?_⟩
  rcases List.mem_append.1 hc with hc | hc
  · exact rule_file_passes _ _ _ _ _ _ _ hd _ (hcs c hc)
  · exact key c hc ht

/-- C122: of the files left out, the rules would pass; the five networks and the one for `RxnDfn`
would fail, being read by `CCA`. -/
theorem test_stored_skipped (fs : Files) (disk : Disk) (fuel : Nat) (d : Nat → Draws)
    (e : Nat → NCADraws) (w : Stored → NCADraws) (weights : StoredNet → List ℝ)
    (hd : ∀ n, Drawn (d n)) :
    (∀ s ∈ storedRules, testStoredFile fs disk (fuel + 1) d e w weights (.rule s) = some (.ok ())) ∧
    (∀ s ∈ storedNets, s.instant = none →
      testStoredFile fs disk (fuel + 1) d e w weights (.net s) = some (.error .assertion)) ∧
    testStoredFile fs disk (fuel + 1) d e w weights .uskate = some (.error .assertion) := by
  have key : ∀ c, ((∃ s ∈ storedNets, c = .net s) ∨ c = .uskate) →
      hasSub "neur".toList c.file.toList = false →
      testStoredFile fs disk (fuel + 1) d e w weights c = some (.error .assertion) := by
    intro c hc hn
    obtain ⟨o, ho, _⟩ := fresh_cca { caConfig := some c.file } (d 0) Nat.one_ne_zero Nat.one_ne_zero
      rfl (drawn_mixture (hd 0))
    unfold testStoredFile
    dsimp only
    rw [if_neg (Bool.eq_false_iff.1 hn), ho, then_ok,
      stored_net_in_cca fs fuel (fun n => d (n + 1)) o (drawn_mixture (hd _)) weights c hc]
    rfl
  refine ⟨fun s hs => rule_file_passes _ _ _ _ _ _ _ (hd 0) _ ⟨⟨(rules_sound s hs).radius, (rules_sound s hs).kernel⟩, neur_files.1 s hs⟩,
    fun s hs hi => key _ (.inl ⟨s, hs, rfl⟩) ?_, key _ (.inr rfl) neur_files.2.2.2⟩
  rw [show (Stored.net s).file = s.file from rfl, neur_files.2.2.1 s hs, hi]
  rfl

/-- Such draws and weights, and a file with other numbers. -/
example : (∃ w, DrawnFor w) ∧ (∃ v : StoredNet → List ℝ, ∀ s, (v s).length = s.weights) ∧
    RuleFile (.rule ⟨"other.npy", 5, .ring, (0.7, 0), (-0.2, 0.3), some (-3)⟩) := by
  refine ⟨⟨fun c => match c with
    | .net s => match s.instant with
      | some h => (List.replicate (h.1 * 2) 0.1, List.replicate (h.1 * h.1) 0.1, List.replicate (1 * h.1) 0.1)
      | none => ([], [], [])
    | _ => ([], [], []), fun s h hh => ?_⟩, ⟨fun s => List.replicate s.weights 0.1, fun s =>
      List.length_replicate⟩, ⟨by decide, trivial⟩, by decide +kernel⟩
  simp [hh]

end Yuca
