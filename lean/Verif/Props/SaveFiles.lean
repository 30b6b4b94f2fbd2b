import Verif.Props.Replay
import Verif.Props.Stored
import Verif.Props.Neural
import Verif.Model.SaveFiles

/-!
# C137: config files of neural and Gray-Scott automata

Exact real arithmetic.
-/

namespace Yuca

open Arith Spec

/-! ## The file that is read -/

theorem lookCfg_plain {α : Type} (fs : String → Option α) {path : String} (h : '\n' ∉ path.toList) :
    lookCfg fs path = match fs path with
      | some c => some c
      | none => fs ("ca_configs/" ++ path) := by
  unfold lookCfg
  rw [filter_newline h, String.ofList_toList]
  rfl

theorem lookCfg_break {α : Type} (fs : String → Option α) (path : String) :
    lookCfg fs (path ++ "\n") = lookCfg fs path := by
  unfold lookCfg
  have : (path ++ "\n").toList.filter (· ≠ '\n') = path.toList.filter (· ≠ '\n') := by
    rw [String.toList_append, List.filter_append]
    simp
  rw [this]

/-- C137: a file saved under a path that ends in `.npy` is the one read back from it, and no other
file changes. -/
theorem file_saved (fs : RawFiles) (path : String) (c : RawConfig) (hn : '\n' ∉ path.toList)
    (hs : Npy path) :
    lookCfg (saveRaw fs path c) path = some c ∧
      lookCfg (saveRaw fs path c) (path ++ "\n") = some c ∧
      ∀ q, q ≠ path → saveRaw fs path c q = fs q := by
  have h : lookCfg (saveRaw fs path c) path = some c := by
    rw [lookCfg_plain _ hn]
    unfold saveRaw
    rw [(npSaved_eq path).1 hs, Function.update_self]
  refine ⟨h, by rw [lookCfg_break, h], fun q hq => ?_⟩
  unfold saveRaw
  rw [(npSaved_eq path).1 hs, Function.update_of_ne hq]

/-- C137, refuted for a path without the ending: restoring from the path that was given to
`save_config` does not see the file.  If there was no file of the bare name, every class silently
keeps what it was. -/
theorem file_bare_refuted (fs : RawFiles) (path : String) (c : RawConfig)
    (hn : '\n' ∉ path.toList) (hs : ¬ Npy path) :
    lookCfg (saveRaw fs path c) path = lookCfg fs path ∧
      (lookCfg fs path = none →
        (∀ o : RxnObj, o.restoreRaw (saveRaw fs path c) path = .ok o) ∧
        ∀ fuel d (b : BuiltNCA), b.restoreRaw (saveRaw fs path c) fuel d path = some (.ok b)) := by
  have h : lookCfg (saveRaw fs path c) path = lookCfg fs path := by
    obtain ⟨h1, h2⟩ := bare_ne path hs
    rw [lookCfg_plain _ hn, lookCfg_plain _ hn]
    unfold saveRaw
    rw [Function.update_of_ne h1, Function.update_of_ne h2]
  refine ⟨h, fun h0 => ⟨fun o => ?_, fun fuel d b => ?_⟩⟩
  · unfold RxnObj.restoreRaw
    rw [h, h0]
  · unfold BuiltNCA.restoreRaw
    rw [h, h0]

/-! ## Gray-Scott -/

theorem rxn_clock_only {N H W : Nat} (ca : RxnDfn ℝ) (t : ℝ) (u : Univ ℝ N 2 H W) :
    RxnDfn.forward { ca with t := t } u =
      (ca.forward u).map fun r => (r.1, { ca with t := t + ca.dt }) := by
  unfold RxnDfn.forward
  simp only [Bind.bind, Except.bind, pure, Except.pure, Except.map]
  cases ca.idL.apply u with
  | error e => rfl
  | ok a => cases ca.nbL.apply u <;> rfl

theorem rxn_clock_run {N H W : Nat} (n : Nat) (ca : RxnDfn ℝ) (t : ℝ) (u : Univ ℝ N 2 H W) :
    stepped RxnDfn.forward n { ca with t := t } u = stepped RxnDfn.forward n ca u := by
  unfold stepped
  induction n generalizing ca t u with
  | zero => rfl
  | succ n ih =>
    have key : ∀ s : ℝ, (iterate RxnDfn.forward (n + 1) { ca with t := s } u).map (·.1) =
        (ca.forward u).bind fun r => (iterate RxnDfn.forward n ca r.1).map (·.1) := by
      intro s
      simp only [iterate, bind, Except.bind]
      rw [rxn_clock_only]
      cases ca.forward u with
      | error e => rfl
      | ok r =>
        simp only [Except.map]
        exact ih ca (s + ca.dt) r.1
    exact (key t).trans (key ca.t).symm

theorem rxn_raw (c : RxnConfig) : c.raw.rxn = c := rfl

/-- C137: a Gray-Scott automaton whose kernel is the one its config names is restored, into any other,
from the file it was saved to: the same config, the same file when saved again, and (with the usual
identity kernel) the same universes after any number of steps, whatever the clock of the object it is
restored into. -/
theorem rxn_save_restore (fs : RawFiles) (o o₀ : RxnObj) (h : RxnSound o) (path : String)
    (hn : '\n' ∉ path.toList) (hs : Npy path) :
    ∃ o', o₀.restoreRaw (o.saveConfig fs path) path = .ok o' ∧
      o₀.restoreRaw (o.saveConfig fs path) (path ++ "\n") = .ok o' ∧
      o'.makeConfig = o.makeConfig ∧ RxnSound o' ∧
      o'.saveConfig (o.saveConfig fs path) path = o.saveConfig fs path ∧
      (o.idLayer = ⟨1, identityKernel⟩ → ∀ {N H W : Nat} (n : Nat) (u : Univ ℝ N 2 H W),
        stepped RxnDfn.forward n o'.toRxn u = stepped RxnDfn.forward n o.toRxn u) := by
  obtain ⟨l1, l2, -⟩ := file_saved fs path o.makeConfig.raw hn hs
  obtain ⟨o', h1, h2, h3, h4, h5⟩ := rxn_config_roundtrip o o₀ h
  have hm : o'.makeConfig = o.makeConfig := by
    have e : ∀ x : RxnObj, x.makeConfig = ⟨none, some ⟨"InnerMoore", none, none⟩, x.nbCfg,
        some x.toRxn.dt, some x.toRxn.dx, some x.toRxn.k, some x.toRxn.f, some x.toRxn.diffU,
        some x.toRxn.diffV, some x.getParams⟩ := fun _ => rfl
    rw [e o', e o, h3, h4, h5]
  refine ⟨o', ?_, ?_, hm, h2, ?_, ?_⟩
  · unfold RxnObj.restoreRaw RxnObj.saveConfig
    rw [l1]
    exact h1
  · unfold RxnObj.restoreRaw RxnObj.saveConfig
    rw [l2]
    exact h1
  · unfold RxnObj.saveConfig saveRaw
    rw [hm, Function.update_idem]
  · intro hid N H W n u
    obtain ⟨o'', g1, g2⟩ := rxn_config_same o o₀ h hid
    have : o'' = o' := Except.ok.inj (g1.symm.trans h1)
    rw [← this, g2]
    exact rxn_clock_run n o.toRxn o₀.t u

/-- The default automaton after some changes, at a path as a user would write it. -/
example : RxnSound (runRxn defaultRxn
      [.setParams [1e-5, 2e-5, 0.03, 0.06], .setKernelRadius 2, .setDt 0.1]) ∧
    '\n' ∉ "ca_configs/mine.npy".toList ∧ Npy "ca_configs/mine.npy" := by
  refine ⟨rxn_sound_run _ default_rxn_sound _, by decide, ?_⟩
  unfold Npy; decide

/-! ## Neural automata -/

/-- What `load_config` puts down besides the parameters. -/
theorem nca_load_rest {o o' : NCAObj} {fresh : List (List ℝ)} {cfg : NCAConfig} {e : Option PyErr}
    {r : Nat} {κ : AnyKernel} (hr : cfg.neighborhood.radius = some r)
    (hk : cfg.neighborhood.kernel = .ok κ) (h : o.loadConfig fresh cfg = (o', e)) :
    o'.nbCfg = some { cfg.neighborhood with kwargs := some (cfg.neighborhood.kwargs.getD []) } ∧
      o'.kernelRadius = r ∧ o'.kernelPeaks = o.kernelPeaks ∧ o'.dt = cfg.dt.getD 0.1 := by
  have key : ∀ (x : NCAObj) (v : List ℝ), (x.setParams v).1.nbCfg = x.nbCfg ∧
      (x.setParams v).1.kernelRadius = x.kernelRadius ∧
      (x.setParams v).1.kernelPeaks = x.kernelPeaks ∧ (x.setParams v).1.dt = x.dt := by
    intro x v
    unfold NCAObj.setParams
    dsimp only
    repeat' split
    all_goals exact ⟨rfl, rfl, rfl, rfl⟩
  unfold NCAObj.loadConfig at h
  rw [hr, hk] at h
  dsimp only at h
  rw [← show _ = o' from congrArg Prod.fst h]
  exact key _ _

/-- An NCA whose kernel has no parameters (`MooreLike`, `InnerMoore`), as `load_config` leaves it. -/
structure Spec.NCAPlain (o : NCAObj) : Prop where
  params : o.kernelParams = .none
  radius : o.kernelRadius ≠ 0
  cfg : ∃ c, o.nbCfg = some c ∧ c.radius = some o.kernelRadius ∧ c.kwargs = some [] ∧
    c.kernel = .ok o.nbLayer

/-- The config of the automaton describes its kernel. -/
def Spec.KernelKept (o : NCAObj) : Prop := (∃ l, NCASaveable o l) ∨ NCAPlain o

theorem kept_radius {o : NCAObj} (h : KernelKept o) : o.kernelRadius ≠ 0 := by
  rcases h with ⟨l, h⟩ | h
  · exact h.radius
  · exact h.radius

/-- What such a network writes as its kernel can be read again. -/
theorem kept_kernel {o : NCAObj} (h : KernelKept o) :
    o.makeConfig.1.neighborhood.radius = some o.kernelRadius ∧
      (∃ κ, o.makeConfig.1.neighborhood.kernel = .ok κ) ∧
      ∃ kws, o.makeConfig.1.neighborhood.kwargs = some kws := by
  rcases h with ⟨l, h⟩ | h
  · have hc := h.cfg
    have hgp : o.getParams = readTensors o.tensors ++ l := by
      rw [NCAObj.getParams, h.params]
    unfold NCAObj.makeConfig
    cases hn : o.nbCfg with
    | none =>
      rw [hn] at hc
      dsimp only at hc ⊢
      have hl3 : lastN (o.kernelPeaks * 3) o.getParams = l := by
        have hm := h.mix.1
        unfold lastN
        rw [if_neg (by omega), hgp, List.length_append, ← hc, Nat.add_sub_cancel, List.drop_left]
      rw [hl3]
      exact ⟨rfl, ⟨_, by rw [mixture_cfg_kernel]; exact h.layer⟩, _, rfl⟩
    | some c =>
      rw [hn] at hc
      dsimp only at hc ⊢
      obtain ⟨h1, h2, name, l₀, h3, h4⟩ := hc
      exact ⟨h1, h2, _, h3⟩
  · obtain ⟨c, h1, h2, h3, h4⟩ := h.cfg
    unfold NCAObj.makeConfig
    rw [h1]
    exact ⟨h2, ⟨_, h4⟩, _, h3⟩

/-- Such a network comes back from its config. -/
theorem kept_roundtrip (o o₀ : NCAObj) (h : KernelKept o) (fresh : List (List ℝ))
    (hf : fresh.map List.length = o.tensors.map List.length) :
    ∃ o', o₀.loadConfig fresh o.makeConfig.1 = (o', none) ∧ o'.tensors = o.tensors ∧
      o'.nbLayer = o.nbLayer ∧ o'.dt = o.dt ∧ o'.getParams = o.getParams := by
  rcases h with ⟨l, h⟩ | h
  · exact nca_config_roundtrip o o₀ l h fresh hf
  · obtain ⟨c, h1, h2, h3, h4⟩ := h.cfg
    have hnb : o.makeConfig.1.neighborhood = c := by
      unfold NCAObj.makeConfig
      rw [h1]
    have hgp : o.getParams = readTensors o.tensors := by
      rw [NCAObj.getParams, h.params, List.append_nil]
    have hsize : size fresh = size o.tensors := by unfold size; rw [hf]
    have hp : o.makeConfig.1.params = readTensors o.tensors := hgp
    obtain ⟨o', e1, e2, e3, e4, -, e5, -⟩ := nca_load_plain o₀ fresh o.makeConfig.1 o.kernelRadius
      o.nbLayer (by rw [hnb]; exact h2) (by rw [hnb]; exact h4) (by rw [hnb, h3]; rfl)
      (by rw [hp, hsize, readTensors_length])
    have ht : o'.tensors = o.tensors := by
      refine flatten_inj_shape _ _ (e3.trans hf) ?_
      have := e2.trans hp
      unfold readTensors at this
      exact this
    refine ⟨o', e1, ht, e4, e5, ?_⟩
    have hk : o'.kernelParams = .none := by
      obtain ⟨ts, t1, -⟩ := writeTensors_enough fresh o.makeConfig.1.params
        (by rw [hp, hsize, readTensors_length])
      have := congrArg (fun x => x.1.kernelParams) e1
      rw [← this]
      unfold NCAObj.loadConfig
      rw [hnb, h2, h4]
      dsimp only
      rw [NCAObj.setParams]
      simp only [t1, h3, Option.getD_some, updateKernelParams]
    rw [hgp, NCAObj.getParams, hk, ht, List.append_nil]

/-- The constructor with the stored arguments gives an object with the stored number of peaks, if it
names no file that exists. -/
theorem ncaInitRaw_plain (fs : RawFiles) (fuel : Nat) (d : Nat → NCADraws) (kw : NCAKwargs)
    (hr : kw.radius ≠ 0) (hp : kw.peaks ≠ 0) (hf : kw.caConfig.bind (lookCfg fs) = none) :
    ∃ b, ncaInitRaw fs (fuel + 1) d kw = some (.ok b) ∧ b.kw = kw ∧
      (b.obj.getD (.bare b.kw)).kernelPeaks = kw.peaks := by
  cases hc : kw.caConfig with
  | none =>
    obtain ⟨o, ho⟩ := (default_network kw.act kw.radius kw.peaks (d 0).1 (d 0).2.1 (d 0).2.2).2
      ⟨hr, hp⟩
    refine ⟨⟨kw, some o⟩, ?_, rfl, ?_⟩
    · simp only [ncaInitRaw, hc, ho, Except.map]
    · unfold NCAObj.defaultInit at ho
      rw [if_neg hp] at ho
      obtain ⟨κ, -, ho⟩ := bind_ok ho
      cases ho
      rfl
  | some p =>
    rw [hc, Option.bind_some] at hf
    exact ⟨⟨kw, none⟩, by simp only [ncaInitRaw, hc, hf], rfl, rfl⟩

/-- An automaton that can be saved: its network has the shape its arguments say, and its config
describes its kernel. -/
structure Spec.NetSaveable (b : BuiltNCA) (o : NCAObj) : Prop where
  obj : b.obj = some o
  kernel : KernelKept o
  peaks : o.kernelPeaks ≠ 0
  shape : o.tensors.map List.length = shape b.kw.act b.kw.ext b.kw.int b.kw.hidden

theorem makeRaw_ok {b : BuiltNCA} {o : NCAObj} (h : NetSaveable b o) :
    b.makeRaw = .ok ({ instant := some { b.kw with radius := o.kernelRadius, peaks := o.kernelPeaks }
                       idKernelConfig := some ⟨"InnerMoore", none, none⟩
                       neighborhood := o.makeConfig.1.neighborhood
                       params := some o.getParams, dt := some o.dt },
      ⟨{ b.kw with radius := o.kernelRadius, peaks := o.kernelPeaks }, some o.makeConfig.2⟩) := by
  unfold BuiltNCA.makeRaw
  rw [h.obj]
  simp only [saved_activation]
  rfl

/-- C137: a neural automaton is restored, into any other (whatever its width and activation), from
the file it was saved to: the same arguments, the same step function for every threshold and clock,
and the same file when saved again. -/
theorem nca_save_restore (fs : RawFiles) (b b₀ : BuiltNCA) (o : NCAObj)
    (h : NetSaveable b o) (path : String) (hn : '\n' ∉ path.toList) (hs : Npy path)
    (c : RawConfig) (b₁ : BuiltNCA) (hm : b.makeRaw = .ok (c, b₁))
    (hf : b.kw.caConfig.bind (lookCfg (saveRaw fs path c)) = none) (fuel : Nat) (d : Nat → NCADraws)
    (hd₁ : (d 0).1.length = b.kw.hidden * (b.kw.ext + b.kw.int))
    (hd₂ : (d 0).2.1.length = b.kw.hidden * b.kw.hidden)
    (hd₃ : (d 0).2.2.length = b.kw.ext * b.kw.hidden) :
    ∃ b' o', b₀.restoreRaw (saveRaw fs path c) (fuel + 1) d path = some (.ok b') ∧
      b₀.restoreRaw (saveRaw fs path c) (fuel + 1) d (path ++ "\n") = some (.ok b') ∧
      b'.obj = some o' ∧ b'.kw = { b.kw with radius := o.kernelRadius, peaks := o.kernelPeaks } ∧
      o'.getParams = o.getParams ∧
      (∀ thr t, o'.automaton b'.kw.act b.kw.ext b.kw.int b.kw.hidden b'.kw.mode thr t =
        o.automaton b.kw.act b.kw.ext b.kw.int b.kw.hidden b.kw.mode thr t) ∧
      ∃ b'', b'.makeRaw = .ok (c, b'') ∧ saveRaw (saveRaw fs path c) path c = saveRaw fs path c := by
  have hm' := makeRaw_ok h
  rw [hm] at hm'
  obtain ⟨hc, -⟩ := Prod.mk.inj (Except.ok.inj hm')
  obtain ⟨l1, l2, -⟩ := file_saved fs path c hn hs
  obtain ⟨k1, ⟨κ, k2⟩, kws, k3⟩ := kept_kernel h.kernel
  obtain ⟨b₂, i1, i2, i3⟩ := ncaInitRaw_plain (saveRaw fs path c) fuel (fun n => d (n + 1))
    { b.kw with radius := o.kernelRadius, peaks := o.kernelPeaks } (kept_radius h.kernel) h.peaks hf
  have hact : b₂.kw.act = b.kw.act := by rw [i2]
  have hfresh : (initialTensors b₂.kw.act (d 0).1 (d 0).2.1 (d 0).2.2).map List.length =
      o.tensors.map List.length := by
    rw [hact, initialTensors_shape b.kw.act _ _ _ hd₁ hd₂ hd₃, h.shape]
  obtain ⟨o', g1, g2, g3, g4, g5⟩ := kept_roundtrip o (b₂.obj.getD (.bare b₂.kw)) h.kernel
    (initialTensors b₂.kw.act (d 0).1 (d 0).2.1 (d 0).2.2) hfresh
  obtain ⟨r1, r2, r3, r4⟩ := nca_load_rest k1 k2 g1
  have load : b₀.loadRaw (ncaInitRaw (saveRaw fs path c) (fuel + 1) fun n => d (n + 1)) (d 0) c =
      some (.ok { b₂ with obj := some o' }) := by
    have c1 : c.instant = some { b.kw with radius := o.kernelRadius, peaks := o.kernelPeaks } := by
      rw [hc]
    have c2 : c.identityKernel = .ok ⟨1, identityKernel⟩ := by rw [hc]; rfl
    have c3 : c.neighborhood = o.makeConfig.1.neighborhood := by rw [hc]
    have c4 : c.params = some o.getParams := by rw [hc]
    have c5 : c.dt = some o.dt := by rw [hc]
    have c6 : o.makeConfig.1.neighborhood.radiusKey = .ok o.kernelRadius := by
      unfold KernelCfg.radiusKey; rw [k1]
    have g1' : NCAObj.loadConfig (b₂.obj.getD (.bare b₂.kw))
        (initialTensors b₂.kw.act (d 0).1 (d 0).2.1 (d 0).2.2)
        ⟨o.makeConfig.1.neighborhood, o.getParams, some o.dt⟩ = (o', none) := g1
    simp only [BuiltNCA.loadRaw, c1, i1, andThen, c2, c3, c4, c5, c6, k2, entry, bind, Except.bind,
      g1']
  refine ⟨{ b₂ with obj := some o' }, o', ?_, ?_, rfl, i2, g5, fun thr t => ?_, ?_⟩
  · unfold BuiltNCA.restoreRaw
    rw [l1]
    exact load
  · unfold BuiltNCA.restoreRaw
    rw [l2]
    exact load
  · rw [show (BuiltNCA.mk b₂.kw (some o')).kw = b₂.kw from rfl, i2]
    unfold NCAObj.automaton
    rw [g2, g3, g4]
  · have hnb : o'.makeConfig.1.neighborhood = o.makeConfig.1.neighborhood := by
      have : o'.makeConfig.1.neighborhood = { o.makeConfig.1.neighborhood with
          kwargs := some (o.makeConfig.1.neighborhood.kwargs.getD []) } := by
        conv_lhs => unfold NCAObj.makeConfig
        rw [r1]
      rw [this, k3]
      simp only [Option.getD_some]
      rw [← k3]
    refine ⟨⟨{ b.kw with radius := o.kernelRadius, peaks := o.kernelPeaks }, some o'.makeConfig.2⟩,
      ?_, by unfold saveRaw; rw [Function.update_idem]⟩
    unfold BuiltNCA.makeRaw
    simp only [saved_activation, i2, r2, hnb, hc]
    rw [show o'.makeConfig.1.params = o'.getParams from rfl, g5,
      show o'.makeConfig.1.dt = some o'.dt from rfl, g4, r3, i3]

/-- A small network that can be saved. -/
noncomputable def Witness.builtNet (κ : AnyKernel) : BuiltNCA where
  kw := ⟨1, 1, .circular, 1, 1, 1, .tanh, none⟩
  obj := some
    { tensors := [[1, 2], [3], [4]], kernelRadius := 1, kernelPeaks := 1
      kernelParams := .vec [1, 0.5, 0.15], nbKernel := κ, nbLayer := κ, nbCfg := none, dt := 0.1 }

example : ∃ κ o, NetSaveable (Witness.builtNet κ) o ∧ 4 ≤ (readTensors o.tensors).length := by
  obtain ⟨κ, hκ⟩ := (mixture_kernel_iff 1 [1, 0.5, 0.15]).2
    ⟨⟨by simp, by simp⟩, one_ne_zero⟩
  exact ⟨κ, _, ⟨rfl, .inl ⟨[1, 0.5, 0.15], rfl, ⟨by simp, by simp⟩, one_ne_zero, hκ, rfl⟩,
    one_ne_zero, by simp [Witness.builtNet, shape]⟩, by simp [readTensors]⟩

/-- And one with a kernel that has no parameters. -/
example : KernelKept
    { tensors := [[1, 2], [3], [4]], kernelRadius := 1, kernelPeaks := 1, kernelParams := .none
      nbKernel := ⟨1, mooreLike 1⟩, nbLayer := ⟨1, mooreLike 1⟩
      nbCfg := some ⟨"MooreLike", some 1, some []⟩, dt := 0.1 } :=
  .inr ⟨rfl, one_ne_zero, _, rfl, rfl, rfl, by simp [KernelCfg.kernel, getKernel]⟩

/-- C137, refuted for a network saved over the file it was built from: the file then names itself
among its arguments, and restoring it (from any path that leads to it, into any network) calls the
constructor within the constructor beyond every depth. -/
theorem nca_save_over_refuted (fs : RawFiles) (b : BuiltNCA) (X path : String)
    (c : RawConfig) (b₁ : BuiltNCA) (hX : b.kw.caConfig = some X) (hm : b.makeRaw = .ok (c, b₁))
    (hl : lookCfg (saveRaw fs path c) X = some c) (p : String)
    (hp : lookCfg (saveRaw fs path c) p = some c) (b₀ : BuiltNCA) (fuel : Nat) (d : Nat → NCADraws) :
    b₀.restoreRaw (saveRaw fs path c) fuel d p = none := by
  obtain ⟨kw, hk, hkX⟩ : ∃ kw, c.instant = some kw ∧ kw.caConfig = some X := by
    unfold BuiltNCA.makeRaw at hm
    cases ho : b.obj with
    | none => rw [ho] at hm; cases hm
    | some o =>
      rw [ho] at hm
      obtain ⟨hc, -⟩ := Prod.mk.inj (Except.ok.inj hm)
      exact ⟨_, (congrArg RawConfig.instant hc).symm, hX⟩
  have key : ∀ (n : Nat) (d : Nat → NCADraws), ncaInitRaw (saveRaw fs path c) n d kw = none := by
    intro n
    induction n with
    | zero => intro d; rfl
    | succ n ih =>
      intro d
      simp only [ncaInitRaw, hkX, hl, BuiltNCA.loadRaw, hk, ih, andThen]
  unfold BuiltNCA.restoreRaw
  rw [hp]
  simp only [BuiltNCA.loadRaw, hk, key, andThen]

/-- As happens with `NCA(ca_config="net.npy")` and `save_config("net.npy")`. -/
example (fs : RawFiles) (κ : AnyKernel) :
    ∃ c b₁, BuiltNCA.makeRaw { Witness.builtNet κ with
        kw := { (Witness.builtNet κ).kw with caConfig := some "net.npy" } } = .ok (c, b₁) ∧
      lookCfg (saveRaw fs "net.npy" c) "net.npy" = some c :=
  ⟨_, _, rfl, (file_saved fs "net.npy" _ (by decide) (by unfold Npy; decide)).1⟩

/-! ## A file restored into another class -/

/-- C137, refuted that the wrong file is rejected: a Gray-Scott automaton takes every saved network
with at least four weights, without a word; the first four become its rates. -/
theorem nca_file_in_rxn_refuted (fs : RawFiles) (b : BuiltNCA) (o : NCAObj)
    (h : NetSaveable b o) (path : String) (hn : '\n' ∉ path.toList) (hs : Npy path)
    (c : RawConfig) (b₁ : BuiltNCA) (hm : b.makeRaw = .ok (c, b₁))
    (hw : 4 ≤ (readTensors o.tensors).length) (r : RxnObj) :
    ∃ r', r.restoreRaw (saveRaw fs path c) path = .ok r' ∧
      r'.getParams = (readTensors o.tensors).take 4 ∧ r'.dt = o.dt := by
  have hm' := makeRaw_ok h
  rw [hm] at hm'
  obtain ⟨hc, -⟩ := Prod.mk.inj (Except.ok.inj hm')
  obtain ⟨l1, -⟩ := file_saved fs path c hn hs
  obtain ⟨k1, ⟨κ, k2⟩, -⟩ := kept_kernel h.kernel
  obtain ⟨l, hgp⟩ : ∃ l, o.getParams = readTensors o.tensors ++ l := ⟨_, rfl⟩
  unfold RxnObj.restoreRaw
  rw [l1]
  dsimp only
  obtain ⟨x, y, z, w, rest, hv⟩ : ∃ x y z w rest, readTensors o.tensors = x :: y :: z :: w :: rest := by
    match readTensors o.tensors, hw with
    | x :: y :: z :: w :: rest, _ => exact ⟨x, y, z, w, rest, rfl⟩
  refine ⟨_, (rxn_load_iff ..).2 ⟨⟨1, identityKernel⟩, κ, x, y, z, w, rest ++ l, ?_, ?_, ?_, rfl⟩, ?_, ?_⟩
  · rw [hc]; rfl
  · rw [hc]; exact k2
  · show c.params = _
    rw [hc, hgp, hv]; rfl
  · rw [hv]; rfl
  · show c.dt.getD 0.5 = _
    rw [hc]; rfl

/-- C137: a neural automaton never takes the file of a Gray-Scott automaton if it has more than four
weights, or if the kernel of that automaton has one number for parameter, as the default kernel. -/
theorem rxn_file_in_nca (fs : RawFiles) (o : RxnObj) (path : String) (hn : '\n' ∉ path.toList)
    (hs : Npy path) (b : BuiltNCA) (fuel : Nat) (d : Nat → NCADraws)
    (h : 4 < size (initialTensors b.kw.act (d 0).1 (d 0).2.1 (d 0).2.2) ∨
      ∃ x, updateKernelParams (o.nbCfg.kwargs.getD []) = .scalar x) :
    ∃ e, b.restoreRaw (o.saveConfig fs path) fuel d path = some (.error e) := by
  obtain ⟨l1, -⟩ := file_saved fs path o.makeConfig.raw hn hs
  unfold BuiltNCA.restoreRaw RxnObj.saveConfig
  rw [l1]
  have e0 : o.makeConfig.raw.instant = none := rfl
  have e1 : o.makeConfig.raw.identityKernel = .ok ⟨1, identityKernel⟩ := rfl
  have e2 : o.makeConfig.raw.neighborhood = o.nbCfg := rfl
  have e3 : o.makeConfig.raw.params = some o.getParams := rfl
  simp only [BuiltNCA.loadRaw, e0, andThen, e1, e2, e3, entry, bind, Except.bind]
  cases hr : o.nbCfg.radiusKey with
  | error e => exact ⟨e, rfl⟩
  | ok r =>
    have hr' : o.nbCfg.radius = some r := by
      unfold KernelCfg.radiusKey at hr
      cases hx : o.nbCfg.radius with
      | none => rw [hx] at hr; cases hr
      | some y => rw [hx] at hr; cases hr; rfl
    cases hk : o.nbCfg.kernel with
    | error e => exact ⟨e, rfl⟩
    | ok κ =>
      have key : ∃ e, (NCAObj.loadConfig (b.obj.getD (.bare b.kw))
          (initialTensors b.kw.act (d 0).1 (d 0).2.1 (d 0).2.2)
          ⟨o.nbCfg, o.getParams, o.makeConfig.raw.dt⟩).2 = some e := by
        by_cases hsz : size (initialTensors b.kw.act (d 0).1 (d 0).2.1 (d 0).2.2) ≤ o.getParams.length
        · rcases h with h | ⟨x, h⟩
          · have : o.getParams.length = 4 := rfl
            omega
          · exact ⟨_, nca_load_scalar _ _ ⟨o.nbCfg, o.getParams, o.makeConfig.raw.dt⟩ r κ x hr' hk h hsz⟩
        · obtain ⟨k, ts, _, _, _, h2, _⟩ := writeTensors_short
            (initialTensors b.kw.act (d 0).1 (d 0).2.1 (d 0).2.2) o.getParams (by omega)
          simp only [NCAObj.loadConfig, hr', hk, NCAObj.setParams, h2]
          exact ⟨_, rfl⟩
      obtain ⟨e, k1⟩ := key
      refine ⟨e, ?_⟩
      dsimp only
      cases hl : NCAObj.loadConfig (b.obj.getD (.bare b.kw))
          (initialTensors b.kw.act (d 0).1 (d 0).2.1 (d 0).2.2)
          ⟨o.nbCfg, o.getParams, o.makeConfig.raw.dt⟩ with
      | mk o' e' =>
        rw [hl] at k1
        dsimp only at k1
        subst k1
        rfl

example : updateKernelParams (defaultRxn.nbCfg.kwargs.getD []) = .scalar 0.5 := rfl

/-- A config without a growth function is not taken by a `CCA`. -/
theorem no_genesis {o o' : CCAObj} {c : RawConfig} {w : (Nat → Nat → ℝ) × (Nat → Nat → ℝ)}
    (hg : c.genesis = none) : o.applyRaw c w ≠ .ok o' := by
  intro h
  unfold CCAObj.applyRaw at h
  obtain ⟨_, -, h⟩ := bind_ok h
  obtain ⟨_, -, h⟩ := bind_ok h
  obtain ⟨_, -, h⟩ := bind_ok h
  rw [hg] at h
  cases h

/-- C137: a `CCA` never takes the file of a neural or of a Gray-Scott automaton. -/
theorem other_file_in_cca (fs : Files) (fuel : Nat) (d : Nat → Draws) (o o' : CCAObj) (c : RawConfig)
    (h : (∃ r : RxnObj, c = r.makeConfig.raw) ∨ ∃ b b₁, BuiltNCA.makeRaw b = .ok (c, b₁)) :
    o.loadRaw fs fuel d c ≠ some (.ok o') := by
  have hg : c.genesis = none := by
    rcases h with ⟨r, rfl⟩ | ⟨b, b₁, hm⟩
    · rfl
    · unfold BuiltNCA.makeRaw at hm
      cases ho : b.obj with
      | none => rw [ho] at hm; cases hm
      | some x =>
        rw [ho] at hm
        obtain ⟨hc, -⟩ := Prod.mk.inj (Except.ok.inj hm)
        rw [← hc]
  intro hl
  unfold CCAObj.loadRaw andThen at hl
  split at hl
  · cases hl
  · cases hl
  · exact no_genesis hg (Option.some.inj hl)

/-- C137: neither a neural nor a Gray-Scott automaton takes the file of a `CCA`: it has no `params`. -/
theorem cca_file_elsewhere (fs : RawFiles) (o : CCAObj) (path : String) (hn : '\n' ∉ path.toList)
    (hs : Npy path) :
    (∀ r r' : RxnObj, r.restoreRaw (saveRaw fs path o.makeRaw) path ≠ .ok r') ∧
    ∀ (b b' : BuiltNCA) fuel d,
      b.restoreRaw (saveRaw fs path o.makeRaw) fuel d path ≠ some (.ok b') := by
  obtain ⟨l1, -⟩ := file_saved fs path o.makeRaw hn hs
  constructor
  · intro r r' h
    unfold RxnObj.restoreRaw at h
    rw [l1] at h
    obtain ⟨_, _, _, _, _, _, _, -, -, hp, -⟩ := (rxn_load_iff ..).1 h
    have : o.makeRaw.rxn.params = none := rfl
    rw [this] at hp
    cases hp
  · intro b b' fuel d h
    unfold BuiltNCA.restoreRaw at h
    rw [l1] at h
    dsimp only at h
    unfold BuiltNCA.loadRaw andThen at h
    split at h
    · cases h
    · cases h
    · have h := Option.some.inj h
      obtain ⟨_, -, h⟩ := bind_ok h
      obtain ⟨_, -, h⟩ := bind_ok h
      obtain ⟨_, -, h⟩ := bind_ok h
      obtain ⟨_, hp, -⟩ := bind_ok h
      have : o.makeRaw.params = none := rfl
      rw [this] at hp
      cases hp

end Yuca
