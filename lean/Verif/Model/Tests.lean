import Verif.Model.Stored
import Verif.Model.Patterns
import Verif.Model.GrayScott

/-!
# The project's own tests (testing/)

A test method is a computation that returns `.ok ()` when the test passes; a failed assertion raises
`AssertionError`.  Random tensors are arguments; the branches for cuda are left out.
-/

namespace Yuca

/-! ## Assertions -/

/-- `self.assertTrue(p)`, `assertEqual`, `assertIn`, …: the `unittest` assertions used in testing/
(e.g. testing/yuca/ca/test_continuous.py:25-32, 57-74). -/
noncomputable def check (p : Prop) : Except PyErr Unit :=
  open Classical in if p then .ok () else .error .assertion

/-- `assertAlmostEqual(a, b, places)` compares `round(b - a, places)` with 0; 7 places by default
(e.g. testing/yuca/ca/test_reaction_diffusion.py:20-21). -/
def AlmostEqual (a b : ℝ) (places : Nat) : Prop := |a - b| ≤ 1 / 2 / 10 ^ places

/-- A `for` loop of a test. -/
def each {β : Type} (f : β → Except PyErr Unit) : List β → Except PyErr Unit
  | [] => .ok ()
  | x :: xs => do
    f x
    each f xs

/-- `torch.rand(N, C, H, W)`, `torch.randn(N, C, H, W)`. -/
def tensor (N C H W : Nat) (rand : Nat → Nat → Nat → Nat → ℝ) : Univ ℝ N C H W :=
  fun n c i j => rand n c i j

/-- `np.sum(np.abs(a - b))`; arrays of different lengths cannot be subtracted.  Simplification: an
array of one number is not spread over the other one. -/
noncomputable def sumAbs (a b : List ℝ) : Except PyErr ℝ :=
  if a.length = b.length then .ok (List.zipWith (fun x y => |x - y|) a b).sum else .error .value

/-! ## testing/yuca/ca/test_continuous.py -/

/-- `ca = CCA(…); ca.default_init()`: the second `default_init` keeps `kernel_params`
(yuca/ca/continuous.py:279-280) and draws everything else anew. -/
noncomputable def CCAObj.newTwice (kw : InstantKwargs) (d d' : Draws) : Except PyErr CCAObj := do
  let _ ← CCAObj.defaultInit kw d
  CCAObj.defaultInit kw { d' with kernel := d.kernel }

/-- `len(…)` of what `get_frame` returns: a tensor has its number of worlds, `None` has no length. -/
def Frame.len {N ext int H W : Nat} : Frame ℝ N ext int H W → Except PyErr Nat
  | .new _ => .ok N
  | .newNb _ _ => .ok 2
  | .newUpd _ _ => .ok 2
  | .newNbUpd _ _ _ => .ok 3
  | .all _ _ _ _ => .ok 4
  | .none => .error .type

/-- The body of the loop of `test_get_frame` (testing/yuca/ca/test_continuous.py:22-32). -/
noncomputable def testFrameMode (o : CCAObj) (rand : Nat → Nat → Nat → Nat → ℝ) (mode : Nat) :
    Except PyErr Unit := do
  let r ← (o.dynamics.toCCA o.t).getFrame (tensor 1 o.dynamics.ext 32 32 rand) mode
  let n ← r.len
  if mode = 0 then check (1 = n)
  else if mode = 1 ∨ mode = 2 then check (2 = n)
  else if mode = 3 then check (3 = n)
  else if mode = 4 then check (4 = n)
  else .ok ()

/-- `test_get_frame` (testing/yuca/ca/test_continuous.py:16-32). -/
noncomputable def testGetFrame (d d' : Draws) (rand : Nat → Nat → Nat → Nat → ℝ) :
    Except PyErr Unit := do
  let o ← CCAObj.newTwice {} d d'
  each (testFrameMode o rand) [0, 1, 2, 3, 4]

/-- The keys of the dictionary `CCA.make_config` returns (yuca/ca/continuous.py:239-256). -/
def ccaKeys : List String :=
  ["id_kernel_config", "neighborhood_kernel_config", "genesis_config", "persistence_config", "dt",
   "instant_kwargs"]

/-- The keys of the dictionary `NCA.make_config` returns (yuca/ca/neural.py:235-244). -/
def ncaKeys : List String :=
  ["params", "id_kernel_config", "neighborhood_kernel_config", "dt", "instant_kwargs"]

/-- The keys of the dictionary `RxnDfn.make_config` returns
(yuca/ca/reaction_diffusion.py:181-191). -/
def rxnKeys : List String :=
  ["params", "id_kernel_config", "neighborhood_kernel_config", "dt", "dx", "diffusion_u",
   "diffusion_v", "feed_rate", "decay_rate"]

/-- The assertions on `params` of five configs 1, 1b, 2, 3, 4
(testing/yuca/ca/test_continuous.py:61-74, testing/yuca/ca/test_neural.py:44-57,
testing/yuca/ca/test_reaction_diffusion.py:82-95). -/
noncomputable def compareParams (p₁ p₁' p₂ p₃ p₄ : List ℝ) : Except PyErr Unit := do
  let s11 ← sumAbs p₁ p₁'
  let s12 ← sumAbs p₁ p₂
  let s23 ← sumAbs p₂ p₃
  let s13 ← sumAbs p₁ p₃
  let s14 ← sumAbs p₁ p₄
  check (0 = s11)
  check (0 = s12)
  check (0 ≠ s13)
  check (0 ≠ s23)
  check (0 = s14)

/-- The loop over the keys of the first config, the same in the three `test_configs`
(testing/yuca/ca/test_continuous.py:57-74, testing/yuca/ca/test_neural.py:40-57,
testing/yuca/ca/test_reaction_diffusion.py:78-95). -/
noncomputable def compareConfigs (keys₁ keys₂ keys₃ : List String) (params : Except PyErr Unit) :
    Except PyErr Unit :=
  each (fun key => do
    check (key ∈ keys₂)
    check (key ∈ keys₃)
    if key = "params" then params else .ok ()) keys₁

/-- `test_configs` (testing/yuca/ca/test_continuous.py:34-76).  `restore` is `restore_config` of the
file just saved, given its content; a `CCA` config has no `params`, so looking them up raises
KeyError. -/
noncomputable def testConfigsCCA (restore : Config → CCAObj → Option (Except PyErr CCAObj))
    (d₁ d₂ : Draws) : Option (Except PyErr Unit) :=
  andThen (some (CCAObj.defaultInit {} d₁)) fun o₁ =>
  let o₁ := o₁.makeConfig.2.makeConfig.2
  let saved := o₁.makeConfig.1
  andThen (restore saved o₁.makeConfig.2) fun _ =>
  andThen (some (CCAObj.defaultInit {} d₂)) fun o₂ =>
  andThen (restore saved o₂.makeConfig.2) fun _ =>
  some (compareConfigs ccaKeys ccaKeys ccaKeys (.error .key))

/-- One round of the loop of `test_id_conv` (testing/yuca/ca/test_continuous.py:81-94,
testing/yuca/ca/test_neural.py:109-124): the sum of the differences vanishes to 7 places, and no cell
differs. -/
noncomputable def testIdentity (C : Nat) (idL : ConvLayer ℝ C C)
    (rand : Nat → Nat → Nat → Nat → ℝ) : Except PyErr Unit := do
  let grid := tensor 1 C 32 32 rand
  let y ← idL.apply grid
  check (AlmostEqual 0 (∑ n, ∑ c, ∑ i, ∑ j, (grid n c i j - y n c i j)) 7)
  check (grid = y)

/-- `test_id_conv` (testing/yuca/ca/test_continuous.py:78-94). -/
noncomputable def testIdConv (d : Nat → Draws) (rand : Nat → Nat → Nat → Nat → ℝ) :
    Except PyErr Unit :=
  each (fun channels => do
    let o ← CCAObj.defaultInit { int := some channels, ext := some channels } (d channels)
    testIdentity channels (.ofKernel channels channels o.kw.mode (2 * o.idLayer.1 + 1) o.idLayer.2)
      rand)
    [1, 2, 4, 8, 15, 16]

/-- The shape of `ca.forward(x)` for `x` with `N` worlds and the external channels of the
automaton. -/
noncomputable def stepShape (rand : Nat → Nat → Nat → Nat → ℝ) (o : CCAObj) (N : Nat) :
    Except PyErr (List Nat) := do
  let _ ← (o.dynamics.toCCA o.t).forward (tensor N o.dynamics.ext 32 32 rand)
  return [N, o.dynamics.ext, 32, 32]

/-- `test_alive_mask` (testing/yuca/ca/test_continuous.py:97-103): no assertion. -/
noncomputable def testAliveMask (step : CCAObj → Nat → Except PyErr (List Nat)) (d d' : Draws) :
    Except PyErr Unit := do
  let o ← CCAObj.newTwice { ext := some 4 } d d'
  let _ ← step o 1
  return ()

/-- `for vectorization in [1,2,4,9]` (testing/yuca/ca/test_continuous.py:115-122, 136-143). -/
noncomputable def testWorlds (step : CCAObj → Nat → Except PyErr (List Nat)) (o : CCAObj) :
    Except PyErr Unit :=
  each (fun N => do
    let s ← step o N
    check (s = [N, 1, 32, 32])) [1, 2, 4, 9]

/-- `for internal_channels in [1, 8, 16, 4]: ca = CCA(…)` (testing/yuca/ca/test_continuous.py:109-111):
every automaton replaces the one before. -/
noncomputable def lastOf (mode : CAMode) (d : Nat → Draws) : Option CCAObj → List Nat →
    Except PyErr (Option CCAObj)
  | o, [] => .ok o
  | _, c :: cs => do
    let o ← CCAObj.defaultInit { caMode := some mode, int := some c } (d c)
    lastOf mode d (some o) cs

/-- `test_multiverse_forward` (testing/yuca/ca/test_continuous.py:106-152).  `ca.default_init()` comes
after the inner loop, so only the last automaton is used. -/
noncomputable def testForward (step : CCAObj → Nat → Except PyErr (List Nat))
    (d : CAMode → Nat → Draws) (d' d₂ d₂' : CAMode → Draws) : Except PyErr Unit :=
  each (fun mode => do
    let o ← lastOf mode (d mode) none [1, 8, 16, 4]
    match o with
    | none => .error .unbound
    | some o =>
      let ca ← CCAObj.defaultInit o.kw
        { d' mode with kernel := match o.kernelParams with | .vec l => l | _ => [] }
      testWorlds step ca
      let ca ← CCAObj.newTwice { caMode := some mode } (d₂ mode) (d₂' mode)
      testWorlds step ca) [.functional, .neurofunctional]

/-- Both halves of `test_multiverse_set_params` (testing/yuca/ca/test_continuous.py:158-179):
`rand n` are the `n` random numbers, `rnd` is `round(4)`. -/
noncomputable def setAndGet (rnd : ℝ → ℝ) (rand : Nat → List ℝ) (o : CCAObj) : Except PyErr Unit := do
  let p ← o.getParams
  let v := rand p.length
  match o.setParams v with
  | (_, some e) => .error e
  | (o', none) =>
    let w ← o'.getParams
    check (v.map rnd = w.map rnd)

/-- `test_multiverse_set_params` (testing/yuca/ca/test_continuous.py:155-179).  The kernel parameters
of the second half are those `set_params` stored. -/
noncomputable def testSetParams (rnd : ℝ → ℝ) (rand rand' : Nat → List ℝ) (d d' d₂ : CAMode → Draws) :
    Except PyErr Unit :=
  each (fun mode => do
    let o ← CCAObj.newTwice { caMode := some mode } (d mode) (d' mode)
    setAndGet rnd rand o
    let p ← o.getParams
    match (o.setParams (rand p.length)).1.kernelParams with
    | .vec l =>
      let o ← CCAObj.defaultInit { caMode := some mode } { d₂ mode with kernel := l }
      setAndGet rnd rand' o
    | _ => .error .type) [.other, .functional, .neurofunctional]

/-- One round of `test_set_kernel_radius` (testing/yuca/ca/test_continuous.py:236-245): the automaton,
or the error. -/
noncomputable def testRadius (o : CCAObj) (kr : Nat) : Except PyErr CCAObj := do
  let o ← o.setKernelRadius kr
  let c := o.makeConfig.1
  check (kr = o.kernelRadius)
  check (some kr = c.neighborhood.radius)
  check (o.kernelRadius * 2 + 1 = 2 * o.nbKernel.1 + 1)
  return o.makeConfig.2

/-- `test_set_kernel_radius` (testing/yuca/ca/test_continuous.py:230-245); `raw` is the content of
ca_configs/geminium.npy. -/
noncomputable def testSetRadius (fs : Files) (fuel : Nat) (raw : RawConfig) (d : Draws)
    (d' : Nat → Draws) : Option (Except PyErr Unit) :=
  andThen (some (CCAObj.defaultInit {} d)) fun o =>
  andThen (o.loadRaw fs fuel d' raw) fun o =>
  some (do
    let o ← testRadius o 13
    let o ← testRadius o 17
    let _ ← testRadius o 29
    return ())

/-- `1.0 * cca.kernel_params`: `None` cannot be multiplied. -/
def KParams.timesOne : KParams → Except PyErr KParams
  | .none => .error .type
  | p => .ok p

/-- The checks of `test_kernel_params_config` on a loaded automaton
(testing/yuca/ca/test_continuous.py:252-272, testing/yuca/ca/test_neural.py:217-239): the values of
`kernel_kwargs` put together are `kernel_params`.  `kwargs` are those of the config that
`make_config` returns. -/
noncomputable def testKwargs (params : KParams) (kwargs : Option (List (String × KwVal))) :
    Except PyErr Unit := do
  let p ← params.timesOne
  match kwargs with
  | none => .error .key
  | some kws =>
    match updateKernelParams kws, p with
    | .none, _ => .error .attribute
    | .scalar x, .scalar y => check (0 = |x - y|)
    | .vec l, .vec l' => do
      check (l.length = l'.length)
      let s ← sumAbs l l'
      check (0 = s)
    | _, _ => .error .assertion

/-- `test_kernel_params_config` (testing/yuca/ca/test_continuous.py:248-272): the same automaton loads
one file after the other. -/
noncomputable def testKernelConfigs (fs : Files) (fuel : Nat) (d : Nat → Draws) :
    CCAObj → List RawConfig → Option (Except PyErr Unit)
  | _, [] => some (.ok ())
  | o, raw :: rest =>
    andThen (o.loadRaw fs fuel d raw) fun o =>
    andThen (some (testKwargs o.kernelParams o.makeConfig.1.neighborhood.kwargs)) fun _ =>
    testKernelConfigs fs fuel d o.makeConfig.2 rest

/-- `kernel_params.shape`. -/
def KParams.shape : KParams → List Nat
  | .vec l => [l.length]
  | _ => []

/-- `test_kernel_params` (testing/yuca/ca/test_continuous.py:274-286). -/
noncomputable def testKernelParams (fs : Files) (fuel : Nat) (d : Nat → Draws) (o : CCAObj)
    (raw raw' : RawConfig) : Option (Except PyErr Unit) :=
  andThen (o.loadRaw fs fuel d raw) fun o =>
  andThen (some o.kernelParams.timesOne) fun p =>
  andThen (o.loadRaw fs fuel d raw') fun o =>
  andThen (some o.kernelParams.timesOne) fun p' =>
  some (check (p.shape ≠ p'.shape))

/-! ## testing/yuca/ca/test_neural.py -/

/-- `NCA()` (yuca/ca/neural.py:59-82): 64 hidden channels, Gaussian activation, radius 13, three
peaks. -/
noncomputable def NCAObj.new (w : NCADraws) : Except PyErr NCAObj :=
  NCAObj.defaultInit .gaussian 13 3 w.1 w.2.1 w.2.2

/-- `test_configs` (testing/yuca/ca/test_neural.py:17-59).  `restore` is `restore_config` of the file
just saved. -/
noncomputable def testConfigsNCA (restore : NCAConfig → NCAObj → Except PyErr NCAObj)
    (w₁ w₂ : NCADraws) : Except PyErr Unit := do
  let o₁ ← NCAObj.new w₁
  let c₁ := o₁.makeConfig.1
  let o₁ := o₁.makeConfig.2
  let c₁' := o₁.makeConfig.1
  let o₁ := o₁.makeConfig.2
  let saved := o₁.makeConfig.1
  let o₁ ← restore saved o₁.makeConfig.2
  let c₂ := o₁.makeConfig.1
  let o₂ ← NCAObj.new w₂
  let c₃ := o₂.makeConfig.1
  let o₂ ← restore saved o₂.makeConfig.2
  let c₄ := o₂.makeConfig.1
  compareConfigs ncaKeys ncaKeys ncaKeys (compareParams c₁.params c₁'.params c₂.params c₃.params
    c₄.params)

/-- `load_config` with the `instant_kwargs` of the file, which are those of `NCA()`
(yuca/ca/neural.py:134-173): `__init__` again, with the draws `w`, then the rest, with `w'`. -/
noncomputable def restoreNCA (w w' : NCADraws) (cfg : NCAConfig) (_ : NCAObj) :
    Except PyErr NCAObj := do
  let o ← NCAObj.new w
  match o.loadConfig (initialTensors .gaussian w'.1 w'.2.1 w'.2.2) cfg with
  | (_, some e) => .error e
  | (o, none) => .ok o

/-- One half of `test_multiverse_set_params` (testing/yuca/ca/test_neural.py:126-149). -/
noncomputable def setAndGetNCA (rnd : ℝ → ℝ) (rand : Nat → List ℝ) (o : NCAObj) :
    Except PyErr Unit :=
  let v := rand o.getParams.length
  match o.setParams v with
  | (_, some e) => .error e
  | (o', none) => check (v.map rnd = o'.getParams.map rnd)

/-- `NCA.set_kernel_radius`: inherited (yuca/ca/common.py:260-272). -/
noncomputable def NCAObj.setKernelRadius (o : NCAObj) (r : Nat) : Except PyErr NCAObj :=
  match o.nbCfg with
  | none => .error .type
  | some c => do
    let c' := { c with radius := some r }
    let κ ← c'.kernel
    return { o with nbCfg := some c', nbKernel := κ, nbLayer := κ, kernelRadius := r }

/-- One round of `test_set_kernel_radius` (testing/yuca/ca/test_neural.py:206-215). -/
noncomputable def testRadiusNCA (o : NCAObj) (kr : Nat) : Except PyErr NCAObj := do
  let o ← o.setKernelRadius kr
  let c := o.makeConfig.1
  check (kr = o.kernelRadius)
  check (some kr = c.neighborhood.radius)
  check (o.kernelRadius * 2 + 1 = 2 * o.nbKernel.1 + 1)
  return o.makeConfig.2

/-- `test_set_kernel_radius` (testing/yuca/ca/test_neural.py:200-215). -/
noncomputable def testSetRadiusNCA (w : NCADraws) : Except PyErr Unit := do
  let o ← NCAObj.new w
  let o ← testRadiusNCA o.makeConfig.2 13
  let o ← testRadiusNCA o 17
  let _ ← testRadiusNCA o 29
  return ()

/-- `test_kernel_params_config` (testing/yuca/ca/test_neural.py:217-239). -/
noncomputable def testKwargsNCA (w : NCADraws) : Except PyErr Unit := do
  let o ← NCAObj.new w
  testKwargs o.kernelParams o.makeConfig.1.neighborhood.kwargs

/-! ## testing/yuca/ca/test_reaction_diffusion.py -/

/-- `grid[:,c,:,:].mean()`. -/
noncomputable def channelMean {N H W : Nat} (x : Univ ℝ N 2 H W) (c : Fin 2) : ℝ :=
  (∑ n, ∑ i, ∑ j, x n c i j) / (N * H * W)

/-- One of the four grids of `test_grid_equilibrium`
(testing/yuca/ca/test_reaction_diffusion.py:18-41); the shape of the grid is its type. -/
noncomputable def testGrid (s : Nat × Nat × Nat) : Except PyErr Unit := do
  let grid := RxnObj.new.toRxn.initializeGrid s.1 s.2.1 s.2.2
  check (AlmostEqual 0.42012 (channelMean grid 0) 5)
  check (AlmostEqual 0.29253 (channelMean grid 1) 5)

/-- `test_grid_equilibrium` (testing/yuca/ca/test_reaction_diffusion.py:14-41): the default is one
world of 256 × 256 cells (yuca/ca/reaction_diffusion.py:268). -/
noncomputable def testEquilibrium : Except PyErr Unit :=
  each testGrid [(1, 256, 256), (10, 256, 256), (1, 16, 16), (1, 16, 17)]

/-- `test_configs` (testing/yuca/ca/test_reaction_diffusion.py:54-97); `v` are the four random
numbers of the second automaton. -/
noncomputable def testConfigsRxn (restore : RxnConfig → RxnObj → Except PyErr RxnObj) (v : List ℝ) :
    Except PyErr Unit := do
  let o₁ := RxnObj.new
  let p₁ := o₁.getParams
  let saved := o₁.makeConfig
  let o₁ ← restore saved o₁
  let p₂ := o₁.getParams
  match RxnObj.new.setParams v with
  | (_, some e) => .error e
  | (o₂, none) =>
    let p₃ := o₂.getParams
    let o₂ ← restore saved o₂
    compareConfigs rxnKeys rxnKeys rxnKeys (compareParams p₁ p₁ p₂ p₃ o₂.getParams)

/-- `test_update_universe` (testing/yuca/ca/test_reaction_diffusion.py:99-118), for the methods
`update_universe` and `forward` of `RxnDfn()`. -/
noncomputable def testUpdate
    (update : Univ ℝ 1 2 64 64 → Univ ℝ 1 2 64 64 → Univ ℝ 1 2 64 64)
    (forward : Univ ℝ 1 2 64 64 → Except PyErr (Univ ℝ 1 2 64 64))
    (rand : Nat → Nat → Nat → Nat → ℝ) : Except PyErr Unit := do
  let ca := RxnObj.new.toRxn
  let x := tensor 1 2 64 64 rand
  let idn ← ca.idL.apply x
  let nb ← ca.nbL.apply x
  let upd := update idn nb
  let r ← forward x
  check (AlmostEqual (∑ n, ∑ c, ∑ i, ∑ j,
    |r n c i j - clampR 0 1 (x n c i j + ca.dt * upd n c i j)|) 0 7)

/-- One half of `test_multiverse_set_params` (testing/yuca/ca/test_reaction_diffusion.py:135-158). -/
noncomputable def setAndGetRxn (rnd : ℝ → ℝ) (rand : Nat → List ℝ) (o : RxnObj) : Except PyErr Unit :=
  let v := rand o.getParams.length
  match o.setParams v with
  | (_, some e) => .error e
  | (o', none) => check (v.map rnd = o'.getParams.map rnd)

/-! ## testing/yuca/test_configs.py -/

/-- The files `test_configs` loads (testing/yuca/test_configs.py:33-39): in the folder itself, `.npy`,
not beginning with `exp`, without `nca` and `rxn`. -/
def isTested (file : String) : Bool :=
  let s := file.toList
  !s.contains '/' && "npy".toList.isSuffixOf s && !"exp".toList.isPrefixOf s &&
    !hasSub "nca".toList s && !hasSub "rxn".toList s

/-- One file (testing/yuca/test_configs.py:40-54): whatever is raised becomes a failed assertion.
The newline appended to the name is taken away again by `restore_config`
(yuca/ca/continuous.py:147-148, yuca/ca/neural.py:176-177), so that the file is found.
`make_config` and `save_config` raise nothing. -/
noncomputable def testStoredFile (fs : Files) (disk : Disk) (fuel : Nat) (d : Nat → Draws)
    (e : Nat → NCADraws) (w : Stored → NCADraws) (weights : StoredNet → List ℝ) (c : Stored) :
    Option (Except PyErr Unit) :=
  let asserted {β : Type} (r : Option (Except PyErr β)) : Option (Except PyErr Unit) :=
    r.map fun r => match r with
      | .ok _ => .ok ()
      | .error _ => .error .assertion
  if hasSub "neur".toList c.file.toList then
    asserted (BuiltNCA.loadRaw (ncaInit disk fuel e) (w c)
      ⟨{ radius := 13, peaks := 3, mode := .circular, ext := 1, int := 1, hidden := 64
         act := .gaussian, caConfig := some c.file }, none⟩ (c.raw weights))
  else
    asserted (andThen (some (CCAObj.defaultInit { caConfig := some c.file } (d 0))) fun o =>
      o.loadRaw fs fuel (fun n => d (n + 1)) (c.raw weights))

/-- `test_configs` (testing/yuca/test_configs.py:22-57). -/
noncomputable def testStored (fs : Files) (disk : Disk) (fuel : Nat) (d : Nat → Draws)
    (e : Nat → NCADraws) (w : Stored → NCADraws) (weights : StoredNet → List ℝ) :
    List Stored → Option (Except PyErr Unit)
  | [] => some (.ok ())
  | c :: cs =>
    andThen (if isTested c.file then testStoredFile fs disk fuel d e w weights c else some (.ok ()))
      fun _ => testStored fs disk fuel d e w weights cs

/-! ## testing/yuca/test_kernels.py, testing/yuca/test_activations.py -/

/-- One name of `test_get_kernel` (testing/yuca/test_kernels.py:29-46). -/
noncomputable def testKernelName (name : String) : Except PyErr Unit := do
  let κ ← (KernelCfg.mk name (some 1) (some [("radius", .num 1)])).kernel
  if name = "LaplacianOfGaussian" then check (AlmostEqual 0 (∑ a, ∑ b, κ.2 a b) 5)
  else if name = "InnerMoore" ∨ name = "MooreLike" then .ok ()
  else check (AlmostEqual 1 (∑ a, ∑ b, κ.2 a b) 5)

/-- `test_get_kernel` (testing/yuca/test_kernels.py:18-46). -/
noncomputable def testGetKernel : Except PyErr Unit :=
  each testKernelName ["Gaussian", "GaussianMixture", "CosOverX2", "SmoothLifeKernel", "InnerMoore",
    "MooreLike", "LaplacianOfGaussian"]

/-- `test_get_laplacian_kernel` (testing/yuca/test_kernels.py:54-62). -/
noncomputable def testLaplacian : Except PyErr Unit :=
  check (![![0.25, 0.5, 0.25], ![0.5, -3, 0.5], ![0.25, 0.5, 0.25]] = laplacian9)

/-- `TestGenericKernel.test_kernel` (testing/yuca/test_kernels.py:70-76): the second argument of
`assertTrue` is the message, so that only `shape[-1]` and `shape[-2]` being truthy is asserted.
`side` is the side of the kernel of a radius. -/
noncomputable def testGenericKernel (side : Nat → Except PyErr Nat) : Except PyErr Unit :=
  each (fun r => do
    let k ← side r
    check (k ≠ 0)
    check (k ≠ 0)) [1, 3, 7, 13, 27]

/-- The means of `test_gaussian` and `test_dogaussian` (testing/yuca/test_activations.py:136, 190). -/
noncomputable def testMeans : List ℝ := [-1, -0.1, 0.2, 0.1, 0]

/-- `TestGaussian.test_gaussian` (testing/yuca/test_activations.py:133-145). -/
noncomputable def testGaussian : Except PyErr Unit :=
  each (fun mu => do
    let f := (Act.gaussian mu 0.1 false).eval
    check (f (mu - 0.1) < f mu)
    check (f (mu + 0.1) < f mu)) testMeans

/-- `TestDoGaussian.test_dogaussian` (testing/yuca/test_activations.py:186-210). -/
noncomputable def testDoGaussian : Except PyErr Unit :=
  each (fun mu => do
    let f := (Act.doGaussian mu 0.1 0.01 false).eval
    check (f mu < f (mu - 0.1))
    check (f mu > f (mu + 0.1))
    check (AlmostEqual (f mu) 0 7)
    let f := (Act.doGaussian mu 0.1 (-0.01) false).eval
    check (f mu > f (mu - 0.1))
    check (f mu < f (mu + 0.1))
    check (AlmostEqual (f mu) 0 7)) testMeans

/-- One case of `TestGaussianMixture.test_gaussian` (testing/yuca/test_activations.py:157-174): the
bounds of `y.min()` and `y.max()` over `np.arange(0, 1.0, 0.01)`. -/
noncomputable def testMixture (params : List ℝ) (mode : Bool) : Except PyErr Unit := do
  let cs ← mixtureComponents 1 params
  let y : Fin 100 → ℝ := fun k => mixtureFn cs mode (k * 0.01)
  if mode then do
    check (∀ k, -1 ≤ y k)
    check (∃ k, y k < 0)
    check (∀ k, y k ≤ 1)
  else do
    check (∀ k, 0 ≤ y k)
    check (∀ k, y k ≤ 1)

/-- `TestGaussianMixture.test_gaussian`. -/
noncomputable def testMixtures : Except PyErr Unit :=
  each (fun params => each (testMixture params) [false, true])
    [[0.1, 0.1], [0.1, 0.01, 0.15, 0.015]]

/-- `TestLaplacianOfGaussian.test_forward` (testing/yuca/test_activations.py:104-121); `sigma` is 0.5
by default (yuca/activations.py:160). -/
noncomputable def testLoG : Except PyErr Unit :=
  each (fun k => check (AlmostEqual 0
    (∑ a, ∑ b, logKernel (r := k + 1) 0.5 (radialGrid (k + 1)) a b) 7)) (List.range 30)

end Yuca
