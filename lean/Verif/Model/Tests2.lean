import Verif.Model.Tests
import Verif.Model.Images
import Verif.Model.Cppn
import Verif.Model.Wrappers
import Verif.Model.Clone
import Verif.Model.Shell

/-!
# The project's tests of the utilities, patterns, networks and tasks (testing/)

As in `Verif.Model.Tests`, a test returns `.ok ()` when it passes.  The function under test is an
argument where the property says which other functions would pass as well.
-/

namespace Yuca

/-! ## testing/yuca/test_utils.py: masks -/

/-- An array of shape (n, c, h, w); `val` is its first channel. -/
structure Arr where
  shape : Shape4
  val : Nat → Nat → ℝ

/-- `np.random.rand(1, 1, 256, 256)` (testing/yuca/test_utils.py:136, 146, 158, …). -/
def randArr (x : Nat → Nat → ℝ) : Arr := ⟨⟨1, 1, 256, 256⟩, x⟩

/-- `a.sum()` of an array with one image and one channel. -/
noncomputable def Arr.sum (a : Arr) : ℝ :=
  ∑ i ∈ Finset.range a.shape.h, ∑ j ∈ Finset.range a.shape.w, a.val i j

/-- `a.mean()` of an array with one image and one channel. -/
noncomputable def Arr.mean (a : Arr) : ℝ := a.sum / (a.shape.h * a.shape.w)

/-- `a * b` for arrays of one shape.  Simplification: numpy also multiplies some arrays of different
shapes. -/
noncomputable def Arr.mul (a b : Arr) : Except PyErr Arr :=
  if a.shape = b.shape then .ok ⟨a.shape, fun i j => a.val i j * b.val i j⟩ else .error .value

/-- `get_mask(img, radius)` (yuca/utils.py:28-34). -/
noncomputable def Arr.mask (a : Arr) (radius : ℝ) : Except PyErr Arr :=
  .ok ⟨a.shape, fun i j => getMask (a.val i j) radius⟩

/-- `get_bite_mask(img, bite_radius)` (yuca/utils.py:36-55) with the numbers `np.random.rand(2)`
draws. -/
noncomputable def Arr.bite (u v : ℝ) (a : Arr) (radius : ℝ) : Except PyErr Arr := do
  let s ← biteMaskShape a.shape
  let r := a.shape.h / 2
  return ⟨s, biteMask r radius (u * r) (v * r)⟩

open Classical in
/-- `get_aperture(img, aperture_radius)` (yuca/utils.py:57-64). -/
noncomputable def Arr.aperture (a : Arr) (radius : ℝ) : Except PyErr Arr := do
  let s ← apertureShape a.shape (decide (radius < 0.975))
  return ⟨s, Yuca.aperture (a.shape.h / 2) radius⟩

/-- The seeds of the loops (testing/yuca/test_utils.py:155, 168, 195, 206, 232). -/
def maskSeeds : List Nat := [1234, 2345, 3456]

/-- `test_mask_shape` (testing/yuca/test_utils.py:185-191). -/
noncomputable def testMaskShape (mask : Arr → ℝ → Except PyErr Arr) (x : Nat → Nat → ℝ) :
    Except PyErr Unit := do
  let m ← mask (randArr x) 0.1
  check ((randArr x).shape = m.shape)

/-- `test_mask_sum` (testing/yuca/test_utils.py:193-202): `x seed` is the image drawn after
`seed_all(seed)`. -/
noncomputable def testMaskSum (mask : Arr → ℝ → Except PyErr Arr) (x : Nat → Nat → Nat → ℝ) :
    Except PyErr Unit :=
  each (fun seed => do
    let m ← mask (randArr (x seed)) 0.5
    let p ← (randArr (x seed)).mul m
    check (p.sum < (randArr (x seed)).sum)) maskSeeds

/-- `test_mask_center` (testing/yuca/test_utils.py:204-215). -/
noncomputable def testMaskCentre (mask : Arr → ℝ → Except PyErr Arr) (x : Nat → Nat → Nat → ℝ) :
    Except PyErr Unit :=
  each (fun seed => do
    let m ← mask (randArr (x seed)) 0.5
    check (0 = m.val 128 128)) maskSeeds

/-- `test_bite_mask_shape` (testing/yuca/test_utils.py:222-228). -/
noncomputable def testBiteShape (bite : Arr → ℝ → Except PyErr Arr) (x : Nat → Nat → ℝ) :
    Except PyErr Unit := do
  let m ← bite (randArr x) 0.1
  check ((randArr x).shape = m.shape)

/-- `test_bite_mask_sum` (testing/yuca/test_utils.py:230-239): the second draws are those for the
centre of the bite. -/
noncomputable def testBiteSum (bite : Nat → Arr → ℝ → Except PyErr Arr) (x : Nat → Nat → Nat → ℝ) :
    Except PyErr Unit :=
  each (fun seed => do
    let m ← bite seed (randArr (x seed)) 0.5
    check ((randArr (x seed)).sum < m.sum)) maskSeeds

/-- `np.clip(np.random.rand(), 0.1, 0.95)` (testing/yuca/test_utils.py:147, 159, 172). -/
noncomputable def clipRadius (u : ℝ) : ℝ := max 0.1 (min u 0.95)

/-- `test_aperture_full` (testing/yuca/test_utils.py:134-142). -/
noncomputable def testApertureFull (ap : Arr → ℝ → Except PyErr Arr) (x : Nat → Nat → ℝ) :
    Except PyErr Unit := do
  let a ← ap (randArr x) 0.98
  check ((randArr x).shape = a.shape)
  check (1 = a.mean)

/-- `test_aperture_shape` (testing/yuca/test_utils.py:144-151). -/
noncomputable def testApertureShape (ap : Arr → ℝ → Except PyErr Arr) (x : Nat → Nat → ℝ) (u : ℝ) :
    Except PyErr Unit := do
  let a ← ap (randArr x) (clipRadius u)
  check ((randArr x).shape = a.shape)

/-- `test_aperture_sum` (testing/yuca/test_utils.py:153-164). -/
noncomputable def testApertureSum (ap : Arr → ℝ → Except PyErr Arr) (x : Nat → Nat → Nat → ℝ)
    (u : Nat → ℝ) : Except PyErr Unit :=
  each (fun seed => do
    let a ← ap (randArr (x seed)) (clipRadius (u seed))
    let p ← (randArr (x seed)).mul a
    check (p.sum < (randArr (x seed)).sum)) maskSeeds

/-- `test_aperture_center` (testing/yuca/test_utils.py:166-178). -/
noncomputable def testApertureCentre (ap : Arr → ℝ → Except PyErr Arr) (x : Nat → Nat → Nat → ℝ)
    (u : Nat → ℝ) : Except PyErr Unit :=
  each (fun seed => do
    let a ← ap (randArr (x seed)) (clipRadius (u seed))
    check (1 = a.val 128 128)) maskSeeds

/-- `test_prep_input` and `test_prep_input_batch_size` (testing/yuca/test_utils.py:97-113): only the
shape of the batch is looked at. -/
noncomputable def testPrepInput (prep : Shape4 → Nat → Except PyErr Shape4) : Except PyErr Unit := do
  let b ← prep ⟨1, 1, 256, 256⟩ 32
  check (b.w = 256)
  each (fun n => do
    let b ← prep ⟨1, 1, 256, 256⟩ n
    check (b.n = n)) [1, 4, 8, 32]

/-! ## testing/yuca/test_utils.py: keyword arguments and seeds -/

/-- `query_kwargs` (yuca/utils.py:24-26). -/
def queryKwargs {V : Type} (key : String) (default : V) (kwargs : List (String × V)) : V :=
  match kwargs.find? fun e => decide (e.1 = key) with
  | some e => e.2
  | none => default

/-- A value in `test_query_kwargs`. -/
inductive QVal where
  | text (s : String)
  | num (x : ℝ)

/-- One pass of the loop of `test_query_kwargs` (testing/yuca/test_utils.py:40-50): `d` is
`np.random.randint(2)` and `v` is `np.random.rand()`. -/
noncomputable def testQueryOnce (query : String → QVal → List (String × QVal) → QVal) (d : ℕ) (v : ℝ) :
    Except PyErr Unit := do
  let result := query "variable" (.num d) [("variable", .num v)]
  let typo := query "variable" (.num d) [("varialbe", .num v)]
  check (result = .num v)
  check (typo = .num d)
  check (typo ≠ .num v)

/-- `test_query_kwargs` (testing/yuca/test_utils.py:30-50). -/
noncomputable def testQueryKwargs (query : String → QVal → List (String × QVal) → QVal) (d : Nat → ℕ)
    (v : Nat → ℝ) : Except PyErr Unit := do
  check (query "cat" (.text "feline") [("cat", .text "feline")] = .text "feline")
  check (query "number_weekdays" (.num 7) [("cat", .text "feline")] = .num 7)
  check (query "number_weekdays" (.num 7) [("number_weekdays", .num 31)] = .num 31)
  each (fun ii => testQueryOnce query (d ii) (v ii)) (List.range 100)

/-- The random generators: `P` are the states of numpy's, `Q` those of torch's. -/
structure Gens (P Q : Type) where
  np : P
  torch : Q

/-- `seed_all` (yuca/utils.py:19-22). -/
def seedAll {P Q : Type} (npSeed : Nat → P) (torchSeed : Nat → Q) (seed : Nat) (_ : Gens P Q) :
    Gens P Q := ⟨npSeed seed, torchSeed seed⟩

/-- One pass of the loops of `test_seed_all_00` to `_02` (testing/yuca/test_utils.py:248-291): seed,
draw with numpy, seed, draw again, compare the sums.  (`_00` draws one number.) -/
noncomputable def testSeedNp {P Q : Type} (seedFn : Nat → Gens P Q → Gens P Q) (draw : P → List ℝ × P)
    (g : Gens P Q) (seed : Nat) : Except PyErr (Gens P Q) := do
  let g := seedFn seed g
  let (a, p) := draw g.np
  let g := seedFn seed { g with np := p }
  let (b, p) := draw g.np
  check (0 = (List.zipWith (fun x y => x - y) a b).sum)
  return { g with np := p }

/-- One pass of the loop of `test_seed_all_03` (testing/yuca/test_utils.py:293-312) for the three
kinds of draws, which are made one after the other. -/
noncomputable def testSeedTorch {P Q : Type} (seedFn : Nat → Gens P Q → Gens P Q)
    (draws : List (Q → List ℝ × Q)) (g : Gens P Q) (seed : Nat) : Except PyErr (Gens P Q) := do
  let run := fun q : Q => draws.foldl (fun (s : List (List ℝ) × Q) f =>
    (s.1 ++ [(f s.2).1], (f s.2).2)) ([], q)
  let g := seedFn seed g
  let (a, q) := run g.torch
  let g := seedFn seed { g with torch := q }
  let (b, q) := run g.torch
  each (fun ab : List ℝ × List ℝ =>
    check (AlmostEqual 0 (List.zipWith (fun x y => x - y) ab.1 ab.2).sum 7)) (a.zip b)
  return { g with torch := q }

/-- The seeds (testing/yuca/test_utils.py:250, 265, 280, 295). -/
def allSeeds : List Nat := [13, 1337, 42, 12345, 100000]

/-- A loop over the seeds. -/
def eachSeed {P Q : Type} (f : Gens P Q → Nat → Except PyErr (Gens P Q)) (g : Gens P Q) :
    Except PyErr Unit := (allSeeds.foldlM f g).map fun _ => ()

/-! ## testing/yuca/test_patterns.py -/

/-- A pattern of some size. -/
structure Pattern2 where
  h : Nat
  w : Nat
  val : Grid ℝ h w

/-- `np.sum(pattern)`. -/
noncomputable def Pattern2.sum (p : Pattern2) : ℝ := ∑ i, ∑ j, p.val i j

/-- `test_get_glider`, `test_get_puffer` (testing/yuca/test_patterns.py:19-29): the size and the
sum. -/
noncomputable def testPattern (p : Pattern2) (total : ℝ) : Except PyErr Unit := do
  check ((8, 8) = (p.h, p.w))
  check (total = p.sum)

/-! ## testing/yuca/test_cppn.py -/

/-- `get_action(grid)` of a network with one channel (yuca/cppn.py:151-163) at all points of a
`dim` by `dim` grid, row by row. -/
noncomputable def cppnCells (dim : Nat) (layers : List CppnLayer) (grid : Nat → Nat → List ℝ) :
    Except PyErr (List ℝ) :=
  ((List.range dim).flatMap fun i => (List.range dim).map fun j => (i, j)).mapM fun p => do
    let out ← cppnModel layers (grid p.1 p.2)
    match out with
    | [g] => .ok (cppnCell g (cppnRadius (cppnCoord dim p.2) (cppnCoord dim p.1)))
    | _ => .error .runtime

/-- `test_get_action` of `TestCPPN` and `TestCPPNPlus` (testing/yuca/test_cppn.py:14-25, 39-49):
`own` is `self.cppn.grid`, `random` is `torch.rand_like(self.cppn.grid)`. -/
noncomputable def testCppnAction (layers : List CppnLayer) (own random : Nat → Nat → List ℝ) :
    Except PyErr Unit := do
  let a1 ← cppnCells 64 layers own
  let a2 ← cppnCells 64 layers own
  let a3 ← cppnCells 64 layers random
  check (AlmostEqual 0 (List.zipWith (fun x y => x - y) a1 a2).sum 7)
  check (0 ≠ (List.zipWith (fun x y => x - y) a1 a3).sum)

/-- `test_get_rule_action` (testing/yuca/test_cppn.py:51-55): `CPPNPlus()` makes `ParamsAgent()`
(yuca/cppn.py:209-219). -/
noncomputable def testRuleAction (rand : Nat → List ℝ) : Except PyErr Unit :=
  let (a, n) := ParamsAgent.new ⟨none, none, none, none⟩ rand
  check (a.getAction.2.length = n)

/-! ## testing/yuca/wrappers/ -/

/-- `test_step` of `TestGliderWrapper` (testing/yuca/wrappers/test_glider_wrapper.py:8-16) for
`ca_steps` steps: `info` is always a dictionary, so the test passes when `step` raises nothing. -/
noncomputable def testGliderStep {σ : Type} {N C D : Nat}
    (f : σ → Univ ℝ (N + 1) C D D → Except PyErr (Univ ℝ (N + 1) C D D × σ)) (reset : σ → σ)
    (radius : ℝ) (caSteps : Nat) (s : σ) (action : Univ ℝ (N + 1) C D D) : Except PyErr Unit := do
  let _ ← gliderStep f reset radius caSteps s action
  return ()

/-! ## testing/yuca/test_clone.py -/

/-- `nca.load_state_dict(torch.load(save_path))` (testing/yuca/test_clone.py:40-42) of an automaton
with `hidden` hidden channels: `none` is a file that holds `None`, and `some h` the weights of a
network with `h` hidden channels. -/
def loadState (hidden : Nat) : Option Nat → Except PyErr Unit
  | none => .error .type
  | some h => if h = hidden then .ok () else .error .runtime

/-- `test_clone_from_ca` (testing/yuca/test_clone.py:17-46) with starting width `h`, largest width
`maxHidden`, and the numbers of iterations and steps: the saved network is that of the iteration
`clone_from_ca` picks.  `torch.save` writes a file in any case, so `os.path.exists` holds. -/
def testClone (threshold : ℚ) (h maxHidden maxIterations maxSteps : Nat) (err : Nat → Nat → ℚ) :
    Except PyErr Unit :=
  loadState maxHidden (cloneSaved threshold maxIterations maxSteps err fun it _ => hiddenAt maxHidden h it)

/-! ## testing/yuca/test_utils.py: gifs -/

/-- One pass of `test_save_fig_sequence` (testing/yuca/test_utils.py:319-359) in the directory `dir`:
make a gif of ten steps, look for it, remove the directory.  The branch for subdirectories looks
for them in the working directory and is left out. -/
noncomputable def testSaveFig {V I : Type} (m : Movie V I) (v : V) (fs : Fs I) (dir : Str) (gifId : Nat) :
    Except ShErr (Except PyErr Unit) :=
  match saveFigFs m 1 10 v fs "./assets/gif_frames".toList dir (.one "temp".toList) gifId with
  | .error e => .error e
  | .ok (_, .error e) => .ok (.error e)
  | .ok (fs', .ok ()) =>
    let p := parsePath (pathJoin dir "temp".toList)
    if fs'.isDir p then
      .ok (check (∃ e ∈ fs'.entries p, "gif_temp".toList <+: e.1))
    else .ok (.error .notFound)

end Yuca
