import Verif.Model.Resume
import Verif.Model.Analysis
import Verif.Model.Object

/-!
# The log of a search and its plots (yuca/cmaes.py `mantle`, yuca/plot.py `plot_exp`)
-/

namespace Yuca

variable {n : Nat} {C : Type}

/-- The fitness values of one generation as the curves show them. -/
structure FitPoint where
  mean : Fit
  max : Fit
  min : Fit
  std : Fit

/-- `np.mean`, `np.max`, `np.min` and `np.std` of the fitness values (yuca/cmaes.py:525-528).  All
four are NaN if one of the values is; `np.max` of nothing raises ValueError. -/
noncomputable def fitPoint (f : List Fit) : Except PyErr FitPoint :=
  open Classical in
  if f = [] then .error .value
  else if ⊤ ∈ f then .ok ⟨⊤, ⊤, ⊤, ⊤⟩
  else
    let x := f.map fun v => v.untopD 0
    .ok ⟨(npMean x : ℝ), (npMax x : ℝ), (npMin x : ℝ), (npStd x : ℝ)⟩

/-- The dictionary `progress` (yuca/cmaes.py:422-431).  `C` stands for configs.  Left out: `kwargs`
and `distribution`, which no plot reads. -/
structure SearchLog (C : Type) where
  eliteParams : List EliteArray
  eliteConfigs : List (List C)
  points : List FitPoint

/-- `progress` before the first generation (yuca/cmaes.py:422-431). -/
def SearchLog.empty : SearchLog C := ⟨[], [], []⟩

/-- What a generation adds to `progress` (yuca/cmaes.py:533-545): `E` is the elite, `cs` are its
configs, `p` are the four numbers (which the program keeps in four lists). -/
def SearchLog.add (uni : Bool) (q : SearchLog C) (E : List (Vec n)) (cs : List C) (p : FitPoint) :
    SearchLog C where
  eliteParams := if uni then q.eliteParams ++ [⟨n, E⟩] else [⟨n, E⟩]
  eliteConfigs := q.eliteConfigs ++ [cs]
  points := q.points ++ [p]

/-- The directory `./logs`: its files by name, newest last. -/
abbrev LogDir (C : Type) := List (Str × SearchLog C)

/-- `np.save(logs_path, progress)` (yuca/cmaes.py:548): replaces the file. -/
def LogDir.save (d : LogDir C) (name : Str) (q : SearchLog C) : LogDir C :=
  d.filter (fun f => f.1 ≠ name) ++ [(name, q)]

/-- `np.load`. -/
def LogDir.read (d : LogDir C) (name : Str) : Option (SearchLog C) :=
  (d.find? fun f => f.1 = name).map (·.2)

/-- `f"{self.exp_id}_seed{my_seed}.npy"` (yuca/cmaes.py:547). -/
def logName (exp : Str) (seed : Nat) : Str :=
  exp ++ ("_seed".toList ++ (decimal seed ++ ".npy".toList))

/-- Where a seed of `mantle` takes its numbers from: the environment, the random generators, the
way agents are built. -/
structure SeedInput (n : Nat) where
  fit : Nat → Vec n → Fit
  draw : Nat → Draw n
  build : Build n
  noise₁ : Nat → Vec n
  noise₂ : Nat → Vec n

/-- Recording a generation (yuca/cmaes.py:525-548): the statistics, the configs of the elite, the
file.  `configs` is `get_elite_configs`; `dir` is `none` if there is no directory `./logs`, where
`np.save` raises FileNotFoundError. -/
noncomputable def record (uni : Bool) (configs : List (Vec n) → Except PyErr (List C)) (name : Str)
    (l : GenLog n) (q : SearchLog C) (dir : Option (LogDir C)) :
    Option (LogDir C) × Except PyErr (SearchLog C) :=
  match fitPoint l.fitness with
  | .error e => (dir, .error e)
  | .ok p =>
    match configs l.elite with
    | .error e => (dir, .error e)
    | .ok cs =>
      match dir with
      | none => (none, .error .notFound)
      | some d => (some (d.save name (q.add uni l.elite cs p)), .ok (q.add uni l.elite cs p))

/-- `for generation in range(self.generations)` with its log (yuca/cmaes.py:464-569).  The entry
recorded is the one `genStep` appends.  Simplification: `genStep` includes the ranking of an early
stop, which in the program comes after the file is written. -/
noncomputable def logGens (uni : Bool) (argsort : List Fit → List Nat) (G : Nat)
    (x : SeedInput n) (configs : List (Vec n) → Except PyErr (List C)) (name : Str) :
    Nat → Nat → Run n → SearchLog C → Option (LogDir C) →
    Option (LogDir C) × Except PyErr (Run n × SearchLog C)
  | 0, _, s, q, dir => (dir, .ok (s, q))
  | k + 1, g, s, q, dir =>
    match genStep uni argsort G x.fit g (x.draw g) s with
    | .error e => (dir, .error e)
    | .ok (s', stop) =>
      match s'.logs.getLast? with
      | none => (dir, .error .index)
      | some l =>
        match record uni configs name l q dir with
        | (dir', .error e) => (dir', .error e)
        | (dir', .ok q') =>
          if stop then (dir', .ok (s', q'))
          else logGens uni argsort G x configs name k (g + 1) s' q' dir'

/-- One seed of `mantle` with its log (yuca/cmaes.py:439-586); compare `runSeed`. -/
noncomputable def logSeed (uni : Bool) (argsort : List Fit → List Nat) (G : Nat)
    (x : SeedInput n) (configs : List (Vec n) → Except PyErr (List C)) (name : Str) (s : Run n)
    (q : SearchLog C) (dir : Option (LogDir C)) :
    Option (LogDir C) × Except PyErr (Run n × SearchLog C) :=
  let c := Cma.initialize x.build x.noise₂ (Cma.reset x.build x.noise₁ s.cma)
  if c.population.length < min (eliteKeep c.popSize) 4 then (dir, .error .index)
  else match logGens uni argsort G x configs name G 0 { s with cma := c } q dir with
  | (dir', .error e) => (dir', .error e)
  | (dir', .ok r) => if G = 0 then (dir', .error (if uni then .unbound else .index))
    else (dir', .ok r)

/-- `for my_seed in self.my_seed` (yuca/cmaes.py:439): `progress` was made before the loop. -/
noncomputable def logSeeds (uni : Bool) (argsort : List Fit → List Nat) (G : Nat)
    (configs : List (Vec n) → Except PyErr (List C)) (exp : Str) :
    List (Nat × SeedInput n) → Run n → SearchLog C → Option (LogDir C) →
    Option (LogDir C) × Except PyErr (Run n × SearchLog C)
  | [], s, q, dir => (dir, .ok (s, q))
  | (seed, x) :: rest, s, q, dir =>
    match logSeed uni argsort G x configs (logName exp seed) s q dir with
    | (dir', .error e) => (dir', .error e)
    | (dir', .ok (s', q')) => logSeeds uni argsort G configs exp rest s' q' dir'

/-! ## `plot_exp` -/

/-- A line of a figure: its label and its points, the number of the generation first. -/
structure Curve where
  label : Str
  points : List (Nat × Fit)

/-- `mean_fitness - std_dev_fitness` and `mean_fitness + std_dev_fitness`; NaN if there is a NaN. -/
noncomputable def FitPoint.band (p : FitPoint) : Fit × Fit :=
  match p.mean, p.std with
  | (m : ℝ), (s : ℝ) => ((m - s : ℝ), (m + s : ℝ))
  | _, _ => (⊤, ⊤)

/-- A figure of `plot_exp`: the two growth functions of a config (its title has the number of the
config), or the fitness. -/
inductive Figure (A : Type) where
  | rule (config : Nat) (genesis persistence : A)
  | fitness (lines : List Curve) (band : List (Nat × Fit × Fit))

/-- The figure of the fitness (yuca/plot.py:54-75). -/
noncomputable def fitnessFigure {A : Type} (ps : List FitPoint) : Figure A :=
  let curve (f : FitPoint → Fit) : Curve :=
    ⟨"mean fitness".toList, (List.range ps.length).zip (ps.map f)⟩
  .fitness [curve FitPoint.mean, curve FitPoint.max, curve FitPoint.min]
    ((List.range ps.length).zip (ps.map FitPoint.band))

/-- `for ii, my_config in enumerate(end_configs)` (yuca/plot.py:32-52), from number `ii` on: `load`
gives `genesis_fns` and `persistence_fns` of a new `CCA` after `load_config`.  The figures made so
far stay when it raises. -/
def ruleFigures {A : Type} (load : C → Except PyErr (List A × List A)) :
    Nat → List C → List (Figure A) × Option PyErr
  | _, [] => ([], none)
  | ii, c :: cs =>
    match load c with
    | .error e => ([], some e)
    | .ok (gs, ps) =>
      let r := ruleFigures load (ii + 1) cs
      ((gs.zip ps).map (fun f => .rule ii f.1 f.2) ++ r.1, r.2)

/-- `plot_exp` (yuca/plot.py:18-80): the figures it makes, and whether it shows them or the
exception.  `path` and `display` are the arguments `input_filepath` and `show` (`none`: not
given); `os.path.exists(None)` raises TypeError.  The growth functions are drawn over
`np.arange(-0.1, 1.1, 0.0001)` (left out, and with it whether matplotlib accepts the values). -/
noncomputable def plotExp {A : Type} (load : C → Except PyErr (List A × List A)) (d : LogDir C)
    (path : Option Str) (display : Option Bool) : List (Figure A) × Except PyErr Bool :=
  match path with
  | none => ([], .error .type)
  | some name =>
    match d.read name with
    | none => ([], .error .assertion)
    | some q =>
      match q.eliteConfigs.getLast? with
      | none => ([], .error .index)
      | some cs =>
        match ruleFigures load 0 cs with
        | (figs, some e) => (figs, .error e)
        | (figs, none) =>
          (figs ++ [fitnessFigure q.points],
            match display with
            | none => .error .key
            | some b => .ok b)

/-- `CCA()` and `load_config` as `plot_exp` uses them (yuca/plot.py:34-39): the growth functions
afterwards.  `fuel` and `draws` as in `CCAObj.init`; running out of `fuel` is reported as
RecursionError. -/
noncomputable def plotLoad (fs : Files) (fuel : Nat) (draws : Nat → Draws) (o₀ : CCAObj)
    (c : Config) : Except PyErr (List (Act ℝ) × List (Act ℝ)) :=
  match o₀.loadConfig fs fuel draws c with
  | none => .error .recursion
  | some (.error e) => .error e
  | some (.ok o) => .ok (o.genesis, o.persistence)

end Yuca
