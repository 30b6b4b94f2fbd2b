import Verif.Model.Arith
import Mathlib.Order.WithBot

/-!
# `CMAES` (yuca/cmaes.py)

One process.  Parameters are exact real vectors; the agents of the population never filter what
is stored (`initialize_population` does not pass `filter_params`), so an agent is its parameter
vector, and position `i` of the list is the agent object `self.population[i]` (the list is never
reordered).  Randomness is an explicit argument.  So is `np.argsort`, which leaves equal entries in
an order of its own.
-/

namespace Yuca

/-- A parameter vector. -/
abbrev Vec (n : Nat) := Fin n → ℝ

/-- `self.elite_keep = self.population_size // 8 + 1` (yuca/cmaes.py:41). -/
def eliteKeep (popSize : Nat) : Nat := popSize / 8 + 1

/-- The random choices of one generation. -/
structure Draw (n : Nat) where
  /-- results of `np.random.randint` (tournament selection) -/
  brackets : List (List Nat)
  /-- positions drawn by `np.random.choice(..., replace=False)` (lottery) -/
  picks : List Nat
  /-- the normal deviates behind `sample_distribution` for each agent -/
  noise : Nat → Vec n

section Select

variable {F : Type} [LE F] [DecidableRel (α := F) (· ≤ ·)]

/-- `np.argmax`: the first position of a largest entry. -/
def argmaxFirst (l : List F) : Nat := l.findIdx fun x => l.all fun y => decide (y ≤ x)

/-- `l[i]` for a list of positions, IndexError if one is out of range. -/
def gather {K : Type} (l : List K) (is : List Nat) : Except PyErr (List K) :=
  match is.mapM fun i => l[i]? with
  | some r => .ok r
  | none => .error .index

/-- Positions of the elite, truncation selection (yuca/cmaes.py:237-250; also
`rank_population`, yuca/cmaes.py:190-200). -/
def truncation (ek : Nat) (order : List Nat) : Except PyErr (List Nat) :=
  if order.length < ek then .error .index else .ok (order.reverse.take ek)

/-- The champion of one bracket (yuca/cmaes.py:262-269). -/
def champion (fitness : List F) (is : List Nat) : Except PyErr Nat :=
  match gather fitness is with
  | .error e => .error e
  | .ok fs =>
    match is[argmaxFirst fs]? with
    | none => .error .index
    | some i => .ok i

/-- Positions of the elite, tournament selection (yuca/cmaes.py:252-269): for each bracket the
position of its champion. -/
def tournament (fitness : List F) (brackets : List (List Nat)) : Except PyErr (List Nat) :=
  brackets.mapM (champion fitness)

/-- The probabilities of the lottery, by rank (yuca/cmaes.py:279-281). -/
noncomputable def lotteryProbability (n : Nat) : List ℝ :=
  let p := (List.range n).map fun i : Nat => 1 / ((i : ℝ) + 1) ^ 2
  p.map (· / p.sum)

/-- Positions of the elite, lottery (yuca/cmaes.py:271-292). -/
def lottery (order : List Nat) (picks : List Nat) : Except PyErr (List Nat) :=
  gather order.reverse picks

/-- The three selection modes (yuca/cmaes.py:237-292); in any other mode `elite_pop` is
unbound. -/
def selectElite (argsort : List F → List Nat) (mode ek : Nat) {n : Nat} (r : Draw n)
    (fitness : List F) : Except PyErr (List Nat) :=
  match mode with
  | 0 => truncation ek (argsort fitness)
  | 1 => tournament fitness r.brackets
  | 2 => lottery (argsort fitness) r.picks
  | _ => .error .unbound

end Select

/-- The state of a `CMAES` object. -/
structure Cma (n : Nat) where
  popSize : Nat
  mode : Nat
  startMeans : Vec n
  startCovar : Fin n → Fin n → ℝ
  population : List (Vec n)
  means : Vec n
  covar : Fin n → Fin n → ℝ
  elite : Option (List (Vec n))

/-- `np.mean(elite_params, axis=0)`. -/
noncomputable def eliteMean {n : Nat} (E : List (Vec n)) : Vec n := fun i =>
  (E.map fun e => e i).sum / E.length

/-- `(1 / elite_keep) * np.matmul((elite_params - self.means).T, (elite_params - self.means))`
(yuca/cmaes.py:215-217, 307-309). -/
noncomputable def eliteCovar {n : Nat} (ek : Nat) (E : List (Vec n)) (m : Vec n) :
    Fin n → Fin n → ℝ := fun i j =>
  1 / (ek : ℝ) * (E.map fun e => (e i - m i) * (e j - m j)).sum

/-- `np.random.multivariate_normal(means, covar)` (yuca/cmaes.py:115-117).  For a symmetric
positive semi-definite matrix the points a normal distribution can produce are exactly the mean
plus an element of the range of the matrix; `z` selects one of them. -/
def sampleDist {n : Nat} (m : Vec n) (C : Fin n → Fin n → ℝ) (z : Vec n) : Vec n := fun i =>
  m i + ∑ j, C i j * z j

/-- The elite copying loop (yuca/cmaes.py:315-316): `elite` holds positions, and each copy reads
what is then stored at that position. -/
def copyElite {V : Type} (population : List V) (elite : List Nat) (m : Nat) : List V :=
  (List.range m).foldl (fun p k =>
    match elite[k]? with
    | none => p
    | some e =>
      match p[e]? with
      | none => p
      | some v => p.set k v) population

/-- The resampling loop (yuca/cmaes.py:318-319). -/
def resample {V : Type} (population : List V) (m popSize : Nat) (sample : Nat → V) : List V :=
  population.mapIdx fun i v => if m ≤ i ∧ i < popSize then sample i else v

/-- The part `rank_population` and `update_population` share: keep the elite and adapt the
distribution (yuca/cmaes.py:202-220, 294-312). -/
noncomputable def Cma.adapt {n : Nat} (c : Cma n) (E : List (Vec n)) : Cma n :=
  { c with elite := some E, means := eliteMean E
           covar := eliteCovar (eliteKeep c.popSize) E c.means }

/-- `rank_population` (yuca/cmaes.py:183-233) without the saving. -/
noncomputable def Cma.rank {n : Nat} {F : Type} (argsort : List F → List Nat) (c : Cma n)
    (fitness : List F) : Except PyErr (Cma n) :=
  match truncation (eliteKeep c.popSize) (argsort fitness) with
  | .error e => .error e
  | .ok idx =>
    match gather c.population idx with
    | .error e => .error e
    | .ok E => .ok (c.adapt E)

/-- `update_population` (yuca/cmaes.py:235-322). -/
noncomputable def Cma.update {n : Nat} {F : Type} [LE F] [DecidableRel (α := F) (· ≤ ·)]
    (argsort : List F → List Nat) (c : Cma n) (r : Draw n) (fitness : List F) :
    Except PyErr (Cma n) :=
  match selectElite argsort c.mode (eliteKeep c.popSize) r fitness with
  | .error e => .error e
  | .ok idx =>
    match gather c.population idx with
    | .error e => .error e
    | .ok E =>
      let c' := c.adapt E
      let m := eliteKeep c.popSize / 2
      .ok { c' with
        population := resample (copyElite c.population idx m) m c.popSize fun i =>
          sampleDist c'.means c'.covar (r.noise i) }

/-- How the constructor of an agent class turns `params` into the parameters of the `i`-th agent
built: `ParamsAgent` stores them (yuca/params_agent.py:19-35), `CPPN` ignores the argument and
keeps its random weights (yuca/cppn.py:23-39), `CPPNPlus` takes only the tail
(yuca/cppn.py:209-222). -/
abbrev Build (n : Nat) := Nat → Vec n → Vec n

/-- `ParamsAgent(params=...)`. -/
def Build.params {n : Nat} : Build n := fun _ v => v

/-- `CPPN(params=...)`, with the weights the network is initialised with. -/
def Build.cppn {n : Nat} (w : Nat → Vec n) : Build n := fun i _ => w i

/-- `CPPNPlus(params=...)`: `k` parameters of the pattern network, the rest for the rule. -/
def Build.cppnPlus {n : Nat} (k : Nat) (w : Nat → Vec n) : Build n := fun i v j =>
  if j.val < k then w i j else v j

/-- `initialize_population` (yuca/cmaes.py:126-151): appends to what is there. -/
noncomputable def Cma.initialize {n : Nat} (build : Build n) (noise : Nat → Vec n) (c : Cma n) : Cma n :=
  let E := c.elite.getD []
  { c with population := c.population ++ (E.mapIdx fun i e => build i e) ++
      (List.range' E.length (c.popSize - E.length)).map fun i =>
        build i (sampleDist c.means c.covar (noise i)) }

/-- `reset` (yuca/cmaes.py:119-124). -/
noncomputable def Cma.reset {n : Nat} (build : Build n) (noise : Nat → Vec n) (c : Cma n) : Cma n :=
  Cma.initialize build noise
    { c with means := c.startMeans, covar := c.startCovar, population := [] }

/-- A fitness value: a real number or NaN.  `np.argsort` and `np.argmax` both treat NaN as larger
than every number. -/
abbrev Fit := WithTop ℝ

/-- `fit_std_dev < 0.02` (yuca/cmaes.py:528, 564); with a NaN the comparison is false, and the
standard deviation of nothing is NaN. -/
noncomputable def calm (l : List Fit) : Bool :=
  open Classical in
  if ⊤ ∈ l ∨ l = [] then false
  else
    let x := l.map fun v => v.untopD 0
    let m := x.sum / x.length
    decide (Real.sqrt ((x.map fun v => (v - m) ^ 2).sum / x.length) < 0.02)

/-- What `mantle` records in one generation: the agents evaluated, their fitness, the elite
written to the log (a pattern search overwrites the logged elite of earlier generations,
yuca/cmaes.py:533-538; the fitness entries accumulate in both kinds of search). -/
structure GenLog (n : Nat) where
  evaluated : List (Vec n)
  fitness : List Fit
  elite : List (Vec n)

/-- The state of `mantle`: `saved` is the parameter vector the automaton was given before it was
written to the config file (`none`: no file written yet, or a pattern search).  In a coevolution
that vector is not the rule of the agent, see Verif/Props/Coevolve2.lean. -/
structure Run (n : Nat) where
  cma : Cma n
  logs : List (GenLog n)
  saved : Option (Vec n)

/-- `rank_population` with its saving (yuca/cmaes.py:222-233); `uni` says that "pattern" is
not in the tag. -/
noncomputable def Run.rank {n : Nat} (uni : Bool) (argsort : List Fit → List Nat) (s : Run n)
    (fitness : List Fit) : Except PyErr (Run n) :=
  match s.cma.rank argsort fitness with
  | .error e => .error e
  | .ok c => .ok { s with cma := c, saved := if uni then (c.elite.getD []).head? else s.saved }

/-- One generation of `mantle` without workers (yuca/cmaes.py:464-569); also tells whether the
loop was left by `break`.  `fit g v` is the fitness of parameters `v` in generation `g`: it is
taken to depend on nothing else, see `liveGen` (Verif/Model/Search.lean) for a generation that
evaluates its agents in an environment. -/
noncomputable def genStep {n : Nat} (uni : Bool) (argsort : List Fit → List Nat) (G : Nat)
    (fit : Nat → Vec n → Fit) (g : Nat) (r : Draw n) (s : Run n) : Except PyErr (Run n × Bool) :=
  if s.cma.population.length < s.cma.popSize then .error .index
  else
    let evaluated := s.cma.population.take s.cma.popSize
    let fitness := evaluated.map (fit g)
    let next : Except PyErr (Run n) :=
      if g = G - 1 then s.rank uni argsort fitness
      else match s.cma.update argsort r fitness with
        | .error e => .error e
        | .ok c => .ok { s with cma := c }
    match next with
    | .error e => .error e
    | .ok s₁ =>
      let s₂ := { s₁ with logs := s₁.logs ++ [⟨evaluated, fitness, s₁.cma.elite.getD []⟩] }
      if calm fitness = true ∧ 6 < g then
        match s₂.rank uni argsort fitness with
        | .error e => .error e
        | .ok s₃ => .ok (s₃, true)
      else .ok (s₂, false)

/-- `for generation in range(self.generations)`: the remaining `k` generations from `g` on. -/
noncomputable def runGens {n : Nat} (uni : Bool) (argsort : List Fit → List Nat) (G : Nat)
    (fit : Nat → Vec n → Fit) (draw : Nat → Draw n) : Nat → Nat → Run n → Except PyErr (Run n)
  | 0, _, s => .ok s
  | k + 1, g, s =>
    match genStep uni argsort G fit g (draw g) s with
    | .error e => .error e
    | .ok (s', true) => .ok s'
    | .ok (s', false) => runGens uni argsort G fit draw k (g + 1) s'

/-- One seed of `mantle` (yuca/cmaes.py:439-586): `reset`, then `initialize_population` once
more, then the generations; with none of them the variable `generation` (or the last log entry)
that names the gifs does not exist.  The gifs themselves are left out (simplification: in a
coevolution that has an elite they change the population, see `filmSeed` in
Verif/Model/Gifs.lean). -/
noncomputable def runSeed {n : Nat} (uni : Bool) (argsort : List Fit → List Nat) (G : Nat)
    (fit : Nat → Vec n → Fit) (draw : Nat → Draw n) (build : Build n)
    (noise₁ noise₂ : Nat → Vec n) (s : Run n) : Except PyErr (Run n) :=
  let c := Cma.initialize build noise₂ (Cma.reset build noise₁ s.cma)
  if c.population.length < min (eliteKeep c.popSize) 4 then .error .index
  else match runGens uni argsort G fit draw G 0 { s with cma := c } with
  | .error e => .error e
  | .ok s' => if G = 0 then .error (if uni then .unbound else .index) else .ok s'

end Yuca
