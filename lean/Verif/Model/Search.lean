import Verif.Model.Cmaes
import Verif.Model.Evaluate

/-!
# A search without workers, with its environment and random generators
(yuca/cmaes.py `mantle`, lines 464-569)

`genStep` (Verif/Model/Cmaes.lean) takes the fitness of the agents and the random choices of a
generation as given.  Here both come from where the program takes them: the fitness from the one
environment object of the process, the random choices from the global generators, in the state in
which the evaluation left them.  `G` is the state of the global generators.
-/

namespace Yuca

variable {n : Nat} {σ G : Type}

/-- A search in progress: what `mantle` keeps, `self.env`, the global generators. -/
structure Live (n : Nat) (σ G : Type) where
  run : Run n
  env : σ
  gen : G

/-- `get_elite_configs` as the environment and the generators see it (yuca/cmaes.py:353-374):
one step with the parameters of each elite, then `make_config` (`mk` is the environment after
it).  `E` is the environment with `ca_steps = 2`. -/
noncomputable def Env.visits (E : Env σ (List ℝ) G) (mk : σ → σ) : List (Vec n) → σ → G →
    Except PyErr (σ × G)
  | [], s, g => .ok (s, g)
  | v :: vs, s, g =>
    match E.step s (List.ofFn v) g with
    | .error e => .error e
    | .ok (_, s, g) => E.visits mk vs (mk s) g

/-- One generation of `mantle` with `self.workers == 0` (yuca/cmaes.py:464-569); also tells whether
the loop was left by `break`.  `read` is how `update_population` reads its random choices off the
generators; it knows the state of the search and the fitness.  Agents are `ParamsAgent`s: the
action is the parameter vector.  A population that is too short is refused before the evaluation
instead of in the middle of it. -/
noncomputable def liveGen (uni : Bool) (argsort : List Fit → List Nat) (gens : Nat)
    (E E₂ : Env σ (List ℝ) G) (mk : σ → σ) (seedAll : Nat → G) (reps mySeed : Nat)
    (read : Cma n → List Fit → G → Draw n × G) (g : Nat) (x : Live n σ G) :
    Except PyErr (Live n σ G × Bool) :=
  let c := x.run.cma
  if c.population.length < c.popSize then .error .index
  else
    let evaluated := c.population.take c.popSize
    match E.evalAll seedAll reps (g * mySeed) (evaluated.map List.ofFn) x.env x.gen with
    | .error e => .error e
    | .ok (rs, env, gen) =>
      let fitness : List Fit := rs.map fun r => (r.1 : Fit)
      let next : Except PyErr (Run n × G) :=
        if g = gens - 1 then
          match x.run.rank uni argsort fitness with
          | .error e => .error e
          | .ok s => .ok (s, gen)
        else
          match c.update argsort (read c fitness gen).1 fitness with
          | .error e => .error e
          | .ok c' => .ok ({ x.run with cma := c' }, (read c fitness gen).2)
      match next with
      | .error e => .error e
      | .ok (s₁, gen₁) =>
        match E₂.visits mk (s₁.cma.elite.getD []) env gen₁ with
        | .error e => .error e
        | .ok (env₂, gen₂) =>
          let s₂ := { s₁ with logs := s₁.logs ++ [⟨evaluated, fitness, s₁.cma.elite.getD []⟩] }
          if calm fitness = true ∧ 6 < g then
            match s₂.rank uni argsort fitness with
            | .error e => .error e
            | .ok s₃ => .ok (⟨s₃, env₂, gen₂⟩, true)
          else .ok (⟨s₂, env₂, gen₂⟩, false)

/-- `for generation in range(self.generations)`: the remaining `k` generations from `g` on. -/
noncomputable def liveGens (uni : Bool) (argsort : List Fit → List Nat) (gens : Nat)
    (E E₂ : Env σ (List ℝ) G) (mk : σ → σ) (seedAll : Nat → G) (reps mySeed : Nat)
    (read : Cma n → List Fit → G → Draw n × G) : Nat → Nat → Live n σ G →
    Except PyErr (Live n σ G)
  | 0, _, x => .ok x
  | k + 1, g, x =>
    match liveGen uni argsort gens E E₂ mk seedAll reps mySeed read g x with
    | .error e => .error e
    | .ok (x', true) => .ok x'
    | .ok (x', false) => liveGens uni argsort gens E E₂ mk seedAll reps mySeed read k (g + 1) x'

end Yuca
