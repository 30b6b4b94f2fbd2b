import Verif.Model.Evaluate

/-!
# Searches for moving patterns (yuca/wrappers/glider_wrapper.py, `CMACES` of yuca/cmaes.py)

`GliderWrapper` as an environment: the automaton and the global generators are passed from one
rollout to the next.
-/

namespace Yuca

variable {σ G : Type} {C D : Nat}

/-- `GliderWrapper.step` (yuca/wrappers/glider_wrapper.py:66-137) on a pattern: the reward and
`info["active_grid"]`, which is the mean of the last grid.  `reset` is `self.ca.reset()` (line 88),
`radius` the kernel radius `init_displacement_grid` saw. -/
noncomputable def gliderEpisode (M : Automaton σ G C) (reset : σ → σ) (radius : ℝ) (caSteps : Nat)
    (s : σ) (u : Univ ℝ 1 C D D) (g : G) : Except PyErr ((ℝ × ℝ) × σ × G) :=
  match gliderLoop (fun (p : σ × G) u =>
      match M.call p.1 p.2 u with
      | .error e => .error e
      | .ok (u', s', g') => .ok (u', (s', g'))) radius caSteps
    { s := (reset s, g), action := u, old := u, mean0 := uMean u, y0 := 0, reward := 0,
      last := none } with
  | .error e => .error e
  | .ok v =>
    match v.last with
    | none => .error .unbound
    | some _ => .ok ((v.reward, uMean v.action), v.s.1, v.s.2)

/-- `GliderWrapper` in a pattern search (yuca/evolve.py:59-90, yuca/cmaes.py:167-172): the action
is the pattern of the agent, `pattern v` for weights `v` (or what `CPPN.get_action` raises), and
the rule is never set.  `GliderWrapper.reset` does nothing (line 149). -/
noncomputable def patternEnv (M : Automaton σ G C) (reset : σ → σ) (radius : ℝ) (caSteps : Nat)
    (pattern : List ℝ → Except PyErr (Univ ℝ 1 C D D)) : Env σ (List ℝ) G where
  reset s g := (s, g)
  step s v g :=
    match pattern v with
    | .error e => .error e
    | .ok u => gliderEpisode M reset radius caSteps s u g

/-- The loop body of `CMACES.get_fitness` (yuca/cmaes.py:640-648) as an environment: an agent is
the vector of a `CPPNPlus`, whose first `k` entries are the weights of its network and the others
the parameters of its rule (yuca/cppn.py:224-244). -/
noncomputable def coevoEnv (M : Automaton σ G C) (reset : σ → σ) (radius : ℝ) (caSteps k : Nat)
    (pattern : List ℝ → Except PyErr (Univ ℝ 1 C D D)) : Env σ (List ℝ) G where
  reset s g := (s, g)
  step s v g :=
    match pattern (v.take k) with
    | .error e => .error e
    | .ok u =>
      match M.setParams s (v.drop k) with
      | (_, some e) => .error e
      | (s', none) => gliderEpisode M reset radius caSteps s' u g

/-- `CMACES.get_elite_configs` (yuca/cmaes.py:659-681): the rules of the elite, one after the
other, each followed by `make_config`. -/
noncomputable def coevoConfigs (o : CCAObj) (k : Nat) (elite : List (List ℝ)) :
    Except PyErr (List Config) :=
  o.eliteConfigs (elite.map (List.drop k))

/-- The saving at the end of `rank_population` for a tag without "pattern"
(yuca/cmaes.py:229-232): `v` is `self.elite_params[0]`. -/
noncomputable def CCAObj.rankSave (o : CCAObj) (v : List ℝ) : Except PyErr Config :=
  match o.setParams v with
  | (_, some e) => .error e
  | (o', none) => .ok o'.makeConfig.1

/-- `CCA.reset` (yuca/ca/continuous.py:98-100). -/
def CCAObj.reset (o : CCAObj) : CCAObj := { o with t := 0 }

/-- `RandomStepCA.reset` (yuca/random_step_ca.py:55-57). -/
def RandomStepObj.reset (s : RandomStepObj) : RandomStepObj := { s with o := s.o.reset }

/-- `MetaCA.reset` (yuca/metaca.py:74-76). -/
def MetaObj.reset {C : Nat} (s : MetaObj C) : MetaObj C := { s with dgrid := none }

/-- `CODE.reset` (yuca/code.py:56-58). -/
def CodeObj.reset (s : CodeObj) : CodeObj := { s with o := s.o.reset }

end Yuca
