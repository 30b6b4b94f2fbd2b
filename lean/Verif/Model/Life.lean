import Verif.Model.Kernels

/-!
# Life-like rules as continuous automata (yuca/configs.py)
-/

namespace Yuca

/-- `get_smooth_interval` (yuca/configs.py:6-15): neighbour count `b` becomes the interval
`[(2b-1)/16, (2b+1)/16]` around `b/8`. -/
noncomputable def smoothInterval (rules : List Nat) : List (ℝ × ℝ) :=
  rules.map fun (b : Nat) => ((2 * (b : ℝ) - 1) / 16, (2 * (b : ℝ) + 1) / 16)

/-- The automaton `CCA.load_config` builds from `get_life_like_config(radius=1, birth,
survival)` (yuca/configs.py:68-99, yuca/ca/continuous.py:102-144): default identity kernel,
`MooreLike` kernel of radius 1, one `SmoothIntervals` growth function each (mode 1, default
`alpha = 0.0125`), unit weight, `dt = 1`.  That loading the config gives this automaton is
`load_life_like` in `Props/Config.lean`. -/
noncomputable def lifeCA (birth survival : List Nat) : CCA ℝ 1 1 where
  idL := identityLayer 1 1 .circular
  nbL := .ofKernel 1 1 .circular 3 (mooreLike 1)
  genesis := [(Act.smoothIntervals (smoothInterval birth) 0.0125 true).eval]
  persistence := [(Act.smoothIntervals (smoothInterval survival) 0.0125 true).eval]
  weights := .functional fun _ _ => 1
  thr := 0.1
  dt := 1
  t := 0

end Yuca
