import Verif.Model.Text
import Verif.Model.Arith
import Mathlib.Data.Rat.Defs
import Mathlib.Algebra.Order.Ring.Rat

/-!
# Training a neural automaton on another automaton (yuca/clone.py)

What training does to the weights and which error is measured are arguments: `err it s` is the
error of step `s` of iteration `it`, `weights it n` the weights of the network of iteration `it`
after `n` optimizer steps.  Errors are rational numbers (no NaN); `none` is `float("Inf")`.
-/

namespace Yuca

/-- `e < best`. -/
def ltInf (e : ℚ) : Option ℚ → Bool
  | none => true
  | some b => decide (e < b)

/-- What the loops of `clone_from_ca` keep: the best error, and the iteration whose network
`best_state_dict` refers to.  `nca.state_dict()` holds references to the live weights, not
copies (yuca/clone.py:115-117). -/
structure CloneBest where
  error : Option ℚ
  net : Option Nat
  deriving DecidableEq

/-- The training loop of one iteration (yuca/clone.py:80-125) for `k` more steps from step `s`;
returns the number of optimizer steps made, `iteration_best_error`, and the best so far. -/
def cloneSteps (threshold : ℚ) (it : Nat) (err : Nat → ℚ) :
    Nat → Nat → Option ℚ → CloneBest → Nat × Option ℚ × CloneBest
  | 0, s, itBest, best => (s, itBest, best)
  | k + 1, s, itBest, best =>
    if ltInf (err s) itBest then
      let best' := if ltInf (err s) best.error then ⟨some (err s), some it⟩ else best
      if err s < threshold then (s + 1, some (err s), best')
      else cloneSteps threshold it err k (s + 1) (some (err s)) best'
    else cloneSteps threshold it err k (s + 1) itBest best

/-- The iterations for one config (yuca/clone.py:57-141) for `k` more iterations from `it` on;
returns the number of optimizer steps of each iteration, in order, and the best. -/
def cloneIterations (threshold : ℚ) (maxSteps : Nat) (err : Nat → Nat → ℚ) :
    Nat → Nat → CloneBest → List Nat × CloneBest
  | 0, _, best => ([], best)
  | k + 1, it, best =>
    let r := cloneSteps threshold it (err it) maxSteps 0 none best
    let rest := cloneIterations threshold maxSteps err k (it + 1) r.2.2
    (r.1 :: rest.1, rest.2)

/-- `torch.save(best_state_dict, save_path)` for the first config (yuca/clone.py:53-159): the
weights that are written, `none` for `None`. -/
def cloneSaved {W : Type} (threshold : ℚ) (maxIterations maxSteps : Nat) (err : Nat → Nat → ℚ)
    (weights : Nat → Nat → W) : Option W :=
  let r := cloneIterations threshold maxSteps err maxIterations 0 ⟨none, none⟩
  r.2.net.map fun it => weights it (r.1.getD it 0)

/-- `min([max_hidden_channels, int(hidden_channels*1.25)])` (yuca/clone.py:140); the product is
exact in double precision up to `2 ^ 50`. -/
def nextHidden (maxHidden h : Nat) : Nat := min maxHidden (h * 5 / 4)

/-- `hidden_channels` of iteration `n`. -/
def hiddenAt (maxHidden h : Nat) : Nat → Nat
  | 0 => h
  | n + 1 => nextHidden maxHidden (hiddenAt maxHidden h n)

/-- `s.replace(pat, rep)` for a nonempty pattern, with as much fuel as characters. -/
def pyReplace (pat rep : Str) : Nat → Str → Str
  | 0, s => s
  | _ + 1, [] => []
  | fuel + 1, c :: s =>
    if pat.isPrefixOf (c :: s) then rep ++ pyReplace pat rep fuel ((c :: s).drop pat.length)
    else c :: pyReplace pat rep fuel s

/-- `save_path` for one config (yuca/clone.py:152-154). -/
def clonePath (path config : Str) : Str :=
  if hasSub "ca_config".toList path then
    pyReplace "ca_config".toList (stem config) path.length path
  else path

/-- The paths saved to, config by config; the changed path is kept for the next config. -/
def clonePaths : Str → List Str → List Str
  | _, [] => []
  | path, c :: cs => clonePath path c :: clonePaths (clonePath path c) cs

end Yuca
