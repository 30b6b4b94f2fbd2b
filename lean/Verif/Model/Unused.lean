import Verif.Model.Dyn
import Verif.Model.Object

/-!
# Activations that no automaton uses (yuca/activations.py)
-/

namespace Yuca

open Arith

variable {α : Type} {N ext int H W : Nat}

/-- `sigmoid_1` (yuca/activations.py:9-10); `gamma` is not read. -/
noncomputable def stepSigmoid (x mu alpha : ℝ) : ℝ := 1 / (1 + Real.exp (-4 * (x - mu) / alpha))

/-- The function `get_smooth_steps_fn` returns, at one entry of the array it is called with
(yuca/activations.py:12-27).  The model takes arrays of floats: for an array of integers
`zeros_like` makes an array of integers, to which no float can be added in place. -/
noncomputable def stepsFn (intervals : List (ℝ × ℝ)) (alpha : ℝ) (x : ℝ) : ℝ :=
  intervals.foldl (fun result bounds =>
    result + stepSigmoid x bounds.1 alpha * (1 - stepSigmoid x bounds.2 alpha)) 0

/-- `eps` of `GaussianMetaMixture.forward` (yuca/activations.py:278). -/
noncomputable def eps7 : ℝ := 1e-7

/-- `GaussianMetaMixture.forward` (yuca/activations.py:276-288): a gaussian of channel 0 whose
centre is channel 1 and whose width is channel 2.  With fewer channels the index raises
IndexError.  Over exact reals; at the width `-eps` torch divides by 0 and gives 0 or NaN, here
the quotient is 0. -/
noncomputable def metaMixture (mode : Bool) (x : Univ ℝ N ext H W) :
    Except PyErr (Univ ℝ N 1 H W) :=
  if h : 2 < ext then
    .ok fun n _ i j =>
      let g := Real.exp (-((x n ⟨0, by omega⟩ i j - x n ⟨1, by omega⟩ i j) /
        (eps7 + x n ⟨2, h⟩ i j)) ^ 2 / 2)
      if mode then g * 2 - 1 else g
  else .error .index

/-- `neighborhoods[:, ii:ii+1, :, :]` (yuca/ca/continuous.py:497, 517). -/
def oneChannel (x : Univ α N int H W) (o : Fin int) : Univ α N 1 H W := fun n _ i j => x n o i j

/-- `CCA.genesis` / `CCA.persistence` (yuca/ca/continuous.py:486-520) for modules that take and
return tensors: one module per channel, called in order on the slices; what they return is the
list of parts that `torch.cat` joins along the channels.  Simplification: modules return one
channel. -/
def perSlice (fns : List (Univ α N 1 H W → Except PyErr (Univ α N 1 H W)))
    (x : Univ α N int H W) : Except PyErr (List (Univ α N 1 H W)) :=
  if h : fns.length = int then
    (List.finRange int).mapM fun o => (fns.get (Fin.cast h.symm o)) (oneChannel x o)
  else .error .assertion

end Yuca
