import Verif.Model.Kernels

/-!
# Construction of Gray-Scott automata (yuca/ca/reaction_diffusion.py)
-/

namespace Yuca

open Arith

/-- The two constants `initialize_grid` fills the channels with
(yuca/ca/reaction_diffusion.py:294-296).  torch's `sqrt` of a negative number is NaN while
`Real.sqrt` is 0, so over the reals this is only meaningful for `f ≥ 0` and `A² ≥ 4`. -/
def RxnDfn.background {α : Type} [Arith α] [Transc α] (ca : RxnDfn α) : α × α :=
  let A := div (Transc.sqrt ca.f) (add ca.f ca.k)
  let S := Transc.sqrt (sub (mul A A) (lit 4))
  (div (sub A S) (mul (lit 2) A), div (mul (Transc.sqrt ca.f) (add A S)) (lit 2))

/-- `RxnDfn.initialize_grid` (yuca/ca/reaction_diffusion.py:268-301). -/
def RxnDfn.initializeGrid {α : Type} [Arith α] [Transc α] (ca : RxnDfn α) (N H W : Nat) :
    Univ α N 2 H W :=
  fun _ c _ _ => if c = 0 then ca.background.1 else ca.background.2

/-- `RxnDfn()` (yuca/ca/reaction_diffusion.py:23-38, 202-238) over the reals: both channels use
the Laplacian-of-Gaussian kernel of radius 1 with `sigma = 0.5`. -/
noncomputable def RxnDfn.default : RxnDfn ℝ where
  idL := identityLayer 2 2 .circular
  nbL := .ofKernel 2 2 .circular 3 (logKernel (r := 1) 0.5 (radialGrid 1))
  diffU := 2e-5
  diffV := 1e-5
  f := 0.0620
  k := 0.0609
  dx := 1 / 330
  dt := 0.5
  t := 0

end Yuca
