import Verif.Lemmas.Forward
import Verif.Model.Layers

/-!
# Concrete automata used as witnesses

Small automata on which the hypotheses of the property theorems are exhibited and
on which the failures of some expected properties are shown.
-/

namespace Yuca.Witness

/-- The default identity layer, circular unless said otherwise. -/
def idLayer {α : Type} [Arith α] (ext int : Nat) (m : PadMode := .circular) :
    ConvLayer α ext int := identityLayer ext int m

/-- A 3x3 neighborhood layer that weighs the upper neighbour 1/2, the others 0. -/
def upLayer (ext int : Nat) (m : PadMode := .circular) : ConvLayer ℚ ext int :=
  ⟨3, m, fun _ _ a b => if a = 0 ∧ b = 1 then 1/2 else 0⟩

/-- The 3x3 Moore layer (all eight neighbours 1/8). -/
def mooreLayer (ext int : Nat) (m : PadMode := .circular) : ConvLayer ℚ ext int :=
  ⟨3, m, fun _ _ a b => if a = 1 ∧ b = 1 then 0 else 1/8⟩

/-- A one-channel rational CCA with piecewise-linear growth functions. -/
def ca1 : CCA ℚ 1 1 where
  idL := idLayer 1 1
  nbL := upLayer 1 1
  genesis := [fun x => 2 * x - 1/4]
  persistence := [fun x => 1/2 - x]
  weights := .functional fun _ _ => 1
  thr := 1/10
  dt := 1/2
  t := 0

/-- A four-channel rational CCA (alpha channel present). -/
def ca4 : CCA ℚ 4 4 where
  idL := idLayer 4 4
  nbL := upLayer 4 4
  genesis := List.replicate 4 (fun x => 2 * x - 1/4)
  persistence := List.replicate 4 (fun x => 1/2 - x)
  weights := .functional fun _ _ => 1/16
  thr := 1/10
  dt := 1/2
  t := 0

/-- The same automaton as `ca1` without wrap-around. -/
def ca1zeros : CCA ℚ 1 1 := { ca1 with idL := idLayer 1 1 .zeros, nbL := upLayer 1 1 .zeros }

/-- A non-constant 1x1x3x3 universe. -/
def u3 : Univ ℚ 1 1 3 3 := fun _ _ i j => if i = 0 ∧ j = 1 then 1 else if i = 2 then 1/2 else 0

/-- A 1x4x3x3 universe whose alpha channel is below threshold at most cells. -/
def u4 : Univ ℚ 1 4 3 3 := fun _ c i j =>
  if c = 3 then (if i = 0 ∧ j = 1 then 1 else 0) else 1/2

/-- Gray-Scott on rationals, with the impulse as identity and a discrete Laplacian. -/
def rxn : RxnDfn ℚ where
  idL := idLayer 2 2
  nbL := ⟨3, .circular, fun _ _ a b => if a = 1 ∧ b = 1 then -1 else 1/8⟩
  diffU := 2/100000
  diffV := 1/100000
  f := 62/1000
  k := 609/10000
  dx := 1/330
  dt := 1/2
  t := 0

/-- A two-channel universe. -/
def u2 : Univ ℚ 1 2 3 3 := fun _ c i j => if c = 0 then 1/2 else if i = j then 1/4 else 0

/-- A tiny NCA on the reals. -/
noncomputable def nca : NCA ℝ 1 1 2 where
  idL := idLayer 1 1
  nbL := ⟨3, .circular, fun _ _ a _ => if a = 0 then 1/6 else 0⟩
  w₁ := fun e o => if e.val = o.val then 1 else 1/2
  act₁ := fun x => x * x
  w₂ := fun _ _ => 1/4
  act₂ := fun x => x * x * x
  w₃ := fun _ _ => 1
  thr := 1/10
  dt := 1/10
  t := 0

/-- A CODE automaton around `ca1`. -/
def code1 : CODE ℚ 1 1 := ⟨ca1, 3/10, 1/2, 1/100, 1/10⟩

/-- A RandomStepCA around `ca1`. -/
def rnd1 : RandomStepCA ℚ 1 1 := ⟨ca1, 3/10, 1/4, 1/20⟩

/-- A MetaCA around `ca1`. -/
def meta1 : MetaCA ℚ 1 1 := ⟨ca1, 1/4, none⟩

end Yuca.Witness
