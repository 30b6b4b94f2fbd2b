import Verif.Model.Float
import Verif.Model.Arith
import Mathlib.Analysis.SpecialFunctions.Sqrt

/-!
# Image masks (yuca/utils.py:28-92)

Shapes are computed as numpy and torch do; the number of grid points is computed in double
precision, the values of the masks in real arithmetic.
-/

namespace Yuca

/-- `get_mask` at one grid point (yuca/utils.py:28-34). -/
noncomputable def getMask (g radius : ℝ) : ℝ := open Classical in if g < radius then 1 * 0 else 1

/-- The shape of an image batch. -/
structure Shape4 where
  n : Nat
  c : Nat
  h : Nat
  w : Nat
  deriving DecidableEq

/-- The number of points per side of the grid in `get_bite_mask` (yuca/utils.py:44-45). -/
def bitePoints (r : Nat) : ℤ :=
  arangeLen (-r) (r + 1) (double ((2 * r + 1) / (2 * r)))

/-- Can an array with a side of `m` be assigned to a slice with a side of `k`? -/
def broadcasts (m k : ℤ) : Bool := m = k || m = 1

/-- `get_bite_mask`, shape of the result (yuca/utils.py:36-55). -/
def biteMaskShape (s : Shape4) : Except PyErr Shape4 :=
  if s.h / 2 = 0 then .error .zeroDiv
  else if s.c = 0 ∨ (broadcasts (bitePoints (s.h / 2)) s.h && broadcasts (bitePoints (s.h / 2)) s.w) = true
    then .ok ⟨1, s.c, s.h, s.w⟩
  else .error .value

/-- A coordinate of the grid in `get_bite_mask`. -/
noncomputable def biteCoord (r i : Nat) : ℝ := -(r : ℝ) + i * ((2 * r + 1) / (2 * r))

/-- `get_bite_mask` at row `i` and column `j` (yuca/utils.py:43-53). -/
noncomputable def biteMask (r : Nat) (biteRadius cx cy : ℝ) (i j : Nat) : ℝ :=
  getMask (Real.sqrt ((biteCoord r j - cx) ^ 2 + (biteCoord r i - cy) ^ 2) / r) biteRadius

/-- `get_aperture` (yuca/utils.py:57-64). -/
noncomputable def aperture (r : Nat) (apertureRadius : ℝ) (i j : Nat) : ℝ :=
  open Classical in
  if apertureRadius < 0.975 then 1 - biteMask r apertureRadius 0 0 i j else 1

/-- `get_aperture`, shape of the result; `small` says that the radius is below 0.975. -/
def apertureShape (s : Shape4) (small : Bool) : Except PyErr Shape4 :=
  if small then biteMaskShape s else .ok s

/-- `prep_input`, shape of the result (yuca/utils.py:66-85): `small` says that the aperture radius
is below 0.975. -/
def prepShape (s : Shape4) (channels : Option Nat) (batch : Nat) (small : Bool) :
    Except PyErr Shape4 :=
  let ext := channels.getD s.n
  if batch = 0 then .ok ⟨0, ext, s.h, s.w⟩
  else match biteMaskShape s with
  | .error e => .error e
  | .ok _ => match apertureShape s small with
    | .error e => .error e
    | .ok _ =>
      if (broadcasts s.n 1 && broadcasts s.c (min s.c ext)) = true then
        .ok ⟨batch, ext, s.h, s.w⟩
      else .error .value

/-- One entry of the batch `prep_input` returns (yuca/utils.py:76-82). -/
noncomputable def prepValue (img : ℝ) (r : Nat) (apertureRadius biteRadius cx cy noiseLevel u : ℝ)
    (i j : Nat) : ℝ :=
  img * aperture r apertureRadius i j * biteMask r biteRadius cx cy i j + noiseLevel * u

end Yuca
