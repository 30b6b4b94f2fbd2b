import Verif.Model.Conv

/-!
# The 0/1 patterns of the pattern library (yuca/patterns.py)
-/

namespace Yuca

/-- `a[r0:r1, c0:c1] = 1` (numpy slice assignment; a single index `r` is the slice
`r : r + 1`). -/
noncomputable def setOnes {h w : Nat} (r0 r1 c0 c1 : Nat) (a : Grid ℝ h w) : Grid ℝ h w :=
  fun i j => if r0 ≤ i.val ∧ i.val < r1 ∧ c0 ≤ j.val ∧ j.val < c1 then 1 else a i j

/-- `np.zeros((h, w))`. -/
noncomputable def npZeros (h w : Nat) : Grid ℝ h w := fun _ _ => 0

/-- `get_glider` (yuca/patterns.py:9-17). -/
noncomputable def getGlider : Grid ℝ 8 8 :=
  let glider := npZeros 8 8
  let glider := setOnes 1 2 2 3 glider
  let glider := setOnes 2 3 1 3 glider
  let glider := setOnes 3 4 1 2 glider
  let glider := setOnes 3 4 3 4 glider
  glider

/-- `get_puffer` (yuca/patterns.py:19-31). -/
noncomputable def getPuffer : Grid ℝ 8 8 :=
  let puffer := npZeros 8 8
  let puffer := setOnes 3 5 1 2 puffer
  let puffer := setOnes 2 3 2 3 puffer
  let puffer := setOnes 5 6 2 3 puffer
  let puffer := setOnes 1 7 3 4 puffer
  let puffer := setOnes 2 3 4 6 puffer
  let puffer := setOnes 5 6 4 6 puffer
  let puffer := setOnes 3 5 6 7 puffer
  puffer

end Yuca
