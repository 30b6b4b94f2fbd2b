import Verif.Model.Frames
import Verif.Model.Dyn
import Mathlib.Algebra.Order.Archimedean.Real.Basic

/-!
# The pictures of `save_fig_sequence` (yuca/utils.py)

Exact arithmetic.  Colour values are natural numbers, a pixel is the list of its colour values.
-/

namespace Yuca

/-- A colour map of matplotlib: a table of 256 colours with components in `[0, 1]`. -/
abbrev Palette := Fin 256 → List ℝ

/-- `np.uint8(255 * x)` (yuca/utils.py:228, 231, 237, 238, 242): the fraction is cut off; the
result wraps around outside `[0, 256)` (simplification: numpy leaves the cast of negative and too
large floats to the platform). -/
noncomputable def byteOf (x : ℝ) : Nat := (⌊255 * x⌋ % 256).toNat

/-- `cmap(x)` of matplotlib for a float `x`: colour number `int(256 x)`, 255 for `x = 1`; below 0
the first and above 1 the last colour. -/
noncomputable def Palette.look (p : Palette) (x : ℝ) : List ℝ :=
  p ⟨(max 0 (min 255 ⌊256 * x⌋)).toNat, by omega⟩

/-- The pixel at `(i, j)` before the colours are inverted (yuca/utils.py:227-242): sample 0, by the
number of channels (with none of them `grid[0, 0]` raises). -/
noncomputable def rawPixel {N C H W : Nat} (p : Palette) (u : Univ ℝ (N + 1) (C + 1) H W) (i : Fin H)
    (j : Fin W) : List Nat :=
  if h : 4 ≤ C + 1 then
    (List.finRange 4).map fun c => byteOf (u 0 (Fin.castLE h c) i j)
  else if h : C + 1 = 3 then
    (List.finRange 3).map fun c => byteOf (u 0 (Fin.cast h.symm c) i j)
  else if h : C + 1 = 2 then
    [0, byteOf (u 0 (Fin.cast h.symm 0) i j), byteOf (u 0 (Fin.cast h.symm 1) i j)]
  else (p.look (u 0 0 i j)).map byteOf

/-- `img[:,:,:3] = 255 - img[:,:,:3]` (yuca/utils.py:244-245) for one pixel. -/
def invertPixel (l : List Nat) : List Nat := (l.take 3).map (fun x => 255 - x) ++ l.drop 3

/-- The picture of a universe (yuca/utils.py:227-245). -/
noncomputable def picture {N C H W : Nat} (p : Palette) (invert : Bool)
    (u : Univ ℝ (N + 1) (C + 1) H W) : Fin H → Fin W → List Nat := fun i j =>
  if invert then invertPixel (rawPixel p u i j) else rawPixel p u i j

/-- `grid.max() < 0.001` (yuca/utils.py:219): over all samples and channels. -/
noncomputable def vanished {N C H W : Nat} (u : Univ ℝ N C H W) : Bool :=
  open Classical in decide (∀ n c i j, u n c i j < 0.001)

/-- What `save_fig_sequence` needs of an automaton, with everything that can raise. -/
structure Film (V I : Type) where
  frame : V → Except PyErr V
  dead : V → Except PyErr Bool
  picture : V → Except PyErr I

/-- `for speed_step in range(speedup): grid = ca.get_frame(grid, mode=mode)`
(yuca/utils.py:249-250). -/
def Film.speed {V I : Type} (m : Film V I) : Nat → V → Except PyErr V
  | 0, v => .ok v
  | k + 1, v => do
    let v' ← m.frame v
    m.speed k v'

/-- The loop of `save_fig_sequence` (yuca/utils.py:217-250) with exceptions: the frames directory
as it is left, and the last value of `step`. -/
def filmLoop {V I : Type} (m : Film V I) (speedup numSteps : Nat) :
    Nat → Nat → V → Option Nat → List (Str × I) → List (Str × I) × Except PyErr (Option Nat)
  | 0, _, _, last, d => (d, .ok last)
  | k + 1, step, v, _, d =>
    match m.dead v with
    | .error e => (d, .error e)
    | .ok true => (d, .ok (some step))
    | .ok false =>
      match m.picture v with
      | .error e => (d, .error e)
      | .ok i =>
        let d' := writeFile d (frameName numSteps step) i
        match m.speed speedup v with
        | .error e => (d', .error e)
        | .ok v' => filmLoop m speedup numSteps k (step + 1) v' (some step) d'

/-- `save_fig_sequence` (yuca/utils.py:184-258) with exceptions: the frames directory as it is left
(it is removed at the end, `rm -r`, unless something raises before) and the gif. -/
def saveFilm {V I : Type} (m : Film V I) (speedup numSteps : Nat) (v : V) (d : List (Str × I)) :
    List (Str × I) × Except PyErr (Option (List I)) :=
  match filmLoop m speedup numSteps numSteps 0 v none d with
  | (d', .error e) => (d', .error e)
  | (d', .ok none) => (d', .error .unbound)
  | (d', .ok (some step)) =>
    if 0 < step then
      match makeGif d' with
      | .error e => (d', .error e)
      | .ok g => ([], .ok (some g))
    else ([], .ok none)

/-- The film of a `CCA`.  From the first call of `get_frame` on, `grid` is whatever `get_frame`
returned: in the modes other than 0 a tuple or `None`, which has no `max` and cannot be given to a
convolution. -/
noncomputable def CCA.film {N C int H W : Nat} (ca : CCA ℝ (C + 1) int) (p : Palette)
    (invert : Bool) (mode : Int) :
    Film (Frame ℝ (N + 1) (C + 1) int H W) (Fin H → Fin W → List Nat) where
  frame
    | .new u => ca.getFrame u mode
    | _ => .error .type
  dead
    | .new u => .ok (vanished u)
    | _ => .error .attribute
  picture
    | .new u => .ok (Yuca.picture p invert u)
    | _ => .error .attribute

end Yuca
