import Verif.Model.Text
import Verif.Model.Arith

/-!
# Rendering a trajectory (yuca/utils.py)

`V` are universes, `I` images.  The frames directory is a list of named files; `os.listdir` may
return it in any order, which does not matter because `make_gif` sorts.  Reading a png file back
is taken to give the image that was written.
-/

namespace Yuca

/-- What `save_fig_sequence` needs from the automaton: one `get_frame`, the test
`grid.max() < 0.001`, and the picture of a universe. -/
structure Movie (V I : Type) where
  frame : V → V
  dead : V → Bool
  picture : V → I

/-- The file name of a frame (yuca/utils.py:205, 222-225). -/
def frameName (numSteps step : Nat) : Str :=
  "frame_".toList ++ padZero (if numSteps / 10 + 1 ≤ 5 then 5 else 10) step ++ ".png".toList

/-- Writing a file. -/
def writeFile {I : Type} (d : List (Str × I)) (name : Str) (i : I) : List (Str × I) :=
  d.filter (fun f => decide (f.1 ≠ name)) ++ [(name, i)]

/-- The loop of `save_fig_sequence` (yuca/utils.py:217-250), `k` rounds from `step` on; returns the
directory and the last value of `step` (`none`: the loop body was never entered). -/
def frameLoop {V I : Type} (m : Movie V I) (speedup numSteps : Nat) :
    Nat → Nat → V → Option Nat → List (Str × I) → List (Str × I) × Option Nat
  | 0, _, _, last, d => (d, last)
  | k + 1, step, v, _, d =>
    if m.dead v then (d, some step)
    else frameLoop m speedup numSteps k (step + 1) (m.frame^[speedup] v) (some step)
      (writeFile d (frameName numSteps step) (m.picture v))

/-- `make_gif` (yuca/utils.py:147-178): the images given to the gif writer. -/
def makeGif {I : Type} (d : List (Str × I)) : Except PyErr (List I) :=
  let names := (sortStr (d.map Prod.fst)).filter (hasSub "png".toList)
  let frames := names.filterMap fun n => (d.find? fun f => decide (f.1 = n)).map Prod.snd
  match frames with
  | [] => .error .index
  | f :: fs => .ok (f :: f :: fs)

/-- `save_fig_sequence` (yuca/utils.py:184-258): the gif it makes, if any. -/
def saveFigSequence {V I : Type} (m : Movie V I) (speedup numSteps : Nat) (v : V)
    (d : List (Str × I)) : Except PyErr (Option (List I)) :=
  match frameLoop m speedup numSteps numSteps 0 v none d with
  | (_, none) => .error .unbound
  | (d', some step) => if 0 < step then (makeGif d').map some else .ok none

end Yuca
