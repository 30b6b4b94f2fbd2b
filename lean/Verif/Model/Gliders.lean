import Verif.Model.Stored
import Verif.Model.StepNotebook

/-!
# Gliders and entropy maps in two notebooks (notebooks/glaberish_animations.ipynb cells 9 and 10,
notebooks/glaberish_static_figures.ipynb cells 7 and 34)

Both import `CA` from `yuca.multiverse`, which is not in the repository: an automaton is the map
`ca(grid)` on grids.  Colours are left out except for the number `progress` they are mixed by.
-/

namespace Yuca

section Gliders

variable {β γ : Type}

/-- `com[-100:]` (glaberish_animations.ipynb:519-522). -/
def lastHundred (l : List γ) : List γ := l.drop (l.length - 100)

/-- One of the four panels of the animation: the grid, its list of centres and the points drawn on
its axes so far, each with `progress`. -/
structure Track (β γ : Type) where
  grid : β
  com : List γ
  drawn : List (ℚ × γ)

/-- The points a frame draws (glaberish_animations.ipynb:542-560). -/
def trackPoints (com : List γ) : List (ℚ × γ) :=
  com.zipIdx.map fun p => ((p.2 : ℚ) / com.length, p.1)

/-- `update_gliders` (glaberish_animations.ipynb:492-565) for one of the panels; `scatter` adds
points to the axes and removes none. -/
def gliderFrame (displayCenter : Bool) (ca : β → β) (centre : β → γ) (s : Track β γ) : Track β γ :=
  let grid := ca s.grid
  if displayCenter then
    let com := lastHundred s.com ++ [centre grid]
    ⟨grid, com, s.drawn ++ trackPoints com⟩
  else ⟨grid, s.com, s.drawn⟩

/-- `n` frames from `com = []` (glaberish_animations.ipynb:487-490, 579). -/
def gliderFrames (displayCenter : Bool) (ca : β → β) (centre : β → γ) (grid : β) (n : Nat) :
    Track β γ :=
  (gliderFrame displayCenter ca centre)^[n] ⟨grid, [], []⟩

/-- The loop of the still picture (glaberish_static_figures.ipynb:1296-1310) for `grid_g0`: two
steps and two centres per round. -/
def stillRound0 (ca : β → β) (centre : β → γ) (s : β × List γ) : β × List γ :=
  let g := ca s.1
  let com := s.2 ++ [centre g]
  let g := ca g
  (g, com ++ [centre g])

/-- The same loop for the other three grids. -/
def stillRound (ca : β → β) (centre : β → γ) (s : β × List γ) : β × List γ :=
  let g := ca s.1
  (g, s.2 ++ [centre g])

/-- `update_spatial_entropy(ii)` (glaberish_animations.ipynb:598-632) for one automaton: the grid
and the entropy map shown. -/
def entropyFrame {ε : Type} (ca : β → β) (h : β → ε) (s : β × ε) (ii : Nat) : β × ε :=
  let g := ca s.1
  (g, if ii % 32 = 0 then h g else s.2)

/-- The frames `0, …, n-1`, with the map set up before (glaberish_animations.ipynb:653-675). -/
def entropyFrames {ε : Type} (ca : β → β) (h : β → ε) (grid : β) (first : ε) (n : Nat) : β × ε :=
  (List.range n).foldl (entropyFrame ca h) (grid, first)

/-- The four patterns of both notebooks with the config they are run with
(glaberish_animations.ipynb:450-462, 501-504; glaberish_static_figures.ipynb:1254-1266). -/
def gliderPatterns : List (String × String) :=
  [("geminium_hydrogeminium_natans000", "geminium.npy"),
   ("geminium2_wobble_glider000", "geminium.npy"), ("s613_s613_frog000", "s613.npy"),
   ("s613_fast_wobble_glider000", "s613.npy")]

variable {K : Type} [Zero K]

/-- `g0_teaser[ch, 0]` (glaberish_static_figures.ipynb:199-204): `dim//2` rows and `dim` columns of
zeros, the columns `dim//8` to `3*dim//8` overwritten with `dim//2` by `dim//4` random numbers.
One column is repeated; any other width must be that of the slice. -/
def teaserGrid (dim : Nat) (rand : Nat → Nat → K) : Except PyErr (Nat → Nat → K) :=
  let lo := dim / 8
  let hi := 3 * dim / 8
  if dim / 4 = hi - lo ∨ dim / 4 = 1 then
    .ok fun y x => if lo ≤ x ∧ x < hi then rand y (if dim / 4 = 1 then 0 else x - lo) else 0
  else .error .runtime

/-- `grid_g[0, 0]` (glaberish_animations.ipynb:643-651): the middle square of a `dim` by `dim`
grid. -/
def squareGrid (dim : Nat) (init : Nat → Nat → K) (y x : Nat) : K :=
  let half := dim / 4
  if (half ≤ y ∧ y < 3 * half) ∧ half ≤ x ∧ x < 3 * half then init (y - half) (x - half) else 0

end Gliders

end Yuca
