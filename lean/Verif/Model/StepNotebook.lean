import Verif.Model.Browser
import Verif.Model.Dyn
import Mathlib.Algebra.BigOperators.Group.Finset.Basic
import Mathlib.Data.Fintype.BigOperators
import Mathlib.Algebra.Field.Defs

/-!
# The notebook on step sizes (notebooks/consequential_step_size.ipynb)

`CA` (line 60) comes from a module this version of yuca does not contain, so it is an automaton
given by its call and its clock.  Prompts are arguments, `none` for an answer that `int` or `float`
rejects; "nan" as an answer is left out.  Drawing is left out.
-/

namespace Yuca

open scoped BigOperators

/-! ## Centre of mass (lines 92-132) -/

section Mass

variable {K : Type} [Field K] [LinearOrder K] {H W : Nat}

/-- `my_grid[part].sum()`. -/
def partSum (g : Fin H → Fin W → K) (part : Fin H → Fin W → Bool) : K :=
  ∑ i, ∑ j, if part i j then g i j else 0

/-- The strips `[:,:spacing]`, `[:,-spacing:]`, `[:spacing,:]`, `[-spacing:,:]` (lines 99-102). -/
inductive Edge where
  | left | right | top | bottom
  deriving DecidableEq

/-- Which cells a strip holds. -/
def Edge.cells (s : Nat) : Edge → Fin H → Fin W → Bool
  | .left, _, j => decide (j.val < sliceBound W s)
  | .right, _, j => decide (sliceBound W (-s) ≤ j.val)
  | .top, i, _ => decide (i.val < sliceBound H s)
  | .bottom, i, _ => decide (sliceBound H (-s) ≤ i.val)

/-- `edge_l`, `edge_r`, `edge_t`, `edge_b` (lines 99-102). -/
def edgeSum (g : Fin H → Fin W → K) (s : Nat) (e : Edge) : K := partSum g (e.cells s)

/-- `np.max([edge_l, edge_r, edge_t, edge_b])` (line 104). -/
def maxEdge (g : Fin H → Fin W → K) (s : Nat) : K :=
  max (max (edgeSum g s .left) (edgeSum g s .right)) (max (edgeSum g s .top) (edgeSum g s .bottom))

/-- The strip whose sum is the largest, in the order of the tests of lines 108-122; `none` if that
sum is 0. -/
def heaviest (g : Fin H → Fin W → K) (s : Nat) : Option Edge :=
  if maxEdge g s = 0 then none
  else if edgeSum g s .right = maxEdge g s then some .right
  else if edgeSum g s .left = maxEdge g s then some .left
  else if edgeSum g s .top = maxEdge g s then some .top
  else some .bottom

/-- The part of the grid the average is taken over: without the strip opposite to the heaviest
(lines 111-124), or all of it (lines 129-130). -/
def comPart (s : Nat) : Option Edge → Fin H → Fin W → Bool
  | some .right, _, j => decide (sliceBound W s ≤ j.val)
  | some .left, _, j => decide (j.val < sliceBound W (-s))
  | some .top, i, _ => decide (i.val < sliceBound H (-s))
  | some .bottom, i, _ => decide (sliceBound H s ≤ i.val)
  | none, _, _ => true

/-- `get_center_of_mass(grid, spacing)` (lines 92-132; also in glaberish_animations.ipynb) on one
channel with at least two rows and columns.  `none` stands for a division by a sum of 0. -/
def gridCentre (g : Fin H → Fin W → K) (s : Nat) : Option (K × K) :=
  let part := comPart s (heaviest g s)
  if partSum g part = 0 then none
  else some (partSum (fun i j => (j.val : K) * g i j / partSum g part) part,
    partSum (fun i j => (i.val : K) * g i j / partSum g part) part)

end Mass

/-! ## Prompts and placement -/

/-- `lib.index[min([len(lib.index), answer])]`, 1 for an answer that is no integer (lines 440-443
and 485, 547-550 and 574). -/
def choosePattern (index : List Str) (answer : Option Int) : Except PyErr Str :=
  let k : Int := match answer with
    | none => 1
    | some a => min index.length a
  if 0 ≤ k then
    match index[k.toNat]? with
    | some n => .ok n
    | none => .error .index
  else if -(index.length : Int) ≤ k then
    match index[(k + index.length).toNat]? with
    | some n => .ok n
    | none => .error .index
  else .error .index

/-- An answer clipped to `[lo, hi]`, or the default (lines 445-481, 552-570, 620-637). -/
def promptClip {K : Type} [LinearOrder K] (lo hi dflt : K) : Option K → K
  | none => dflt
  | some a => min (max lo a) hi

/-- `dim_x = max([128, pattern.shape[-2]*2])` (lines 501, 586). -/
def dimX (h : Nat) : Nat := max 128 (h * 2)

/-- `dim_y = max([dim_x, pattern.shape[-1]*2])` (lines 502, 587). -/
def dimY (h w : Nat) : Nat := max (dimX h) (w * 2)

/-- The grid of zeros of `dim_x` by `dim_y` cells with the pattern assigned to the slices
`offset:offset+size` (lines 501-509, 586-594).  The assignment drops leading axes of length 1, any
other leading axis raises RuntimeError; `pattern.shape[-2]` of an array with fewer than two axes
raises IndexError.  The result holds the two sizes and the cells. -/
def placeCentred {K : Type} [Zero K] (p : Cells K) : Except PyErr (Nat × Nat × (Nat → Nat → K)) :=
  match p.shape.reverse with
  | w :: h :: lead =>
    if lead.all (· = 1) then
      let ox := (dimX h - h) / 2
      let oy := (dimY h w - w) / 2
      .ok (dimX h, dimY h w, fun i j =>
        if (ox ≤ i ∧ i < ox + h) ∧ oy ≤ j ∧ j < oy + w then p.cell 0 0 (i - ox) (j - oy) else 0)
    else .error .runtime
  | _ => .error .index

/-! ## Animations -/

/-- An automaton with its clock: `ca(grid)`, `ca.t_count`, `ca.dt` and assignment to `ca.dt`. -/
structure Auto (K σ β : Type) where
  call : σ → β → Except PyErr (β × σ)
  t : σ → K
  dt : σ → K
  setDt : σ → K → σ

section Loops

variable {K σ β : Type} [Field K] [LinearOrder K]

/-- The globals of `update_fig`. -/
structure Trio (σ β : Type) where
  ca : σ
  grid : β
  slow : β
  fast : β

/-- One round of the loop of `update_fig` (lines 228-235). -/
def trioRound (A : Auto K σ β) (dt : K) (s : Trio σ β) : Except PyErr (Trio σ β) := do
  let (grid, ca) ← A.call s.ca s.grid
  let (slow, ca) ← A.call (A.setDt ca (dt / 3)) s.slow
  let (fast, ca) ← A.call (A.setDt ca (min (dt * 3) 1)) s.fast
  return { ca := A.setDt ca dt, grid := grid, slow := slow, fast := fast }

/-- The loop of `update_fig`. -/
def trioRounds (A : Auto K σ β) (dt : K) : Nat → Trio σ β → Except PyErr (Trio σ β)
  | 0, s => .ok s
  | n + 1, s => do
    let s ← trioRound A dt s
    trioRounds A dt n s

/-- `update_fig` (lines 215-250): the state after a frame and the three titles, from left to
right the slow, the middle and the fast grid. -/
def updateFig (A : Auto K σ β) (speedup : Nat) (s : Trio σ β) :
    Except PyErr (Trio σ β × (K × K × K)) := do
  let dt := A.dt s.ca
  let s ← trioRounds A dt speedup s
  return (s, (dt / 3, dt, dt * 3))

/-- The frames of the animation (lines 602, 657). -/
def figFrames (A : Auto K σ β) (speedup : Nat) : Nat → Trio σ β → Except PyErr (Trio σ β)
  | 0, s => .ok s
  | n + 1, s => do
    let (s, _) ← updateFig A speedup s
    figFrames A speedup n s

/-- `while ca.t_count < target: grid = ca(grid)` (lines 326-336); `none` when the fuel is used up. -/
def runUntil (A : Auto K σ β) (target : K) : Nat → σ → β → Option (Except PyErr (β × σ))
  | 0, _, _ => none
  | n + 1, s, b =>
    if A.t s < target then
      match A.call s b with
      | .error e => some (.error e)
      | .ok (b', s') => runUntil A target n s' b'
    else some (.ok (b, s))

/-- `accumulated_t + max([0.1, ca_0.dt])` (lines 323-335). -/
def frameTarget (A : Auto K σ β) (s : σ) : K := A.t s + max (1 / 10) (A.dt s)

/-- `update` (lines 311-336) for a list of automata with their grids, the first of which sets the
time the others are run to.  The target is computed from `ca_0` alone, whose `dt` no call
changes. -/
def updateAll (A : Auto K σ β) (fuel : Nat) :
    List (σ × β) → Option (Except PyErr (List (σ × β)))
  | [] => some (.ok [])
  | (s, b) :: rest =>
    go (frameTarget A s) ((s, b) :: rest)
where
  /-- The loops one after the other. -/
  go (target : K) : List (σ × β) → Option (Except PyErr (List (σ × β)))
  | [] => some (.ok [])
  | (s, b) :: rest =>
    match runUntil A target fuel s b with
    | none => none
    | some (.error e) => some (.error e)
    | some (.ok (b', s')) =>
      match go target rest with
      | none => none
      | some (.error e) => some (.error e)
      | some (.ok l) => some (.ok ((s', b') :: l))

/-- The frames of the animation of four automata. -/
def allFrames (A : Auto K σ β) (fuel : Nat) :
    Nat → List (σ × β) → Option (Except PyErr (List (σ × β)))
  | 0, l => some (.ok l)
  | n + 1, l =>
    match updateAll A fuel l with
    | none => none
    | some (.error e) => some (.error e)
    | some (.ok l') => allFrames A fuel n l'

/-- What a tracking loop leaves: the recorded centres, the grid, the automaton and whether the
loop was left by `break`. -/
structure Tracked (C σ β : Type) where
  coms : List C
  grid : β
  ca : σ
  broke : Bool

/-- The loops of the static figures (lines 733-765, 905-935, 1078-1093): call, leave the loop if
the grid is dead, record the centre of mass.  The loops of lines 1078-1093 have no such test
(`dead` is constantly false). -/
def trackUntil {C : Type} (A : Auto K σ β) (dead : β → Bool) (com : β → C) (target : K) :
    Nat → σ → β → List C → Option (Except PyErr (Tracked C σ β))
  | 0, _, _, _ => none
  | n + 1, s, b, coms =>
    if A.t s < target then
      match A.call s b with
      | .error e => some (.error e)
      | .ok (b', s') =>
        if dead b' then some (.ok { coms := coms, grid := b', ca := s', broke := true })
        else trackUntil A dead com target n s' b' (coms ++ [com b'])
    else some (.ok { coms := coms, grid := b, ca := s, broke := false })

end Loops

/-- `CCA` in the place of `CA` (yuca/ca/continuous.py:541-564). -/
def ccaAuto {α : Type} [Arith α] (N ext int H W : Nat) :
    Auto α (CCA α ext int) (Univ α N ext H W) where
  call := CCA.forward
  t := CCA.t
  dt := CCA.dt
  setDt ca d := { ca with dt := d }

/-- `Lenia` in the place of `CA` (yuca/lenia.py:55-60). -/
def leniaAuto {α : Type} [Arith α] (N ext int H W : Nat) :
    Auto α (CCA α ext int) (Univ α N ext H W) where
  call := CCA.leniaForward
  t := CCA.t
  dt := CCA.dt
  setDt ca d := { ca with dt := d }

/-! ## The adaptive step size (lines 158-183, 485-517) -/

section Adaptive

variable {α : Type} [Field α] [LinearOrder α] [Arith α] {N ext int H W : Nat}

/-- `CODE(prev_dt=…, min_dt=…, error_threshold=…, max_dt=…)` with the answers to the prompts, and
`code.dt = step_size` (lines 445-499), for a CODE object that has restored its config. -/
def promptCode (s : CODE α ext int) (stepSize maxDt minDt thr : Option α) : CODE α ext int :=
  let d := promptClip (1 / 1000) 1 (1 / 10) stepSize
  { s with
    ca := { s.ca with dt := d }
    prevDt := d
    maxDt := promptClip (1 / 1000) 1 (1 / 5) maxDt
    minDt := promptClip (1 / 1000) 1 (1 / 1000) minDt
    errThr := promptClip (1 / 10 ^ 17) 100 (1 / 1000) thr }

/-- The loop of `update_single` (lines 172-173); the fuel also bounds the loop inside a call. -/
def codeUntil (target : α) (inner : Nat) :
    Nat → CODE α ext int → Univ α N ext H W → CODE.Result α N ext int H W
  | 0, _, _ => none
  | n + 1, s, u =>
    if s.ca.t < target then
      match s.forward inner u with
      | none => none
      | some (.error e) => some (.error e)
      | some (.ok (u', s')) => codeUntil target inner n s' u'
    else some (.ok (u, s))

/-- `update_single` (lines 158-183). -/
def updateSingle (inner fuel : Nat) (s : CODE α ext int) (u : Univ α N ext H W) :
    CODE.Result α N ext int H W :=
  codeUntil (s.ca.t + 1 / 10) inner fuel s u

/-- The frames of the adaptive animation (line 517). -/
def singleFrames (inner fuel : Nat) :
    Nat → CODE α ext int → Univ α N ext H W → CODE.Result α N ext int H W
  | 0, s, u => some (.ok (u, s))
  | n + 1, s, u =>
    match updateSingle inner fuel s u with
    | none => none
    | some (.error e) => some (.error e)
    | some (.ok (u', s')) => singleFrames inner fuel n s' u'

end Adaptive

end Yuca
