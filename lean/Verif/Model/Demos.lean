import Verif.Model.Dyn
import Verif.Model.PatternTables
import Verif.Model.Text

/-!
# The demonstrations (`if __name__ == "__main__"` of the automata)

`yuca/random_step_ca.py`, `yuca/code.py`, `yuca/metaca.py` and `yuca/lenia.py` run a short program
when they are started as scripts.  Printing and plotting are left out.
-/

namespace Yuca

open Arith

variable {α : Type} [Arith α] {N ext int H W : Nat}

/-- `while ca.t_count <= T: grid = ca(grid)` (yuca/random_step_ca.py:104-105, yuca/code.py:161-162),
at most `fuel` tests of the condition; `none` if this does not suffice, or if a call does not end. -/
def clockLoop {σ β : Type} (clock : σ → α) (call : σ → β → Option (Except PyErr (β × σ))) (T : α) :
    Nat → σ → β → Option (Except PyErr (β × σ))
  | 0, _, _ => none
  | fuel + 1, s, u =>
    if le (clock s) T then
      match call s u with
      | none => none
      | some (.error e) => some (.error e)
      | some (.ok r) => clockLoop clock call T fuel r.2 r.1
    else some (.ok (u, s))

/-- A call of a `RandomStepCA` together with the numbers that `np.random.rand()` has still to give
(yuca/random_step_ca.py:82, 89-93). -/
def randomCall (s : RandomStepCA α ext int × (Nat → α)) (u : Univ α N ext H W) :
    Option (Except PyErr (Univ α N ext H W × (RandomStepCA α ext int × (Nat → α)))) :=
  some (do
    let r ← s.1.forward (s.2 0) u
    return (r.1, (r.2, fun k => s.2 (k + 1))))

/-- The loop of the demonstration of `RandomStepCA` (yuca/random_step_ca.py:104-105). -/
def randomDemo (T : α) (fuel : Nat) (s : RandomStepCA α ext int × (Nat → α))
    (u : Univ α N ext H W) :
    Option (Except PyErr (Univ α N ext H W × (RandomStepCA α ext int × (Nat → α)))) :=
  clockLoop (fun s : RandomStepCA α ext int × (Nat → α) => s.1.ca.t) randomCall T fuel s u

/-- The loop of the demonstration of `CODE` (yuca/code.py:161-162); `inner` bounds the rounds of the
loop in `adaptive_euler`. -/
def codeDemo (T : α) (inner fuel : Nat) (s : CODE α ext int) (u : Univ α N ext H W) :
    Option (Except PyErr (Univ α N ext H W × CODE α ext int)) :=
  clockLoop (fun s : CODE α ext int => s.ca.t) (fun s u => s.forward inner u) T fuel s u

/-- The step sizes of a `RandomStepCA` (yuca/random_step_ca.py:48-50) after `reset` (lines 55-57). -/
def RandomStepCA.fresh (ca : CCA α ext int) : RandomStepCA α ext int :=
  { ca := { ca with t := zero }, prevDt := lit (3 / 10), maxDt := lit (1 / 4), minDt := lit (1 / 20) }

/-- The step sizes of a `CODE` without arguments (yuca/code.py:48-51) after `reset` (lines 56-58). -/
def CODE.fresh (ca : CCA α ext int) : CODE α ext int :=
  { ca := { ca with t := zero }, prevDt := lit (3 / 10), maxDt := lit (1 / 2), minDt := lit (1 / 100),
    errThr := lit (1 / 1000) }

/-- The parameters of a Python function that a call fills by keyword: a keyword that is not the name
of a parameter is a `TypeError`, and so is one for a parameter that a position has filled. -/
def bindKeywords (params : List Str) (positional : Nat) (keywords : List Str) : Except PyErr Unit :=
  if keywords.all fun k => (params.drop positional).contains k then .ok () else .error .type

/-- `a, b = t` for a tensor whose first axis has length `n` (yuca/metaca.py:105). -/
def unpackTwo (n : Nat) : Except PyErr Unit := if n = 2 then .ok () else .error .value

/-- One round of the demonstration of `MetaCA` (yuca/metaca.py:104-109): `ca(grid, dgrid=dgrid)`,
where `forward` has the parameters `grid` and `mode` (line 54), unpacking the result, writing a
frame.  `frames` are the numbers of the frames on disk. -/
def metaRound (keywords : List Str) (s : MetaCA α ext int) (u : Univ α N ext H W) (ii : Nat)
    (frames : List Nat) : (MetaCA α ext int × List Nat) × Except PyErr Unit :=
  match bindKeywords ["grid".toList, "mode".toList] 1 keywords with
  | .error e => ((s, frames), .error e)
  | .ok () =>
    match s.forward u with
    | .error e => ((s, frames), .error e)
    | .ok r =>
      match unpackTwo N with
      | .error e => ((r.2, frames), .error e)
      | .ok () => ((r.2, frames ++ [ii]), .ok ())

/-- `np.reshape(orbium, (20,20))` (yuca/patterns.py:236) as numbers. -/
def orbium (i j : Fin 20) : α := lit ((orbiumList.getD (i.val * 20 + j.val) 0 : Nat) / 100)

/-- The start of the demonstration of `Lenia` (yuca/lenia.py:99-101): an empty grid, the Orbium in the
upper left corner of every sample, then random numbers in the upper right corner; the second
assignment is made after the first. -/
def leniaDemoStart (rand : Fin 4 → Fin 20 → Fin 20 → α) : Univ α 4 1 64 64 := fun n _ i j =>
  if hi : i.val < 20 then
    if hj : 44 ≤ j.val then rand n ⟨i.val, hi⟩ ⟨j.val - 44, by omega⟩
    else if hj' : j.val < 20 then orbium ⟨i.val, hi⟩ ⟨j.val, hj'⟩
    else zero
  else zero

end Yuca
