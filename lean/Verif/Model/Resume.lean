import Verif.Model.Gifs

/-!
# Starting a search, from scratch or from the log of an earlier one (yuca/cmaes.py:60-112)
-/

namespace Yuca

variable {n : Nat}

/-- `covar_weights` (yuca/cmaes.py:67, 75-76); `uni` says that "pattern" is not in the tag. -/
noncomputable def covarWeights (uni : Bool) : Vec n := fun i =>
  if uni then if 1 ≤ i.val then 1 * 0.15 * 5e-4 else 1 * 0.15 else 1 * 1

/-- `np.abs(np.diag(covar_weights))` (yuca/cmaes.py:79). -/
noncomputable def absDiag (w : Vec n) : Fin n → Fin n → ℝ := fun i j =>
  |if i = j then w i else 0|

/-- An entry of `my_data["elite_params"]`: a two-dimensional array. -/
structure EliteArray where
  width : Nat
  rows : List (Vec width)

/-- One round of the loop over the logged rows (yuca/cmaes.py:96-102); a slice beyond the end is
empty. -/
def takeRow {V : Type} (rows : List V) (acc : Option (List V)) (ii : Nat) : Option (List V) :=
  match acc with
  | none => some ((rows.drop ii).take 1)
  | some l => some (l ++ (rows.drop ii).take 1)

/-- `for ii in range(self.elite_keep)` (yuca/cmaes.py:96-102). -/
def takeRows {V : Type} (rows : List V) (ek : Nat) : Option (List V) :=
  (List.range ek).foldl (takeRow rows) none

/-- The rows of an array of the right width as parameter vectors. -/
def EliteArray.vecs (a : EliteArray) (h : a.width = n) : List (Vec n) :=
  a.rows.map fun v i => v (i.cast h.symm)

/-- A `CMAES` object when its distribution is set up (yuca/cmaes.py:64-79, 88): `m₀` is what
`get_params` of a first agent returns.  `means`, `covar` and `population` do not exist before
`reset` sets them; here they have a value nobody reads. -/
noncomputable def Cma.blank (uni : Bool) (popSize mode : Nat) (m₀ : Vec n) : Cma n where
  popSize := popSize
  mode := mode
  startMeans := m₀
  startCovar := absDiag (covarWeights uni)
  population := []
  means := m₀
  covar := absDiag (covarWeights uni)
  elite := none

/-- The rest of `CMAES.__init__` (yuca/cmaes.py:83-112): `file` is `my_data["elite_params"]` of
`input_filepath`, if one is given.  An elite of another width is reported on the screen and not
used. -/
noncomputable def Cma.load (c : Cma n) (file : Option (List EliteArray)) : Except PyErr (Cma n) :=
  match file with
  | none => .ok c
  | some entries =>
    match entries.getLast? with
    | none => .error .index
    | some a =>
      if a.rows.length = 0 then .error .index
      else if h : a.width = n then
        let E := takeRows (a.vecs h) (eliteKeep c.popSize)
        .ok { c with elite := E, startMeans := eliteMean (E.getD []) }
      else .ok c

/-- `progress["elite_params"]` as written to the log after a generation (yuca/cmaes.py:533-538,
547-548). -/
def progressElite (uni : Bool) (logs : List (GenLog n)) : List EliteArray :=
  if uni then logs.map fun l => ⟨n, l.elite⟩
  else logs.getLast?.toList.map fun l => ⟨n, l.elite⟩

/-- A search that continues the one whose log was written in state `s`: a new object with `load`,
ready for `mantle`. -/
noncomputable def resumed (uni : Bool) (popSize mode : Nat) (m₀ : Vec n) (s : Run n) :
    Except PyErr (Run n) :=
  match (Cma.blank uni popSize mode m₀).load (some (progressElite uni s.logs)) with
  | .error e => .error e
  | .ok c => .ok { cma := c, logs := [], saved := none }

end Yuca
