import Verif.Model.Patterns
import Verif.Model.Browser
import Verif.Model.Object

/-!
# The spaceships of the pattern library (yuca/zoo) and the rule they belong to
-/

namespace Yuca

/-- The patterns of the zoo whose metadata name `conway_life.npy` and whose entries are 0 and 1:
yuca/zoo/gol_25P3H1V0_1000.npy, gol_large_spaceship000.npy, gol_medium_spaceship000.npy,
gol_small_spaceship000.npy and gol_reflex_glider000.npy. -/
inductive ZooShip
  | p25
  | large
  | medium
  | small
  | reflex
  deriving DecidableEq

namespace ZooShip

/-- The entries of the arrays (yuca/zoo/gol_*.npy), row by row; the leading axes of length 1 that
all but the first have are left out. -/
def table : ZooShip → List (List Nat)
  | p25 => [
    [0, 0, 0, 0, 0, 0, 0, 0, 0, 0, 0, 0, 0, 0, 0, 0, 0, 0],
    [0, 0, 0, 0, 0, 0, 0, 0, 1, 1, 0, 1, 0, 0, 0, 0, 0, 0],
    [0, 0, 0, 0, 0, 1, 1, 0, 1, 0, 1, 1, 0, 1, 1, 1, 0, 0],
    [0, 0, 1, 1, 1, 1, 0, 0, 1, 1, 0, 0, 0, 0, 0, 0, 1, 0],
    [0, 1, 0, 0, 0, 0, 1, 0, 0, 0, 1, 0, 0, 0, 1, 1, 0, 0],
    [0, 0, 1, 1, 0, 0, 0, 0, 0, 0, 0, 0, 0, 0, 0, 0, 0, 0],
    [0, 0, 0, 0, 0, 0, 0, 0, 0, 0, 0, 0, 0, 0, 0, 0, 0, 0]]
  | large => [
    [0, 0, 0, 0, 0, 0, 0, 0, 0],
    [0, 0, 0, 0, 0, 1, 1, 0, 0],
    [0, 1, 1, 1, 1, 0, 1, 1, 0],
    [0, 1, 1, 1, 1, 1, 1, 0, 0],
    [0, 0, 1, 1, 1, 1, 0, 0, 0],
    [0, 0, 0, 0, 0, 0, 0, 0, 0]]
  | medium => [
    [0, 0, 0, 0, 0, 0, 0, 0],
    [0, 0, 0, 0, 1, 1, 0, 0],
    [0, 1, 1, 1, 0, 1, 1, 0],
    [0, 1, 1, 1, 1, 1, 0, 0],
    [0, 0, 1, 1, 1, 0, 0, 0],
    [0, 0, 0, 0, 0, 0, 0, 0]]
  | small => [
    [0, 0, 0, 0, 0, 0, 0],
    [0, 0, 0, 1, 1, 0, 0],
    [0, 1, 1, 0, 1, 1, 0],
    [0, 1, 1, 1, 1, 0, 0],
    [0, 0, 1, 1, 0, 0, 0],
    [0, 0, 0, 0, 0, 0, 0]]
  | reflex => [
    [0, 0, 0, 0, 0],
    [0, 0, 1, 1, 0],
    [0, 1, 0, 1, 0],
    [0, 0, 0, 1, 0],
    [0, 0, 0, 0, 0]]

/-- The number of rows (yuca/zoo/gol_*.npy, the next to last entry of the shape). -/
def height : ZooShip → Nat
  | p25 => 7
  | large => 6
  | medium => 6
  | small => 6
  | reflex => 5

/-- The number of columns (yuca/zoo/gol_*.npy, the last entry of the shape). -/
def width : ZooShip → Nat
  | p25 => 18
  | large => 9
  | medium => 8
  | small => 7
  | reflex => 5

/-- The shape in the header of the file (yuca/zoo/gol_*.npy): the first pattern was stored without
the two leading axes. -/
def shape (s : ZooShip) : List Nat :=
  if s = p25 then [s.height, s.width] else [1, 1, s.height, s.width]

/-- The name of the pattern (yuca/zoo/gol_*.npy). -/
def file : ZooShip → String
  | p25 => "gol_25P3H1V0_1000"
  | large => "gol_large_spaceship000"
  | medium => "gol_medium_spaceship000"
  | small => "gol_small_spaceship000"
  | reflex => "gol_reflex_glider000"

/-- The array (yuca/zoo/gol_*.npy) as real numbers. -/
noncomputable def grid (s : ZooShip) : Grid ℝ s.height s.width := fun x y =>
  ((s.table.getD x.val []).getD y.val 0 : ℕ)

/-- What `Librarian.load` (yuca/zoo/librarian.py:98) returns for the pattern. -/
noncomputable def cells (s : ZooShip) : Cells ℝ where
  shape := s.shape
  cell := fun _ _ x y => ((s.table.getD x []).getD y 0 : ℕ)

end ZooShip

/-- ca_configs/conway_life.npy, as stored: `make_config` wrote it, so the identity kernel is under
a key `load_config` does not read, and there are no `instant_kwargs`. -/
noncomputable def storedConway : Config where
  idKernelConfig := some ⟨"InnerMoore", none, none⟩
  neighborhood := ⟨"MooreLike", some 1, none⟩
  genesis := { name := "SmoothIntervals", parameters := some (.mat [(0.3125, 0.4375)]), mode := true }
  persistence :=
    { name := "SmoothIntervals", parameters := some (.mat [(0.1875, 0.3125), (0.3125, 0.4375)])
      mode := true }
  dt := some 1

/-- ca_configs/morley.npy, as stored. -/
noncomputable def storedMorley : Config where
  idKernelConfig := some ⟨"InnerMoore", none, none⟩
  neighborhood := ⟨"MooreLike", some 1, none⟩
  genesis :=
    { name := "SmoothIntervals"
      parameters := some (.mat [(0.3125, 0.4375), (0.6875, 0.8125), (0.9375, 1.0625)])
      mode := true }
  persistence :=
    { name := "SmoothIntervals"
      parameters := some (.mat [(0.1875, 0.3125), (0.4375, 0.5625), (0.5625, 0.6875)])
      mode := true }
  dt := some 1

end Yuca
