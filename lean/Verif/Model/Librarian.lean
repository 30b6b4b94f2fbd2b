import Verif.Model.Text
import Verif.Model.Arith
import Mathlib.Logic.Function.Basic

/-!
# `Librarian` (yuca/zoo/librarian.py)

The zoo directory is a map from file names to contents.  Arrays are opaque (`A`): `np.save`
followed by `np.load` is taken to return the array.  Pattern names are taken not to contain a
slash, so every path is a name in the directory.
-/

namespace Yuca

variable {A : Type}

/-- Contents of a file: a complete array, an incompletely written one, or text. -/
inductive FileData (A : Type) where
  | npy (a : A)
  | bad
  | text (s : Str)

/-- A directory. -/
abbrev Dir (A : Type) := Str → Option (FileData A)

/-- `f"{pattern_name}{counter:03}"` (yuca/zoo/librarian.py:54, 58, 66). -/
def variantName (name : Str) (counter : Nat) : Str := name ++ padZero 3 counter

/-- `f"{stem}.npy"`. -/
def npyName (s : Str) : Str := s ++ ['.', 'n', 'p', 'y']

/-- `f"{stem}.csv"`. -/
def csvName (s : Str) : Str := s ++ ['.', 'c', 's', 'v']

/-- The `while os.path.exists(file_path)` loop (yuca/zoo/librarian.py:53-63); `none` when the
fuel runs out. -/
def freeCounter (d : Dir A) (name : Str) : Nat → Nat → Option Nat
  | 0, _ => none
  | fuel + 1, c =>
    if (d (npyName (variantName name c))).isSome then freeCounter d name fuel (c + 1) else some c

/-- The arguments of `store` (yuca/zoo/librarian.py:48-51); `notes` is what `f"{notes}"` prints. -/
structure StoreArgs (A : Type) where
  pattern : A
  name : Str
  configName : Str
  caConfig : Str
  entryPoint : Str
  commitHash : Str
  notes : Str

/-- `"unspecified"`. -/
def unspecified : Str := ['u', 'n', 's', 'p', 'e', 'c', 'i', 'f', 'i', 'e', 'd']

/-- The config name that is written (yuca/zoo/librarian.py:68-72). -/
def StoreArgs.config (a : StoreArgs A) (verbose : Bool) : Str :=
  if a.configName = unspecified ∧ verbose = true then
    if a.caConfig = unspecified then a.configName else a.caConfig
  else a.configName

/-- The text of the metadata file (yuca/zoo/librarian.py:74-78). -/
def StoreArgs.metaText (a : StoreArgs A) (verbose : Bool) : Str :=
  "ca_config,".toList ++ a.config verbose ++ ("\ncommit_hash,".toList ++ a.commitHash ++
    ("\nnotes, ".toList ++ a.notes ++ ("\nentry_point,".toList ++ a.entryPoint)))

/-- What `store` does to the directory, one observable step at a time. -/
inductive FsOp (A : Type) where
  /-- `open(path, "w")` -/
  | truncate (path : Str)
  /-- one more character of a buffered write has reached the file -/
  | put (path : Str) (c : Char)
  /-- `np.save` has created the file -/
  | create (path : Str)
  /-- `np.save` has written it -/
  | finish (path : Str) (a : A)

/-- The effect of one step. -/
def FsOp.run (d : Dir A) : FsOp A → Dir A
  | .truncate p => Function.update d p (some (.text []))
  | .put p c => Function.update d p (match d p with
    | some (.text s) => some (.text (s ++ [c]))
    | x => x)
  | .create p => Function.update d p (some .bad)
  | .finish p a => Function.update d p (some (.npy a))

/-- The steps of `store` once the counter is found (yuca/zoo/librarian.py:65-80). -/
def storeOps (verbose : Bool) (a : StoreArgs A) (counter : Nat) : List (FsOp A) :=
  let v := variantName a.name counter
  .truncate (csvName v) :: ((a.metaText verbose).map (.put (csvName v)) ++
    [.create (npyName v), .finish (npyName v) a.pattern])

/-- `store` (yuca/zoo/librarian.py:48-84), ended after `crash` steps by the death of the process
(`none`: runs to the end).  Returns the counter used. -/
def storeCrash (verbose : Bool) (fuel : Nat) (d : Dir A) (a : StoreArgs A) (crash : Option Nat) :
    Option (Nat × Dir A) :=
  match freeCounter d a.name fuel 0 with
  | none => none
  | some k =>
    let ops := storeOps verbose a k
    some (k, (ops.take (crash.getD ops.length)).foldl FsOp.run d)

/-- `store` without a crash. -/
def store (verbose : Bool) (fuel : Nat) (d : Dir A) (a : StoreArgs A) : Option (Nat × Dir A) :=
  storeCrash verbose fuel d a none

/-- The dictionary `load` returns beside the pattern. -/
structure PatternMeta where
  caConfig : Str
  entryPoint : Str
  commitHash : Str
  notes : Str
  deriving DecidableEq

/-- `metadata[i].split(",")[1]`; `none` for IndexError. -/
def metaField (ls : List Str) (i : Nat) : Option Str := (ls[i]?).bind fun l => (splitOn ',' l)[1]?

/-- `load` (yuca/zoo/librarian.py:87-128).  A file that is not what it should be raises
ValueError. -/
def load (d : Dir A) (name : Str) : Except PyErr (A × PatternMeta) :=
  match d (npyName name) with
  | none => .error .notFound
  | some (.npy a) =>
    match d (csvName name) with
    | none => .error .notFound
    | some (.text s) =>
      let ls := lines (univNewlines s)
      match metaField ls 0 with
      | none => .error .index
      | some cfg =>
        .ok (a, { caConfig := cfg
                  entryPoint := (metaField ls 3).getD ['n', 'o', 'n', 'e']
                  notes := (metaField ls 2).getD []
                  commitHash := (metaField ls 1).getD ['n', 'o', 'n', 'e'] })
    | some _ => .error .value
  | some _ => .error .value

/-- The names `update_index` removes (yuca/zoo/librarian.py:33-37). -/
def hidden (s : Str) : Bool :=
  hasSub ".py".toList s || hasSub ".ipynb".toList s || hasSub "csv".toList s ||
    hasSub "__pycache__".toList s

/-- `update_index` (yuca/zoo/librarian.py:24-46) on the result of `os.listdir`. -/
def updateIndex (listing : List Str) : List Str :=
  sortStr ((((listing.filter hidden).foldl List.erase listing)).map stem)

/-- A Python index into an axis of length `n`, for slicing. -/
def sliceBound (n : Nat) (i : Int) : Nat :=
  if i < 0 then (i + n).toNat else min i.toNat n

/-- `l[a:b]`. -/
def pySlice {K : Type} (l : List K) (a b : Int) : List K :=
  (l.take (sliceBound l.length b)).drop (sliceBound l.length a)

/-- `crop` (yuca/zoo/librarian.py:131-139) on one channel, a list of rows. -/
def crop {K : Type} (p : List (List K)) (row col : Int × Int) : List (List K) :=
  (pySlice p row.1 row.2).map fun r => pySlice r col.1 col.2

end Yuca
