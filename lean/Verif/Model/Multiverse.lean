import Verif.Model.Text
import Verif.Model.Arith

/-!
# `Phanes.analyze_multiverse`: which files are analysed and where the results go
(yuca/analyze.py:364-420)
-/

namespace Yuca

/-- `os.path.join(a, b)` on a POSIX system. -/
def pathJoin (a b : Str) : Str :=
  if b.head? = some '/' then b
  else if a = [] ∨ a.getLast? = some '/' then a ++ b
  else a ++ '/' :: b

/-- `os.path.split(p)[0]` on a POSIX system: everything up to the last slash, without trailing
slashes unless there is nothing else. -/
def pathHead (p : Str) : Str :=
  let head := p.take (p.length - (p.reverse.takeWhile (· ≠ '/')).length)
  if head.all (· = '/') then head else (head.reverse.dropWhile (· = '/')).reverse

/-- `my_directory` (yuca/analyze.py:366-367). -/
def configDir (cwd inputDirectory : Str) : Str := pathJoin cwd inputDirectory

/-- `save_directory` (yuca/analyze.py:406-407). -/
def saveDir (cwd inputDirectory : Str) : Str :=
  pathJoin (pathHead (pathHead (configDir cwd inputDirectory))) "ca_analysis".toList

/-- `save_path` (yuca/analyze.py:410-412); `cppn` is `str(self.use_cppn)`. -/
def savePath (cwd inputDirectory cppn filename : Str) : Str :=
  pathJoin (saveDir cwd inputDirectory)
    (stem filename ++ ("cppn".toList ++ cppn ++ "_analysis.npy".toList))

/-- The loop of `analyze_multiverse` (yuca/analyze.py:371-417) over the directory listing.
`analyse` stands for loading the file, `load_config` and `analyze_universe` (and printing),
`dirExists` for the directories `np.save` can write to.  Returns the results saved, with the paths
and names under which they are saved, how many configs were analysed, and the exception that ended
the run, if any. -/
def multiverse {S R : Type} (cwd inputDirectory cppn : Str) (dirExists : Str → Bool)
    (analyse : S → Str → Except PyErr (R × S)) :
    S → List Str → List (Str × Str × R) × Nat × Option PyErr
  | _, [] => ([], 0, none)
  | s, filename :: rest =>
    if hasSub "npy".toList filename then
      match analyse s filename with
      | .error e => ([], 0, some e)
      | .ok (results, s') =>
        if dirExists (saveDir cwd inputDirectory) then
          let (saved, n, err) := multiverse cwd inputDirectory cppn dirExists analyse s' rest
          ((savePath cwd inputDirectory cppn filename, filename, results) :: saved, n + 1, err)
        else ([], 1, some .notFound)
    else multiverse cwd inputDirectory cppn dirExists analyse s rest

end Yuca
