import Verif.Model.Frames
import Verif.Model.Multiverse

/-!
# Shell commands and the files they touch
(yuca/utils.py:147-258, test_commit.py:4-32)

`os.system` hands its argument to `sh`.  The model covers the fragment of the shell the code uses:
words separated by blanks, single quotes, the pattern `*`, and the commands `rm`, `rm -r` and
`mkdir -p`.  Anything else is reported as not modelled rather than guessed.
-/

namespace Yuca

/-- A path as a list of names, without empty names and `.`; the paths of the code are relative to
the working directory, which is `[]`.  An absolute path begins with the name `/`.  Simplification:
`..` and symbolic links are not resolved, and an absolute path is not recognised as a path below
the working directory. -/
abbrev Path := List Str

/-- The names in a path. -/
def parsePath (s : Str) : Path :=
  (if s.head? = some '/' then [['/']] else []) ++
    (splitOn '/' s).filter fun c => !(c.isEmpty || c = ['.'])

/-- What a file holds: a picture, a gif, or something else. -/
inductive Content (I : Type) where
  | pic (i : I)
  | gif (l : List I)
  | other (s : Str)
deriving DecidableEq

/-- A directory entry. -/
inductive FsNode (I : Type) where
  | dir
  | file (c : Content I)
deriving DecidableEq

/-- A file system: the entries with their paths. -/
abbrev Fs (I : Type) := List (Path × FsNode I)

namespace Fs
variable {I : Type}

/-- The entry at a path; the working directory always exists. -/
def get (fs : Fs I) (p : Path) : Option (FsNode I) :=
  if p = [] then some .dir else (fs.find? fun e => decide (e.1 = p)).map Prod.snd

/-- Making or replacing an entry. -/
def put (fs : Fs I) (p : Path) (n : FsNode I) : Fs I :=
  fs.filter (fun e => decide (e.1 ≠ p)) ++ [(p, n)]

/-- Whether a path is a directory. -/
def isDir (fs : Fs I) (p : Path) : Bool :=
  match fs.get p with
  | some .dir => true
  | _ => false

/-- Whether a path is a file. -/
def isFile (fs : Fs I) (p : Path) : Bool :=
  match fs.get p with
  | some (.file _) => true
  | _ => false

/-- Writing a file (`imsave`, `Image.save`): the directory must exist and the path must not be a
directory. -/
def write (fs : Fs I) (p : Path) (c : Content I) : Except PyErr (Fs I) :=
  if fs.isDir p.dropLast ∧ ¬ fs.isDir p then .ok (fs.put p (.file c)) else .error .notFound

/-- The entries directly in a directory, with their names (`os.listdir`, in some order). -/
def entries (fs : Fs I) (p : Path) : List (Str × FsNode I) :=
  fs.filterMap fun e =>
    match e.1.getLast? with
    | some name => if e.1.dropLast = p then some (name, e.2) else none
    | none => none

/-- `mkdir -p` of one path: makes the missing directories on the way; if something on the way is a
file, nothing is made. -/
def mkdirs (fs : Fs I) (p : Path) : Fs I :=
  let steps := (List.range p.length).map fun k => p.take (k + 1)
  if steps.any fs.isFile then fs
  else steps.foldl (fun fs q => if (fs.get q).isSome then fs else fs.put q .dir) fs

/-- `rm` of one path: removes a file; a directory or a missing path is an error message only. -/
def rmFile (fs : Fs I) (p : Path) : Fs I :=
  if fs.isFile p then fs.filter fun e => decide (e.1 ≠ p) else fs

/-- `rm -r` of one path: removes the entry and everything below it.  `rm` refuses to remove the
working directory. -/
def rmTree (fs : Fs I) (p : Path) : Fs I :=
  if p = [] then fs else fs.filter fun e => !(p.isPrefixOf e.1)

end Fs

/-! ## The shell -/

/-- Why the model does not say what a command does: the shell refuses it (unterminated quote), or
it is outside the fragment. -/
inductive ShErr where
  | unterminated
  | unmodelled
deriving DecidableEq

/-- A character of a word, and whether it was quoted. -/
abbrev ShChar := Char × Bool

/-- Characters with a meaning to the shell that the model does not cover. -/
def special (c : Char) : Bool :=
  c ∈ ['"', '\\', '$', '`', ';', '&', '|', '<', '>', '(', ')', '#', '~', '\n', '?', '[', ']', '{',
    '}', '!', '=', '%', '^']

/-- The words of a command line.  `inQ`: within single quotes; `cur`: the word being read. -/
def shLex : Bool → Option (List ShChar) → Str → Except ShErr (List (List ShChar))
  | false, cur, [] => .ok cur.toList
  | true, _, [] => .error .unterminated
  | false, cur, c :: s =>
    if c = '\'' then shLex true (some (cur.getD [])) s
    else if c = ' ' ∨ c = '\t' then (shLex false none s).map fun ws => cur.toList ++ ws
    else if special c then .error .unmodelled
    else shLex false (some (cur.getD [] ++ [(c, false)])) s
  | true, cur, c :: s =>
    if c = '\'' then shLex false cur s
    else shLex true (some (cur.getD [] ++ [(c, true)])) s

/-- The words of a command line. -/
def shWords (s : Str) : Except ShErr (List (List ShChar)) := shLex false none s

/-- A word as text. -/
def wordText (w : List ShChar) : Str := w.map Prod.fst

/-- Whether a name matches a pattern in which an unquoted `*` stands for any characters. -/
def matchName : List ShChar → Str → Bool
  | [], s => s.isEmpty
  | c :: w, s =>
    if c = ('*', false) then s.tails.any (matchName w)
    else match s with
      | [] => false
      | x :: s' => x = c.1 && matchName w s'

/-- The parts of a word between slashes. -/
def splitWord : List ShChar → List (List ShChar)
  | [] => [[]]
  | x :: xs =>
    if x.1 = '/' then [] :: splitWord xs
    else match splitWord xs with
      | h :: t => (x :: h) :: t
      | [] => [[x]]

/-- The names of a pattern: its parts between slashes, without empty parts and `.`. -/
def patNames (w : List ShChar) : List (List ShChar) :=
  (if (w.head?.map Prod.fst) = some '/' then [[('/', true)]] else []) ++
    (splitWord w).filter fun c => !(c.isEmpty || wordText c = ['.'])

/-- Whether a path matches a pattern: name by name; a leading dot is only matched by a dot. -/
def matchPath (ws : List (List ShChar)) (p : Path) : Bool :=
  decide (ws.length = p.length) &&
    (ws.zip p).all fun x => matchName x.1 x.2 &&
      (decide (x.2.head? ≠ some '.') || decide (x.1.head?.map Prod.fst = some '.'))

/-- Pathname expansion of a word: the matching paths; a word without an unquoted `*`, or without
matches, stands for itself. -/
def expand {I : Type} (fs : Fs I) (w : List ShChar) : List Path :=
  if w.contains ('*', false) then
    match (fs.map Prod.fst).filter (matchPath (patNames w)) with
    | [] => [parsePath (wordText w)]
    | ms => ms
  else [parsePath (wordText w)]

/-- Running a command: `rm …`, `rm -r …`, `mkdir -p …`. -/
def shRun {I : Type} (fs : Fs I) (cmd : Str) : Except ShErr (Fs I) :=
  match shWords cmd with
  | .error e => .error e
  | .ok [] => .ok fs
  | .ok (c :: args) =>
    match (if wordText c = "rm".toList then
        match args with
        | a :: rest =>
          if wordText a = "-r".toList then some (Fs.rmTree, rest) else some (Fs.rmFile, args)
        | [] => some (Fs.rmFile, [])
      else if wordText c = "mkdir".toList then
        match args with
        | a :: rest => if wordText a = "-p".toList then some (Fs.mkdirs, rest) else none
        | [] => none
      else none : Option ((Fs I → Path → Fs I) × List (List ShChar))) with
    | none => .error .unmodelled
    | some (f, rest) =>
      if rest.any fun w => (wordText w).head? = some '-' then .error .unmodelled
      else .ok ((rest.flatMap (expand fs)).foldl f fs)

/-! ## `make_gif` and `save_fig_sequence` with their files -/

/-- `os.path.exists`. -/
def osExists {I : Type} (fs : Fs I) (s : Str) : Bool :=
  !s.isEmpty && (fs.get (parsePath s)).isSome

/-- `os.mkdir`: one directory, whose parent must exist. -/
def osMkdir {I : Type} (fs : Fs I) (p : Path) : Except PyErr (Fs I) :=
  if fs.isDir p.dropLast ∧ (fs.get p).isNone then .ok (fs.put p .dir) else .error .notFound

/-- `Image.open` of the directory entries whose name contains `png`: anything but a picture
raises (yuca/utils.py:155-159). -/
def readPics {I : Type} : List (Str × FsNode I) → Except PyErr (List (Str × I))
  | [] => .ok []
  | (name, n) :: es =>
    if hasSub "png".toList name then
      match n with
      | .file (.pic i) => (readPics es).map fun d => (name, i) :: d
      | _ => .error .runtime
    else readPics es

/-- `gif_{tag}_{gif_id:04d}.gif` (yuca/utils.py:175). -/
def gifName (tag : Str) (gifId : Nat) : Str :=
  "gif_".toList ++ tag ++ ['_'] ++ padZero 4 gifId ++ ".gif".toList

/-- `make_gif` (yuca/utils.py:147-182).  `gifId` is `int((time.time() % 1)*1000)`.  The outer
result says whether the shell commands are within the model, the inner one whether Python raised;
the file system is the one left behind in either case. -/
def makeGifFs {I : Type} (fs : Fs I) (framesPath gifDir tag : Str) (gifId : Nat) :
    Except ShErr (Fs I × Except PyErr Unit) :=
  let p := parsePath framesPath
  if ¬ fs.isDir p then .ok (fs, .error .notFound)
  else match (readPics (fs.entries p)).bind makeGif with
    | .error e => .ok (fs, .error e)
    | .ok pics =>
      match (if osExists fs gifDir then .ok fs else osMkdir fs (parsePath gifDir)) with
      | .error e => .ok (fs, .error e)
      | .ok fs1 =>
        match fs1.write (parsePath (pathJoin gifDir (gifName tag gifId))) (.gif pics) with
        | .error e => .ok (fs1, .error e)
        | .ok fs2 =>
          match shRun fs2 ("rm ".toList ++ pathJoin framesPath "*png".toList) with
          | .error e => .error e
          | .ok fs3 => .ok (fs3, .ok ())

/-- Writing the pictures, in order; stops at the first exception. -/
def writePics {I : Type} (framesPath : Str) : Fs I → List (Str × I) → Fs I × Except PyErr Unit
  | fs, [] => (fs, .ok ())
  | fs, (name, i) :: ps =>
    match fs.write (parsePath (pathJoin framesPath name)) (.pic i) with
    | .error e => (fs, .error e)
    | .ok fs' => writePics framesPath fs' ps

/-- The `tag` argument: one text, or a folder and a text (yuca/utils.py:211-215). -/
inductive GifTag where
  | one (tag : Str)
  | two (folder tag : Str)

/-- The folder below `gif_path`. -/
def GifTag.folder : GifTag → Str
  | .one t => t
  | .two f _ => f

/-- The text in the name of the gif. -/
def GifTag.text : GifTag → Str
  | .one t => t
  | .two _ t => t

/-- `save_fig_sequence` (yuca/utils.py:184-258) with the files it leaves behind. -/
def saveFigFs {V I : Type} (m : Movie V I) (speedup numSteps : Nat) (v : V) (fs : Fs I)
    (framesPath gifPath : Str) (tag : GifTag) (gifId : Nat) :
    Except ShErr (Fs I × Except PyErr Unit) :=
  match (if osExists fs framesPath then .ok fs
      else shRun fs ("mkdir -p ".toList ++ framesPath)) with
  | .error e => .error e
  | .ok fs1 =>
    let (pics, last) := frameLoop m speedup numSteps numSteps 0 v none []
    match writePics framesPath fs1 pics with
    | (fs2, .error e) => .ok (fs2, .error e)
    | (fs2, .ok ()) =>
      match last with
      | none => .ok (fs2, .error .unbound)
      | some step =>
        match (if 0 < step then
            makeGifFs fs2 framesPath (pathJoin gifPath tag.folder) tag.text gifId
          else .ok (fs2, .ok ())) with
        | .error e => .error e
        | .ok (fs3, .error e) => .ok (fs3, .error e)
        | .ok (fs3, .ok ()) =>
          (shRun fs3 ("rm -r ".toList ++ framesPath)).map fun fs4 => (fs4, .ok ())

/-! ## `test_commit` -/

/-- The last line containing `TOTAL` (test_commit.py:14-17); `none`: `summary` stays unassigned. -/
def totalLine (report : Str) : Option Str :=
  ((lines report).filter (hasSub "TOTAL".toList)).getLast?

/-- The command line that commits (test_commit.py:26-29). -/
def commitCommand (summary : Str) (message : Option Str) : Str :=
  "git commit -m 'test commit summary: ".toList ++ summary ++ "' ".toList ++
    match message with
    | none => []
    | some msg => "-m '".toList ++ msg ++ ['\'']

/-- `test_commit` (test_commit.py:4-32) after the two coverage commands: the text of `coverage.txt`
it leaves, and the words of the commit command, or the exception. -/
def testCommit (report : Str) (message : Option Str) :
    Str × Except PyErr (Except ShErr (List Str)) :=
  (report ++ (match message with
      | none => "no additional message".toList
      | some msg => "message: ".toList ++ msg),
    match totalLine report with
    | none => .error .unbound
    | some summary => .ok ((shWords (commitCommand summary message)).map (·.map wordText)))

end Yuca
