import Mathlib.Data.Nat.Digits.Defs

/-!
# Python text operations used by the file-handling code

A Python string is a list of characters.
-/

namespace Yuca

/-- A Python `str`. -/
abbrev Str := List Char

/-- `str(n)` for a natural number. -/
def decimal (n : Nat) : Str :=
  if n = 0 then ['0'] else (Nat.digits 10 n).reverse.map Nat.digitChar

/-- `f"{n:0w}"` / `f"{n:0wd}"`: decimal digits padded with zeros to width `w`
(yuca/zoo/librarian.py:54, 58, 66; yuca/utils.py:123-131). -/
def padZero (w n : Nat) : Str := List.replicate (w - (decimal n).length) '0' ++ decimal n

/-- `pat in s`. -/
def hasSub (pat : Str) : Str → Bool
  | [] => pat.isPrefixOf []
  | c :: s => pat.isPrefixOf (c :: s) || hasSub pat s

/-- `s.split(c)` for a one-character separator. -/
def splitOn (c : Char) : Str → List Str
  | [] => [[]]
  | x :: xs =>
    if x = c then [] :: splitOn c xs
    else match splitOn c xs with
      | h :: t => (x :: h) :: t
      | [] => [[x]]

/-- Universal newline translation of a file opened in text mode. -/
def univNewlines : Str → Str
  | [] => []
  | '\r' :: '\n' :: xs => '\n' :: univNewlines xs
  | '\r' :: xs => '\n' :: univNewlines xs
  | x :: xs => x :: univNewlines xs

/-- `f.readlines()` on translated text: lines keep their newline. -/
def lines : Str → List Str
  | [] => []
  | x :: xs =>
    if x = '\n' then ['\n'] :: lines xs
    else match lines xs with
      | [] => [[x]]
      | h :: t => (x :: h) :: t

/-- `os.path.splitext(s)[0]` for a file name without a slash: the part before the last dot,
unless only dots precede it. -/
def stem (s : Str) : Str :=
  let ext := (s.reverse.takeWhile (· ≠ '.')).length
  if ext = s.length then s
  else
    let base := s.take (s.length - ext - 1)
    if base.all (· = '.') then s else base

/-- `list.sort()` on strings (by code points, stable). -/
def sortStr (l : List Str) : List Str := l.mergeSort fun a b => decide (a ≤ b)

end Yuca
