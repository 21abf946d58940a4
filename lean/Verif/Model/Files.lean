import Mathlib.Data.Nat.Digits.Defs
import Mathlib.Data.List.Lex
import Mathlib.Data.List.Sort
import Mathlib.Data.Char

/-!
Model of the output file naming and lookup of `cratermaker/core/base.py`.  Strings are lists of
characters; file names are compared as Python compares strings, lexicographically by code point.
-/

namespace Verif.Files

/-- The digit character for a value below ten. Belongs to `base.py` line 400. -/
def digitChar (d : ℕ) : Char := Char.ofNat (48 + d)

/-- The value of a digit character. Belongs to `base.py` lines 231-233. -/
def digitVal (c : Char) : ℕ := c.toNat - 48

/-- `str.isdigit` for ASCII. Belongs to `base.py` lines 235-237. -/
def isDigit (c : Char) : Bool := 48 ≤ c.toNat && c.toNat ≤ 57

/-- Decimal representation of a natural number, most significant digit first (Python `str(int)`). Belongs to `base.py` line 400. -/
def dec (n : ℕ) : List Char :=
  if n = 0 then ['0'] else (Nat.digits 10 n).reverse.map digitChar

/-- The format `f"{n:06d}"` for a non-negative number, `base.py:400`. -/
def pad6 (n : ℕ) : List Char := List.replicate (6 - (dec n).length) '0' ++ dec n

/-- Python `int(s)` for plain ASCII digit strings; `none` is ValueError.  Simplification: signs,
underscores and surrounding blanks, which Python also accepts, give `none`. Belongs to `base.py` lines 231-233. -/
def pyInt (s : List Char) : Option ℕ :=
  if s ≠ [] ∧ s.all isDigit = true then
    some (s.foldl (fun acc c => acc * 10 + digitVal c) 0)
  else none

/-- `output_filename`, `base.py:381-402`, with the text `pre` that components put before the
prefix (`"observed_"`, `"emplaced_"` in `counting/__init__.py:82-85`, empty otherwise). -/
def outputFilename (pre pfx ext : List Char) (k : ℕ) : List Char :=
  pre ++ pfx ++ pad6 k ++ '.' :: ext

/-- Worker of `pySplit`: scan the text, `acc` is the current piece reversed, `skip` counts the
characters of a matched separator still to be consumed. Belongs to `base.py` lines 231-233. -/
def splitGo (sep : List Char) : List Char → List Char → ℕ → List (List Char)
  | [], acc, _ => [acc.reverse]
  | _ :: cs, acc, k + 1 => splitGo sep cs acc k
  | c :: cs, acc, 0 =>
    if sep.isPrefixOf (c :: cs) then acc.reverse :: splitGo sep cs [] (sep.length - 1)
    else splitGo sep cs (c :: acc) 0

/-- Python `s.split(sep)` with a non-empty separator: pieces between non-overlapping occurrences
found from the left. Belongs to `base.py` lines 231-233. -/
def pySplit (sep s : List Char) : List (List Char) := splitGo sep s [] 0

/-- Python `xs[-1]` and `xs[0]` of the (never empty) result of `split`. Belongs to `base.py` lines 231-233. -/
def lastPiece (ps : List (List Char)) : List Char := ps.getLastD []

/-- See `lastPiece`. Belongs to `base.py` lines 231-233. -/
def firstPiece (ps : List (List Char)) : List Char := ps.headD []

/-- The interval number of one file when several are found, `base.py:231-233`. -/
def parseMany (pfx ext name : List Char) : Option ℕ :=
  pyInt (firstPiece (pySplit ('.' :: ext) (lastPiece (pySplit pfx name))))

/-- Last maximal run of digits of a text: `re.findall(r"\d+", s)[-1]`, `base.py:235-237`;
empty when there is none. -/
def lastRun (s : List Char) : List Char :=
  ((s.reverse.dropWhile (fun c => !isDigit c)).takeWhile isDigit).reverse

/-- `get_saved_interval_numbers` for one pattern, `base.py:222-241`, where `names` is what `glob`
found (in any order).  Outer `none`: an exception (`int()` failed).  Inner `none`: no files. -/
def savedIntervals (pfx ext : List Char) (names : List (List Char)) : Option (Option (List ℕ)) :=
  match names with
  | [] => some none
  | [n] => if lastRun n = [] then some (some []) else (pyInt (lastRun n)).map fun k => some [k]
  | ns => (ns.mapM (parseMany pfx ext)).map fun ks => some (ks.insertionSort (· ≤ ·))

/-- Which file `read_saved_output` opens for one pattern. Belongs to `base.py` lines 263-289. -/
inductive Choice
  | noFiles
  | empty
  | all
  | file (name : List Char)
  | error
  deriving DecidableEq

/-- Python list indexing with possibly negative index. Belongs to `base.py` lines 263-289. -/
def pyIndex {α : Type} (l : List α) (i : ℤ) : Option α :=
  if 0 ≤ i then l[i.toNat]?
  else if -(l.length : ℤ) ≤ i then l[(l.length + i).toNat]? else none

/-- `read_saved_output` and `_output_file_processor` for one pattern, `base.py:263-289` and
`415-417`: which of the files found is opened for the requested interval. -/
def readSaved (pfx ext : List Char) (names : List (List Char)) (interval : Option ℤ) : Choice :=
  match savedIntervals pfx ext names with
  | none => .error
  | some none => .noFiles
  | some (some ks) =>
    let files := names.insertionSort (· ≤ ·)
    match interval with
    | none => .all
    | some i =>
      if ks = [] then .all
      else if i < 0 then
        match pyIndex files i with
        | some f => .file f
        | none => .error
      else if i.toNat ∈ ks then
        match files[ks.idxOf i.toNat]? with
        | some f => .file f
        | none => .error
      else .empty

end Verif.Files
