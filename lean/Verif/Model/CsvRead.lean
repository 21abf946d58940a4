import Mathlib.Data.Int.Notation
import Mathlib.Data.Real.Basic

/-!
# Reading crater tables

Models `Crater.from_csv_file`, `cratermaker/components/crater/__init__.py:1260-1308`, with the inverse
branch of `_convert_tuple_vars`, lines 1406-1444, on rows of text.

Simplified: splitting the file into cells (`csv.DictReader`) is external: a row gives for each column
name of the header a text, or None when the line is too short.  `int(text)` and `float(text)` are
parameters that return `none` where Python raises ValueError.  Numbers are reals (`float` of `nan` and
of the infinities is left out).
-/

namespace Verif.CsvRead

/-- A row of `csv.DictReader`, `crater/__init__.py` line 1280: `none` where the header has no such column. -/
abbrev Row := String → Option (Option String)

/-- `int(text)` and `float(text)`. Belongs to `crater/__init__.py` lines 1289-1293. -/
structure Parse where
  int : String → Option ℤ
  float : String → Option ℝ

/-- A value before the conversion loop: a text, the number 0.0 put in for a missing spread, or a list
of these. Belongs to `crater/__init__.py` lines 1420-1422. -/
inductive Item where
  | none
  | txt (s : String)
  | zero

/-- A value handed to the crater maker. Belongs to `crater/__init__.py` lines 1284-1303. -/
inductive Value where
  | int (n : ℤ)
  | float (x : ℝ)
  | text (s : String)
  | list (l : List ℝ)

/-- An entry of `input_dict` inside a list. Belongs to `crater/__init__.py` lines 1431-1438. -/
def item : Option (Option String) → Item
  | some (some s) => .txt s
  | _ => .none

/-- `pop(..., 0.0)` with None and the empty text replaced by 0.0, `crater/__init__.py` lines 1420-1422 and 1426-1428. -/
def spread : Option (Option String) → Item
  | some (some s) => if s = "" then .zero else .txt s
  | _ => .zero

/-- The list of columns filled in one by one, `crater/__init__.py` lines 1431-1438: only when one of the columns exists. -/
def gather (row : Row) (cols : List String) : Option (List Item) :=
  if cols.any (fun c => (row c).isSome) then some (cols.map fun c => item (row c)) else Option.none

/-- The entry `production_ND`, `crater/__init__.py` lines 1417-1423, or the loop when one of the two columns is missing. -/
def numberPair (row : Row) : Option (List Item) :=
  if (row "production_D").isSome && (row "production_N").isSome then
    some [item (row "production_D"), item (row "production_N"), spread (row "production_N_stdev")]
  else gather row ["production_D", "production_N", "production_N_stdev"]

/-- The entry `production_time`, `crater/__init__.py` lines 1424-1429, or the loop when the column is missing. -/
def timePair (row : Row) : Option (List Item) :=
  if (row "production_time").isSome then
    some [item (row "production_time"), spread (row "production_time_stdev")]
  else gather row ["production_time", "production_time_stdev"]

/-- The entries of `_convert_tuple_vars(row, inverse=True)` that are lists.  (A column named
`location`, `measured_location` or `production_ND` in the file itself is not modelled.). Belongs to `crater/__init__.py` lines 1284-1303. -/
def tuples (row : Row) (k : String) : Option (List Item) :=
  if k = "location" then gather row ["longitude", "latitude"]
  else if k = "measured_location" then gather row ["measured_longitude", "measured_latitude"]
  else if k = "production_ND" then numberPair row
  else if k = "production_time" then timePair row
  else Option.none

/-- `float(v)` of the entries that are neither None nor empty, `crater/__init__.py` lines 1289-1293: `none` is the
ValueError. -/
def floats (P : Parse) : List Item → Option (List ℝ)
  | [] => some []
  | .none :: r => floats P r
  | .zero :: r => (floats P r).map (0 :: ·)
  | .txt s :: r => if s = "" then floats P r else
      (P.float s).bind fun x => (floats P r).map (x :: ·)

/-- The value under a key for the maker, `crater/__init__.py` lines 1284-1303: the outer `none` is a ValueError of the
whole call, the inner one means that the key is left out. -/
def readKey (P : Parse) (row : Row) (k : String) : Option (Option Value) :=
  match tuples row k with
  | some l => (floats P l).map fun v => if v.length = l.length then some (.list v) else Option.none
  | Option.none =>
    match row k with
    | some (some s) =>
      if s = "" then some Option.none
      else if k = "id" ∨ k = "production_sequence" then (P.int s).map fun n => some (.int n)
      else match P.float s with
        | some x => some (some (.float x))
        | Option.none => some (some (.text s))
    | _ => some Option.none

/-- The keyword arguments of a row, `none` when a value raises; `keys` are the columns and the names of
the tuples. Belongs to `crater/__init__.py` lines 1278-1308. -/
def readRow (P : Parse) : List String → Row → Option (List (String × Value))
  | [], _ => some []
  | k :: ks, row => (readKey P row k).bind fun v => (readRow P ks row).map fun l =>
    (v.map fun x => (k, x)).toList ++ l

/-- `from_csv_file`, `crater/__init__.py` lines 1278-1308: one crater for each row in the order of the file. -/
def readFile {C : Type} (P : Parse) (keys : List String) (maker : List (String × Value) → Option C) :
    List Row → Option (List C)
  | [] => some []
  | r :: rs => ((readRow P keys r).bind maker).bind fun c => (readFile P keys maker rs).map (c :: ·)

end Verif.CsvRead
