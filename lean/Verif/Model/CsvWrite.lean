import Mathlib.Algebra.Order.Archimedean.Real.Basic
import Mathlib.Analysis.Real.Sqrt

/-!
# Writing crater tables

Models `Counting.to_csv_file`, `cratermaker/components/counting/__init__.py:1365-1411`, with the parts of
`Crater.as_dict` that decide which columns a crater has (`cratermaker/components/crater/__init__.py:169-196` and
492-502).

Simplified: the cells are numbers or other values; what `csv.writer` makes of them as text is left out.  The
attributes other than the axes are an arbitrary list of columns (as they are after `_convert_tuple_vars`, line 1378,
which is modelled in `Verif.Crater`).  Numbers are reals.
-/

namespace Verif.CsvWrite

noncomputable section

/-- A value of a crater's dictionary: a number, some other value that is written as text, or None. Belongs to `counting/__init__.py` lines 1400-1403. -/
inductive Cell where
  | num (x : ℝ)
  | text (s : String)
  | none

/-- A Python dictionary, in the order of insertion. Belongs to `counting/__init__.py` lines 1381-1391. -/
abbrev ODict := List (String × Cell)

/-- `d.pop(k)`. Belongs to `counting/__init__.py` lines 1381-1391. -/
def ODict.pop (d : ODict) (k : String) : ODict := d.filter fun e => e.1 ≠ k

/-- `d[k] = v`: in place when the key is there, at the end otherwise. Belongs to `counting/__init__.py` lines 1381-1391. -/
def ODict.put (d : ODict) (k : String) (v : Cell) : ODict :=
  if d.any (fun e => e.1 = k) then d.map (fun e => if e.1 = k then (k, v) else e) else d ++ [(k, v)]

/-- `d.update(items)`. Belongs to `counting/__init__.py` lines 1381-1391. -/
def ODict.update (d : ODict) (items : ODict) : ODict := items.foldl (fun d e => d.put e.1 e.2) d

/-- The size entries that are written for a pair of axes, `counting/__init__.py` lines 1381-1391 and 1393-1398: when both axes are there and
equal they are taken out, and the dictionary is rebuilt from the id, the diameter and all entries after the first
one. -/
def circular (major minor diam : String) (d : ODict) : ODict :=
  match d.lookup major, d.lookup minor with
  | some (.num a), some (.num b) =>
    if a = b then
      let r := (d.pop major).pop minor
      ODict.update [("id", (r.lookup "id").getD .none), (diam, .num (2 * a))] r.tail
    else d
  | _, _ => d

/-- The dictionary from which header and row of a crater are made, `counting/__init__.py` lines 1381-1398. -/
def columns (d : ODict) : ODict :=
  circular "semimajor_axis" "semiminor_axis" "diameter"
    (circular "measured_semimajor_axis" "measured_semiminor_axis" "measured_diameter" d)

/-- A cell of the file: None and missing entries are empty, `counting/__init__.py` lines 1400-1403 and 1409. -/
def cellOf (d : ODict) (k : String) : Option Cell :=
  match d.lookup k with
  | some (.num x) => some (.num x)
  | some (.text s) => some (.text s)
  | _ => Option.none

/-- The loop over the craters, `counting/__init__.py` lines 1376-1411: the header is that of the first crater. -/
def file : List ODict → Option (List String) × List (List (Option Cell))
  | [] => (Option.none, [])
  | d :: ds =>
    let header := (columns d).map Prod.fst
    (some header, (d :: ds).map fun e => header.map (cellOf (columns e)))

/-- What the export sees of a crater: its id, axes, measured axes if it has been measured, and the other columns. Belongs to `crater/__init__.py` lines 32-89. -/
structure Crater where
  id : ℝ
  a : ℝ
  b : ℝ
  measured : Option (ℝ × ℝ)
  other : ODict

/-- The size entries of the measured properties, crater/__init__.py:182-187, with the measured radius the geometric
mean of the axes: one diameter when it equals the semimajor axis, both axes otherwise. -/
def measuredEntries : Option (ℝ × ℝ) → ODict
  | Option.none => []
  | some (a, b) =>
    if Real.sqrt (a * b) = a then [("measured_diameter", .num (2 * Real.sqrt (a * b)))]
    else [("measured_semimajor_axis", .num a), ("measured_semiminor_axis", .num b)]

/-- `Crater.as_dict`: the fixed attributes (id and axes first, then the others, among them the diameter, the geometric
mean, crater/__init__.py:32-89), then the variable ones. -/
def asDict (c : Crater) : ODict :=
  ("id", .num c.id) :: ("semimajor_axis", .num c.a) :: ("semiminor_axis", .num c.b) ::
    ("diameter", .num (2 * Real.sqrt (c.a * c.b))) :: (c.other ++ measuredEntries c.measured)

/-- `to_csv_file` of a list of craters. Belongs to `counting/__init__.py` lines 1341-1411. -/
def toCsv (cs : List Crater) : Option (List String) × List (List (Option Cell)) := file (cs.map asDict)

end

end Verif.CsvWrite
