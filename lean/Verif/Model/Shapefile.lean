import Mathlib.Data.List.Basic

/-!
Model of the column names of exported vector files: `LocalSurface.to_vector_file` in
`cratermaker/components/surface/__init__.py`, lines 2816-2920.  Names are lists of characters.
-/

namespace Verif.Shapefile

/-- A column name of the shapefile, `surface/__init__.py` lines 2883-2896. -/
abbrev Name := List Char

/-- The long names and their replacements, `surface/__init__.py` lines 2887-2892. -/
def altNames : List (Name × Name) :=
  [("face_elevation".toList, "faceelev".toList), ("face_distance".toList, "facedis".toList),
   ("face_bearing".toList, "facebearng".toList), ("face_indices".toList, "faceindx".toList)]

/-- `str.replace`: occurrences from left to right; `n` bounds the number of steps (the length is enough). Belongs to `surface/__init__.py` lines 2883-2896. -/
def replaceAll (pat rep : Name) : ℕ → Name → Name
  | 0, l => l
  | _ + 1, [] => []
  | n + 1, c :: l =>
    if pat.isPrefixOf (c :: l) then rep ++ replaceAll pat rep n ((c :: l).drop pat.length)
    else c :: replaceAll pat rep n l

/-- `str.upper` (for ASCII letters; other characters are kept here). Belongs to `surface/__init__.py` lines 2883-2896. -/
def upper (l : Name) : Name := l.map Char.toUpper

/-- `shp_key_fix`, `surface/__init__.py` lines 2883-2896. -/
def shpKeyFix (key : Name) : Name :=
  upper ((altNames.foldl (fun k p => replaceAll p.1 p.2 k.length k) key).take 10)

/-- `f"{layer:02d}"`, `surface/__init__.py` line 2871. -/
def twoDigits (k : ℕ) : Name := if k < 10 then '0' :: Nat.toDigits 10 k else Nat.toDigits 10 k

/-- A variable on the faces: its name, and the number of layers if it has any (the tags of craters do). Belongs to `surface/__init__.py` lines 2864-2871. -/
structure Var where
  name : Name
  layers : Option ℕ

/-- The columns of a variable, `surface/__init__.py` lines 2864-2871. -/
def expand (v : Var) : List Name :=
  match v.layers with
  | none => [v.name]
  | some n => (List.range n).map fun (k : ℕ) => v.name ++ twoDigits k

/-- `driver` after `surface/__init__.py` lines 2898-2900: `SHP` in any case is an alias. -/
def driverName (driver : String) : String := if driver.toUpper = "SHP" then "ESRI Shapefile" else driver

/-- The columns of the table that is written, `surface/__init__.py` lines 2854-2875: the geometry comes first; for shapefiles the
variables whose names start with `id` are left out and all columns are renamed. -/
def columns (driver : String) (vars : List Var) : List Name :=
  if driverName driver = "ESRI Shapefile" then
    ("geometry".toList :: (vars.filter fun v => !("id".toList.isPrefixOf v.name)).flatMap expand).map shpKeyFix
  else "geometry".toList :: vars.flatMap expand

end Verif.Shapefile
