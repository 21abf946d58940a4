import Mathlib.Data.Real.Basic

/-!
Model of `LocalSurface.export_region_polygon` (`cratermaker/components/surface/__init__.py` lines 3772-3816), which writes the outline of a
local region to a vector file.  The outline itself (`Crater.to_geoseries`) is modelled in `Model/Outline.lean`; here it is a value of any
type.
-/

namespace Verif.RegionPolygon

/-- A cell of a table. Belongs to `surface/__init__.py` line 3802. -/
inductive Cell
  | number (x : ℝ)
  | text (s : String)

/-- A view: the whole surface (`none`) or a region with its radius and centre, and the area of its faces. Belongs to `surface/__init__.py` lines 3772-3814. -/
structure View where
  region : Option (ℝ × ℝ × ℝ)
  area : ℝ

/-- A table with the names of its columns, its index and its columns. Belongs to `surface/__init__.py` lines 3772-3814. -/
structure Table where
  index : List ℕ
  columns : List (String × List Cell)

/-- `pd.DataFrame(columns, index=index)`: columns given as lists must be as long as the index, otherwise ValueError. Belongs to `surface/__init__.py` lines 3772-3814. -/
def dataFrame (columns : List (String × List Cell)) (index : List ℕ) : Option Table :=
  if columns.all fun c => c.2.length = index.length then some ⟨index, columns⟩ else none

/-- The columns of `surface/__init__.py` line 3802. -/
def polygonColumns (area : ℝ) : List (String × List Cell) :=
  [("area", [.number area]), ("area_name", [.text "local_region"])]

/-- The index of `surface/__init__.py` line 3803. -/
def polygonIndex : List ℕ := [0, 1]

/-- What was written: the name of the file, the table and the outlines. Belongs to `surface/__init__.py` lines 3772-3814. -/
structure File (G : Type) where
  name : String
  table : Table
  outline : G

/-- `export_region_polygon`; `extension` is `VECTOR_DRIVER_TO_EXTENSION_MAP` and `outline` the outline of a region.  `none` is ValueError,
`some none` that nothing was written. Belongs to `surface/__init__.py` lines 3772-3814. -/
def exportPolygon {G : Type} (extension : String → Option String) (outline : ℝ × ℝ × ℝ → G) (view : View) (driver : String) :
    Option (Option (File G)) :=
  match extension driver.toUpper with
  | none => none
  | some e =>
    match view.region with
    | none => some none
    | some r =>
      match dataFrame (polygonColumns view.area) polygonIndex with
      | none => none
      | some t => some (some ⟨"local_surface_AREA." ++ e, t, outline r⟩)

end Verif.RegionPolygon
