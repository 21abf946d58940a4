import Mathlib.Data.Int.Notation
import Mathlib.Analysis.Real.Sqrt
import Mathlib.Analysis.SpecialFunctions.Trigonometric.Basic

/-!
Model of exporting a surface: `LocalSurface.export` and `save` (`cratermaker/components/surface/__init__.py`, lines 2771-2821 and
3252-3306), the merging in `_save_data` (lines 1232-1285), `Simulation.export` (`cratermaker/core/simulation.py`, lines 886-940) and the
size of a raster (`get_raster_dims` and `to_raster`, lines 3081-3182).

A saved state is a file with the surface data and the time variables.  What a driver makes of the data is left out: an export is the list
of the intervals written with the surface data they were made from.
-/

namespace Verif.SurfaceExport

/-- The file of one interval: the surface data and the time variables, if it has any. Belongs to `surface/__init__.py` lines 1262-1283. -/
structure Snap (D T : Type) where
  data : D
  times : Option T

/-- The files of a surface by interval number, in increasing order. Belongs to `surface/__init__.py` lines 3252-3306. -/
abbrev Files (D T : Type) := List (ℤ × Snap D T)

/-- `_save_data`, `surface/__init__.py` lines 1262-1283: the data variables of the new dataset replace those of the file; variables that only the file has,
such as the time variables, are kept. -/
def merge {D T : Type} (new : Snap D T) (old : Option (Snap D T)) : Snap D T :=
  match old with
  | none => new
  | some o => ⟨new.data, new.times.or o.times⟩

/-- Put a file in its place in the list of the files, replacing one of the same name. Belongs to `surface/__init__.py` lines 3252-3306. -/
def put {D T : Type} (k : ℤ) (s : Snap D T) : Files D T → Files D T
  | [] => [(k, s)]
  | (i, t) :: rest => if k < i then (k, s) :: (i, t) :: rest else if k = i then (k, s) :: rest else (i, t) :: put k s rest

/-- `LocalSurface.save`, `surface/__init__.py` lines 3252-3306: the surface as it is now becomes the file of the interval. -/
def save {D T : Type} (current : D) (times : Option T) (k : ℤ) (fs : Files D T) : Files D T :=
  put k (merge ⟨current, times⟩ (fs.lookup k)) fs

/-- `read_saved_output` (`cratermaker/core/base.py`, lines 248-294): all intervals, the one asked for, or, for a negative number, one
counted from the end. -/
def read {D T : Type} (fs : Files D T) : Option ℤ → Files D T
  | none => fs
  | some k =>
    if k < 0 then
      if (-k).toNat ≤ fs.length then (fs[fs.length - (-k).toNat]?).toList else []
    else match fs.lookup k with
      | none => []
      | some s => [(k, s)]

/-- The drivers that `export` knows, lines 2800-2819, in upper case, with the table in `constants.py`, lines 26-58. -/
def knownDrivers : List String :=
  ["VTK", "VTP", "GEOTIFF", "GTIFF", "TIFF", "TIF",
   "PCIDSK", "PDS4", "PDF", "MBTILES", "ESRI SHAPEFILE", "MAPINFO FILE", "S57", "DGN", "CSV", "GML", "GPX", "KML", "GEOJSON",
   "GEOJSONSEQ", "OGR_GMT", "GPKG", "SQLite", "WASP", "OPENFILEGDB", "DXF", "FLATGEOBUF", "PGDUMP",
   "GPSBABEL", "ODS", "XLSX", "JML", "VDV", "MVT", "PMTiles", "JSONFG", "MIRAMONVECTOR"]

/-- What an export does: the files of saved states afterwards, the exported states, and the value of `ask_overwrite` afterwards. Belongs to `surface/__init__.py`
lines 2771-2821. -/
structure Done (D T : Type) where
  files : Files D T
  written : List (ℤ × D)
  ask : Bool

/-- `LocalSurface.export`, `surface/__init__.py` lines 2771-2821.  `raises` says that the writer raises an error; the user agrees to overwrite files. -/
def exportSurface {D T : Type} (current : D) (fs : Files D T) (ask : Bool) (askArg : Option Bool) (driver : String)
    (interval : Option ℤ) (raises : Bool) : Done D T :=
  let fs' : Files D T := match interval with
    | none => fs
    | some k => save current none k fs
  if driver.toUpper ∈ knownDrivers then
    if raises then ⟨fs', [], askArg.getD ask⟩
    else ⟨fs', (read fs' interval).map fun p => (p.1, p.2.data), ask⟩
  else ⟨fs', [], ask⟩

/-- The driver for the surface, `Simulation.export` `simulation.py` lines 919-924. -/
def surfaceDriver (driver : String) : String := if driver.toLower = "opencratertool" then "GeoTIFF" else driver

/-- `Simulation.export`, `simulation.py` lines 915-930, for the surface: `now` is the interval number of the simulation. -/
def exportSim {D T : Type} (current : D) (times : T) (now : ℤ) (fs : Files D T) (ask : Bool) (askArg : Option Bool) (driver : String)
    (interval : Option ℤ) : Done D T :=
  exportSurface current (save current (some times) now fs) ask askArg (surfaceDriver driver)
    (interval.map fun i => if i < 0 then now + 1 + i else i) false

/-! ### Files in the way -/

/-- Is an existing file of the same name overwritten without asking?  `to_vector_file` (`surface/__init__.py` line 2879) and the writer of `to_vtk_file`
(line 3038) call `_overwrite_check`; `to_geotiff_file` (lines 3184-3249) does not. -/
def overwritten (driver : String) (check : Bool) : Bool :=
  if driver.toUpper ∈ ["GEOTIFF", "GTIFF", "TIFF", "TIF"] then true else check

/-! ### Rasters -/

noncomputable section

/-- `get_raster_dims`, `surface/__init__.py` lines 3164-3175, of a global surface with `n` faces on a body of radius `r`. -/
def globalDims (n : ℕ) (r : ℝ) : ℕ × ℕ :=
  let pixArea : ℝ := 4 * Real.pi * r ^ 2 / n
  let pix : ℝ := Real.sqrt pixArea
  let deg : ℝ := 180 * pix / (Real.pi * r)
  (⌈(180 - (-180)) / deg⌉₊, ⌈(90 - (-90)) / deg⌉₊)

/-- Degrees per pixel of the raster of a global surface, `from_bounds` in `surface/__init__.py` line 3122. -/
def globalPixel (n : ℕ) (r : ℝ) : ℝ × ℝ := (360 / (globalDims n r).1, 180 / (globalDims n r).2)

/-- `get_raster_dims`, `surface/__init__.py` lines 3176-3181, of a region. -/
def localDim (region pix : ℝ) : ℕ := max 1 ⌈2 * region / pix⌉₊

/-- Metres per pixel of the raster of a region, `to_raster` `surface/__init__.py` lines 3128-3137. -/
def localPixel (region pix : ℝ) : ℝ := 2 * (region + 4 * pix) / localDim region pix

end

end Verif.SurfaceExport
