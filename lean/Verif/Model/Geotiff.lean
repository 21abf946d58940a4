import Verif.Model.Files
import Mathlib.Data.Real.Basic

/-!
# Raster files

Models `LocalSurface.to_geotiff_file` and `to_raster` (`cratermaker/components/surface/__init__.py`, lines 3184-3250 and 3106-3154) and
`Surface.to_geotiff_file` (lines 775-797), with the names of the files (lines 109, 2060-2070 and 3243).
-/

namespace Verif.Geotiff

open Files

/-- The exceptions. Belongs to `base.py` lines 263-289. -/
inductive Err
  | attribute
  | type
  | key
  | index
  deriving DecidableEq, Repr

/-- The saved states of a surface by interval, in increasing order: the data of a variable, if the file has it. Belongs to `base.py` lines 263-289. -/
abbrev Saved (D : Type) := List (ℕ × (List Char → Option D))

/-- `read_saved_output`, `core/base.py` lines 263-289: all intervals, the one asked for, or one counted from the end.  The dataset that is returned
for an interval that is not there has no attribute `interval` (`surface/__init__.py` line 3238). -/
def select {D : Type} (saved : Saved D) : Option ℤ → Except Err (Saved D)
  | none => .ok saved
  | some k =>
    if k < 0 then
      match pyIndex saved k with
      | none => .error .index
      | some p => .ok [p]
    else
      match saved.lookup k.toNat with
      | none => .error .attribute
      | some s => .ok [(k.toNat, s)]

/-- The file name, `surface/__init__.py` line 3243: views of the whole surface and of a region have different prefixes. -/
def fileName (isLocal : Bool) (k : ℕ) : List Char :=
  outputFilename [] (if isLocal then "local_surface".toList else "surface".toList) "tif".toList k

/-- The files in the export directory. Belongs to `surface/__init__.py` lines 3232-3233. -/
abbrev Disk (R : Type) := List Char → Option R

/-- `rio.open(output_filename, "w")`, `surface/__init__.py` lines 3232-3233: an older file is replaced. -/
def put {R : Type} (d : Disk R) (name : List Char) (r : R) : Disk R := fun n => if n = name then some r else d n

/-- `LocalSurface.to_geotiff_file`, `surface/__init__.py` lines 3236-3250; `raster` is `to_raster` of the view.  If some of the states have the variable, reading gives it
the value `blank` (not a number) in the others. -/
def toGeotiffFile {D R : Type} (isLocal : Bool) (raster : D → R) (blank : D) (saved : Saved D) (interval : Option ℤ) (var : List Char)
    (disk : Disk R) : Except Err (Disk R) :=
  match select saved interval with
  | .error e => .error e
  | .ok l =>
    if l.all fun p => (p.2 var).isNone then .error .key
    else .ok (l.foldl (fun d p => put d (fileName isLocal p.1) (raster ((p.2 var).getD blank))) disk)

/-- The methods of a view that `Surface` calls, `surface/__init__.py` lines 694-960. -/
def viewMethods : List (List Char) :=
  ["add_data".toList, "update_elevation".toList, "export".toList, "to_vector_file".toList, "to_raster".toList, "get_raster_dims".toList,
   "to_geotiff_file".toList, "to_vtk_mesh".toList, "to_vtk_file".toList, "plot".toList, "show3d".toList, "pyvista_plotter".toList]

/-- A call of a method of a view by its name: other names are looked up among the variables of the surface (`__getattr__`, `surface/__init__.py` lines 2092-2118), which
are arrays and cannot be called. -/
def callView {R : Type} (known : List (List Char)) (name : List Char) (result : Except Err R) : Except Err R :=
  if name ∈ viewMethods then result
  else if name ∈ known then .error .type
  else .error .attribute

/-- `Surface.to_geotiff_file`, `surface/__init__.py` lines 793-797, calls `to_geotiff` of the full view. -/
def surfaceGeotiff {D R : Type} (known : List (List Char)) (raster : D → R) (blank : D) (saved : Saved D) (interval : Option ℤ)
    (var : List Char) (disk : Disk R) : Except Err (Disk R) :=
  callView known "to_geotiff".toList (toGeotiffFile false raster blank saved interval var disk)

/-- A face in a raster: its polygon (or `none` when it is empty), its value (`none` when it is not finite) and whether it crosses the antimeridian. Belongs to
`surface/__init__.py` lines 3107-3138. -/
structure Face (G : Type) where
  polygon : Option G
  value : Option ℝ
  crosses : Bool

/-- The faces that are drawn, `surface/__init__.py` lines 3107-3138: the whole surface leaves out faces across the antimeridian (`periodic_elements="exclude"`). -/
def shapes {G : Type} (isGlobal : Bool) (faces : List (Face G)) : List (G × ℝ) :=
  (faces.filter fun f => !(isGlobal && f.crosses)).filterMap fun f =>
    match f.polygon, f.value with
    | some g, some v => some (g, v)
    | _, _ => none

/-- `rasterize(..., fill=np.nan, all_touched=True)`, `surface/__init__.py` lines 3141-3148: the faces are drawn one after the other on all pixels that they reach.
Simplification: values are not rounded to single precision. -/
def toRaster {G P : Type} (reaches : G → P → Bool) (isGlobal : Bool) (faces : List (Face G)) (p : P) : Option ℝ :=
  (shapes isGlobal faces).foldl (fun acc s => if reaches s.1 p then some s.2 else acc) none

end Verif.Geotiff
