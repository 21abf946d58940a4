import Verif.Model.SurfaceExport

/-!
# Mesh files for viewing

Models `LocalSurface.to_vtk_file`, `cratermaker/components/surface/__init__.py:3015-3069`, which `Surface.to_vtk_file`
(lines 819-837) calls for the whole surface, with the names of the files (lines 2057-2071).

Simplified: what is in a file is the mesh it was made from together with the data of the view (`to_vtk_mesh`, modelled in
`Verif.Geometry`).  A file that is refused by the user is left alone; a file that is agreed to is replaced.
-/

namespace Verif.VtkFiles

open SurfaceExport (Files read)

/-- A surface or region that is exported: is it a region (the names of the files begin with `local_`), its mesh, and its part
of the data of the whole surface (`read_saved_output`, `surface/__init__.py` lines 4356-4362). -/
structure View (M D : Type) where
  isLocal : Bool
  mesh : M
  part : D → D

/-- The files in the export directory: `grid.vtp` and `local_grid.vtp`, and the files of the intervals. Belongs to `surface/__init__.py` lines 3062-3067. -/
structure Dir (M D : Type) where
  grid : Bool → Option M
  data : Bool → ℤ → Option (M × D)

/-- The interval numbers that are written, `surface/__init__.py` lines 3048-3053, from those that were read: `none` is an IndexError. -/
def numbers (found : List ℤ) : Option ℤ → Option (List ℤ)
  | none => some found
  | some k =>
    if k < 0 then
      if (-k).toNat ≤ found.length then (found[found.length - (-k).toNat]?).map fun n => [n] else none
    else some [k]

/-- Write the file of an interval, `surface/__init__.py` lines 3062-3067 and 3031-3046. -/
def writeOne {M D : Type} (v : View M D) (agree : ℤ → Bool) (dir : Dir M D) (p : ℤ × D) : Dir M D :=
  if (dir.data v.isLocal p.1).isSome && !agree p.1 then dir
  else { dir with data := fun b j => if b = v.isLocal ∧ j = p.1 then some (v.mesh, v.part p.2) else dir.data b j }

/-- The geometry file, `surface/__init__.py` lines 3055-3060: only when there is none. -/
def writeGrid {M D : Type} (v : View M D) (dir : Dir M D) : Dir M D :=
  match dir.grid v.isLocal with
  | some _ => dir
  | none => { dir with grid := fun b => if b = v.isLocal then some v.mesh else dir.grid b }

/-- `to_vtk_file`: `none` when it raises, before anything is written.  Nothing found is an AttributeError in `surface/__init__.py` line 3049. -/
def toVtk {M D T : Type} (v : View M D) (agree : ℤ → Bool) (fs : Files D T) (interval : Option ℤ) (dir : Dir M D) :
    Option (Dir M D) :=
  let found := read fs interval
  if found.isEmpty then none
  else (numbers (found.map Prod.fst) interval).map fun ns =>
    (found.filter fun p => p.1 ∈ ns).foldl (fun d p => writeOne v agree d (p.1, p.2.data)) (writeGrid v dir)

end Verif.VtkFiles
