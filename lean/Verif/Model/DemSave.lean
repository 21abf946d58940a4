import Mathlib.Data.Real.Basic
import Mathlib.Data.List.Basic

/-!
Model of the elevations a data surface keeps in its directory: building it (`cratermaker/components/surface/datasurface.py` lines
376-429 and 527-536, `hireslocal.py` lines 79-85 and 650-675, `surface/__init__.py` lines 1076-1110 and 1197-1225), merging them into
the file `dem_data.nc` (`surface/__init__.py` lines 1262-1283) and resetting the surface (lines 376-395).  The file is not among the
output files a reset removes (`surface/__init__.py` lines 115-118, `datasurface.py` lines 110-111).  `reset=True`, the default, is
assumed when building.
-/

namespace Verif.DemSave

/-- Elevations of faces and nodes. Belongs to `datasurface.py` lines 391-393. -/
structure Elevations where
  faces : List ℝ
  nodes : List ℝ

/-- What is chosen by the user: the name of the mesh made of the settings, and the elevations the files give on this mesh. Belongs to `datasurface.py` lines 412-429. -/
structure Settings where
  id : ℕ
  sample : Elevations

/-- The directory: the mesh in the grid file (its name and numbers of faces and nodes) and the elevations in `dem_data.nc`. Belongs to `surface/__init__.py` lines
1262-1283. -/
structure Dir where
  mesh : Option (ℕ × ℕ × ℕ)
  dem : Option Elevations

/-- What building or resetting ends in: elevations, an error, or elevations of which only one kind is set from the file (the other
being zero or interpolated). Belongs to `datasurface.py` lines 391-393. -/
inductive Outcome
  | done (e : Elevations)
  | raised
  | partly

/-- `update_elevation` of a surface at zero with the concatenated elevations of the file, `datasurface.py` lines 391-393 and
`surface/__init__.py` lines 2221-2255.  The numbers of faces and nodes are those of the mesh. -/
def fromFile (f n : ℕ) (e : Elevations) : Outcome :=
  let all := e.faces ++ e.nodes
  if all.length = 1 then .partly
  else if all.length = f then .partly
  else if all.length = n then .partly
  else if all.length = f + n then .done ⟨all.take f, all.drop f⟩
  else .raised

/-- `_save_data` into a file (`surface/__init__.py` lines 1262-1283): the new values replace those of the same name, but arrays whose sizes differ cannot
be merged.  `none` is the error. -/
def saveDem (d : Dir) (e : Elevations) : Option Dir :=
  match d.dem with
  | none => some { d with dem := some e }
  | some old =>
    if old.faces.length = e.faces.length ∧ old.nodes.length = e.nodes.length then some { d with dem := some e } else none

/-- `_regrid_if_needed`, `datasurface.py` lines 412-429 and `surface/__init__.py` lines 1215-1225; `open` are the numbers of faces and
nodes of the mesh in memory, if there is one. -/
def needMesh (s : Settings) (regrid : Bool) (opened : Option (ℕ × ℕ)) (d : Dir) : Bool :=
  let r := regrid ||
    match d.dem, opened with
    | none, _ => true
    | some e, some (f, n) => decide (e.faces.length ≠ f ∨ e.nodes.length ≠ n)
    | some _, none => false
  r || match d.mesh with
    | none => true
    | some (i, _) => decide (i ≠ s.id)

/-- `_load_from_files` with `reset=True`.  With a new mesh the elevations are sampled and saved (`datasurface.py` lines 387-389); they
are then read from the file (`hireslocal.py` lines 671-672). -/
def load (s : Settings) (regrid : Bool) (opened : Option (ℕ × ℕ)) (d : Dir) : Dir × Outcome :=
  let f := s.sample.faces.length
  let n := s.sample.nodes.length
  if needMesh s regrid opened d then
    let d1 := { d with mesh := some (s.id, f, n) }
    match saveDem d1 s.sample with
    | none => (d1, .raised)
    | some d2 => (d2, fromFile f n s.sample)
  else
    match d.mesh, d.dem with
    | some (_, f', n'), some e => (d, fromFile f' n' e)
    | _, _ => (d, .raised)

/-- Constructing a data surface, `hireslocal.py` lines 79-85: it is loaded once when the scale factor is given, twice when it is found
automatically. -/
def construct (s : Settings) (regrid auto : Bool) (d : Dir) : Dir × Outcome :=
  let r := load s regrid none d
  if auto then
    match r.2, r.1.mesh with
    | .raised, _ => r
    | _, some (_, f, n) => load s regrid (some (f, n)) r.1
    | _, none => r
  else r

/-- `reset` of a surface that was built, `datasurface.py` lines 376-395, when the mesh has these numbers of faces and nodes; without file the surface is
flat. -/
def reset (f n : ℕ) (d : Dir) : Outcome :=
  match d.dem with
  | none => .done ⟨List.replicate f 0, List.replicate n 0⟩
  | some e => fromFile f n e

end Verif.DemSave
