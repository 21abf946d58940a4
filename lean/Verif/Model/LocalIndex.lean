import Verif.Model.Crash

/-!
Model of which faces a surface with a local region takes for its local region: `HiResLocalSurface._load_from_files`
(`cratermaker/components/surface/hireslocal.py` lines 649-674), `HiResLocalSurface.local` (lines 706-724), `_set_local_identifiers`
(lines 726-747) and `save` (lines 198-206), with the writing of the grid (`cratermaker/components/surface/__init__.py` lines 1112-1225).

A mesh is given by its identifier, which is made from the settings, among them location and radius of the local region.  A list of
indices is given by the mesh it was made for: indices made for one mesh denote other faces, or none, in another mesh.
-/

namespace Verif.LocalIndex

open Verif.Crash (Blob)

/-- The files concerned: the grid, the temporary file it is written to, the indices of the local region (`local_grid_indices.npz`)
and the grid of the local region (`local_grid.nc`). Belongs to `surface/__init__.py` lines 1183-1195. -/
inductive File
  | grid
  | temp
  | index
  | localGrid
  deriving DecidableEq

/-- The disk: what mesh a file belongs to. Belongs to `surface/__init__.py` lines 1183-1195. -/
abbrev Disk (G : Type) := File → Option (Blob G)

/-- Operations on the disk. Belongs to `surface/__init__.py` lines 1134-1158. -/
inductive Op (G : Type)
  | unlink (p : File)
  | create (p : File)
  | finish (p : File) (g : G)
  | rename (a b : File)

/-- Replace one file. Belongs to `surface/__init__.py` lines 1183-1195. -/
def put {G : Type} (d : Disk G) (p : File) (b : Option (Blob G)) : Disk G := fun q => if q = p then b else d q

/-- Effect of one operation. Belongs to `surface/__init__.py` lines 1183-1195. -/
def step {G : Type} (d : Disk G) : Op G → Disk G
  | .unlink p => put d p none
  | .create p => put d p (some .torn)
  | .finish p g => put d p (some (.whole g))
  | .rename a b => put (put d b (d a)) a none

/-- Effect of several operations. Belongs to `surface/__init__.py` lines 1183-1195. -/
def run {G : Type} (d : Disk G) (ops : List (Op G)) : Disk G := ops.foldl step d

/-- `_write_grid_file`, `surface/__init__.py` lines 1134-1158, with the temporary file on the same device. -/
def gridOps {G : Type} (g : G) : List (Op G) := [.unlink .grid, .create .temp, .finish .temp g, .rename .temp .grid]

/-- `_is_same_grid`, `surface/__init__.py` lines 1183-1195. -/
def sameGrid {G : Type} [DecidableEq G] (d : Disk G) (g : G) : Bool :=
  match d .grid with
  | some (.whole h) => h = g
  | _ => false

/-- What `local` writes when the region is extracted anew, `hireslocal.py` lines 713-721. -/
def indexOps {G : Type} (g : G) : List (Op G) := [.unlink .localGrid, .unlink .index, .create .index, .finish .index g]

/-- The operations of `HiResLocalSurface._load_from_files`, `hireslocal.py` lines 649-669, with settings that give the mesh `g`; `cache` is the local
region that the object has already, if any.  The data files, which are read or reset in between, are left out. -/
def loadOps {G : Type} [DecidableEq G] (d : Disk G) (cache : Option G) (g : G) (regrid : Bool) : List (Op G) :=
  (if regrid || !sameGrid d g then gridOps g else []) ++
  (if sameGrid d g && (d .index).isSome then []
   else match cache with
     | some _ => []
     | none => indexOps g)

/-- The mesh that the faces of the local region were determined for, after `_load_from_files`: `hireslocal.py` lines 654-669.  `none` is the exception of
`np.load` for a file that is not complete. -/
def loaded {G : Type} [DecidableEq G] (d : Disk G) (cache : Option G) (g : G) : Option G :=
  if sameGrid d g && (d .index).isSome then
    match d .index with
    | some (.whole h) => some h
    | _ => none
  else some (cache.getD g)

/-- The variables a surface starts with, `surface/__init__.py` lines 120-133. -/
def initialVars : List String := ["node_elevation", "face_elevation"]

/-- `reset`, `surface/__init__.py` lines 231-244: variables that are not initial ones are removed, the initial ones are added anew. -/
def resetVars (vars : List String) : List String :=
  (vars.filter fun v => v ∈ initialVars) ++ initialVars.filter fun v => v ∉ vars

/-- `_set_local_identifiers`, `hireslocal.py` lines 726-747. -/
def markLocal (vars : List String) : List String :=
  vars.filter (fun v => v ≠ "is_local_face" ∧ v ≠ "is_local_node") ++ ["is_local_face", "is_local_node"]

/-- The names of the variables of the surface after `_load_from_files` of a new object, `hireslocal.py` lines 649-673 (with `surface/__init__.py`
lines 1092-1108): `saved` are those of the last data file. -/
def varsAfter {G : Type} [DecidableEq G] (d : Disk G) (g : G) (saved : List String) (reset regrid : Bool) : List String :=
  let fresh := reset || (regrid || !sameGrid d g)
  let v0 := if fresh then resetVars [] else saved
  let v1 := markLocal v0
  if reset then resetVars v1 else v1

/-- What happens to a directory: a new process that makes a surface with a local region, one that crashes after `n` operations of this, a
second loading in the same process (`set_superdomain`, `hireslocal.py` lines 425-494, after which the settings give another mesh), or a new process
that makes a surface of another kind. -/
inductive Event (G : Type)
  | start (g : G) (regrid : Bool)
  | crash (g : G) (regrid : Bool) (n : ℕ)
  | reload (g : G) (regrid : Bool)
  | other (g : G)

/-- The disk, and the local region that the running process holds. Belongs to `surface/__init__.py` lines 1183-1195. -/
structure State (G : Type) where
  disk : Disk G
  cache : Option G

/-- One event.  A loading that raises leaves no surface. Belongs to `hireslocal.py` lines 425-494. -/
def event {G : Type} [DecidableEq G] (s : State G) : Event G → State G
  | .start g regrid => ⟨run s.disk (loadOps s.disk none g regrid), loaded s.disk none g⟩
  | .crash g regrid n => ⟨run s.disk ((loadOps s.disk none g regrid).take n), none⟩
  | .reload g regrid => ⟨run s.disk (loadOps s.disk s.cache g regrid), loaded s.disk s.cache g⟩
  | .other g => ⟨if sameGrid s.disk g then s.disk else run s.disk (gridOps g), none⟩

/-- Several events, in an empty directory at first. Belongs to `hireslocal.py` lines 425-494. -/
def history {G : Type} [DecidableEq G] (es : List (Event G)) : State G := es.foldl event ⟨fun _ => none, none⟩

end Verif.LocalIndex
