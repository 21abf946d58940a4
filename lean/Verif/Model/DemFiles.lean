import Mathlib.Analysis.SpecialFunctions.Pow.Real
import Mathlib.Analysis.Real.Pi.Bounds

/-!
Model of the setter of `dem_file_list` of `cratermaker/components/surface/datasurface.py` (lines 549-572): which files are read for
the local region of a data surface, and the size of its faces.  Opening a file is external.  Floats are real numbers.
-/

namespace Verif.DemFiles

/-- One entry of a list: a string, a `Path`, or something else. Belongs to `datasurface.py` lines 550-563. -/
inductive Item
  | name (s : String)
  | path (s : String)
  | other

/-- What can be assigned (`datasurface.py` lines 550-563): None, a list, one string, one `Path`, or something else. -/
inductive Given
  | nothing
  | list (l : List Item)
  | text (s : String)
  | path (s : String)
  | other

/-- A file that can be opened: the width of its pixels (`src.res[0]`, `datasurface.py` line 569) in the unit of its coordinates, and the length of this
unit in metres on the ground.  The code does not look at the second. -/
structure Raster where
  res : ℝ
  metres : ℝ

/-- What can be raised: ValueError, TypeError, or the error of opening a file. Belongs to `datasurface.py` lines 563-570. -/
inductive Raised
  | value
  | type
  | opening
deriving DecidableEq

/-- The attributes `_pix` and `_dem_file_list`. Belongs to `datasurface.py` lines 563-570. -/
structure State where
  pix : Option ℝ
  files : Given

/-- What `for f in value` of `datasurface.py` line 567 goes over: the entries of a list and the characters of a string; None and a `Path` cannot be
gone over. -/
def entries : Given → Option (List Item)
  | .list l => some l
  | .text s => some (s.toList.map fun c => .name (String.singleton c))
  | _ => none

/-- The file name of an entry. Belongs to `datasurface.py` line 558. -/
def Item.file : Item → Option String
  | .name s => some s
  | .path s => some s
  | .other => none

/-- `isinstance(f, (str, Path))`, `datasurface.py` line 558. -/
def Item.isFile (i : Item) : Bool := i.file.isSome

/-- `with rasterio.open(f) as src`, `datasurface.py` line 568. -/
def openItem (disk : String → Option Raster) (i : Item) : Option Raster := i.file.bind disk

/-- `min(pixvals)` of a list that is not empty, `datasurface.py` line 570. -/
noncomputable def least (a : ℝ) : List ℝ → ℝ
  | [] => a
  | b :: bs => least (min a b) bs

/-- `datasurface.py` lines 563-570: the value is stored, then the files are opened and the size is found.  A file that cannot be opened, something that
cannot be gone over and an empty list raise, with the value stored already. -/
noncomputable def store (disk : String → Option Raster) (value : Given) (s : State) : State × Option Raised :=
  let s1 := { s with files := value }
  match entries value with
  | none => (s1, some .type)
  | some l =>
    match l.mapM (openItem disk) with
    | none => (s1, some .opening)
    | some [] => (s1, some .value)
    | some (r :: rs) => ({ s1 with pix := some (least r.res (rs.map Raster.res)) }, none)

/-- The size asked for when none is given, `datasurface.py` lines 552-554; `_DEFAULT_N_FACES_LOCAL` is 10^6. -/
noncomputable def defaultPix (localRadius : ℝ) : ℝ := Real.sqrt (Real.pi * localRadius ^ 2 / 1000000)

/-- The setter, `datasurface.py` lines 549-572.  `choose` is `get_lola_dem_file_list` with the extents of the region: files and a size for a size, or
ValueError (`Model/Dem.lean` models it). -/
noncomputable def assign (disk : String → Option Raster) (choose : ℝ → Option (List String × ℝ)) (localRadius : ℝ) (value : Given)
    (s : State) : State × Option Raised :=
  match value with
  | .nothing =>
    let p := s.pix.getD (defaultPix localRadius)
    match choose p with
    | none => ({ s with pix := some p }, some .value)
    | some (fs, q) => store disk (.list (fs.map .name)) { s with pix := some q }
  | .list l => if l.all Item.isFile then store disk (.list l) s else (s, some .value)
  | .text t => store disk (.text t) s
  | .path t => store disk (.path t) s
  | .other => (s, some .type)

end Verif.DemFiles
