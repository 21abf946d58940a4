import Mathlib.Data.Real.Basic
import Mathlib.Algebra.BigOperators.Group.List.Basic

/-!
Model of parts of `cratermaker/components/surface/datasurface.py`: which file the elevations outside the local region are sampled
from (lines 69-138, 376-395, 449-547 and 582-597), and how missing pixels and units are treated (lines 262-285 and 491-519).
Reading and resampling the files is external; a reading is `none` when it is NaN.  Floats are real numbers.
-/

namespace Verif.DataSurface

/-! ### The file of the superdomain -/

/-- What matters of a data surface: the attribute `_superdomain_dem_file`, the scale factor, the file the saved elevations
(`dem_data.nc`) were sampled from outside the local region (`none` when there is no saved file), and the file the present
elevations there come from. Belongs to `datasurface.py` lines 582-597. -/
structure State (File : Type) where
  named : Option File
  factor : Option ℝ
  saved : Option File
  exterior : Option File

variable {File : Type}

/-- The setter of `superdomain_dem_file`, `datasurface.py` lines 582-597, called with the present value; `default` chooses a file for a scale
factor. -/
def nameFile (default : ℝ → File) (s : State File) : State File :=
  match s.named with
  | some _ => s
  | none =>
    match s.factor with
    | none => s
    | some f => { s with named := some (default f) }

/-- `_load_from_files` with `reset=True`: with a new mesh (asked for, other settings, or no saved elevations, `datasurface.py` lines 412-427) the
elevations are sampled (lines 387-389 and 449-547) and saved, otherwise the saved ones are read (lines 390-393). -/
def load (default : ℝ → File) (newMesh : Bool) (s : State File) : State File :=
  if newMesh || s.saved.isNone then
    let s1 := nameFile default s
    { s1 with exterior := s1.named, saved := s1.named }
  else { s with exterior := s.saved }

/-- `HiResLocalSurface.__init__` (`hireslocal.py` lines 80-85): nothing is loaded while the scale factor is not given; a negative
one is found automatically and the surface is loaded twice.  `auto` is the factor found. -/
noncomputable def baseInit (default : ℝ → File) (auto : ℝ) (newMesh : Bool) (factor : Option ℝ) (s : State File) : State File :=
  match factor with
  | none => s
  | some f =>
    if f < 0 then load default newMesh (load default newMesh { s with factor := some auto })
    else load default newMesh { s with factor := some f }

/-- `DataSurface.__init__`, `datasurface.py` lines 69-138: the argument `superdomain_dem_file` is stored after the base class has been initialised
(line 135). -/
noncomputable def construct (default : ℝ → File) (auto : ℝ) (newMesh : Bool) (user : Option File) (factor : Option ℝ)
    (saved : Option File) : State File :=
  let s0 : State File := { named := none, factor := none, saved := saved, exterior := none }
  { baseInit default auto newMesh factor s0 with named := user }

/-- `set_superdomain` (`hireslocal.py` lines 425-494) of a surface built without scale factor. -/
noncomputable def setSuperdomain (default : ℝ → File) (auto : ℝ) (newMesh : Bool) (s : State File) : State File :=
  load default newMesh { s with factor := some auto }

/-! ### Missing pixels -/

/-- Mean of a list; `none` (NaN) for no elements. Belongs to `datasurface.py` lines 262-285. -/
noncomputable def mean (l : List ℝ) : Option ℝ := if l = [] then none else some (l.sum / l.length)

/-- A scaled reading counts as valid, `datasurface.py` lines 283 and 508-512: it is a number different from the marker. -/
noncomputable def valid (nodata : Option ℝ) : Option ℝ → Bool
  | none => false
  | some v => decide (some v ≠ nodata)

/-- A reading times the scale factor, `datasurface.py` lines 268 and 506. -/
noncomputable def scaled (factor : ℝ) (x : Option ℝ) : Option ℝ := x.map (· * factor)

/-- The elevations of the local region, `datasurface.py` lines 262-285; the marker is always set there (lines 220-222). -/
noncomputable def localFill (nodata factor : ℝ) (raw : List (Option ℝ)) : List (Option ℝ) :=
  let e := raw.map (scaled factor)
  let m := mean (e.filter (valid (some nodata))).reduceOption
  e.map fun x => if valid (some nodata) x then x else m

/-- `_sample`, `datasurface.py` lines 498-519; without any valid reading zero is used. -/
noncomputable def globalFill (nodata : Option ℝ) (factor : ℝ) (raw : List (Option ℝ)) : List (Option ℝ) :=
  let e := raw.map (scaled factor)
  let m := (mean (e.filter (valid nodata)).reduceOption).getD 0
  e.map fun x => if valid nodata x then x else some m

/-- The scale factor of the local files, `datasurface.py` lines 262-265: one of the units of the bands is exactly this word. -/
def localScale (units : List String) : ℕ := if units.contains "KILOMETER" then 1000 else 1

/-- `"KILOMETER" in text`. Belongs to `datasurface.py` lines 491-494. -/
def mentions (text : List Char) : Bool := text.tails.any fun t => "KILOMETER".toList.isPrefixOf t

/-- The scale factor of the global file, `datasurface.py` lines 491-494: the unit of the first band, in capitals, contains this word. -/
def globalScale (units : List String) : ℕ :=
  match units with
  | [] => 1
  | u :: _ => if mentions u.toUpper.toList then 1000 else 1

end Verif.DataSurface
