import Mathlib.Data.List.Basic
import Mathlib.Data.Rat.Defs

/-!
Model of how a saved mesh is recognised: `_hashvars` and `_id` (`cratermaker/components/surface/__init__.py`, lines 1427-1442; and
`icosphere.py` lines 71-76, `arbitrary_resolution.py` lines 57-62, `hireslocal.py` lines 830-835, `datasurface.py` lines 599-605),
`_is_same_grid` and `_regrid_if_needed` (lines 1183-1225; `datasurface.py` lines 397-429).  Floats are an arbitrary type; printing
them, and the hash function, are parameters.  Strings are lists of characters.
-/

namespace Verif.GridId

/-- How Python prints a float, an integer, a pair of floats and a list of file names. Belongs to `surface/__init__.py` lines 1428-1432. -/
structure Show (Fl File : Type) where
  num : Fl → List Char
  int : ℤ → List Char
  pair : Fl × Fl → List Char
  files : List File → List Char

/-- What the user chooses for a surface: the kind of mesh, name and radius of the target, and the settings of that kind.
`other` are settings that are not part of the identity: for the automatic superdomain the fitted slope and exponent
(`hireslocal.py` lines 484-491), for a data surface the file of the superdomain. -/
inductive Params (Fl File : Type)
  | ico (name : List Char) (radius : Fl) (level : ℤ)
  | arb (name : List Char) (radius pix : Fl)
  | hires (name : List Char) (radius pix localRadius : Fl) (location : Fl × Fl) (factor : Fl)
  | data (name : List Char) (radius pix localRadius : Fl) (location : Fl × Fl) (factor : Fl) (dem : List File)
  deriving DecidableEq

variable {Fl File H : Type}

/-- `_hashvars`, printed: `surface/__init__.py` lines 1428-1432 and the overrides. -/
def fields (s : Show Fl File) : Params Fl File → List (List Char)
  | .ico n r l => ["icosphere".toList, n, s.num r, s.int l]
  | .arb n r p => ["arbitrary_resolution".toList, n, s.num r, s.num p]
  | .hires n r p lr loc f => ["hireslocal".toList, n, s.num r, s.num p, s.num lr, s.pair loc, s.num f]
  | .data n r p lr loc f d => ["datasurface".toList, n, s.num r, s.num p, s.num lr, s.pair loc, s.num f, s.files d]

/-- `":".join(...)`, `surface/__init__.py` line 1439. -/
def join : List (List Char) → List Char
  | [] => []
  | [a] => a
  | a :: b :: l => a ++ ':' :: join (b :: l)

/-- `combined`, `surface/__init__.py` lines 1439-1440. -/
def combined (s : Show Fl File) (p : Params Fl File) : List Char := join (fields s p) ++ "v2026.2.0".toList

/-- `_id`, `surface/__init__.py` lines 1434-1442; `sha` is the hash function. -/
def id (s : Show Fl File) (sha : List Char → H) (p : Params Fl File) : H := sha (combined s p)

/-- The grid file: missing, not readable, or holding a mesh with its identity (`none` when the attribute is missing). Belongs to `surface/__init__.py` lines 1183-1195. -/
inductive Disk (H : Type)
  | missing
  | broken
  | grid (i : Option H)
  deriving DecidableEq

/-- `_is_same_grid`, `surface/__init__.py` lines 1183-1195. -/
def isSame [DecidableEq H] (s : Show Fl File) (sha : List Char → H) (p : Params Fl File) : Disk H → Bool
  | .grid (some i) => decide (i = id s sha p)
  | _ => false

/-- `_regrid_if_needed`, `surface/__init__.py` lines 1197-1225: whether a new mesh is made, and the grid file afterwards. -/
def regridIfNeeded [DecidableEq H] (s : Show Fl File) (sha : List Char → H) (p : Params Fl File) (force : Bool) (d : Disk H) :
    Bool × Disk H :=
  let regrid := force || decide (d = .missing)
  let regrid := if regrid then true else !isSame s sha p d
  if regrid then (true, .grid (some (id s sha p))) else (false, d)

/-- What `DataSurface._regrid_if_needed` looks at before (`datasurface.py` lines 412-427). -/
structure DemState where
  /-- `_local_dem_data is not None` -/
  inMemory : Bool
  /-- the file `dem_data.nc` exists -/
  fileExists : Bool
  /-- a mesh is loaded -/
  meshLoaded : Bool
  /-- the file has both elevations with the sizes of the loaded mesh -/
  fits : Bool

/-- The flag passed on by `DataSurface._regrid_if_needed`. Belongs to `datasurface.py` lines 397-429. -/
def demForce (force : Bool) (t : DemState) : Bool :=
  if !force && !t.inMemory then
    if !t.fileExists then true
    else if t.meshLoaded then (if t.fits then force else true)
    else force
  else force

/-- `DataSurface._regrid_if_needed`, `datasurface.py` lines 397-429. -/
def regridData [DecidableEq H] (s : Show Fl File) (sha : List Char → H) (p : Params Fl File) (force : Bool) (t : DemState)
    (d : Disk H) : Bool × Disk H :=
  regridIfNeeded s sha p (demForce force t) d

/-- How the superdomain of a high resolution mesh was laid out: the factor given by the user, or found automatically from slope and
exponent of a fit (`hireslocal.py` lines 80-84 and 465-474). -/
inductive Layout
  | given (factor : ℚ)
  | automatic (slope : ℚ) (exponent : ℕ)
  deriving DecidableEq

/-- `superdomain_function(r)` for `r` outside the local region, `hireslocal.py` lines 122-143, with slope and exponent of lines 799-813; `far` is
the distance of the antipode.  Exponents are natural numbers here. -/
def cellSize (pix localRadius far : ℚ) : Layout → ℚ → ℚ
  | .given f, r => pix + (pix * f - pix) / (far - localRadius - localRadius) * (r - localRadius)
  | .automatic a b, r => pix + a * (r - localRadius) ^ b

/-- `superdomain_scale_factor` as it enters the identity: as given, or the cell size at the antipode (`hireslocal.py` line 491). -/
def storedFactor (pix localRadius far : ℚ) : Layout → ℚ
  | .given f => f
  | .automatic a b => cellSize pix localRadius far (.automatic a b) far

end Verif.GridId
