import Mathlib.Data.List.Basic
import Mathlib.Data.Int.Notation

/-!
Model of the export of crater lists, `cratermaker/components/counting/__init__.py`: `export` (lines 500-592),
`_validate_export_args` (963-992) and which file the `to_..._file` methods write (1011, 1322-1339, 1366-1411, 1454-1506), with
the drivers of lines 76-80 and `cratermaker/constants.py` lines 26-58.  A crater is opaque; what a file holds is the list of
craters written to it.
-/

namespace Verif.Export

/-- `crater_type` of the list. Belongs to `counting/__init__.py` lines 970-992. -/
inductive Kind
  | observed
  | emplaced
deriving DecidableEq

/-! ### The list to write -/

/-- The `craters` argument of the `to_..._file` methods. Belongs to `counting/__init__.py` lines 970-992. -/
inductive Given (K : Type)
  | /-- `None` -/ absent
  | /-- a dictionary of craters keyed by their identifier -/ byId (l : List K)
  | /-- a dictionary of datasets keyed by interval number -/ byInterval (l : List (ℕ × List K))
  | /-- a dataset, read with `from_xarray` -/ dataset (l : List K)
  | /-- a list of craters -/ list (l : List K)
  | /-- anything else, or a list with something else in it -/ other

/-- What `_validate_export_args` ends in. Belongs to `counting/__init__.py` lines 970-992. -/
inductive Checked (K : Type)
  | craters (l : List K)
  | /-- the datasets themselves are returned in place of craters -/ datasets (n : ℕ)
  | /-- `IndexError`, line 973 -/ indexError
  | /-- `UnboundLocalError`, line 978: `crater_ds` is not set -/ unbound
  | /-- `TypeError`, lines 986 and 988 -/ typeError

/-- `_validate_export_args` for a valid crater type, `counting/__init__.py` lines 970-992; `current` are the lists of the object, of which the observed one
is a dictionary keyed by identifier (line 69). -/
def check {K : Type} (current : Kind → List K) (kind : Kind) (g : Given K) : Checked K :=
  let g' : Given K := match g with
    | .absent => match kind with
      | .observed => .byId (current .observed)
      | .emplaced => .list (current .emplaced)
    | g => g
  match g' with
  | .byId [] => .indexError
  | .byId _ => .unbound
  | .byInterval [] => .indexError
  | .byInterval l => .datasets l.length
  | .dataset l => .craters l
  | .list l => .craters l
  | .other => .typeError
  | .absent => .typeError

/-! ### `export` -/

/-- Result of `read_saved_output` for one of the lists, `cratermaker/core/base.py` lines 248-294. -/
inductive Read (K : Type)
  | /-- `None`: no file at all -/ nothing
  | /-- an empty dataset: no file for the interval asked for -/ empty
  | /-- the intervals read, with their craters -/ intervals (l : List (ℤ × List K))

/-- The drivers in the vector table of `constants.py`, lines 26-58, by the names used there. -/
def vectorDrivers : List String :=
  ["PCIDSK", "PDS4", "PDF", "MBTILES", "ESRI SHAPEFILE", "MAPINFO FILE", "S57", "DGN", "CSV", "GML", "GPX", "KML", "GEOJSON",
   "GEOJSONSEQ", "OGR_GMT", "GPKG", "SQLite", "WASP", "OPENFILEGDB", "DXF", "FLATGEOBUF", "PGDUMP",
   "GPSBABEL", "ODS", "XLSX", "JML", "VDV", "MVT", "PMTiles", "JSONFG", "MIRAMONVECTOR"]

/-- `valid_drivers`, lines 76-80 with `base.py` lines 790-793. -/
def validDrivers : List String := ["SCC", "VTK", "VTP", "CSV"] ++ vectorDrivers

/-- A file written by an export. Belongs to `counting/__init__.py` lines 558-589. -/
structure Written (K : Type) where
  kind : Kind
  interval : ℤ
  craters : List K

/-- The interval numbers to go through, `counting/__init__.py` lines 546-555. -/
def numbers {K : Type} (r : Read K) (interval : Option ℤ) : List ℤ :=
  match r with
  | .intervals l => l.map Prod.fst
  | _ => match interval with
    | none => [0]
    | some i => [i]

/-- `from_xarray(crater_ds, interval=interval)`, `counting/__init__.py` line 557: the craters of the interval in the data, if it is there. -/
def cratersOf {K : Type} (r : Read K) (i : ℤ) : List K :=
  match r with
  | .intervals l => (l.lookup i).getD []
  | _ => []

/-- Is there a dataset (`crater_ds is not None`)? Belongs to `counting/__init__.py` lines 558-589. -/
def Read.there {K : Type} : Read K → Bool
  | .nothing => false
  | _ => true

/-- The file written for an interval, `counting/__init__.py` lines 558-589, where the driver is given in upper case.  `to_vector_file` returns in its first
line (1019), before writing anything. -/
def writeOne {K : Type} (driver : String) (kind : Kind) (r : Read K) (i : ℤ) : List (Written K) :=
  if driver ∈ ["VTK", "VTP"] ∧ r.there then [⟨kind, i, cratersOf r i⟩]
  else if driver = "CSV" ∧ r.there then [⟨kind, i, cratersOf r i⟩]
  else if driver = "SCC" then [⟨kind, i, cratersOf r i⟩]
  else []

/-- One list, `counting/__init__.py` lines 545-589: the files, and the value left in `interval`, which is the loop variable (line 556). -/
def exportKind {K : Type} (driver : String) (kind : Kind) (r : Read K) (interval : Option ℤ) : List (Written K) × Option ℤ :=
  ((numbers r interval).flatMap (writeOne driver kind r), (numbers r interval).getLast?.or interval)

/-- What an export ends in: an error, or the files written. Belongs to `counting/__init__.py` lines 500-592. -/
inductive Outcome (K : Type)
  | valueError
  | files (l : List (Written K))

/-- `export`, `counting/__init__.py` lines 500-592, with the value of `ask_overwrite` afterwards.  `kinds` is `none` for a crater type other than the three
allowed; `read` gives the saved lists for the interval asked for.  The user agrees to overwrite existing files. -/
def exportAll {K : Type} (ask : Bool) (askArg : Option Bool) (driver : String) (kinds : Option (List Kind))
    (read : Kind → Read K) (interval : Option ℤ) : Outcome K × Bool :=
  if driver.toUpper ∉ validDrivers then (.files [], ask)
  else
    match kinds with
    | none => (.valueError, askArg.getD ask)
    | some ks =>
      (.files ((ks.foldl (fun (acc : List (Written K) × Option ℤ) k =>
        (acc.1 ++ (exportKind driver.toUpper k (read k) acc.2).1, (exportKind driver.toUpper k (read k) acc.2).2))
        ([], interval)).1), ask)

/-- `to_vtk_file`, `counting/__init__.py` lines 1288-1339: the mesh written, given how a mesh is made from the craters, the style and whether measured
properties are used.  Line 1329 passes on the craters only. -/
def vtkFile {K M S : Type} (mesh : List K → S → Bool → M) (defaultStyle : S) (craters : List K) (_style : S) (_measured : Bool) : M :=
  mesh craters defaultStyle true

/-! ### Loading -/

/-- Result of `Crater.from_file`. Belongs to `crater/__init__.py` lines 1246-1257. -/
inductive Loaded
  | fromNetcdf
  | fromCsv
  | fromScc
  | /-- `UnboundLocalError` -/ unbound
  | /-- `ValueError` -/ notScc
deriving DecidableEq

/-- `Crater.from_file` for an existing file, `cratermaker/components/crater/__init__.py` lines 1246-1257, and the check of
`from_scc_file`, lines 1331-1332.  `suffix` is the suffix of the file name without the dot. -/
def fromFile (suffix : String) : Loaded :=
  if suffix.toLower = "nc" then .fromNetcdf
  else if suffix.toLower = "csv" then .fromCsv
  else if suffix.toLower = "scc" then (if suffix = "scc" then .fromScc else .notScc)
  else .unbound

end Verif.Export
