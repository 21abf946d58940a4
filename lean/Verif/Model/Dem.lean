import Mathlib.Analysis.SpecialFunctions.Trigonometric.Basic
import Mathlib.Algebra.Order.Archimedean.Real.Basic

/-!
Model of the selection of digital elevation model files and of `DataComposer`,
`cratermaker/components/surface/__init__.py` lines 4575-4975.
-/

namespace Verif.Dem

/-- A tile as named in a file name: hemisphere, absolute latitudes and longitudes in degrees. Belongs to `surface/__init__.py` lines 4769-4808. -/
structure Tile where
  north : Bool
  latLo : ℤ
  latHi : ℤ
  lonLo : ℤ
  lonHi : ℤ
  deriving DecidableEq

/-- A file of the archive: a tile of the 512 or 256 pixels per degree data, the 128 pixels per degree file, a global
file of lower resolution, or a polar file with its minimum latitude and resolution. Belongs to `surface/__init__.py` lines 4810-4817. -/
inductive DemFile
  | tile (res : ℕ) (t : Tile)
  | sldem128
  | ldem (res : ℕ)
  | polar (north : Bool) (minLat : ℝ) (res : ℕ)

/-- Width and height of a tile in degrees, `surface/__init__.py` lines 4772-4777. -/
def tileSize (res : ℕ) : ℤ × ℤ := if res = 512 then (45, 30) else (120, 60)

/-- Lower absolute latitude of the tile row, `surface/__init__.py` lines 4779-4786 (`boundary_offset` is always zero). -/
noncomputable def latRow (dlat : ℤ) (lat : ℝ) : ℤ :=
  if 0 < lat then ⌈|lat / dlat| - 1⌉ * dlat else ⌊|lat / dlat| + 1⌋ * dlat - dlat

/-- `_get_pds_file_suffix`, `surface/__init__.py` lines 4769-4808.  The swap of the two latitudes of lines 4800-4803 only concerns the order in
which they are printed. -/
noncomputable def tileOf (res : ℕ) (lon lat : ℝ) : Tile :=
  let dlon := (tileSize res).1
  let dlat := (tileSize res).2
  let lon' := if lon < 0 then lon + 360 else lon
  let latLo := latRow dlat lat
  let latHi := latLo + dlat
  let lonval := |lon' / dlon|
  if 90 < latHi ∨ 90 < latLo then
    let lonLo := (⌊lonval + 180 / dlon⌋ * dlon) % 360
    ⟨0 < lat, 90 - dlat, 90, lonLo, lonLo + dlon⟩
  else
    let lonLo := (⌊lonval⌋ * dlon) % 360
    ⟨0 < lat, latLo, latHi, lonLo, lonLo + dlon⟩

/-- `_get_lola_cylindrical_url_from_pds`, `surface/__init__.py` lines 4810-4817. -/
noncomputable def cylindricalFile (res : ℕ) (lon lat : ℝ) : DemFile :=
  if 256 ≤ res then .tile res (tileOf res lon lat)
  else if res = 128 then .sldem128
  else .ldem res

/-- First element with the smallest value (`np.argmin`). Belongs to `surface/__init__.py` lines 4838-4840. -/
noncomputable def argmin {α : Type} (f : α → ℝ) : α → List α → α
  | a, [] => a
  | a, b :: bs => if f b < f a then argmin f b bs else argmin f a bs

/-- The resolution used, `surface/__init__.py` lines 4838-4840. -/
noncomputable def cylRes (resolution : ℝ) : ℕ := argmin (fun r : ℕ => |resolution - r|) 4 [16, 64, 128, 256, 512]

/-- `get_lola_cylindrical_files_from_pds`, `surface/__init__.py` lines 4821-4861.  The list of the code has no duplicates, which does not
matter here. -/
noncomputable def cylindrical (resolution : ℝ) (lat lon : ℝ × ℝ) : List DemFile :=
  let res := cylRes resolution
  let center := cylindricalFile res ((lon.1 + lon.2) / 2) ((lat.1 + lat.2) / 2)
  if res < 256 then [center]
  else [center, cylindricalFile res lon.1 lat.1, cylindricalFile res lon.1 lat.2, cylindricalFile res lon.2 lat.1,
    cylindricalFile res lon.2 lat.2]

/-- One entry of the table of polar files: resolution, minimum latitude, and whether that is an integer. Belongs to `surface/__init__.py` lines 4880-4881. -/
structure Polar where
  res : ℕ
  minLat : ℝ
  isInt : Bool

/-- `surface/__init__.py` lines 4880-4881. -/
noncomputable def polarTable : List Polar :=
  [⟨400, 45, true⟩, ⟨240, 60, true⟩, ⟨200, 45, true⟩, ⟨120, 60, true⟩, ⟨100, 45, true⟩, ⟨80, 80, true⟩, ⟨60, 60, true⟩,
    ⟨40, 80, true⟩, ⟨30, 75, true⟩, ⟨20, 80, true⟩, ⟨10, 85, true⟩, ⟨5, 87.5, false⟩]

/-- `get_lola_polar_files_from_pds`, `surface/__init__.py` lines 4864-4905.  `none` is ValueError: no file, or a minimum latitude that cannot be
printed with the format `d` (line 4902). -/
noncomputable def polar (resolution : ℝ) (lat : ℝ × ℝ) : Option (List DemFile) :=
  let bound := if 0 < lat.1 then |lat.1| else |lat.2|
  match polarTable.filter (fun p => decide (p.minLat ≤ bound)) with
  | [] => none
  | p :: ps =>
    let best := argmin (fun q : Polar => |resolution - q.res|) p ps
    if best.isInt then some [.polar (0 < lat.1) best.minLat best.res] else none

/-- `get_lola_dem_file_list`, `surface/__init__.py` lines 4908-4933. -/
noncomputable def demFiles (pix : ℝ) (lat lon : ℝ × ℝ) : Option (List DemFile) :=
  let target := Real.pi / 180 * 1737530 / pix
  if 10 < target ∧ (60 < lat.1 ∨ lat.2 < -60) then polar pix lat
  else some (cylindrical target lat lon)

/-! ### Composition -/

/-- `_orderable_distance`, `surface/__init__.py` lines 4631-4639, of a point and a pixel in degrees.  Line 4632 assigns the converted
longitude of the point to a name that is not used, so `lon1` stays in degrees. -/
noncomputable def orderable (lon1 lat1 lon2 lat2 : ℝ) : ℝ :=
  let r := Real.pi / 180
  let x := lon2 * r - lon1 + Real.pi
  let dlon := x - ⌊x / (2 * Real.pi)⌋ * (2 * Real.pi)
  let dlat := lat2 * r - lat1 * r
  Real.sin (dlat / 2) ^ 2 + Real.cos (lat1 * r) * Real.cos (lat2 * r) * Real.sin (dlon / 2) ^ 2

/-- What a data set says about one point of the mesh: nothing, or the centre of the pixel (degrees) and the elevation
there. Belongs to `surface/__init__.py` lines 4670-4700. -/
abbrev Reading := Option ((ℝ × ℝ) × ℝ)

/-- The distance of a reading; `none` is infinity, `surface/__init__.py` lines 4670-4700. -/
noncomputable def readingDist (lon lat : ℝ) (r : Reading) : WithTop ℝ :=
  match r with
  | none => ⊤
  | some (p, _) => (orderable lon lat p.1 p.2 : ℝ)

/-- The first reading with the smallest distance, `surface/__init__.py` line 4702. -/
noncomputable def best (lon lat : ℝ) : Reading → List Reading → Reading
  | a, [] => a
  | a, b :: bs =>
    open Classical in if readingDist lon lat b < readingDist lon lat a then best lon lat b bs else best lon lat a bs

/-- The elevation of a point, `surface/__init__.py` lines 4702-4720: zero if no data set covers it. -/
noncomputable def composed (lon lat : ℝ) : List Reading → ℝ
  | [] => 0
  | a :: as => match best lon lat a as with
    | none => 0
    | some (_, e) => e

/-- The composer: data sets added, whether it is finished, and what was applied to the surface so far. Belongs to `surface/__init__.py` lines 4615-4622. -/
structure Composer (D : Type) where
  data : List D
  finished : Bool
  applied : List (List D)

/-- What can be called on a composer.  `finish ok`: reading the data works; `exit` leaves the `with` block, with an
exception or not. Belongs to `surface/__init__.py` lines 4604-4605. -/
inductive Call (D : Type)
  | add (ds : List D)
  | cancel
  | finish (ok : Bool)
  | exit (exc : Bool) (ok : Bool)

/-- `cancel`, `surface/__init__.py` lines 4615-4622. -/
def doCancel {D : Type} (c : Composer D) : Composer D := { c with data := [], finished := true }

/-- `finish`, `surface/__init__.py` lines 4624-4724; it changes nothing if it raises. -/
def doFinish {D : Type} (c : Composer D) (ok : Bool) : Composer D :=
  if c.finished then c
  else if ok then ⟨[], true, c.applied ++ [c.data]⟩ else c

/-- One call; a call that raises leaves the composer as it is (`surface/__init__.py` lines 4604-4605, 4628-4629, 4729-4735). -/
def call {D : Type} (c : Composer D) : Call D → Composer D
  | .add ds => if c.finished then c else { c with data := c.data ++ ds }
  | .cancel => doCancel c
  | .finish ok => doFinish c ok
  | .exit exc ok => if c.finished then c else if exc then doCancel c else doFinish c ok

/-- A sequence of calls. Belongs to `surface/__init__.py` lines 4604-4605. -/
def calls {D : Type} (c : Composer D) (l : List (Call D)) : Composer D := l.foldl call c

/-- A new composer, `surface/__init__.py` lines 4580-4586. -/
def fresh {D : Type} : Composer D := ⟨[], false, []⟩

end Verif.Dem
