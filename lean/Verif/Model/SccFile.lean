import Verif.Model.Location

/-!
# Files of spatial crater counts

Models the contents that `Counting.to_scc_file` writes (`cratermaker/components/counting/__init__.py`, lines 1436-1504) and `Crater.from_scc_file`
(`cratermaker/components/crater/__init__.py`, lines 1325-1338).  Header lines are left out; numbers are written so that they read back exactly
(`str` of a float), and `craterstats.Spatialcount` is taken to read the columns as they were written.
-/

namespace Verif.SccFile

/-- What the export uses of a crater. Belongs to `counting/__init__.py` line 1441. -/
structure Crater where
  location : ℝ × ℝ
  measuredLocation : Option (ℝ × ℝ)
  measuredDiameter : Option ℝ

/-- The local region of a surface that has one: radius, distance from its centre (`counting/__init__.py` line 1441), area of the part of the measured outline of a crater
within the outline of the region (lines 1443-1446), area of the measured outline (1447), area of the faces (1482). -/
structure Region where
  radius : ℝ
  distance : ℝ × ℝ → ℝ
  overlap : Crater → ℝ
  outline : Crater → ℝ
  area : ℝ

/-- One line of the table of craters (`counting/__init__.py` lines 1498-1502): diameter in km, fraction, longitude and latitude. -/
structure Row where
  diam : ℝ
  fraction : ℝ
  lon : ℝ
  lat : ℝ

/-- `overlap_fraction`, `counting/__init__.py` lines 1438-1449, for a crater of measured diameter `diameter`: `measured_radius` is half of it. -/
noncomputable def overlapFraction (region : Option Region) (c : Crater) (diameter : ℝ) : ℝ :=
  open Classical in
  match region with
  | none => 1
  | some r => if r.radius < r.distance c.location + diameter / 2 then r.overlap c / r.outline c else 1

/-- One line, `counting/__init__.py` lines 1500-1502; `none`: a measured property that is missing raises. -/
noncomputable def row (region : Option Region) (c : Crater) : Option Row :=
  match c.measuredDiameter, c.measuredLocation with
  | some d, some p => some ⟨d * (1 / 1000), overlapFraction region c d, p.1, p.2⟩
  | _, _ => none

/-- The lines written, `counting/__init__.py` lines 1499-1502, and whether the end is reached: lines before the one that raises stay in the file. -/
noncomputable def rows (region : Option Region) : List Crater → List Row × Bool
  | [] => ([], true)
  | c :: cs =>
    match row region c with
    | none => ([], false)
    | some r => ((r :: (rows region cs).1), (rows region cs).2)

/-- `Total_area` in km², `counting/__init__.py` lines 1482, 1486 and 1495; `whole` is the area of the surface. -/
noncomputable def totalArea (region : Option Region) (whole : ℝ) : ℝ :=
  (match region with
    | none => whole
    | some r => r.area) * (1 / 1000000)

/-- `from_scc_file`, `crater/__init__.py` lines 1334-1336: diameter and location of the craters made (`Crater.maker` normalises the location). -/
noncomputable def fromRows (rs : List Row) : List (ℝ × (ℝ × ℝ)) :=
  rs.map fun r => (r.diam * 1000, Location.normalizeCoords (r.lon, r.lat))

end Verif.SccFile
