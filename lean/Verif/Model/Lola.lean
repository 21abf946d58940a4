import Verif.Model.Dem
import Verif.Model.Sphere

/-!
Model of `DataComposer.populate_with_lola_data`, `cratermaker/components/surface/__init__.py` lines 4935-4954.
-/

namespace Verif.Lola

open Verif.Dem Verif.Sphere

/-- A local region: radius of the body, centre in degrees, radius of the region in metres. Belongs to `surface/__init__.py` lines 4948-4954. -/
structure Circle where
  body : ℝ
  lon : ℝ
  lat : ℝ
  radius : ℝ

/-- The files added by `populate_with_lola_data`, `surface/__init__.py` lines 4948-4954, for a region or, without one, for the whole surface.
`none` is a ValueError of the selection.  Opening the files (`rasterio.open` in `add_data`) is left out; it raises
if a file does not exist. -/
noncomputable def populateFiles (pix : ℝ) : Option Circle → Option (List DemFile)
  | some c =>
    let e := extents c.body c.lon c.lat c.radius
    demFiles pix (e.latMin, e.latMax) (e.lonMin, e.lonMax)
  | none =>
    match demFiles pix (-60, 60) (-180, 180), polar pix (60, -60), polar pix (-60, 60) with
    | some a, some b, some c => some (a ++ b ++ c)
    | _, _, _ => none

end Verif.Lola
