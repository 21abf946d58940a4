import Verif.Model.Sphere

/-!
# Projected coordinates of a region

Models `LocalSurface.set_face_proj` and `set_node_proj` (`cratermaker/components/surface/__init__.py`, lines 4490-4506) and the transformations between
longitude and latitude and the coordinate system of a region (`Surface.get_crs`, lines 1878-1944; `LocalSurface.crs`, `from_surface`, `to_surface`,
lines 4320-4334 and 4468-4488).  Angles are in radians (the transformations and `np.radians` convert), `R` is the radius of the body, and
`lon0`, `lat0` the centre of the region.
-/

namespace Verif.Projection

open Verif.Sphere

/-- `face_proj_x`, `face_proj_y` of a face, `surface/__init__.py` lines 4494-4496 (nodes, lines 4503-4505, alike): distance from the centre and bearing are those of
`compute_distances` and `compute_bearings`. -/
noncomputable def faceProj (R lon0 lat0 lon lat : ℝ) : ℝ × ℝ :=
  let d := distance lon0 lat0 lon lat R
  let b := bearing lon0 lat0 lon lat
  (d * Real.sin b, d * Real.cos b)

/-- `from_surface.transform(lon, lat)`: the coordinate system of `surface/__init__.py` lines 1917-1942 is "Lambert Azimuthal Equal Area (Spherical)" (EPSG method 1027),
with origin at the centre of the region, false easting and northing 0, the radius of the body and east first (`always_xy`).  The formulas are those of the
method (Snyder, Map Projections, 24-2, 22-4, 22-5); computing them is left to `pyproj`. -/
noncomputable def fromSurface (R lon0 lat0 lon lat : ℝ) : ℝ × ℝ :=
  let k := Real.sqrt (2 / (1 + Real.sin lat0 * Real.sin lat + Real.cos lat0 * Real.cos lat * Real.cos (lon - lon0)))
  (R * k * (Real.cos lat * Real.sin (lon - lon0)),
    R * k * (Real.cos lat0 * Real.sin lat - Real.sin lat0 * Real.cos lat * Real.cos (lon - lon0)))

/-- `to_surface.transform(x, y)`, the inverse (Snyder, 20-14, 20-15, 20-18, 24-16), the longitude between -180 and 180 degrees. Belongs to `surface/__init__.py`
lines 4490-4506. -/
noncomputable def toSurface (R lon0 lat0 x y : ℝ) : ℝ × ℝ :=
  let rho := Real.sqrt (x ^ 2 + y ^ 2)
  let c := 2 * Real.arcsin (rho / (2 * R))
  let lon := lon0 + atan2 (x * Real.sin c) (rho * Real.cos lat0 * Real.cos c - y * Real.sin lat0 * Real.sin c)
  (positiveMod (lon + Real.pi) (2 * Real.pi) - Real.pi, Real.arcsin (Real.cos c * Real.sin lat0 + y * Real.sin c * Real.cos lat0 / rho))

end Verif.Projection
