import Mathlib.Analysis.SpecialFunctions.Trigonometric.Inverse
import Mathlib.Analysis.SpecialFunctions.Complex.Arg
import Mathlib.Algebra.Order.Floor.Ring
import Mathlib.Algebra.Order.Archimedean.Real.Basic

/-!
Model of the distance and bearing functions of `crates/cratermaker-components/src/surface/mod.rs` (called
`surface/mod.rs` below).  Angles are in radians.  Floats are reals.
-/

namespace Verif.Sphere

/-- Rust's `%` on floats: the remainder with the sign of the dividend. Belongs to `surface/mod.rs` lines 655-658. -/
noncomputable def rem (x m : ℝ) : ℝ := x - m * (if 0 ≤ x / m then (⌊x / m⌋ : ℝ) else (⌈x / m⌉ : ℝ))

/-- `positive_mod`, `surface/mod.rs` lines 655-658. -/
noncomputable def positiveMod (x m : ℝ) : ℝ := rem (rem x m + m) m

/-- `f64::atan2(y, x)`, the argument of `x + i y` (zero when both are zero). Belongs to `surface/mod.rs` lines 550-564. -/
noncomputable def atan2 (y x : ℝ) : ℝ := Complex.arg ⟨x, y⟩

/-- `compute_one_distance`, `surface/mod.rs` lines 600-607. -/
noncomputable def distance (lon1 lat1 lon2 lat2 radius : ℝ) : ℝ :=
  let dlon := positiveMod (lon2 - lon1 + Real.pi) (2 * Real.pi) - Real.pi
  let dlat := lat2 - lat1
  let a := Real.sin (dlat / 2) ^ 2 + Real.cos lat1 * Real.cos lat2 * Real.sin (dlon / 2) ^ 2
  radius * (2 * Real.arcsin (Real.sqrt a))

/-- `compute_one_location_from_distance_bearing`, `surface/mod.rs` lines 550-564: `(lon2, lat2)`. -/
noncomputable def destination (lon1 lat1 dist bearing radius : ℝ) : ℝ × ℝ :=
  let lat2 := Real.arcsin (Real.sin lat1 * Real.cos (dist / radius) +
    Real.cos lat1 * Real.sin (dist / radius) * Real.cos bearing)
  (lon1 + atan2 (Real.sin bearing * Real.sin (dist / radius) * Real.cos lat1)
    (Real.cos (dist / radius) - Real.sin lat1 * Real.sin lat2), lat2)

/-- `compute_location_from_distance_bearing`, `surface/mod.rs` lines 566-587, for one point. -/
noncomputable def location (lon1 lat1 dist bearing radius : ℝ) : ℝ × ℝ :=
  let p := destination lon1 lat1 dist bearing radius
  (positiveMod (p.1 + Real.pi) (2 * Real.pi) - Real.pi, positiveMod (p.2 + Real.pi) (2 * Real.pi) - Real.pi)

/-- `compute_one_bearing`, `surface/mod.rs` lines 646-651. -/
noncomputable def oneBearing (lon1 lat1 lon2 lat2 : ℝ) : ℝ :=
  let dlon := positiveMod (lon2 - lon1 + Real.pi) (2 * Real.pi) - Real.pi
  atan2 (Real.sin dlon * Real.cos lat2)
    (Real.cos lat1 * Real.sin lat2 - Real.sin lat1 * Real.cos lat2 * Real.cos dlon)

/-- `compute_bearings`, `surface/mod.rs` lines 624-642, for one point. -/
noncomputable def bearing (lon1 lat1 lon2 lat2 : ℝ) : ℝ :=
  positiveMod (oneBearing lon1 lat1 lon2 lat2) (2 * Real.pi)

/-- `np.radians`. Belongs to `surface/__init__.py` lines 1386-1424. -/
noncomputable def rad (d : ℝ) : ℝ := d * (Real.pi / 180)

/-- `np.degrees`. Belongs to `surface/__init__.py` lines 1386-1424. -/
noncomputable def deg (r : ℝ) : ℝ := r * (180 / Real.pi)

/-- Longitude and latitude extents in degrees. Belongs to `surface/__init__.py` lines 1386-1424. -/
structure Extents where
  lonMin : ℝ
  lonMax : ℝ
  latMin : ℝ
  latMax : ℝ

/-- `Surface.get_location_extents`, `cratermaker/components/surface/__init__.py` lines 1386-1424 (also
`LocalSurface.get_location_extents`, lines 3998-4017, and `DataSurface._get_location_extents`,
`datasurface.py` lines 139-171), `targetRadius` the radius of the target; location in degrees. -/
noncomputable def extents (targetRadius lon0 lat0 radius : ℝ) : Extents :=
  let alpha := deg (radius / targetRadius)
  let latMin := max (-90) (lat0 - alpha)
  let latMax := min 90 (lat0 + alpha)
  if 90 ≤ |lat0| + alpha then ⟨-180, 180, latMin, latMax⟩
  else
    let half := min (alpha / Real.cos (rad lat0)) 180
    ⟨lon0 - half, lon0 + half, latMin, latMax⟩

end Verif.Sphere
