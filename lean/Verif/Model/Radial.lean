import Verif.Model.Diffusion
import Verif.Model.Sphere

/-!
Model of radial gradients: `LocalSurface.compute_radial_gradient`
(`cratermaker/components/surface/__init__.py`) and `compute_radial_gradient` in
`crates/cratermaker-components/src/surface/mod.rs`.
-/

namespace Verif.Radial

open Verif.Diffusion

/-- `compute_one_face_gradient`, `surface/mod.rs` lines 206-280: the components to the east and to the
north of the gradient of `h` at a face. -/
noncomputable def gradient (m : Mesh) (h : ℕ → ℝ) (f : ℕ) : ℝ × ℝ :=
  let ns := neighbors m f
  let w := (ns.map fun x => x.2.2).sum
  let zonal := (ns.map fun x => (h x.1 - h f) * x.2.2 / x.2.1 * Real.sin (m.bearing f x.1)).sum
  let merid := (ns.map fun x => (h x.1 - h f) * x.2.2 / x.2.1 * Real.cos (m.bearing f x.1)).sum
  if ns.length < 2 then (0, 0)
  else if w > 0 then (zonal / w, merid / w)
  else (0, 0)

/-- `compute_radial_gradient`, `surface/mod.rs` lines 138-155, at one face; `b` is its `face_bearing` in
radians (line 146). -/
noncomputable def radialGradient (m : Mesh) (h : ℕ → ℝ) (b : ℕ → ℝ) (f : ℕ) : ℝ :=
  (gradient m h f).2 * Real.cos (b f) + (gradient m h f).1 * Real.sin (b f)

/-- `face_bearing`, `calculate_face_and_node_bearings` in `surface/__init__.py` lines 2508-2549, in
radians: the initial bearing at the centre of the region towards the face.  `lon`, `lat` are the
coordinates of the faces in radians. -/
noncomputable def faceBearing (lon0 lat0 : ℝ) (lon lat : ℕ → ℝ) (f : ℕ) : ℝ :=
  Sphere.bearing lon0 lat0 (lon f) (lat f)

end Verif.Radial
