import Mathlib.Analysis.SpecialFunctions.Trigonometric.Inverse
import Mathlib.Algebra.Order.Floor.Ring

/-!
# The points of a mesh with a local region

Models `_generate_face_distribution` of `cratermaker/components/surface/hireslocal.py:559-647` (grid of
points in the local region, then rings around it) and the rings of the same function in
`cratermaker/components/surface/datasurface.py:331-362`.

Simplified: floats are reals, so `np.arange` has exactly the length of its formula; rounding to an
integer (`round`) is a parameter; the rounding of the coordinates in lines 641-644 and the rotation
(modelled in `HiRes`) are left out.  The `while` loops are given by their completed executions.
-/

namespace Verif.Rings

noncomputable section

open Classical

/-- `np.arange(a, b, d)`: `a`, `a + d`, ... below `b`. Belongs to `hireslocal.py` lines 571-602. -/
def arange (a b d : ℝ) : List ℝ := (List.range ⌈(b - a) / d⌉₊).map fun (j : ℕ) => a + (j : ℝ) * d

/-- `np.linspace(0, 2π, n, endpoint=False)`, `hireslocal.py` line 617. -/
def phis (n : ℕ) : List ℝ := (List.range n).map fun (j : ℕ) => 2 * Real.pi * (j : ℝ) / (n : ℝ)

/-- `_interior_distribution`, `hireslocal.py` lines 571-602: the grid points (longitude, latitude) of one annulus and the
next angle. -/
def interior (radius pix theta : ℝ) : List (ℝ × ℝ) × ℝ :=
  let arc := radius * theta
  let delta := pix / radius
  if arc < pix then ([], theta + delta)
  else if Real.pi * radius - arc < pix then ([], Real.pi)
  else
    let extent := arc / radius
    let coords := arange (-extent) (extent + delta) delta
    let grid := coords.flatMap fun lat => coords.map fun lon => (lon, lat)
    (grid.filter fun p =>
      decide ((arc / pix - 1) ^ 2 ≤ (p.1 / delta) ^ 2 + (p.2 / delta) ^ 2 ∧
        (p.1 / delta) ^ 2 + (p.2 / delta) ^ 2 < (arc / pix) ^ 2), theta + delta)

/-- The point in space, `hireslocal.py` lines 590-600: the centre of the region is on the z axis. -/
def interiorPoint (p : ℝ × ℝ) : ℝ × ℝ × ℝ :=
  (Real.cos p.2 * Real.sin p.1, Real.sin p.2, Real.cos p.2 * Real.cos p.1)

/-- `n_phi`, `hireslocal.py` line 616. -/
def perRing (rnd : ℝ → ℤ) (radius size theta : ℝ) : ℕ :=
  (max 1 (rnd (2 * Real.pi * radius * Real.sin theta / size))).toNat

/-- One ring of points, `hireslocal.py` lines 616-623. -/
def ring (rnd : ℝ → ℤ) (radius : ℝ) (size : ℝ → ℝ) (theta : ℝ) : List (ℝ × ℝ × ℝ) :=
  (phis (perRing rnd radius (size (radius * theta)) theta)).map fun φ =>
    (Real.sin theta * Real.cos φ, Real.sin theta * Real.sin φ, Real.cos theta)

/-- `_exterior_distribution`, `hireslocal.py` lines 604-624; `size` is the superdomain function. -/
def exterior (rnd : ℝ → ℤ) (radius : ℝ) (size : ℝ → ℝ) (theta : ℝ) : List (ℝ × ℝ × ℝ) × ℝ :=
  if Real.pi * radius - radius * theta < size (radius * theta) then ([], Real.pi)
  else (ring rnd radius size theta, theta + size (radius * theta) / radius)

/-- A completed execution of `while cond(theta): new, theta = body(theta); points.extend(new)`, `hireslocal.py` lines
630-638: the start, the collected points and the final angle. -/
inductive Runs {P : Type} (cond : ℝ → Prop) (body : ℝ → List P × ℝ) : ℝ → List P → ℝ → Prop
  | stop (t : ℝ) (h : ¬ cond t) : Runs cond body t [] t
  | step (t : ℝ) (h : cond t) (ps : List P) (e : ℝ) (r : Runs cond body (body t).2 ps e) :
      Runs cond body t ((body t).1 ++ ps) e

/-- The loop over the local region, `hireslocal.py` lines 628-632. -/
def InteriorLoop (radius pix localRadius : ℝ) (ps : List (ℝ × ℝ)) (e : ℝ) : Prop :=
  Runs (fun t => t ≤ localRadius / radius) (interior radius pix) 0 ps e

/-- The loop over the rings, lines 635-638, or `datasurface.py:358-362` with
`start = (local_radius + pix / 2) / radius`. -/
def ExteriorLoop (rnd : ℝ → ℤ) (radius : ℝ) (size : ℝ → ℝ) (start : ℝ) (ps : List (ℝ × ℝ × ℝ)) (e : ℝ) : Prop :=
  Runs (fun t => t < Real.pi) (exterior rnd radius size) start ps e

end

end Verif.Rings
