import Verif.Model.Parallel

/-!
Model of the grid of points in the local region, `_interior_distribution` and the loop around it in
`_generate_face_distribution` of `cratermaker/components/surface/hireslocal.py`, lines 570-602 and 630-634, in double precision.

Simplified: numbers are rational and every operation is rounded to the next number of double precision, also the powers `** 2`; a `while` loop that does
not end within `fuel` rounds gives `none`.  The points are given by longitude and latitude; the sines and cosines of lines 590-600, the rounding to
`decimals` places and `np.unique` (lines 641-645) come after and are not part of this model.
-/

namespace Verif.RingsDouble

open Verif.Parallel

/-- `np.pi`. Belongs to `hireslocal.py` lines 570-602. -/
def piDouble : ℚ := 884279719003555 / 281474976710656

/-- The elements of `np.arange(a, b, d)`: the first two are `a` and `a + d`, the others continue with the difference of these two, as numpy fills the
array. Belongs to `hireslocal.py` line 579. -/
def arangeAt (a d : ℚ) (k : ℕ) : ℚ :=
  if k = 0 then a else if k = 1 then double (a + d) else double (a + double (k * double (double (a + d) - a)))

/-- `np.arange(a, b, d)`, `hireslocal.py` line 579: its length is `ceil((b - a) / d)`. -/
def arange (a b d : ℚ) : List ℚ := (List.range ⌈double (double (b - a) / d)⌉.toNat).map (arangeAt a d)

/-- `x ** 2`. Belongs to `hireslocal.py` lines 582-585. -/
def sq (x : ℚ) : ℚ := double (x * x)

/-- `mask` at a point of the grid, `hireslocal.py` lines 582-585. -/
def inRing (pix delta arc : ℚ) (p : ℚ × ℚ) : Bool :=
  let dist := double (sq (double (p.1 / delta)) + sq (double (p.2 / delta)))
  let inner := sq (double (double (arc / pix) - 1))
  let outer := sq (double (arc / pix))
  decide (inner ≤ dist ∧ dist < outer)

/-- `_interior_distribution`, `hireslocal.py` lines 570-602: the points (longitude, latitude) of one annulus and the next angle. -/
def interior (radius pix theta : ℚ) : List (ℚ × ℚ) × ℚ :=
  let arc := double (radius * theta)
  let delta := double (pix / radius)
  if arc < pix then ([], double (theta + delta))
  else if double (double (piDouble * radius) - arc) < pix then ([], piDouble)
  else
    let extent := double (arc / radius)
    let coords := arange (-extent) (double (extent + delta)) delta
    let grid := coords.flatMap fun lat => coords.map fun lon => (lon, lat)
    (grid.filter (inRing pix delta arc), double (theta + delta))

/-- The loop `while theta <= self.local_radius / self.radius`, `hireslocal.py` lines 630-634: the collected points and the last angle. -/
def loop (radius pix localRadius : ℚ) : ℕ → ℚ → Option (List (ℚ × ℚ) × ℚ)
  | 0, _ => none
  | fuel + 1, theta =>
    if theta ≤ double (localRadius / radius) then
      (loop radius pix localRadius fuel (interior radius pix theta).2).map fun s => ((interior radius pix theta).1 ++ s.1, s.2)
    else some ([], theta)

/-- The points of the local region, `hireslocal.py` lines 630-634, starting at the angle 0. -/
def points (radius pix localRadius : ℚ) (fuel : ℕ) : Option (List (ℚ × ℚ)) := (loop radius pix localRadius fuel 0).map Prod.fst

end Verif.RingsDouble
