import Mathlib.Analysis.SpecialFunctions.Pow.Real
import Mathlib.Analysis.SpecialFunctions.Trigonometric.Inverse

/-!
Model of the mesh layout of `cratermaker/components/surface/hireslocal.py`: the size of the faces as a
function of distance, the loops that place rings of points, and the rotation of the points to the local
region.  Floats are reals.
-/

namespace Verif.HiRes

/-- The settings of the mesh. Belongs to `hireslocal.py` lines 756-760. -/
structure Setup where
  /-- `radius` of the target. -/
  radius : ℝ
  /-- `pix`, setter lines 756-760. -/
  pix : ℝ
  /-- `local_radius`, setter lines 769-777. -/
  localRadius : ℝ
  /-- `superdomain_scale_factor`, setter lines 824-828. -/
  factor : ℝ

open Classical in
/-- What the setters accept (`hireslocal.py` lines 756-760, 769-777, 824-828). -/
noncomputable def Setup.accepted (s : Setup) : Bool :=
  decide (0 < s.pix ∧ 0 < s.localRadius ∧ ¬ s.localRadius > Real.pi * s.radius ∧ ¬ s.localRadius < s.pix ∧
    ¬ s.factor < 1)

/-- `superdomain_function_slope`, `hireslocal.py` lines 798-806; `none` is the ZeroDivisionError. -/
noncomputable def slope (s : Setup) : Option ℝ :=
  let d0 := s.localRadius
  let d1 := Real.pi * s.radius - s.localRadius
  if d1 - d0 = 0 then none else some ((s.pix * s.factor - s.pix) / (d1 - d0))

/-- `superdomain_function`, `hireslocal.py` lines 122-143, with slope and exponent as given. -/
noncomputable def sizeAt (pix localRadius slope exponent r : ℝ) : ℝ :=
  if r < localRadius then pix else pix + slope * (r - localRadius) ^ exponent

/-- The next ring of `_interior_distribution`, `hireslocal.py` lines 571-578 and 602. -/
noncomputable def interiorStep (s : Setup) (theta : ℝ) : ℝ :=
  if s.radius * theta < s.pix then theta + s.pix / s.radius
  else if Real.pi * s.radius - s.radius * theta < s.pix then Real.pi
  else theta + s.pix / s.radius

/-- The next ring of `_exterior_distribution`, `hireslocal.py` lines 604-611 and 622, `size` the superdomain function. -/
noncomputable def exteriorStep (radius : ℝ) (size : ℝ → ℝ) (theta : ℝ) : ℝ :=
  if Real.pi * radius - radius * theta < size (radius * theta) then Real.pi
  else theta + size (radius * theta) / radius

open Classical in
/-- `while cond(theta): theta = step(theta)`, the loops of `hireslocal.py` lines 630-638, run at most `n` times. -/
noncomputable def runLoop (cond : ℝ → Prop) (step : ℝ → ℝ) : ℕ → ℝ → ℝ
  | 0, theta => theta
  | n + 1, theta => if cond theta then runLoop cond step n (step theta) else theta

/-- A point in space. Belongs to `hireslocal.py` lines 535-541. -/
@[ext]
structure V3 where
  x : ℝ
  y : ℝ
  z : ℝ

/-- Scalar product. Belongs to `hireslocal.py` lines 512-558. -/
def V3.dot (a b : V3) : ℝ := a.x * b.x + a.y * b.y + a.z * b.z

/-- Vector product. Belongs to `hireslocal.py` lines 512-558. -/
def V3.cross (a b : V3) : V3 := ⟨a.y * b.z - a.z * b.y, a.z * b.x - a.x * b.z, a.x * b.y - a.y * b.x⟩

/-- Multiple of a vector. Belongs to `hireslocal.py` lines 512-558. -/
def V3.scale (c : ℝ) (a : V3) : V3 := ⟨c * a.x, c * a.y, c * a.z⟩

/-- Sum. Belongs to `hireslocal.py` lines 512-558. -/
def V3.add (a b : V3) : V3 := ⟨a.x + b.x, a.y + b.y, a.z + b.z⟩

/-- `Rotation.from_rotvec(axis * angle).apply(p)` of scipy for a unit vector `axis`: Rodrigues' formula. Belongs to `hireslocal.py` lines 512-558. -/
noncomputable def rotate (axis : V3) (angle : ℝ) (p : V3) : V3 :=
  ((V3.scale (Real.cos angle) p).add (V3.scale (Real.sin angle) (axis.cross p))).add
    (V3.scale (axis.dot p * (1 - Real.cos angle)) axis)

/-- The unit vector of the local region, `hireslocal.py` lines 535-541; angles in radians. -/
noncomputable def targetVector (lon lat : ℝ) : V3 :=
  ⟨Real.cos lat * Real.cos lon, Real.cos lat * Real.sin lon, Real.sin lat⟩

/-- The direction in which the points are generated (`hireslocal.py` line 544). -/
def pole : V3 := ⟨0, 0, 1⟩

/-- Length of a vector. Belongs to `hireslocal.py` lines 512-558. -/
noncomputable def V3.norm (a : V3) : ℝ := Real.sqrt (a.dot a)

/-- `_rotate_point_cloud`, `hireslocal.py` lines 512-558, for one point. -/
noncomputable def rotateCloud (lon lat : ℝ) (p : V3) : V3 :=
  let target := targetVector lon lat
  let axis := pole.cross target
  if axis.norm < 1e-10 then p
  else rotate (V3.scale (1 / axis.norm) axis) (Real.arccos (min (max (pole.dot target) (-1)) 1)) p

end Verif.HiRes
