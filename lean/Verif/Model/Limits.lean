import Verif.Model.SurfaceData

/-!
Model of the diameter limits of `cratermaker/core/simulation.py`: the ranges that `populate` samples from (lines 713-763) and
the properties `smallest_crater`, `largest_crater`, `smallest_projectile`, `largest_projectile` (lines 1386-1453 and
1615-1740).
-/

namespace Verif.Limits

open Verif.SurfaceData

/-! ### populate -/

/-- `face_bin_min_sizes`, `surface/__init__.py` lines 1706-1711: square root of the smallest face area of each bin
(line 1379). -/
noncomputable def binMinSizes (areas : List ℝ) (bins : List (List ℕ)) : List ℝ :=
  bins.map fun b => ((b.map fun i => Real.sqrt (areas.getD i 0)).min?).getD 0

/-- The diameter range passed to `sample` for each bin, `simulation.py` lines 731-757.  `g` is the identity if craters are
sampled, and the smallest projectile for a crater size if projectiles are. -/
noncomputable def binRanges (g : ℝ → ℝ) (dmax : ℝ) : List ℝ → ℝ → List (ℝ × ℝ)
  | [], _ => []
  | s :: ss, dmin => (max (g s) dmin, dmax) :: binRanges g dmax ss (max (g s) dmin)

/-- The check of `_validate_sample_args`, `production/__init__.py` lines 697-702: `none` is ValueError. -/
noncomputable def validRange (r : ℝ × ℝ) : Option (ℝ × ℝ) :=
  if r.1 ≤ 0 then none else if r.2 < r.1 then none else some r

/-- The loop of `populate` over the bins, `simulation.py` lines 731-770.  `sample` stands for the production function's sampling within a
valid range; the draws depend on the bin. -/
noncomputable def populate (g : ℝ → ℝ) (dmin dmax : ℝ) (areas : List ℝ) (sample : ℕ → ℝ × ℝ → List ℝ) : Option (List (List ℝ)) :=
  match faceBins areas with
  | none => none
  | some bins =>
    (((binRanges g dmax (binMinSizes areas bins) dmin).mapM validRange).map fun rs => rs.mapIdx fun i r => sample i r)

/-! ### Limits -/

/-- Crater sizes against projectile sizes at the two extremes of `_get_diameter_limit`, `simulation.py` lines 1416-1424: `sm` and `lg` are
the projectile that makes a crater of the given size at 1° and a tenth of the mean velocity, and at 90° and ten times the
mean velocity; `smInv` and `lgInv` are the crater made by a projectile. -/
structure Scale where
  sm : ℝ → ℝ
  smInv : ℝ → ℝ
  lg : ℝ → ℝ
  lgInv : ℝ → ℝ

/-- The part of the simulation concerned: what the production function generates, the range of crater diameters that
the surface and target allow (`simulation.py` line 229), and the production function's diameter range. -/
structure Sim where
  projectile : Bool
  scale : Scale
  lo : ℝ
  hi : ℝ
  a : ℝ
  b : WithTop ℝ

/-- `_get_diameter_limit("smallest", crater_diameter=c)`, `simulation.py` lines 1442-1453. -/
noncomputable def smallP (s : Sim) (c : ℝ) : ℝ := s.scale.sm (max c s.lo)

/-- `_get_diameter_limit("largest", crater_diameter=c)`. Belongs to `simulation.py` lines 1392-1453. -/
noncomputable def largeP (s : Sim) (c : ℝ) : ℝ := s.scale.lg (min c s.hi)

/-- The getter of `smallest_crater`, `simulation.py` lines 1616-1628. -/
noncomputable def smallestCrater (s : Sim) : ℝ :=
  if s.projectile then (if 0 < s.a then max (s.scale.smInv s.a) s.lo else s.a) else s.a

/-- The getter of `largest_crater`, `simulation.py` lines 1650-1662. -/
noncomputable def largestCrater (s : Sim) : WithTop ℝ :=
  if s.projectile then
    match s.b with
    | ⊤ => ⊤
    | (b : ℝ) => ((min (s.scale.lgInv b) s.hi : ℝ) : WithTop ℝ)
  else s.b

/-- The setter of `smallest_crater`, `simulation.py` lines 1630-1647. -/
noncomputable def setSmallestCrater (s : Sim) (v : ℝ) : Sim :=
  if s.projectile then { s with a := smallP s v, b := min s.b (smallP s s.hi : ℝ) }
  else { s with a := max v s.lo, b := min s.b (s.hi : ℝ) }

/-- The setter of `largest_crater`, `simulation.py` lines 1664-1681. -/
noncomputable def setLargestCrater (s : Sim) (v : ℝ) : Sim :=
  if s.projectile then { s with a := max s.a (largeP s s.lo), b := (largeP s v : ℝ) }
  else { s with a := max s.a s.lo, b := ((min v s.hi : ℝ) : WithTop ℝ) }

/-- The setter of `smallest_projectile`, `simulation.py` lines 1697-1710. -/
noncomputable def setSmallestProjectile (s : Sim) (v : ℝ) : Sim :=
  if s.projectile then { s with a := max v (smallP s s.lo), b := min s.b (largeP s s.hi : ℝ) }
  else { s with a := max v s.a, b := min s.b (s.hi : ℝ) }

/-- The setter of `largest_projectile`, `simulation.py` lines 1724-1740. -/
noncomputable def setLargestProjectile (s : Sim) (v : ℝ) : Sim :=
  if s.projectile then { s with a := max s.a (smallP s s.lo), b := ((min v (largeP s s.hi) : ℝ) : WithTop ℝ) }
  else { s with a := max s.a s.hi, b := (largeP s v : ℝ) }

/-- The getter of `smallest_projectile`, `simulation.py` lines 1683-1695. -/
noncomputable def smallestProjectile (s : Sim) : ℝ := if s.projectile then s.a else smallP s s.a

/-- The getter of `largest_projectile`, `simulation.py` lines 1712-1722: an unlimited crater size is cut to the allowed range. -/
noncomputable def largestProjectile (s : Sim) : WithTop ℝ :=
  if s.projectile then s.b
  else match s.b with
    | ⊤ => ((s.scale.lg s.hi : ℝ) : WithTop ℝ)
    | (b : ℝ) => ((largeP s b : ℝ) : WithTop ℝ)

/-- `__init__`, `simulation.py` lines 229-231; the limits of the production function are then clamped to the allowed range. -/
noncomputable def initLimits (s : Sim) : Sim :=
  let s1 := setSmallestCrater s (max (smallestCrater s) s.lo)
  setLargestCrater s1 ((min (largestCrater s1) (s1.hi : ℝ)).untopD 0)

/-- Assignments a user can make to the limits. Belongs to `simulation.py` lines 1664-1740. -/
inductive Assign
  | smallest (v : ℝ)
  | largest (v : ℝ)
  | smallestProj (v : ℝ)
  | largestProj (v : ℝ)

/-- One assignment. Belongs to `simulation.py` lines 1664-1740. -/
noncomputable def assign (s : Sim) : Assign → Sim
  | .smallest v => setSmallestCrater s v
  | .largest v => setLargestCrater s v
  | .smallestProj v => setSmallestProjectile s v
  | .largestProj v => setLargestProjectile s v

end Verif.Limits
