import Mathlib.Analysis.SpecialFunctions.Pow.Real
import Mathlib.Analysis.SpecialFunctions.Trigonometric.Basic
import Mathlib.Data.List.MinMax

/-!
Model of the crater and ejecta profiles, `crates/cratermaker-components/src/morphology/basicmoon.rs`, and of
their extents and the degradation functions in `cratermaker/components/morphology/basicmoon.py`.
Floats are reals; Rayon's parallel sums are ordinary sums.
-/

namespace Verif.Profile

/-- Crater dimensions used by the profiles (fields of `BasicMoonCrater`, basicmoon.py lines 101-119). -/
structure Dims where
  /-- `diameter`. -/
  diameter : ℝ
  /-- `floor_depth`, negative below the surroundings. -/
  floorDepth : ℝ
  /-- `floor_diameter`. -/
  floorDiameter : ℝ
  /-- `rim_height`. -/
  rimHeight : ℝ
  /-- `ejrim`. -/
  ejrim : ℝ

/-- The constant `A`, basicmoon.rs line 53. -/
noncomputable def coefA : ℝ := 4 / 11
/-- The constant `B`, basicmoon.rs line 54. -/
noncomputable def coefB : ℝ := -32 / 187

/-- `flrad`, basicmoon.rs line 57. -/
noncomputable def flrad (d : Dims) : ℝ := d.floorDiameter / d.diameter

/-- `c1`, basicmoon.rs lines 61-62. -/
noncomputable def c1 (d : Dims) : ℝ :=
  (d.floorDepth - d.rimHeight) / (flrad d - 1 + coefA * (flrad d ^ 2 - 1) + coefB * (flrad d ^ 3 - 1))

/-- `c0`, basicmoon.rs line 63. -/
noncomputable def c0 (d : Dims) : ℝ := d.rimHeight - c1 d * (1 + coefA + coefB)

/-- `crater_profile_function`, basicmoon.rs lines 132-147, with `c2 = A c1`, `c3 = B c1` (lines 64-65);
`r` is the distance in crater radii. -/
noncomputable def profileFn (d : Dims) (r elevation : ℝ) : ℝ :=
  if 1 ≤ r then elevation + (d.rimHeight - d.ejrim) * r ^ (-(4.20 : ℝ))
  else elevation + c0 d + c1 d * r + coefA * c1 d * r ^ 2 + coefB * c1 d * r ^ 3

/-- Reference elevations of the points not farther than the crater radius. Belongs to `basicmoon.rs` lines 67-84. -/
noncomputable def insideRefs (radius : ℝ) (pts : List (ℝ × ℝ)) : List ℝ :=
  (pts.filter fun p => p.1 ≤ radius).map Prod.snd

/-- `meanref`, basicmoon.rs lines 67-84; points are pairs of distance and reference elevation; `none` is the
panic when there are no points. -/
noncomputable def meanRef (radius : ℝ) (pts : List (ℝ × ℝ)) : Option ℝ :=
  if (insideRefs radius pts).length = 0 then (pts.argmin Prod.fst).map Prod.snd
  else some ((insideRefs radius pts).sum / (insideRefs radius pts).length)

/-- One point of the profile, basicmoon.rs lines 91-103. -/
noncomputable def profilePoint (d : Dims) (mean : ℝ) (p : ℝ × ℝ) : ℝ :=
  if p.1 ≤ d.diameter / 2 then max (profileFn d (p.1 / (d.diameter / 2)) p.2) (mean + d.floorDepth)
  else profileFn d (p.1 / (d.diameter / 2)) p.2

/-- `crater_profile`, basicmoon.rs lines 43-105. -/
noncomputable def craterProfile (d : Dims) (pts : List (ℝ × ℝ)) : Option (List ℝ) :=
  (meanRef (d.diameter / 2) pts).map fun mean => pts.map (profilePoint d mean)

/-- `ejecta_profile_function`, basicmoon.rs lines 190-197. -/
noncomputable def ejectaFn (r radius ejrim : ℝ) : ℝ :=
  if radius ≤ r then ejrim * (r / radius) ^ (-(3.0 : ℝ)) else 0

/-- `upper_limit` of `rmax`, basicmoon.py line 640: a truncation of zero counts as not set. -/
noncomputable def upperLimit (radius antipode : ℝ) (truncation : Option ℝ) : ℝ :=
  match truncation with
  | none => antipode
  | some t => if t = 0 then antipode else t * radius

/-- `rmax`, basicmoon.py lines 596-654: `g` is the profile minus the minimum thickness, `truncation` the
`ejecta_truncation` (zero counts as not set), `antipode` half the circumference, and `root` what
`root_scalar` returns, `none` if not converged. -/
noncomputable def rmax (g : ℝ → ℝ) (radius antipode : ℝ) (truncation : Option ℝ) (root : Option ℝ) : ℝ :=
  let lower := radius * 1.0001
  let upper := upperLimit radius antipode truncation
  if g lower < 0 then lower
  else if g upper > 0 then upper
  else root.getD radius

/-- Default dimensions of simple and transitional craters, basicmoon.py lines 101-106 and 115 (the rim width
and peak, which no profile uses, are left out). -/
noncomputable def simpleDims (diameter : ℝ) : Dims where
  diameter := diameter
  rimHeight := 0.043 * (diameter * 1e-3) ^ (1.014 : ℝ) * 1e3
  floorDepth := -0.224 * (diameter * 1e-3) ^ (1.010 : ℝ) * 1e3
  floorDiameter := 0.200 * (diameter * 1e-3) ^ (1.143 : ℝ) * 1e3
  ejrim := 0.14 * (diameter * 0.5) ^ (0.74 : ℝ)

/-- Default dimensions of complex, peak-ring and multi-ring craters, basicmoon.py lines 107-112 and 115. -/
noncomputable def complexDims (diameter : ℝ) : Dims where
  diameter := diameter
  rimHeight := 0.236 * (diameter * 1e-3) ^ (0.399 : ℝ) * 1e3
  floorDepth := -1.044 * (diameter * 1e-3) ^ (0.301 : ℝ) * 1e3
  floorDiameter := min (0.187 * (diameter * 1e-3) ^ (1.249 : ℝ) * 1e3) (0.9 * diameter)
  ejrim := 0.14 * (diameter * 0.5) ^ (0.74 : ℝ)

/-! ### Rays -/

/-- `ejecta_ray_func`, basicmoon.rs lines 397-413; `erf` is the error function of libm, `vsmall` the tiny
number of the crate. -/
noncomputable def rayFn (erf : ℝ → ℝ) (vsmall theta thetar r : ℝ) (n : ℕ) (w : ℝ) : ℝ :=
  let c := w / r
  let dtheta := min (2 * Real.pi - |theta - thetar|) |theta - thetar|
  let logval := -dtheta ^ 2 / (2 * c ^ 2)
  if logval < Real.log vsmall then 0
  else
    let denom := erf (Real.pi / (2 * Real.sqrt 2 * c))
    if |denom| ≤ vsmall then 0
    else Real.sqrt (2 * Real.pi) / (n * c * denom) * Real.exp logval

/-- The length of ray `i`, basicmoon.rs lines 361-364. -/
noncomputable def rayLength (minray rmax : ℝ) (i : ℕ) : ℝ :=
  minray * Real.exp (Real.log (rmax / minray) * (((5 - (i : ℝ) + 2) ^ (4 : ℝ) - 1) / ((5 : ℝ) ^ (4 : ℝ) - 1)))

/-- The angular width of ray `i` at distance `r` with `rmin = 1`, basicmoon.rs lines 369-373. -/
noncomputable def rayWidth (rmax length r : ℝ) : ℝ :=
  Real.pi / ((rmax / length) * 5) * (1 / r) *
    (1 - (1 - (rmax / length)) * Real.exp (1 - r ^ (1.25 : ℝ)))

/-- The number of rays at distance `r`, basicmoon.rs lines 345-356. -/
noncomputable def rayCount (minray rmax r : ℝ) : ℕ :=
  let tmp := (5 : ℝ) ^ (4 : ℝ) - ((5 : ℝ) ^ (4 : ℝ) - 1) * Real.log (r / minray) / Real.log (rmax / minray)
  if tmp < 0 then 5 else max 1 (min 5 (Nat.floor (tmp ^ (1 / 4 : ℝ))))

/-- `ray_intensity_func`, basicmoon.rs lines 331-378 with five rays in directions `dirs`. -/
noncomputable def rayIntensityFn (erf : ℝ → ℝ) (vsmall r theta rmax : ℝ) (dirs : ℕ → ℝ) (minray : ℝ) : ℝ :=
  if r ≤ 0 ∨ rmax < r then 0
  else if r < 1 then 1
  else ((List.range 5).map fun (i : ℕ) =>
    if rayLength minray rmax i < r then 0
    else rayFn erf vsmall theta (dirs i) r (rayCount minray rmax r)
      (rayWidth rmax (rayLength minray rmax i) r)).sum

/-- `ray_intensity_point`, basicmoon.rs lines 214-245: eight patterns with random numbers `rn`.  The bearing
in each pattern, `(theta0 + rn·2π) % 2π`, is the function `turn` of both. -/
noncomputable def rayPoint (erf : ℝ → ℝ) (vsmall : ℝ) (turn : ℝ → ℝ → ℝ) (r theta0 radius rmax : ℝ)
    (dirs : ℕ → ℝ) (rn : ℕ → ℝ) : ℝ :=
  if r < radius then 0
  else ((List.range 8).map fun (j : ℕ) =>
    (0.90 : ℝ) ^ ((j : ℤ) - 1) *
      rayIntensityFn erf vsmall (r / radius - rn j) (turn theta0 (rn j)) rmax dirs (2.348 * radius ^ (0.006 : ℝ))).sum

/-- Largest intensity of the points outside the crater, basicmoon.rs lines 295-299; `f64::MIN`, the start of
the fold, is a parameter. -/
noncomputable def outerMax (lowest radius : ℝ) : List (ℝ × ℝ) → ℝ
  | [] => lowest
  | p :: ps => if radius ≤ p.1 then max p.2 (outerMax lowest radius ps) else outerMax lowest radius ps

/-- The division by the largest intensity, basicmoon.rs lines 300-311, on pairs of distance and intensity;
`none` is NaN. -/
noncomputable def normalise (lowest radius : ℝ) (ps : List (ℝ × ℝ)) : List (Option ℝ) :=
  ps.map fun p =>
    if radius ≤ p.1 then
      if outerMax lowest radius ps = 0 then none else some (p.2 / outerMax lowest radius ps)
    else some p.2

/-- `ray_intensity`, basicmoon.rs lines 258-312, on pairs of distance and bearing. -/
noncomputable def rayIntensity (erf : ℝ → ℝ) (vsmall lowest : ℝ) (turn : ℝ → ℝ → ℝ) (diameter : ℝ)
    (dirs rn : ℕ → ℝ) (ps : List (ℝ × ℝ)) : List (Option ℝ) :=
  normalise lowest (diameter / 2)
    (ps.map fun p => (p.1, rayPoint erf vsmall turn p.1 p.2 (diameter / 2) 100 dirs rn))

/-! ### Degradation -/

/-- `_kdmare`, basicmoon.py lines 683-694. -/
noncomputable def kdmare (r fe : ℝ) : ℝ :=
  0.30 * (Real.pi * fe ^ (2 : ℝ) * 0.0084 * (2.0 * 2.0 / ((3.2 - 2.0) * (2.0 + 2.0 - 3.2)))) ^ (-(2.0 : ℝ) / (3.2 - 2.0)) *
    r ^ ((2.0 : ℝ) * ((3.2 - 2.0) / (3.2 - 2.0)))

/-- `_smooth_broken`, basicmoon.py lines 698-699. -/
noncomputable def smoothBroken (x a xBreak alpha1 alpha2 delta : ℝ) : ℝ :=
  a * (x / xBreak) ^ alpha1 * (0.5 * (1.0 + (x / xBreak) ^ (1.0 / delta))) ^ ((alpha2 - alpha1) / delta)

/-- `degradation_function`, basicmoon.py lines 656-710. -/
noncomputable def degradation (diameter fe : ℝ) : ℝ :=
  smoothBroken (diameter / 2) (kdmare 0.5e3 fe / (1 + (2.0 - 1.2) / 2.0) ^ (2 : ℝ)) 0.5e3 2.0 1.2 1.0

/-- Sub-pixel degradation not yet applied (`_Kdiff`), with all that was applied so far. Belongs to `basicmoon.py` lines 582-594. -/
structure SubPixel where
  /-- `_Kdiff` per face. -/
  pending : ℕ → ℝ
  /-- The diffusivities handed to `apply_diffusion`, most recent first. -/
  applied : List (ℕ → ℝ)

/-- `apply_subpixel_degradation`, basicmoon.py lines 582-594. -/
def SubPixel.apply (s : SubPixel) : SubPixel := ⟨fun _ => 0, s.pending :: s.applied⟩

open Classical in
/-- `compute_subpixel_degradation`, basicmoon.py lines 527-580, for a mesh of `n` faces: `delta` is what the
integration over the production function gives for each face, `area` the face areas. -/
noncomputable def SubPixel.compute (n : ℕ) (area : ℕ → ℝ) (s : SubPixel) (delta : ℕ → ℝ) : SubPixel :=
  let t : SubPixel := ⟨fun f => s.pending f + delta f, s.applied⟩
  if ∃ f < n, 1 < t.pending f / area f then t.apply else t

end Verif.Profile
