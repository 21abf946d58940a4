import Mathlib.Data.Real.Basic
import Mathlib.Algebra.BigOperators.Group.List.Basic
import Mathlib.Algebra.Order.Archimedean.Real.Basic

/-!
Model of the measurements of a crater on the surface: floor and rim elevation
(`crates/cratermaker-components/src/counting/mod.rs`, lines 13-112), the reference plane that is subtracted before
(`cratermaker/components/surface/__init__.py`, lines 2566-2642 and 4533-4538), and the loop of the rim fit
(`crates/cratermaker-py/src/counting_bindings.rs`, lines 213-316).  Floats are reals; an elevation that is NaN is `none`.
-/

namespace Verif.Measure

/-! ### Floor and rim -/

/-- A face of the crater's region: the crater ids in its layers, its elevation and its distance from the crater's centre. Belongs to `counting/mod.rs` lines 13-26. -/
structure Face where
  ids : List ℕ
  elev : Option ℝ
  dist : ℝ

/-- `mask_crater_faces`, `counting/mod.rs` lines 13-26, for one face. -/
def tagged (id : ℕ) (f : Face) : Bool := f.ids.contains id

/-- `filter_crater_faces` applied to the elevations, `counting/mod.rs` lines 28-43: NaN values are dropped. -/
def keptElev (id : ℕ) (fs : List Face) : List ℝ := fs.filterMap fun f => if tagged id f then f.elev else none

/-- `filter_crater_faces` applied to the distances, which are never NaN. Belongs to `counting/mod.rs` lines 45-77. -/
def keptDist (id : ℕ) (fs : List Face) : List ℝ := fs.filterMap fun f => if tagged id f then some f.dist else none

/-- The average of the elevations for which the distance at the same place of the other list satisfies `p`, `counting/mod.rs` lines 62-76
and 97-111; `none` is the error "no valid faces". -/
noncomputable def average (p : ℝ → Prop) (elev dist : List ℝ) : Option ℝ :=
  open Classical in
  let sel := ((elev.zip dist).filter fun x => decide (p x.2)).map (·.1)
  if sel.length = 0 then none else some (sel.sum / sel.length)

/-- `measure_floor_depth`, `counting/mod.rs` lines 45-77: faces up to 0.2 radii. -/
noncomputable def floorDepth (id : ℕ) (radius : ℝ) (fs : List Face) : Option ℝ :=
  average (fun d => d ≤ 0.2 * radius) (keptElev id fs) (keptDist id fs)

/-- `measure_rim_height`, `counting/mod.rs` lines 79-112: faces from 0.95 to 1.2 radii. -/
noncomputable def rimHeight (id : ℕ) (radius : ℝ) (fs : List Face) : Option ℝ :=
  average (fun d => 0.95 * radius ≤ d ∧ d ≤ 1.2 * radius) (keptElev id fs) (keptDist id fs)

/-- `f64::MAX`. Belongs to `morphology/__init__.py` lines 337-349. -/
noncomputable def floatMax : ℝ := (2 - 1 / 2 ^ 52) * 2 ^ 1023

/-- `measured_depth_to_diameter`, `morphology/__init__.py` lines 337-349, for a crater with a region.  The bindings
(`counting_bindings.rs` lines 8-42) turn a failed measurement into the largest or lowest float. -/
noncomputable def depthToDiameter (id : ℕ) (radius : ℝ) (fs : List Face) : ℝ :=
  ((rimHeight id radius fs).getD (-floatMax) - (floorDepth id radius fs).getD floatMax) / (2 * radius)

/-! ### Reference plane -/

/-- A point of the region: projected position, elevation, distance. Belongs to `surface/__init__.py` lines 2603-2606. -/
structure Point where
  x : ℝ
  y : ℝ
  z : ℝ
  dist : ℝ

/-- Sum of squares that `np.linalg.lstsq` minimises, `surface/__init__.py` lines 2603-2606. -/
noncomputable def misfit (ps : List Point) (c : ℝ × ℝ × ℝ) : ℝ :=
  (ps.map fun p => (c.1 * p.x + c.2.1 * p.y + c.2.2 - p.z) ^ 2).sum

/-- `get_reference_surface(only_faces=True)`, `surface/__init__.py` lines 2611-2642: the points within the radius get the elevation of the
fitted plane, the others keep theirs; with fewer than five points nothing is fitted.  `lstsq` is numpy's solver. -/
noncomputable def reference (lstsq : List Point → ℝ × ℝ × ℝ) (radius : ℝ) (ps : List Point) : List ℝ :=
  open Classical in
  let sel := ps.filter fun p => decide (p.dist ≤ radius)
  if sel.length < 5 then ps.map (·.z)
  else
    let c := lstsq sel
    ps.map fun p => if p.dist ≤ radius then c.1 * p.x + c.2.1 * p.y + c.2.2 else p.z

/-- `compute_desloped_face_elevation`, `surface/__init__.py` lines 4533-4538. -/
noncomputable def desloped (lstsq : List Point → ℝ × ℝ × ℝ) (radius : ℝ) (ps : List Point) : List ℝ :=
  List.zipWith (fun p r => p.z - r) ps (reference lstsq radius ps)

/-! ### The loop of the rim fit -/

/-- The attributes of the crater that the loop reads or changes.  `Loc` is the type of locations. Belongs to `counting_bindings.rs` lines 238-244. -/
structure Rim (Loc : Type) where
  location : Loc
  semimajor : ℝ
  semiminor : ℝ
  orientation : ℝ
  /-- `measured_radius`, which the loop does not change. -/
  measuredRadius : ℝ
  /-- `radius`. -/
  radius : ℝ

/-- Result of one fit. Belongs to `counting_bindings.rs` lines 287-291. -/
structure FitResult (Loc : Type) where
  location : Loc
  a : ℝ
  b : ℝ
  o : ℝ

/-- `_FITTING_RADIUS_RATIO` times the measured radius: the extent of the region that is looked at, `counting_bindings.rs` lines 238-244. -/
def fitExtent {Loc : Type} (ratio : ℝ) (c : Rim Loc) : ℝ := ratio * c.measuredRadius

/-- Has the fit settled, `counting_bindings.rs` lines 287-291? -/
def settled {Loc : Type} (tol : ℝ) (c : Rim Loc) (r : FitResult Loc) : Prop :=
  |r.a - c.semimajor| / c.radius < tol ∧ |r.b - c.semiminor| / c.radius < tol

/-- The loop `counting_bindings.rs` lines 234-301 with `i` the number of passes done and `k` a bound for those left; `fit` is one fit, for the number
of the pass (which sets the weights), the extent and the crater.  Result: the passes made (extent, crater before, fit). -/
noncomputable def fitLoop {Loc : Type} (ratio tol : ℝ) (nloops : ℕ) (fit : ℕ → ℝ → Rim Loc → FitResult Loc) :
    ℕ → ℕ → Rim Loc → List (ℝ × Rim Loc × FitResult Loc)
  | 0, _, _ => []
  | k + 1, i, c =>
    let r := fit i (fitExtent ratio c) c
    open Classical in
    (fitExtent ratio c, c, r) ::
      if settled tol c r then []
      else if i + 1 ≥ nloops then []
      else fitLoop ratio tol nloops fit k (i + 1)
        { c with location := r.location, semimajor := r.a, semiminor := r.b, orientation := r.o * (180 / 3.141592653589793) }

/-- `fit_rim`, `counting_bindings.rs` lines 213-316: the passes made; the result is the last fit.  The loop always ends, after at most
`max 1 nloops` passes, so that this many are allowed for. -/
noncomputable def fitRim {Loc : Type} (ratio tol : ℝ) (nloops : ℕ) (fit : ℕ → ℝ → Rim Loc → FitResult Loc) (c : Rim Loc) :
    List (ℝ × Rim Loc × FitResult Loc) :=
  fitLoop ratio tol nloops fit (nloops + 1) 0 c

end Verif.Measure
