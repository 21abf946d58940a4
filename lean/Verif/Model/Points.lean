import Verif.Model.Location
import Verif.Model.Sphere

/-!
# Distances and bearings of several points

Models `LocalSurface.compute_distances`, `compute_bearings` and `compute_location_from_distance_bearing`
(`cratermaker/components/surface/__init__.py`, lines 3843-3859, 3881-3893 and 3918-3933) with the loops over the points
(`crates/cratermaker-components/src/surface/mod.rs`, lines 517-536, 566-587 and 624-642).  `Surface` calls these with the full view
(lines 956-1034).  Angles are in degrees here.
-/

namespace Verif.Points

open Location Sphere

/-- The location that distances refer to, `surface/__init__.py` lines 3843-3851: the one given, otherwise the centre of the region; for a whole surface it must be given.
Simplification: several locations in place of one are an error, as in Python, with the error left open. -/
noncomputable def reference (centre : Option (ℝ × ℝ)) : Option LocArg → Except Err (ℝ × ℝ)
  | some a =>
    match validateLocation a with
    | .ok (.one p) => .ok p
    | .ok (.many _) => .error .valueError
    | .error e => .error e
  | none =>
    match centre with
    | some p => .ok (normalizeCoords p)
    | none => .error .valueError

/-- `np.radians` of the locations with `surface/__init__.py` lines 3855-3856: one location becomes a list of one. -/
def LocRes.list : LocRes → List (ℝ × ℝ)
  | .one p => [p]
  | .many ps => ps

/-- `compute_distances` with `validate=True`. Belongs to `surface/__init__.py` lines 3816-3859. -/
noncomputable def computeDistances (radius : ℝ) (centre : Option (ℝ × ℝ)) (locations : LocArg) (ref : Option LocArg) : Except Err (List ℝ) :=
  if ref = none ∧ centre = none then .error .valueError
  else
    match validateLocation locations with
    | .error e => .error e
    | .ok l =>
      match reference centre ref with
      | .error e => .error e
      | .ok p => .ok ((LocRes.list l).map fun q => distance (rad p.1) (rad p.2) (rad q.1) (rad q.2) radius)

/-- The locations of `compute_bearings` as an array, `surface/__init__.py` lines 3886-3888 and 3891: they are not validated.  A dictionary cannot be made an array of
numbers; rows must be equally long and have at least two entries, of which the first two are used. -/
noncomputable def asRows : LocArg → Except Err (List (ℝ × ℝ))
  | .flat [x, y] => .ok [(x, y)]
  | .flat _ => .error .indexError
  | .rows [] => .error .indexError
  | .rows (r :: rs) =>
    if rs.all (fun s => s.length = r.length) then
      if 2 ≤ r.length then .ok ((r :: rs).map fun s => (s.getD 0 0, s.getD 1 0)) else .error .indexError
    else .error .valueError
  | .array2 rs => .ok rs
  | .dict _ _ => .error .typeError

/-- `compute_bearings`. Belongs to `surface/__init__.py` lines 3861-3893. -/
noncomputable def computeBearings (centre : Option (ℝ × ℝ)) (locations : LocArg) (ref : Option LocArg) : Except Err (List ℝ) :=
  if ref = none ∧ centre = none then .error .valueError
  else
    match asRows locations with
    | .error e => .error e
    | .ok l =>
      match reference centre ref with
      | .error e => .error e
      | .ok p => .ok (l.map fun q => deg (bearing (rad p.1) (rad p.2) (rad q.1) (rad q.2)))

/-- `compute_location_from_distance_bearing`; numbers are lists of one (`np.atleast_1d`, `surface/__init__.py` lines 3924-3925).  Arrays of more dimensions are left
out (refused in line 3928). -/
noncomputable def computeLocations (radius : ℝ) (centre : Option (ℝ × ℝ)) (distances bearings : List ℝ) (ref : Option LocArg) : Except Err LocRes :=
  match reference centre ref with
  | .error e => .error e
  | .ok p =>
    if bearings.length ≠ distances.length then .error .valueError
    else
      validateLocation (.array2 ((distances.zip bearings).map fun x =>
        let q := location (rad p.1) (rad p.2) x.1 (rad x.2) radius
        (deg q.1, deg q.2)))

/-- What is returned, as an argument: a tuple or a list of tuples. Belongs to `surface/__init__.py` lines 3843-3859. -/
def LocRes.arg : LocRes → LocArg
  | .one p => .flat [p.1, p.2]
  | .many ps => .rows (ps.map fun p => [p.1, p.2])

end Verif.Points
