import Verif.Model.Points

/-!
# Where a crater is placed

Models how `Crater.maker` finds the location and measured location of the crater it makes
(`cratermaker/components/crater/__init__.py`, lines 775-788, 858, 893-901, 924-927, 946, 1013, 1115-1116, 1127-1130 and 134-135) and the argument
`relative_location` of `MorphologyCrater.maker` (`cratermaker/components/morphology/__init__.py`, lines 177-187).
-/

namespace Verif.Place

open Location Points

/-- The exceptions. Belongs to `hireslocal.py` lines 698-699. -/
inductive Err
  | type
  | value
  | index
  | key
  deriving DecidableEq, Repr

/-- The exceptions of the functions of locations. Belongs to `morphology/__init__.py` lines 181-183. -/
def lift : Location.Err → Err
  | .typeError => .type
  | .valueError => .value
  | .indexError => .index

/-- The entry `reference_location` of the dictionary: not there, `None`, or a location. Belongs to `hireslocal.py` lines 698-699. -/
inductive RefKey
  | absent
  | null
  | given (a : LocArg)

/-- The dictionary `relative_location`; `others` tells whether it has other keys.  Simplification: distances and bearings are numbers (lists of
one) or lists of numbers. Belongs to `morphology/__init__.py` lines 181-183. -/
structure Rel where
  distance : Option (List ℝ)
  bearing : Option (List ℝ)
  ref : RefKey
  others : Bool

/-- The reference location, `hireslocal.py` lines 698-699 and `surface/__init__.py` lines 1006-1011: a surface without a local region (`none`)
has no default for the argument, so leaving it out is a `TypeError`. -/
def refArg (centre : Option (ℝ × ℝ)) : RefKey → Except Err (Option LocArg)
  | .absent =>
    match centre with
    | some p => .ok (some (.flat [p.1, p.2]))
    | none => .error .type
  | .null =>
    match centre with
    | some p => .ok (some (.flat [p.1, p.2]))
    | none => .ok none
  | .given a => .ok (some a)

/-- `morphology.surface.compute_location_from_distance_bearing(**relative_location)`, `morphology/__init__.py` lines 181-183.  The full view of the
surface is not local, so its default location is `none`. -/
noncomputable def relative (radius : ℝ) (centre : Option (ℝ × ℝ)) (r : Rel) : Except Err LocArg :=
  match r.distance, r.bearing with
  | some d, some b =>
    if r.others then .error .type
    else
      match refArg centre r.ref with
      | .error e => .error e
      | .ok ref =>
        match computeLocations radius none d b ref with
        | .error e => .error (lift e)
        | .ok l => .ok (LocRes.arg l)
  | _, _ => .error .type

/-- `crater/__init__.py` lines 782-788: `location` or else `projectile_location`; both are refused when redundant arguments are checked. -/
def orProjectile (check : Bool) (location projectile : Option LocArg) : Except Err (Option LocArg) :=
  match location with
  | none => .ok projectile
  | some a => if check && projectile.isSome then .error .value else .ok (some a)

/-- `crater/__init__.py` lines 775-788. -/
def chosen (check : Bool) (location : Option LocArg) (longitude latitude : Option ℝ) (projectile : Option LocArg) :
    Except Err (Option LocArg) :=
  match longitude, latitude with
  | some x, some y =>
    if check && (location.isSome || projectile.isSome) then .error .value
    else orProjectile check (some (.flat [x, y])) projectile
  | none, none => orProjectile check location projectile
  | _, _ => .error .value

/-- `(float(location[0]), float(location[1]))`, `crater/__init__.py` line 1127: only the first two entries matter. -/
def entries : LocArg → Except Err (ℝ × ℝ)
  | .flat (x :: y :: _) => .ok (x, y)
  | .flat _ => .error .index
  | .rows [] => .error .index
  | .rows _ => .error .type
  | .array2 [] => .error .index
  | .array2 _ => .error .type
  | .dict _ _ => .error .key

/-- The crater that is given as a pattern, with its two locations. Belongs to `crater/__init__.py` lines 891-895. -/
structure Old where
  location : ℝ × ℝ
  measured : Option (ℝ × ℝ)

/-- The two locations of the crater made. Belongs to `crater/__init__.py` lines 1115-1116. -/
structure Placed where
  location : ℝ × ℝ
  measured : ℝ × ℝ

/-- `crater/__init__.py` lines 1115-1116 and 1127-1130 and the setter of the measured location (lines 134-135 and 324), which normalises.  Simplification: the
measured location is a pair of numbers. -/
noncomputable def finish (location : ℝ × ℝ) (measured : Option (ℝ × ℝ)) : Placed :=
  ⟨location, normalizeCoords (measured.getD location)⟩

/-- A crater made through a projectile, lines 988 and 1013: the location of the projectile is the one given, normalised
(`projectile/__init__.py` lines 343-348 and 433), or else its `own`: a random one, the one it has, or (0, 0).  Several locations cannot be made
numbers (line 1127). -/
noncomputable def fresh (own : ℝ × ℝ) (measured : Option (ℝ × ℝ)) : Option LocArg → Except Err Placed
  | none => .ok (finish own measured)
  | some l =>
    match validateLocation l with
    | .error e => .error (lift e)
    | .ok (.many _) => .error .type
    | .ok (.one p) => .ok (finish p measured)

/-- A copy, `crater/__init__.py` lines 946, 965 and 1115-1130: the location is taken as it is, and the measured location is the one of the pattern unless given. -/
noncomputable def copied (old measured : Option (ℝ × ℝ)) : Option LocArg → Except Err Placed
  | none => .error .type
  | some l =>
    match entries l with
    | .error e => .error e
    | .ok p => .ok (finish p (measured.or old))

/-- The location of the pattern, unless there is another one, `crater/__init__.py` lines 891-895 and 924-927. -/
def orOld (old : Option Old) : Option LocArg → Option LocArg
  | some l => some l
  | none => old.map fun o => .flat [o.location.1, o.location.2]

/-- `Crater.maker`.  `sized` tells whether the size of the crater is given, once (`crater/__init__.py` lines 929-933).  Simplification: all that concerns other
attributes is left out. -/
noncomputable def make (check sized : Bool) (old : Option Old) (own : ℝ × ℝ) (location : Option LocArg) (longitude latitude : Option ℝ)
    (projectile : Option LocArg) (measured : Option (ℝ × ℝ)) : Except Err Placed :=
  match chosen check location longitude latitude projectile with
  | .error e => .error e
  | .ok l =>
    if sized then fresh own measured (orOld old l)
    else if check && old.isNone then .error .value
    else copied (old.bind Old.measured) measured (orOld old l)

/-- `MorphologyCrater.maker`, `morphology/__init__.py` lines 178-187. -/
noncomputable def makeRel (radius : ℝ) (centre : Option (ℝ × ℝ)) (rel : Option Rel) (check sized : Bool) (old : Option Old) (own : ℝ × ℝ)
    (location : Option LocArg) (longitude latitude : Option ℝ) (projectile : Option LocArg) (measured : Option (ℝ × ℝ)) : Except Err Placed :=
  match rel with
  | none => make check sized old own location longitude latitude projectile measured
  | some r =>
    if location.isSome && check then .error .value
    else
      match relative radius centre r with
      | .error e => .error e
      | .ok l => make check sized old own (some l) longitude latitude projectile measured

end Verif.Place
