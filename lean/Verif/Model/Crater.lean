import Mathlib.Analysis.SpecialFunctions.Pow.Real
import Mathlib.Analysis.SpecialFunctions.Trigonometric.Basic

/-!
Model of `cratermaker/components/crater/__init__.py`: measured axes, derived geometry, size
arguments of `Crater.maker`, copying, the text the id is made of, splitting tuples into columns and
attribute assignment.  Lengths are exact reals.
-/

namespace Verif.Crater

/-! ### Measured axes (`CraterVariable`, lines 205-291) -/

/-- `_measured_semimajor_axis` and `_measured_semiminor_axis`, set to None in `crater/__init__.py` lines 111-112. -/
structure Axes where
  major : Option ℝ
  minor : Option ℝ

/-- `measured_semimajor_axis` setter, `crater/__init__.py` lines 251-263; `none` on the outside is the ValueError. -/
noncomputable def setMajor (s : Axes) : Option ℝ → Option Axes
  | none => some { s with major := none }
  | some v =>
    if v ≤ 0 then none
    else match s.minor with
      | some m => if v < m then some ⟨some m, some v⟩ else some { s with major := some v }
      | none => some { s with major := some v }

/-- `measured_semiminor_axis` setter, `crater/__init__.py` lines 274-291. -/
noncomputable def setMinor (s : Axes) : Option ℝ → Option Axes
  | none => some { s with minor := none }
  | some v =>
    if v ≤ 0 then none
    else match s.major with
      | some M => if M < v then some ⟨some v, some M⟩ else some { s with minor := some v }
      | none => some { s with minor := some v }

/-- `measured_radius` setter, `crater/__init__.py` lines 232-240: both axes in turn.  (The first assignment is the only one
that can raise, so an error leaves the state as it was.) -/
noncomputable def setRadius (s : Axes) (v : Option ℝ) : Option Axes :=
  (setMajor s v).bind fun s' => setMinor s' v

/-- `measured_diameter` setter, `crater/__init__.py` lines 213-219. -/
noncomputable def setDiameter (s : Axes) : Option ℝ → Option Axes
  | none => setRadius s none
  | some v => setRadius s (some (v / 2))

/-- `measured_radius` getter, `crater/__init__.py` lines 222-230. -/
noncomputable def radius (s : Axes) : Option ℝ :=
  match s.major, s.minor with
  | some M, some m => some (Real.sqrt (M * m))
  | _, _ => none

/-- `measured_diameter` getter, `crater/__init__.py` lines 208-211. -/
noncomputable def diameter (s : Axes) : Option ℝ := (radius s).map (· * 2)

/-- One assignment by the user. Belongs to `crater/__init__.py` lines 93-421. -/
inductive Assign where
  | major (v : Option ℝ)
  | minor (v : Option ℝ)
  | radius (v : Option ℝ)
  | diameter (v : Option ℝ)

/-- The setter that an assignment calls. Belongs to `crater/__init__.py` lines 93-421. -/
noncomputable def assign (s : Axes) : Assign → Option Axes
  | .major v => setMajor s v
  | .minor v => setMinor s v
  | .radius v => setRadius s v
  | .diameter v => setDiameter s v

/-- A history of assignments, where the caller catches the exceptions of rejected ones. Belongs to `crater/__init__.py` lines 93-421. -/
noncomputable def history (s : Axes) : List Assign → Axes
  | [] => s
  | a :: as => history ((assign s a).getD s) as

/-- What `Counting.fit_rim` does with the fitted axes `ap` and `bp`,
`cratermaker/components/counting/__init__.py:283-284`. -/
noncomputable def storeFit (s : Axes) (ap bp : ℝ) : Option Axes :=
  (setMajor s (some ap)).bind fun s' => setMinor s' (some bp)

/-! ### Fixed attributes -/

/-- The part of `CraterFixed` with derived fields, `crater/__init__.py` lines 31-90 (all inputs present). -/
structure Fixed where
  major : ℝ
  minor : ℝ
  transientDiameter : ℝ
  projectileDiameter : ℝ
  projectileVelocity : ℝ
  projectileAngle : ℝ
  projectileMass : ℝ

/-- `radius`, `crater/__init__.py` line 75. -/
noncomputable def Fixed.radius (f : Fixed) : ℝ := Real.sqrt (f.major * f.minor)
/-- `diameter`, `crater/__init__.py` line 76. -/
noncomputable def Fixed.diameter (f : Fixed) : ℝ := f.radius * 2
/-- `projectile_density`, `crater/__init__.py` lines 79-84. -/
noncomputable def Fixed.projectileDensity (f : Fixed) : ℝ :=
  3 * f.projectileMass / (4 * Real.pi * (f.projectileDiameter / 2) ^ 3)
/-- `projectile_vertical_velocity`, `crater/__init__.py` lines 85-88. -/
noncomputable def Fixed.verticalVelocity (f : Fixed) : ℝ :=
  f.projectileVelocity * Real.sin (f.projectileAngle * Real.pi / 180)

/-- The size arguments of `Crater.maker`, `crater/__init__.py` lines 573-587. -/
structure SizeArgs where
  diameter : Option ℝ := none
  radius : Option ℝ := none
  finalDiameter : Option ℝ := none
  finalRadius : Option ℝ := none
  transientDiameter : Option ℝ := none
  transientRadius : Option ℝ := none
  major : Option ℝ := none
  minor : Option ℝ := none
  projectileDiameter : Option ℝ := none
  projectileRadius : Option ℝ := none
  projectileMass : Option ℝ := none

/-- The one size that defines the crater. Belongs to `crater/__init__.py` lines 765-808. -/
inductive Size where
  | axes (a b : ℝ)
  | transient (d : ℝ)
  | projectile (d : ℝ)
  | mass (m : ℝ)

/-- The semimajor and semiminor axes after `crater/__init__.py` lines 765-808, with the default
`check_redundant_inputs = True`: aliases (766-769), radius and diameter together rejected (770-772),
single axis (792-796), axes together with a radius or diameter rejected (797-800), circles
(801-808).  `none` is the ValueError. -/
noncomputable def resolveAxes (s : SizeArgs) : Option (Option ℝ × Option ℝ) :=
  let d := s.finalDiameter.orElse fun _ => s.diameter
  let r := s.finalRadius.orElse fun _ => s.radius
  if r.isSome && d.isSome then none
  else
    match s.major, s.minor with
    | none, none =>
      match r, d with
      | some r, _ => some (some r, some r)
      | none, some d => some (some (d / 2), some (d / 2))
      | none, none => some (none, none)
    | some a, some b => if d.isSome || r.isSome then none else some (some a, some b)
    -- one axis: `radius` is set to it in line 794, so that the check in line 797 raises
    | some _, none => none
    | none, some _ => none

/-- The number of size inputs, `crater/__init__.py` lines 837-844 and 887. -/
def countSizes (a : Option ℝ) (s : SizeArgs) : ℕ :=
  ([a, s.transientDiameter, s.transientRadius, s.projectileDiameter, s.projectileRadius,
    s.projectileMass].filter Option.isSome).length

/-- The size arguments of a new crater (no crater to copy from): `crater/__init__.py` lines 765-808, the check in lines
929-933, and the choice among the sizes in lines 1019-1063.  `none` is the ValueError. -/
noncomputable def resolveSize (s : SizeArgs) : Option Size :=
  match resolveAxes s with
  | none => none
  | some (a, b) =>
    if countSizes a s ≠ 1 then none
    else match a, b with
      | some a, some b => some (.axes a b)
      | _, _ =>
        match s.transientRadius, s.transientDiameter with
        | some r, _ => some (.transient (2 * r))
        | none, some d => some (.transient d)
        | none, none =>
          match s.projectileRadius, s.projectileDiameter with
          | some r, _ => some (.projectile (2 * r))
          | none, some d => some (.projectile d)
          | none, none => s.projectileMass.map .mass

/-- The scaling functions used by the maker (external here, modelled in `Scaling`):
`final_to_transient`, `transient_to_final`, `transient_to_projectile`, `projectile_to_transient`. Belongs to `crater/__init__.py` lines 1019-1063. -/
structure ScalingFns where
  finalToTransient : ℝ → ℝ
  transientToFinal : ℝ → ℝ
  transientToProjectile : ℝ → ℝ
  projectileToTransient : ℝ → ℝ

/-- The radius of a projectile of mass `m` and density `rho`, `crater/__init__.py` line 1059. -/
noncomputable def radiusOfMass (m rho : ℝ) : ℝ := (3 * m / (4 * Real.pi * rho)) ^ ((1 : ℝ) / 3)

/-- Final, transient and projectile diameter from the one size, `crater/__init__.py` lines 1019-1063. -/
noncomputable def diameters (S : ScalingFns) (rho : ℝ) : Size → ℝ × ℝ × ℝ
  | .axes a b =>
    let fd := 2 * Real.sqrt (a * b)
    let td := S.finalToTransient fd
    (fd, td, S.transientToProjectile td)
  | .transient td => (S.transientToFinal td, td, S.transientToProjectile td)
  | .projectile pd =>
    let td := S.projectileToTransient pd
    (S.transientToFinal td, td, pd)
  | .mass m =>
    let pd := 2 * radiusOfMass m rho
    let td := S.projectileToTransient pd
    (S.transientToFinal td, td, pd)

/-- The axes of the result, `crater/__init__.py` lines 1069-1072. -/
noncomputable def axesOf (S : ScalingFns) (rho : ℝ) : Size → ℝ × ℝ
  | .axes a b => (a, b)
  | s => let fd := (diameters S rho s).1; (fd / 2, fd / 2)

/-- The fixed attributes of a new crater from its size, the projectile's density, velocity and angle,
`crater/__init__.py` lines 1019-1079; `none` is the ValueError of lines 1074-1079 (the domain error of `math.sqrt` in
line 1026 included). -/
noncomputable def makeFixed (S : ScalingFns) (rho vel ang : ℝ) (s : Size) : Option Fixed :=
  let (a, b) := axesOf S rho s
  let (_, td, pd) := diameters S rho s
  if a * b < 0 ∨ a < 0 ∨ b < 0 ∨ td < 0 ∨ pd < 0 ∨ vel < 0 ∨ rho < 0 then none
  else some ⟨a, b, td, pd, vel, ang, 4 / 3 * Real.pi * (pd / 2) ^ 3 * rho⟩

/-- `Crater.maker(crater=c, ...)` with one new size: the old values of the size arguments are dropped
(`crater/__init__.py` lines 902-905), but `semiminor_axis` is not among them, so it is taken from the old crater
(lines 925-927) when the new size is not a final size. -/
noncomputable def axesOfCopy (S : ScalingFns) (rho oldMinor : ℝ) : Size → ℝ × ℝ
  | .axes a b => (a, b)
  | s => ((diameters S rho s).1 / 2, oldMinor)

/-- The fixed attributes of a copy with a new size, `crater/__init__.py` lines 1019-1079. -/
noncomputable def makeFixedCopy (S : ScalingFns) (rho vel ang oldMinor : ℝ) (s : Size) : Option Fixed :=
  let (a, b) := axesOfCopy S rho oldMinor s
  let (_, td, pd) := diameters S rho s
  if a * b < 0 ∨ a < 0 ∨ b < 0 ∨ td < 0 ∨ pd < 0 ∨ vel < 0 ∨ rho < 0 then none
  else some ⟨a, b, td, pd, vel, ang, 4 / 3 * Real.pi * (pd / 2) ^ 3 * rho⟩

/-! ### Copies -/

/-- The attributes of a crater that a copy carries along: `f` for each attribute other than the name.
Values are opaque. Belongs to `crater/__init__.py` lines 890-927. -/
structure Record (K V : Type) where
  f : K → Option V
  name : Option V

/-- `Crater.maker(crater=c, ...)` without a size argument: old values fill the arguments that are
None (`crater/__init__.py` lines 890-927), and then the copy branch takes the name from the collected arguments
(line 965), which never include the `name` argument (lines 847-885).  Simplification: every attribute is on its own; the velocities, the
density and the direction, which depend on each other, are in `Impact.lean`, the measured sizes in `CraterCopy.lean`. -/
def copyWith {K V : Type} (old : Record K V) (new : Record K V) : Record K V where
  f k := (new.f k).orElse fun _ => old.f k
  name := match new.name with
    | none => old.name
    | some _ => none

/-- `Crater.maker(..., check_redundant_inputs=False)` with more than one size, as done when craters
are loaded from a file (`crater/__init__.py` lines 1305 and 1382): the copy branch without an old crater. -/
def loadRecord {K V : Type} (new : Record K V) : Record K V where
  f := new.f
  name := none

/-! ### The text the id is made of -/

/-- `_set_id`, `crater/__init__.py` lines 736-763: the attributes in the order of `id_args`, without the missing ones,
formatted and joined without a separator. -/
def idText (parts : List (Option (List Char))) : List Char := (parts.filterMap id).flatten

/-! ### Assigning attributes -/

/-- A `Crater`: its `_fixed` and `_var` parts as attributes by name, `crater/__init__.py` lines 424-460. -/
structure Obj (V : Type) where
  fixed : String → Option V
  var : String → Option V

/-- `Crater.__setattr__`, `crater/__init__.py` lines 474-490, for names other than the internal ones (`_fixed`,
`_var`, `_fixed_fields` and `_var_fields`, line 480); `fixedNames` are the
fields of `CraterFixed`, `settable` the names that the variable part has.  Validation inside the
setters is modelled by `setter` (`none`: the setter raises).  The outer `none` is an exception. -/
def setattr {V : Type} (fixedNames settable : List String) (setter : (String → Option V) → String → V →
    Option (String → Option V)) (c : Obj V) (name : String) (v : V) : Option (Obj V) :=
  if name ∈ fixedNames then none
  else if name ∈ settable then (setter c.var name v).map fun var => { c with var := var }
  else some c

/-- A history of assignments with the exceptions caught. Belongs to `crater/__init__.py` lines 474-490. -/
def setattrs {V : Type} (fixedNames settable : List String) (setter : (String → Option V) → String → V →
    Option (String → Option V)) (c : Obj V) : List (String × V) → Obj V
  | [] => c
  | (n, v) :: rest => setattrs fixedNames settable setter
      ((setattr fixedNames settable setter c n v).getD c) rest

/-! ### Tuples and columns -/

/-- A Python value in a crater dictionary: None, a scalar (never the empty string here) or a tuple. Belongs to `crater/__init__.py` lines 1442-1443. -/
inductive Val where
  | none
  | num (x : ℝ)
  | tup (l : List Val)

/-- A Python dict with string keys. Belongs to `crater/__init__.py` line 1413. -/
abbrev Dict := String → Option Val

/-- `d[k] = v`. Belongs to `crater/__init__.py` lines 765-808. -/
def Dict.set (d : Dict) (k : String) (v : Val) : Dict := fun j => if j = k then some v else d j
/-- `d.pop(k, None)`. Belongs to `crater/__init__.py` line 1431. -/
def Dict.del (d : Dict) (k : String) : Dict := fun j => if j = k then Option.none else d j

/-- The filter that builds `new_dict`, `crater/__init__.py` line 1413: entries that are None are left out. -/
def Dict.present (d : Dict) : Dict := fun k =>
  match d k with
  | some .none => Option.none
  | o => o

/-- `tuple_map`, `crater/__init__.py` lines 1407-1412. -/
def tupleMap : List (String × List String) :=
  [("location", ["longitude", "latitude"]),
   ("measured_location", ["measured_longitude", "measured_latitude"]),
   ("production_ND", ["production_D", "production_N", "production_N_stdev"]),
   ("production_time", ["production_time", "production_time_stdev"])]

/-- `new_dict[var] = input_dict[tup][idx]` for all columns, `crater/__init__.py` lines 1442-1443; `none`: the tuple has too
few entries (IndexError). -/
def setCols (d : Dict) : List String → List Val → Option Dict
  | [], _ => some d
  | _ :: _, [] => Option.none
  | c :: cs, v :: vs => setCols (d.set c v) cs vs

/-- The loop of `_convert_tuple_vars(inverse=False)`, `crater/__init__.py` lines 1431 and 1439-1443; a None where a tuple
is expected raises (TypeError). -/
def splitLoop (input : Dict) : Dict → List (String × List String) → Option Dict
  | new, [] => some new
  | new, (t, cols) :: rest =>
    match input t with
    | Option.none => splitLoop input new rest
    | some (.tup l) => (setCols (new.del t) cols l).bind fun d => splitLoop input d rest
    | some _ => Option.none

/-- `_convert_tuple_vars(d, inverse=False)`. Belongs to `crater/__init__.py` lines 1406-1444. -/
def split (d : Dict) : Option Dict := splitLoop d d.present tupleMap

/-- `nstdev is None` becomes 0, `crater/__init__.py` lines 1420-1422 and 1426-1428 (`pop` with default 0.0). -/
def orZero : Option Val → Val
  | Option.none => .num 0
  | some .none => .num 0
  | some v => v

/-- Replace entry `i` of a tuple. Belongs to `crater/__init__.py` lines 1436-1438. -/
def Val.setAt : Val → ℕ → Val → Val
  | .tup l, i, v => .tup (l.set i v)
  | w, _, _ => w

/-- The inner loop of the inverse, `crater/__init__.py` lines 1436-1438. -/
def fillCols (input : Dict) (t : String) : Dict → ℕ → List String → Dict
  | new, _, [] => new
  | new, i, c :: cs =>
    let new' := if c ≠ t then
        match input c, new t with
        | Option.none, _ => new
        | some .none, _ => new
        | some v, some w => new.set t (w.setAt i v)
        | some _, Option.none => new
      else new
    fillCols input t new' (i + 1) cs

/-- The loop of the inverse, `crater/__init__.py` lines 1431-1438. -/
def joinLoop (input : Dict) : Dict → List (String × List String) → Dict
  | new, [] => new
  | new, (t, cols) :: rest =>
    let new' := if cols.any (fun c => (input c).isSome) then
        fillCols input t (if (input t).isNone then new.set t (.tup (cols.map fun _ => .none)) else new) 0 cols
      else new
    joinLoop input new' rest

/-- The number pair part of the inverse, `crater/__init__.py` lines 1417-1423: the input loses the columns, the output
gains the tuple. -/
def joinND (p : Dict × Dict) : Dict × Dict :=
  match p.1 "production_D", p.1 "production_N" with
  | some D, some N =>
    (((p.1.del "production_D").del "production_N").del "production_N_stdev",
      p.2.set "production_ND" (.tup [D, N, orZero (p.1 "production_N_stdev")]))
  | _, _ => p

/-- The time part of the inverse, `crater/__init__.py` lines 1424-1429. -/
def joinTime (p : Dict × Dict) : Dict × Dict :=
  match p.1 "production_time" with
  | some t =>
    ((p.1.del "production_time").del "production_time_stdev",
      p.2.set "production_time" (.tup [t, orZero (p.1 "production_time_stdev")]))
  | Option.none => p

/-- `_convert_tuple_vars(d, inverse=True)`, `crater/__init__.py` lines 1413-1438. -/
def join (d : Dict) : Dict :=
  let p := joinTime (joinND (d, d.present))
  joinLoop p.1 p.2 tupleMap

/-! ### CSV -/

/-- A row of `to_csv_file`: the value of each column of the header, empty (`none`) when the crater has
no such entry, `cratermaker/components/counting/__init__.py:1404-1409`. -/
def csvRow (header : List String) (d : String → Option ℝ) : List (Option ℝ) := header.map d

/-- `f(**args, **kwargs)`: a key that occurs twice is a TypeError. Belongs to `crater/__init__.py` lines 1134-1136. -/
def callKw {V : Type} (args kwargs : List (String × V)) : Option (List (String × V)) :=
  if args.any (fun a => kwargs.any (fun b => a.1 = b.1)) then none else some (args ++ kwargs)

/-- The end of `Crater.maker`, `crater/__init__.py` lines 1134-1136: the id is computed and the leftover keyword arguments
are passed on. -/
def finish {V : Type} (hash : List (String × V) → V) (args kwargs : List (String × V)) :
    Option (List (String × V)) :=
  callKw (args ++ [("id", hash args)]) kwargs

end Verif.Crater
