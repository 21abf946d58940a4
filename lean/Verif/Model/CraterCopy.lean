import Verif.Model.Crater
import Verif.Model.Location

/-!
Model of the variable part of a crater, `CraterVariable` in `cratermaker/components/crater/__init__.py`: its
constructor, setters and `as_dict`, the copy made by `Crater.__init__`, and what `Crater.maker` does with measured
sizes.  Floats are reals.  Exceptions are `none`.
-/

namespace Verif.CraterCopy

open Verif.Crater (Axes setMajor setMinor setRadius setDiameter)

/-! ### The variable attributes -/

/-- The attributes of `CraterVariable`, `crater/__init__.py` lines 111-122. -/
structure Vars where
  /-- `_measured_semimajor_axis`, `_measured_semiminor_axis`. -/
  axes : Axes
  /-- `_measured_orientation`. -/
  orientation : Option ℝ
  /-- `_measured_location`. -/
  location : Option (ℝ × ℝ)
  /-- `_measured_rim_height`. -/
  rimHeight : Option ℝ
  /-- `_measured_floor_depth`. -/
  floorDepth : Option ℝ
  /-- `_degradation_state`. -/
  degradation : Option ℝ
  /-- `_production_time`. -/
  time : Option (ℝ × ℝ)
  /-- `_production_ND`. -/
  nd : Option (ℝ × ℝ × ℝ)
  /-- `_production_sequence`. -/
  sequence : Option ℤ
  /-- `_name`. -/
  name : Option String

/-- `crater/__init__.py` lines 111-122: nothing is set. -/
def Vars.empty : Vars := ⟨⟨none, none⟩, none, none, none, none, none, none, none, none, none⟩

/-- A value given for `production_time` or `production_ND`: a number or a sequence with possible None entries. Belongs to `crater/__init__.py` lines 382-392. -/
inductive Arg
  | num (x : ℝ)
  | seq (l : List (Option ℝ))

/-- `measured_orientation` setter, `crater/__init__.py` lines 302-308. -/
noncomputable def setOrientation (s : Vars) (v : Option ℝ) : Vars :=
  { s with orientation := v.map fun x => Verif.Location.pymod x 360 }

/-- `measured_location` setter, `crater/__init__.py` lines 314-325.  Simplification: a pair of numbers. -/
noncomputable def setLocation (s : Vars) (v : Option (ℝ × ℝ)) : Vars :=
  { s with location := v.map Verif.Location.normalizeCoords }

/-- `measured_rim_height` setter, `crater/__init__.py` lines 331-342. -/
def setRimHeight (s : Vars) (v : Option ℝ) : Vars := { s with rimHeight := v }

/-- `measured_floor_depth` setter, `crater/__init__.py` lines 353-359. -/
def setFloorDepth (s : Vars) (v : Option ℝ) : Vars := { s with floorDepth := v }

/-- `degradation_state` setter, `crater/__init__.py` lines 369-375. -/
def setDegradation (s : Vars) (v : Option ℝ) : Vars := { s with degradation := v }

/-- `production_time` setter, `crater/__init__.py` lines 382-392: None is ignored, a number has no deviation, a first entry None is
ignored; an error for another length or if the second entry is None. -/
def setTime (s : Vars) : Option Arg → Option Vars
  | none => some s
  | some (.num x) => some { s with time := some (x, 0) }
  | some (.seq [none, _]) => some s
  | some (.seq [some t, some d]) => some { s with time := some (t, d) }
  | some (.seq _) => none

/-- `production_ND` setter, `crater/__init__.py` lines 399-410: None is ignored; a pair has deviation zero; a first entry None is ignored; a
number has no length and is an error. -/
def setND (s : Vars) : Option Arg → Option Vars
  | none => some s
  | some (.seq [none, _]) => some s
  | some (.seq [none, _, _]) => some s
  | some (.seq [some d, some n]) => some { s with nd := some (d, n, 0) }
  | some (.seq [some d, some n, some e]) => some { s with nd := some (d, n, e) }
  | some _ => none

/-- `production_sequence` setter, `crater/__init__.py` lines 417-421: None is ignored, `int` cuts off the fraction. -/
noncomputable def setSequence (s : Vars) : Option ℝ → Vars
  | none => s
  | some x => { s with sequence := some (if 0 ≤ x then ⌊x⌋ else ⌈x⌉) }

/-- `name` setter, `crater/__init__.py` lines 203-206: None is ignored. -/
def setName (s : Vars) : Option String → Vars
  | none => s
  | some n => { s with name := some n }

/-- Replace the axes; `none` is the ValueError of a setter. Belongs to `crater/__init__.py` line 124. -/
def withAxes (s : Vars) (a : Option Axes) : Option Vars := a.map fun a => { s with axes := a }

/-- One assignment to an attribute of a crater. Belongs to `crater/__init__.py` line 124. -/
inductive Assign
  | diameter (v : Option ℝ)
  | radius (v : Option ℝ)
  | major (v : Option ℝ)
  | minor (v : Option ℝ)
  | orientation (v : Option ℝ)
  | location (v : Option (ℝ × ℝ))
  | rimHeight (v : Option ℝ)
  | floorDepth (v : Option ℝ)
  | degradation (v : Option ℝ)
  | time (v : Option Arg)
  | nd (v : Option Arg)
  | sequence (v : Option ℝ)
  | name (v : Option String)

/-- The setter that an assignment calls. Belongs to `crater/__init__.py` line 124. -/
noncomputable def assign (s : Vars) : Assign → Option Vars
  | .diameter v => withAxes s (setDiameter s.axes v)
  | .radius v => withAxes s (setRadius s.axes v)
  | .major v => withAxes s (setMajor s.axes v)
  | .minor v => withAxes s (setMinor s.axes v)
  | .orientation v => some (setOrientation s v)
  | .location v => some (setLocation s v)
  | .rimHeight v => some (setRimHeight s v)
  | .floorDepth v => some (setFloorDepth s v)
  | .degradation v => some (setDegradation s v)
  | .time v => setTime s v
  | .nd v => setND s v
  | .sequence v => some (setSequence s v)
  | .name v => some (setName s v)

/-- Assignments in turn; the caller catches exceptions. Belongs to `crater/__init__.py` lines 474-490. -/
noncomputable def history (s : Vars) : List Assign → Vars
  | [] => s
  | a :: as => history ((assign s a).getD s) as

/-! ### Constructor and `as_dict` -/

/-- The arguments of the constructor, `crater/__init__.py` lines 94-110; an absent one is None. -/
structure Kwargs where
  /-- `measured_diameter`. -/
  diameter : Option ℝ := none
  /-- `measured_radius`. -/
  radius : Option ℝ := none
  /-- `measured_semimajor_axis`. -/
  major : Option ℝ := none
  /-- `measured_semiminor_axis`. -/
  minor : Option ℝ := none
  /-- `measured_orientation`. -/
  orientation : Option ℝ := none
  /-- `measured_location`. -/
  location : Option (ℝ × ℝ) := none
  /-- `measured_rim_height`. -/
  rimHeight : Option ℝ := none
  /-- `measured_floor_depth`. -/
  floorDepth : Option ℝ := none
  /-- `degradation_state`. -/
  degradation : Option ℝ := none
  /-- `production_time`. -/
  time : Option Arg := none
  /-- `production_ND`. -/
  nd : Option Arg := none
  /-- `production_sequence`. -/
  sequence : Option ℝ := none
  /-- `name`. -/
  name : Option String := none

/-- Assign an argument unless it is None, as in `crater/__init__.py` line 124. -/
noncomputable def given {β : Type} (f : Option β → Assign) (v : Option β) (s : Option Vars) : Option Vars :=
  match v with
  | none => s
  | some x => s.bind fun s => assign s (f (some x))

/-- `CraterVariable.__init__`, `crater/__init__.py` lines 111-150. -/
noncomputable def construct (k : Kwargs) : Option Vars :=
  given .name k.name <| given .sequence k.sequence <| given .nd k.nd <| given .time k.time <|
  given .degradation k.degradation <| given .floorDepth k.floorDepth <| given .rimHeight k.rimHeight <|
  given .location k.location <| given .orientation k.orientation <| given .minor k.minor <|
  given .major k.major <| given .radius k.radius <| given .diameter k.diameter <| some .empty

/-- The entries of `as_dict` for the measured size, `crater/__init__.py` lines 182-187: `(diameter, major, minor)`. -/
noncomputable def sizeEntries (s : Axes) : Option ℝ × Option ℝ × Option ℝ :=
  match s.major with
  | none => (none, none, none)
  | some M => if Verif.Crater.radius s = some M then (Verif.Crater.diameter s, none, none) else (none, some M, s.minor)

/-- `CraterVariable.as_dict`, `crater/__init__.py` lines 169-196. -/
noncomputable def asDict (s : Vars) : Kwargs :=
  { diameter := (sizeEntries s.axes).1
    major := (sizeEntries s.axes).2.1
    minor := (sizeEntries s.axes).2.2
    orientation := s.orientation
    location := s.location
    rimHeight := s.rimHeight
    floorDepth := s.floorDepth
    degradation := s.degradation
    time := s.time.map fun p => .seq [some p.1, some p.2]
    nd := s.nd.map fun p => .seq [some p.1, some p.2.1, some p.2.2]
    sequence := s.sequence.map fun n => (n : ℝ)
    name := s.name }

/-- `Crater.__init__` with an existing crater and no further variable arguments, lines 434-459: its variable attributes
go through `as_dict` and the constructor.  `MorphologyCrater.maker` converts craters in this way,
`cratermaker/components/morphology/__init__.py` lines 189-193. -/
noncomputable def convert (s : Vars) : Option Vars := construct (asDict s)

/-! ### Measured sizes in `Crater.maker` -/

/-- The measured sizes among the arguments of `maker`. Belongs to `crater/__init__.py` lines 862-869. -/
structure Sizes where
  /-- `measured_diameter`. -/
  diameter : Option ℝ := none
  /-- `measured_radius`. -/
  radius : Option ℝ := none
  /-- `measured_semimajor_axis`. -/
  major : Option ℝ := none
  /-- `measured_semiminor_axis`. -/
  minor : Option ℝ := none

/-- `crater/__init__.py` lines 862-869 and 890-895 with 925-927: the entries of `args`; what is not given comes from `as_dict` of the old
crater. -/
noncomputable def collect (user : Sizes) : Option Axes → Sizes
  | none => user
  | some old =>
    { diameter := user.diameter.or (sizeEntries old).1
      radius := user.radius
      major := user.major.or (sizeEntries old).2.1
      minor := user.minor.or (sizeEntries old).2.2 }

/-- `crater/__init__.py` lines 946-961 of the copy branch: the entries that stay in `args`, and the local variables. -/
noncomputable def copyBranch (args user : Sizes) : Sizes × Sizes :=
  match args.diameter, args.radius with
  | some d, _ => ({ args with diameter := none }, ⟨none, none, some (d / 2), some (d / 2)⟩)
  | none, some r => ({ args with radius := none }, ⟨none, none, some r, some r⟩)
  | none, none => ({ args with major := none, minor := none }, ⟨user.diameter, user.radius, args.major, args.minor⟩)

/-- `crater/__init__.py` lines 1081-1111: the measured axes from the local variables and the final axes `a` and `b`. -/
noncomputable def resolve (check : Bool) (loc : Sizes) (a b : Option ℝ) : Option (Option ℝ × Option ℝ) :=
  if check && loc.radius.isSome && loc.diameter.isSome then none
  else
    let major := (loc.radius.or (loc.diameter.map (· / 2))).or loc.major
    let minor := (loc.radius.or (loc.diameter.map (· / 2))).or loc.minor
    match major, minor with
    | some x, some y => some (some x, some y)
    | some x, none => if check then none else some (some x, some x)
    | none, some y => if check then none else some (some y, some y)
    | none, none => some (a, b)

/-- The measured size of the crater that `maker` returns, `crater/__init__.py` lines 862-1137, for a copy (`copy`, lines 935-969) or a new
set of fixed attributes with axes `a`, `b`.  The remaining entries of `args` go to the constructor together with the
measured axes. -/
noncomputable def measured (check copy : Bool) (user : Sizes) (old : Option Axes) (a b : Option ℝ) : Option Vars :=
  let args := collect user old
  let r := if copy then copyBranch args user else (args, user)
  match resolve check r.2 a b with
  | none => none
  | some (x, y) => construct { diameter := r.1.diameter, radius := r.1.radius, major := x, minor := y }

end Verif.CraterCopy
