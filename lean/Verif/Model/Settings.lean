import Verif.Model.Production

/-!
Which settings of the components of a simulation are written to the configuration file, and what a resumed simulation has instead
of those that are not: `utils/general_utils.py` (`Parameter`), `core/base.py` (`_to_config`), `core/simulation.py` and the
constructors of the components.
-/

namespace Verif.Settings

/-- When a constructor records a setting as one to be written: always (it assigns through the setter of a `@parameter`), only if a
value is given, or never (it is an ordinary property, or is stored with `object.__setattr__`).  Belongs to `utils/general_utils.py`
lines 13-46. -/
inductive Recording
  | always
  | given
  | never
  deriving DecidableEq

/-- What the code of a component says about its settings.  Belongs to `utils/general_utils.py` lines 13-46.  `lead` is the one
setting on which defaults of others may depend; `default` is what the constructor uses when nothing is given; `ignored` says which
arguments it accepts but does not use; `made` and `later` say whether construction and assignment record the setting. -/
structure Class (K V : Type) where
  lead : K
  default : Option V → K → Option V
  ignored : K → Bool
  made : K → Recording
  later : K → Bool

/-- A component: the values of its settings and the set `_user_defined`.  Belongs to `utils/general_utils.py` lines 24-31. -/
structure Comp (K V : Type) where
  value : K → Option V
  user : K → Bool

variable {K V : Type} [DecidableEq K]

/-- The first of two values that there is.  Belongs to `core/simulation.py` lines 165-210, `{**config, **kwargs}`, where absent
means `none`. -/
def either (a b : Option V) : Option V :=
  match a with
  | some v => some v
  | none => b

/-- The argument a constructor uses.  Belongs to `projectile/asteroids.py` lines 64-65, where `mean_velocity` and `velocity` are
dropped. -/
def Class.used (c : Class K V) (args : K → Option V) (k : K) : Option V := if c.ignored k then none else args k

/-- The value of the leading setting.  Belongs to `production/powerlaw.py` line 53. -/
def Class.leading (c : Class K V) (args : K → Option V) : Option V := either (c.used args c.lead) (c.default none c.lead)

/-- The constructor of a component as far as its settings go: the arguments, and the defaults where there are none
(`production/powerlaw.py` lines 53-79, `target/__init__.py` lines 130-148, `scaling/montecarlo.py` lines 98-129,
`projectile/__init__.py` lines 95-123).  Checks of values are left out. -/
def Class.construct (c : Class K V) (args : K → Option V) : Comp K V where
  value k := if k = c.lead then c.leading args else either (c.used args k) (c.default (c.leading args) k)
  user k :=
    match c.made k with
    | .always => true
    | .given => (args k).isSome
    | .never => false

/-- Assignment to a setting of a component: `utils/general_utils.py` lines 24-31 for a `@parameter`. -/
def Class.assign (c : Class K V) (s : Comp K V) (kv : K × Option V) : Comp K V where
  value k := if k = kv.1 then kv.2 else s.value k
  user k := if k = kv.1 then s.user k || c.later k else s.user k

/-- A session: the component is made with arguments and then assigned to.  Belongs to `core/simulation.py` lines 165-210. -/
def Class.session (c : Class K V) (args : K → Option V) (assigned : List (K × Option V)) : Comp K V :=
  assigned.foldl c.assign (c.construct args)

/-- `_to_config`, `core/base.py` lines 1016-1020: the recorded settings that are not None. -/
def Comp.config (s : Comp K V) (k : K) : Option V := if s.user k then s.value k else none

/-- A simulation resumed from the configuration file, with further keyword arguments: `core/simulation.py` lines 165-210,
`maker(name, **{**config, **kwargs})`. -/
def Class.resume (c : Class K V) (s : Comp K V) (again : K → Option V) : Comp K V :=
  c.construct (fun k => either (again k) (s.config k))

/-! ### The components -/

/-- Values of settings.  Belongs to `core/base.py` lines 990-1013, `_convert_for_yaml`. -/
inductive Val
  | num (x : ℝ)
  | text (s : String)
  | flag (b : Bool)

/-- The settings of the power law production.  Belongs to `production/powerlaw.py` lines 20-29. -/
inductive PowerKey
  | generator
  | n1
  | slope
  deriving DecidableEq

/-- Whether the generator type is "projectile".  Belongs to `production/powerlaw.py` lines 56-58. -/
def isProjectile (l : Option Val) : Bool :=
  match l with
  | some (.text s) => s == "projectile"
  | _ => false

/-- `PowerLawProduction`, `production/powerlaw.py` lines 53-79 and 199-221: `generator_type` is a `@parameter`
(`production/__init__.py` lines 1248-1269), `N1_coef` and `slope` are ordinary properties. -/
noncomputable def powerLaw : Class PowerKey Val where
  lead := .generator
  default l k :=
    match k with
    | .generator => some (.text "crater")
    | .n1 => some (.num (if isProjectile l then 7.989e-7 else 7.883e-3))
    | .slope => some (.num (if isProjectile l then -2.634 else -3.328))
  ignored _ := false
  made k :=
    match k with
    | .generator => .always
    | .n1 => .never
    | .slope => .never
  later k :=
    match k with
    | .generator => true
    | .n1 => false
    | .slope => false

/-- The production function of a power law component with these settings: `production/powerlaw.py` lines 61-79 (signs of the slope)
and 183-197. -/
noncomputable def powerObject (s : Comp PowerKey Val) : Option Verif.Production.PowerLaw :=
  match s.value .n1, s.value .slope with
  | some (.num n), some (.num b) => Verif.Production.PowerLaw.make n b
  | _, _ => none

/-- The settings of the scaling model.  Belongs to `scaling/montecarlo.py` lines 75-90. -/
inductive ScaleKey
  | k1
  | mu
  | ybar
  | monteCarlo
  deriving DecidableEq

/-- `MonteCarloScaling` for a material whose catalogue entry is `K1`, `mu`, `Ybar`: `scaling/montecarlo.py` lines 98-129 and
512-583.  The three numbers are set through `@parameter` setters; the flag is stored with `object.__setattr__` (line 108), but
assigning it later goes through one.  Assigning another material is left out. -/
def scaling (K1 mu Ybar : ℝ) : Class ScaleKey Val where
  lead := .k1
  default _ k :=
    match k with
    | .k1 => some (.num K1)
    | .mu => some (.num mu)
    | .ybar => some (.num Ybar)
    | .monteCarlo => some (.flag true)
  ignored _ := false
  made k :=
    match k with
    | .monteCarlo => .never
    | _ => .always
  later _ := true

/-- The settings of the target.  Belongs to `target/__init__.py` lines 74-84. -/
inductive TargetKey
  | radius
  | mass
  | transition
  | material
  deriving DecidableEq

/-- A body of the catalogue, or of none.  Belongs to `target/__init__.py` lines 25-70. -/
structure Entry where
  radius : Option ℝ
  mass : Option ℝ
  transition : Option String
  material : Option String

/-- `Target` for a name with the given catalogue entry: `target/__init__.py` lines 130-148 and 238-363; `radius` and `material` are
`@parameter`s, `mass` and `transition_scale_type` ordinary properties.  The density, which the scaling model replaces, is left out. -/
def target (e : Entry) : Class TargetKey Val where
  lead := .radius
  default _ k :=
    match k with
    | .radius => e.radius.map .num
    | .mass => e.mass.map .num
    | .transition => e.transition.map .text
    | .material => e.material.map .text
  ignored _ := false
  made k :=
    match k with
    | .radius => .always
    | .material => .always
    | .mass => .never
    | .transition => .never
  later k :=
    match k with
    | .radius => true
    | .material => true
    | .mass => false
    | .transition => false

/-- The check of the constructor, `target/__init__.py` lines 143-145: radius, mass and kind of transition must be there. -/
def targetValid (s : Comp TargetKey Val) : Bool :=
  (s.value .radius).isSome && (s.value .mass).isSome && (s.value .transition).isSome

/-- The settings of projectiles.  Belongs to `projectile/__init__.py` lines 48-63.  The velocity, angle, direction and location of
the individual projectile are left out. -/
inductive ProjKey
  | sample
  | meanVelocity
  | density
  deriving DecidableEq

/-- Projectiles: `projectile/__init__.py` lines 95-123 and 317-352.  All settings are stored with `object.__setattr__`; a density that
is given is assigned again by `new_projectile` (line 349) and so recorded; assigning later records.  `catalogued = none`:
generic projectiles (`projectile/generic.py` lines 58-61), else the mean velocity and density of the population
(`projectile/asteroids.py` lines 63-72, `projectile/comets.py` lines 121-133), which drop a mean velocity that is given. -/
noncomputable def projectile (catalogued : Option (ℝ × ℝ)) : Class ProjKey Val where
  lead := .sample
  default _ k :=
    match k with
    | .sample => some (.flag true)
    | .meanVelocity => catalogued.map (fun p => .num p.1)
    | .density => some (.num ((catalogued.map Prod.snd).getD 1000))
  ignored k :=
    match k with
    | .meanVelocity => catalogued.isSome
    | _ => false
  made k :=
    match k with
    | .density => .given
    | _ => .never
  later _ := true

/-- The check of the constructor for projectiles whose velocities are drawn, `projectile/__init__.py` lines 106-108: the mean
velocity must be there.  Other checks concern single projectiles. -/
def projectileValid (s : Comp ProjKey Val) : Bool :=
  match s.value .sample with
  | some (.flag true) => (s.value .meanVelocity).isSome
  | _ => true

/-- `Projectile.maker` when no projectiles are named, for a target in neither catalogue: `projectile/__init__.py` lines 234-241 set
a mean velocity of 20 km/s unless one is given. -/
def unnamed (args : ProjKey → Option Val) (k : ProjKey) : Option Val :=
  match k with
  | .meanVelocity => either (args .meanVelocity) (some (.num 20000))
  | k => args k

end Verif.Settings
