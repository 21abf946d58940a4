import Mathlib.Data.Rat.Defs
import Mathlib.Tactic.NormNum

/-! Which production function and which projectiles are used for a target body: `Production.maker`
(`components/production/__init__.py`), `NeukumProduction.__init__` and its `version` (`neukum.py`) and
`Projectile.maker` (`components/projectile/__init__.py`). -/

namespace Verif.Defaults

/-- A production function: the Neukum function in one of its versions, or a power law. Belongs to `neukum.py` lines 229-246. -/
inductive Prod
  /-- `neukum` with a version. -/
  | neukum (version : String)
  /-- `powerlaw`. -/
  | powerlaw
  deriving DecidableEq

/-- Outcome of a constructor. Belongs to `neukum.py` lines 229-246. -/
inductive Out (α : Type)
  /-- The object. -/
  | ok (x : α)
  /-- TypeError: a keyword given twice. -/
  | typeError
  /-- ValueError: no such version. -/
  | valueError
  /-- KeyError: no such component. -/
  | keyError
  deriving DecidableEq

/-- Python's `str.title` for the strings that matter here: a word of letters. Belongs to `neukum.py` lines 229-246. -/
def title (s : String) : String :=
  match s.toList with
  | [] => ""
  | c :: cs => String.ofList (c.toUpper :: cs.map Char.toLower)

/-- Python's `str.lower`, for ASCII. Belongs to `production/__init__.py` lines 155-191. -/
def lower (s : String) : String := String.ofList (s.toList.map Char.toLower)

/-- `NeukumProduction.__init__` lines 68-69 and the setter of `version`, `neukum.py` lines 229-246. -/
def neukum (version : Option String) : Out Prod :=
  let v := title (version.getD "Moon")
  if v = "Moon" ∨ v = "Mars" ∨ v = "Projectile" then .ok (.neukum v) else .valueError

/-- The bodies of `production/__init__.py` line 168. -/
def inner : List String := ["Mercury", "Venus", "Earth", "Moon", "Mars"]

/-- `ComponentBase.maker`, `core/base.py` lines 855-860, for a name or none: the first registered component is
`neukum` (modules are imported in alphabetical order, lines 906-907).  `again` is a `version` that is still
among the keywords: the call in lines 178-191 of `production/__init__.py` then gives it twice. -/
def component (name : Option String) (version : Option String) (again : Option String) : Out Prod :=
  match again with
  | some _ => .typeError
  | none =>
    match name with
    | none => neukum version
    | some n => if n = "neukum" then neukum version else if n = "powerlaw" then .ok .powerlaw else .keyError

/-- The name of the target, lines 165-167: the version if it names a body and no target is given; the default is
the Moon (`target/__init__.py` lines 204-207). -/
def targetName (target version : Option String) : String :=
  match target with
  | some t => t
  | none =>
    match version with
    | some v => if v = "Moon" ∨ v = "Mars" then v else "Moon"
    | none => "Moon"

/-- `Production.maker`, `production/__init__.py` lines 155-191, for a production function given by name or not at all: `version` is the
keyword of that name and `target` the name of the target body.  Lines 162-176 belong to the case of a name, so that
without a name nothing is looked up. -/
def makeProduction (name version target : Option String) : Out Prod :=
  match name with
  | none => component none none version
  | some n =>
    if lower n = "neukum" then
      let t := targetName target version
      if t ∈ inner then
        let v := if version ≠ some "projectile" then (if t = "Moon" ∨ t = "Mars" then t else "projectile")
          else "projectile"
        component (some "neukum") (some v) none
      else component (some "powerlaw") version none
    else component (some (lower n)) none version

/-! ### Projectiles -/

/-- The projectile models. Belongs to `projectile/__init__.py` lines 234-241. -/
inductive Proj
  /-- `asteroids`. -/
  | asteroids
  /-- `comets`. -/
  | comets
  /-- `generic`. -/
  | generic
  deriving DecidableEq

/-- A projectile population: the model and its mean velocity in m/s. Belongs to `asteroids.py` line 64. -/
structure Population where
  /-- The model. -/
  model : Proj
  /-- Mean velocity. -/
  velocity : ℚ
  deriving DecidableEq

/-- `AsteroidProjectiles._catalogue`, `asteroids.py` lines 13-22. -/
def asteroidVelocities : List (String × ℚ) :=
  [("Mercury", 41100), ("Venus", 29100), ("Earth", 24600), ("Moon", 22100), ("Mars", 10700), ("Ceres", 5300),
    ("Vesta", 5300), ("MBA", 5300)]

/-- `CometProjectiles._catalogue`, `comets.py` lines 13-70. -/
def cometVelocities : List (String × ℚ) :=
  [("Mercury", 18400), ("Venus", 26300), ("Earth", 17670), ("Moon", 17670), ("Mars", 14210), ("Metis", 59000),
    ("Amalthea", 50000), ("Thebe", 45000), ("Io", 32000), ("Europa", 26000), ("Ganymede", 20000),
    ("Callisto", 15000), ("Himalia", 6100), ("Prometheus", 32000), ("Pandora", 31000), ("Epimetheus", 30000),
    ("Janus", 30000), ("Mimas", 27000), ("Enceladus", 24000), ("Tethys", 21000), ("Telesto", 21000),
    ("Calypso", 21000), ("Dione", 19000), ("Helene", 19000), ("Rhea", 16000), ("Titan", 10500), ("Hyperion", 9400),
    ("Iapetus", 6100), ("Phoebe", 3200), ("Cordelia", 20000), ("Ophelia", 19000), ("Bianca", 18000),
    ("Cressida", 18000), ("Desdemona", 18000), ("Juliet", 18000), ("Portia", 18000), ("Rosalind", 17000),
    ("Belinda", 16000), ("Puck", 15000), ("Miranda", 12500), ("Ariel", 10300), ("Umbriel", 8700), ("Titania", 6800),
    ("Oberon", 5900), ("Naiad", 22000), ("Thalassa", 22000), ("Despina", 21000), ("Galatea", 20000),
    ("Larissa", 18000), ("Proteus", 14000), ("Triton", 8200), ("Nereid", 2800), ("Pluto", 1900), ("Charon", 1800),
    ("KBO", 1800)]

/-- `_set_mean_velocity`, `asteroids.py` lines 87-104 and `comets.py` lines 145-162: the velocity of the target, and
of the given body for other targets (with a warning). -/
def meanVelocity (catalogue : List (String × ℚ)) (fallback : String) (target : String) : ℚ :=
  ((catalogue.lookup target).or (catalogue.lookup fallback)).getD 0

/-- The model used for a target, `Projectile.maker`, `projectile/__init__.py` lines 234-241. -/
def chooseProjectile (given : Option Proj) (target : String) : Proj :=
  match given with
  | some p => p
  | none =>
    if (asteroidVelocities.lookup target).isSome then .asteroids
    else if (cometVelocities.lookup target).isSome then .comets
    else .generic

/-- `Projectile.maker`, lines 229-269, as far as the model and the mean velocity are concerned: `velocity` is the
argument `mean_velocity`, which asteroids and comets do not use (`asteroids.py` line 64, `comets.py` line 122); `none`:
a generic projectile that samples (the default) needs a velocity (lines 107-109), which only the choice of line 241 fills in. -/
def makeProjectile (given : Option Proj) (velocity : Option ℚ) (target : String) : Option Population :=
  match chooseProjectile given target with
  | .asteroids => some ⟨.asteroids, meanVelocity asteroidVelocities "Moon" target⟩
  | .comets => some ⟨.comets, meanVelocity cometVelocities "KBO" target⟩
  | .generic =>
    match velocity, given with
    | some v, _ => some ⟨.generic, v⟩
    | none, none => some ⟨.generic, 20000⟩
    | none, some _ => none

end Verif.Defaults
