import Verif.Model.Scaling
import Verif.Model.Defaults

/-!
Model of `Scaling.maker` and of the setters of `target` and `projectile`, `cratermaker/components/scaling/__init__.py` 50-165, with
`Scaling.__init__` (51-60).  The material constants are those of `Model/Scaling.lean`, the choice of projectiles that of
`Model/Defaults.lean`; of a body only the name, gravity, material and surface density are kept, of projectiles the model and mean
velocity.  Left out: random numbers, and everything an error message says.
-/

namespace Verif.ScalingMaker

open Verif.Defaults (Proj Population)

/-- A target body. Belongs to `target/__init__.py` lines 204-236. -/
structure Body where
  name : String
  gravity : ℝ
  material : Option String
  density : Option ℝ

/-- The argument `target`: left out, a name or an object. Belongs to `target/__init__.py` lines 204-236. -/
inductive TargetArg
  | none
  | name (s : String)
  | object (b : Body)

/-- The argument `projectile`: left out, the name of a model or an object. Belongs to `projectile/__init__.py` lines 229-280. -/
inductive ProjArg
  | none
  | name (k : Proj)
  | object (q : Population)

/-- A scaling model: its constants, its target and its projectiles. Belongs to `scaling/__init__.py` lines 158-163. -/
structure Model where
  params : Scaling.Params
  target : Body
  projectile : Population

/-- `Target.maker`, `target/__init__.py` 204-236: `bodies` makes a new body from a name. -/
def makeTarget (bodies : String → Option Body) : TargetArg → Option Body
  | .none => bodies "Moon"
  | .name s => bodies s
  | .object b => some b

/-- `Projectile.maker`, `projectile/__init__.py` 229-280: an object is passed through. -/
def makeProjectile (velocity : Option ℚ) (target : Body) : ProjArg → Option Population
  | .none => Defaults.makeProjectile Option.none velocity target.name
  | .name k => Defaults.makeProjectile (some k) velocity target.name
  | .object q => some q

/-- The setter of `projectile`, `scaling/__init__.py` 158-163: neither the target nor other arguments are passed on, so the projectiles
are made for the default target, the Moon. -/
def setProjectile (bodies : String → Option Body) (a : ProjArg) (m : Model) : Option Model :=
  match makeTarget bodies .none with
  | Option.none => Option.none
  | some moon => (makeProjectile Option.none moon a).map fun q => { m with projectile := q }

/-- The setter of `target`, `scaling/__init__.py` 146-151. -/
def setTarget (bodies : String → Option Body) (a : TargetArg) (m : Model) : Option Model :=
  (makeTarget bodies a).map fun b => { m with target := b }

/-- The end of `maker`, `scaling/__init__.py` 115-121.  An object given as target is the one the constructor has changed. -/
def assign (bodies : String → Option Body) (target : TargetArg) (projectile : ProjArg) (m : Model) : Option Model :=
  let m1 := match projectile with
    | .none => some m
    | a => setProjectile bodies a m
  match m1 with
  | Option.none => Option.none
  | some m1 =>
    match target with
    | .none => some m1
    | a => setTarget bodies a m1

/-- `Scaling.maker` with the name of a model, lines 105-121: the constructor (lines 51-60 and `montecarlo.py` 76-136, which sets the
density of the target object), then the assignments. -/
noncomputable def maker (title : String → String) (cat : String → Option Scaling.Mat) (bodies : String → Option Body) (target : TargetArg)
    (projectile : ProjArg) (velocity : Option ℚ) (a : Scaling.Args) : Option Model :=
  match makeTarget bodies target with
  | none => none
  | some b =>
    match makeProjectile velocity b projectile with
    | none => none
    | some q =>
      match Scaling.init title cat b.material b.density a with
      | none => none
      | some p =>
        let b' := { b with density := p.density }
        let target' := match target with
          | .object _ => .object b'
          | t => t
        assign bodies target' projectile ⟨p, b', q⟩

/-- `Scaling.maker` with a scaling object, lines 107-121: the object is kept (`base.py` 863-864), then the assignments. -/
def makerOf (bodies : String → Option Body) (s : Model) (target : TargetArg) (projectile : ProjArg) : Option Model :=
  assign bodies target projectile s

end Verif.ScalingMaker
