import Mathlib.Analysis.Real.Sqrt

/-!
Model of the target body (`cratermaker/components/target/__init__.py`) and of the projectile
(`cratermaker/components/projectile/__init__.py`, `asteroids.py`, `comets.py`, `generic.py`).
-/

namespace Verif.Bodies

noncomputable section

/-! ### Target -/

/-- An entry of the target catalogue, `target/__init__.py` lines 26-68. -/
structure Entry where
  radius : ℝ
  mass : ℝ
  material : Option String
  scale : Option String

/-- Attributes of a target under construction, `target/__init__.py` lines 115-120. -/
structure Target where
  radius : Option ℝ
  mass : Option ℝ
  material : Option String
  scale : Option String
  density : Option ℝ

/-- Constructor arguments. Belongs to `target/__init__.py` lines 115-120. -/
structure TargetArgs where
  name : String
  radius : Option ℝ
  diameter : Option ℝ
  mass : Option ℝ
  scale : Option String
  material : Option String
  density : Option ℝ

/-- The setters of `radius`, `mass` (`target/__init__.py` lines 243-247, 278-282) and `density` (311-321): positive values
only. -/
def positive (v : ℝ) : Option ℝ := if v ≤ 0 then none else some v

/-- The setter of `transition_scale_type`, `target/__init__.py` lines 358-363. -/
def okScale (s : String) : Option String := if s = "silicate" ∨ s = "ice" then some s else none

/-- An optional value through a setter; `None` is skipped (`general_utils.py:93-105`).  The outer option
is none when the setter raises. -/
def through {α : Type} (set : α → Option α) (v old : Option α) : Option (Option α) :=
  match v with
  | none => some old
  | some v => (set v).map some

/-- `_set_properties` as used by `Target.__init__`, `target/__init__.py` lines 132-142: the catalogue entry of the name first,
then the explicit arguments. -/
def setAll (t : Target) (radius mass : Option ℝ) (material scale : Option String) (density : Option ℝ) :
    Option Target :=
  match through positive radius t.radius, through positive mass t.mass, through okScale scale t.scale,
      through positive density t.density with
  | some r, some m, some s, some d => some ⟨r, m, material.or t.material, s, d⟩
  | _, _, _, _ => none

/-- The radius argument: half the diameter if that is given (`Target.__init__`, `target/__init__.py` lines 115-120). -/
noncomputable def radiusArg (a : TargetArgs) : Option ℝ :=
  match a.diameter with
  | some d => some (d / 2)
  | none => a.radius

/-- The target filled from the catalogue, if the name is there (first step of `_set_properties`, called
in `target/__init__.py` lines 132-142). -/
noncomputable def fromCatalogue (cat : String → Option Entry) (name : String) : Option Target :=
  match cat name with
  | none => some ⟨none, none, none, none, none⟩
  | some e => setAll ⟨none, none, none, none, none⟩ (some e.radius) (some e.mass) e.material e.scale none

/-- `Target.__init__`, `target/__init__.py` lines 113-148.  `cat` is the catalogue, `dens` the density catalogue.  The name is
always given. -/
noncomputable def makeTarget (cat : String → Option Entry) (dens : String → Option ℝ) (a : TargetArgs) : Option Target :=
  if a.radius.isSome && a.diameter.isSome then none
  else
    match fromCatalogue cat a.name with
    | none => none
    | some t =>
      match setAll t (radiusArg a) a.mass a.material a.scale a.density with
      | none => none
      | some t =>
        if t.radius.isNone || t.mass.isNone || t.scale.isNone then none
        else
          match t.density with
          | some _ => some t
          | none => some { t with density := t.material.bind dens }

/-- `gravity`, `target/__init__.py` lines 370-373; `G` is the gravitational constant. -/
def gravity (G m r : ℝ) : ℝ := G * m / r ^ 2

/-- `escape_velocity`, `target/__init__.py` lines 365-368. -/
def escapeVelocity (G m r : ℝ) : ℝ := Real.sqrt (2 * r * gravity G m r)

/-- `diameter`, `target/__init__.py` lines 249-253. -/
def diameter (r : ℝ) : ℝ := 2 * r

/-! ### Projectile -/

/-- Generic projectiles keep the velocity they are given; asteroids and comets take the mean velocity of
the target from a catalogue, whatever is passed (asteroids.py lines 63-81, comets.py lines 121-139). -/
inductive Kind
  | generic
  | catalogued (meanVelocity : ℝ)

/-- The attributes of a projectile.  `Loc` is the type of locations. Belongs to `projectile/__init__.py` lines 98-105. -/
structure Proj (Loc : Type) where
  kind : Kind
  sample : Bool
  meanVelocity : Option ℝ
  velocity : Option ℝ
  angle : Option ℝ
  direction : Option ℝ
  location : Option Loc
  density : Option ℝ

/-- The checks of `Projectile.__init__`, `projectile/__init__.py` lines 107-123. -/
def check {Loc : Type} (p : Proj Loc) : Option (Proj Loc) :=
  if p.sample then
    (if p.meanVelocity.isNone then none else if p.density.isNone then none else some p)
  else if p.velocity.isNone ∨ p.angle.isNone ∨ p.direction.isNone ∨ p.location.isNone ∨ p.density.isNone
  then none
  else some p

/-- The constructors: generic.py lines 60-77 fills in density 1000, angle 90, direction 0 and location
`zero`; asteroids.py lines 63-81 fills in the density (2250; comets.py 500) and replaces both
velocities. -/
def make {Loc : Type} (zero : Loc) (dens : ℝ) (p : Proj Loc) : Option (Proj Loc) :=
  match p.kind with
  | .generic => check { p with
      density := some (p.density.getD 1000)
      angle := some (p.angle.getD 90)
      direction := some (p.direction.getD 0)
      location := some (p.location.getD zero) }
  | .catalogued v => check { p with
      density := some (p.density.getD dens)
      meanVelocity := some v
      velocity := some v }

/-- Setters of velocity, angle, direction and density, `projectile/__init__.py` lines 401-463: negative values raise. -/
def nonneg (v : ℝ) : Option ℝ := if v < 0 then none else some v

/-- Explicit arguments of `new_projectile`. Belongs to `projectile/__init__.py` lines 280-353. -/
structure Given (Loc : Type) where
  velocity : Option ℝ
  angle : Option ℝ
  direction : Option ℝ
  location : Option Loc
  density : Option ℝ

/-- The random draws `new_projectile` makes when sampling. Belongs to `projectile/__init__.py` lines 280-353. -/
structure Draws (Loc : Type) where
  velocity : ℝ
  angle : ℝ
  direction : ℝ
  location : Loc

/-- One property: explicit through its setter, else the draw when sampling, else the stored value or the
fallback. Belongs to `projectile/__init__.py` lines 280-353. -/
def pick {α : Type} (set : α → Option α) (given : Option α) (sample : Bool) (draw : α)
    (stored : Option α) (fallback : Option α) : Option (Option α) :=
  match given with
  | some v => (set v).map some
  | none => if sample then some (some draw) else some (stored.or fallback)

/-- `new_projectile`, `projectile/__init__.py` lines 280-353.  The copy in line 314 goes through the constructor with the attribute
values (`_copy`, lines 137-159).  `norm` is `validate_and_normalize_location`. -/
def newProjectile {Loc : Type} (norm : Loc → Option Loc) (zero : Loc) (dens : ℝ) (p : Proj Loc)
    (g : Given Loc) (w : Draws Loc) : Option (Proj Loc) :=
  match make zero dens p with
  | none => none
  | some c =>
    match pick nonneg g.velocity c.sample w.velocity c.velocity c.meanVelocity,
        pick nonneg g.angle c.sample w.angle c.angle (some 90),
        pick nonneg g.direction c.sample w.direction c.direction (some 0),
        pick norm g.location c.sample w.location c.location (some zero),
        through nonneg g.density c.density with
    | some v, some a, some d, some l, some r => some { c with
        velocity := v, angle := a, direction := d, location := l, density := r }
    | _, _, _, _, _ => none

end

end Verif.Bodies
