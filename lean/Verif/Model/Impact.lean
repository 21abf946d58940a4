import Verif.Model.Bodies
import Mathlib.Analysis.SpecialFunctions.Trigonometric.Basic

/-!
Model of what `Crater.maker` (`cratermaker/components/crater/__init__.py`) makes of the velocities, the angle, the direction and the
density of the projectile that it is given, for a new crater, for a copy and for a copy with a new size.  The sizes are modelled in
`Crater.lean`, new projectiles in `Bodies.lean`.
-/

namespace Verif.Impact

noncomputable section

/-- The arguments, `crater/__init__.py` lines 582-593.  `Loc` is the type of locations. -/
structure Args (Loc : Type) where
  /-- `projectile_velocity` -/
  velocity : Option ℝ := none
  /-- `projectile_vertical_velocity` -/
  vertical : Option ℝ := none
  /-- `projectile_angle` -/
  angle : Option ℝ := none
  /-- `projectile_mean_velocity` -/
  mean : Option ℝ := none
  /-- `orientation` -/
  orientation : Option ℝ := none
  /-- `projectile_direction` -/
  direction : Option ℝ := none
  /-- `projectile_density` -/
  density : Option ℝ := none
  /-- `location` -/
  location : Option Loc := none

/-- `n_velocity_inputs`, `crater/__init__.py` lines 819-825. -/
def count {Loc : Type} (a : Args Loc) : ℕ := a.velocity.toList.length + a.vertical.toList.length + a.angle.toList.length

/-- More is given than may be, `crater/__init__.py` lines 812, 826 and 832. -/
def redundant {Loc : Type} (a : Args Loc) : Bool :=
  (a.orientation.isSome && a.direction.isSome) || decide (2 < count a) || (a.mean.isSome && (a.velocity.isSome || a.vertical.isSome))

/-- The orientation after lines 814-817 of `crater/__init__.py`, which is the direction of the projectile as well. -/
def orientationOf {Loc : Type} (a : Args Loc) : Option ℝ := a.orientation.or a.direction

/-- What a crater keeps of its projectile, `crater/__init__.py` lines 32-56: the fields of `CraterFixed` that can be given. -/
structure Kept (Loc : Type) where
  /-- `projectile_velocity` -/
  velocity : Option ℝ
  /-- `projectile_angle` -/
  angle : Option ℝ
  /-- `orientation`, which is also `projectile_direction` -/
  orientation : Option ℝ
  /-- `projectile_diameter` -/
  diameter : Option ℝ
  /-- `projectile_mass` -/
  mass : Option ℝ
  /-- `location` -/
  location : Option Loc

/-- `projectile_vertical_velocity`, `crater/__init__.py` lines 85-88. -/
def Kept.vertical {Loc : Type} (k : Kept Loc) : Option ℝ :=
  match k.velocity, k.angle with
  | some v, some a => some (v * Real.sin (a * (Real.pi / 180)))
  | _, _ => none

/-- `projectile_density`, `crater/__init__.py` lines 79-84. -/
def Kept.density {Loc : Type} (k : Kept Loc) : Option ℝ :=
  match k.diameter, k.mass with
  | some d, some m => some (3 * m / (4 * Real.pi * (d / 2) ^ 3))
  | _, _ => none

/-- The velocity taken from the crater that is copied, `crater/__init__.py` lines 890-893 and 906-922: it is left out if a velocity is given
(line 892), and dropped in lines 911-917 if the vertical velocity alone is given and in lines 918-920 if two are given. -/
def oldVelocity {Loc : Type} (old : Kept Loc) (a : Args Loc) : Option ℝ :=
  if a.velocity.isSome then none
  else if a.mean.isNone && (decide (count a = 1) && a.vertical.isSome || decide (count a = 2)) then none
  else old.velocity

/-- The angle taken from the crater that is copied, `crater/__init__.py` lines 890-893 and 906-922. -/
def oldAngle {Loc : Type} (old : Kept Loc) (a : Args Loc) : Option ℝ :=
  if a.angle.isSome then none
  else if a.mean.isNone && decide (count a = 2) then none
  else old.angle

/-- The arguments filled up from the crater that is copied, `crater/__init__.py` lines 887-927. -/
def filled {Loc : Type} (old : Kept Loc) (a : Args Loc) : Args Loc :=
  { a with
    velocity := a.velocity.or (oldVelocity old a)
    angle := a.angle.or (oldAngle old a)
    orientation := (orientationOf a).or old.orientation
    direction := none
    density := a.density.or old.density
    location := a.location.or old.location }

/-- `Crater.maker(crater=old, ...)` without a new size, `crater/__init__.py` lines 887-970 and 1118-1127; `none` is the ValueError of lines
813, 828 and 834.  The density is popped in line 946 and used no more; the size of the projectile is that of the original. -/
def copy {Loc : Type} (check : Bool) (old : Kept Loc) (a : Args Loc) : Option (Kept Loc) :=
  if check && redundant a then none
  else
    let f := filled old a
    some ⟨f.velocity, f.angle, f.orientation, old.diameter, old.mass, f.location⟩

/-- The projectile of a crater that is not a copy, `crater/__init__.py` lines 984-998: `Projectile.maker` makes a new one if projectiles are
named or anything is given (`projectile/__init__.py` lines 244-277), and then line 996 makes another.  `p` are the projectiles that are named or
given, `w₁` and `w₂` what is drawn; neither the vertical nor the mean velocity is passed on. -/
def shoot {Loc : Type} (norm : Loc → Option Loc) (zero : Loc) (dens : ℝ) (named : Bool) (p : Bodies.Proj Loc) (a : Args Loc)
    (w₁ w₂ : Bodies.Draws Loc) : Option (Bodies.Proj Loc) :=
  let g : Bodies.Given Loc := ⟨a.velocity, a.angle, orientationOf a, a.location, a.density⟩
  let fresh := named || a.velocity.isSome || a.angle.isSome || (orientationOf a).isSome || a.location.isSome || a.density.isSome
  match if fresh then Bodies.newProjectile norm zero dens p g w₁ else some p with
  | none => none
  | some q => Bodies.newProjectile norm zero dens q g w₂

/-- A new crater with one size, `crater/__init__.py` lines 811-836, 984-1017 and 1074-1079; `none` is an exception.  The mass and the diameter of the
projectile, which depend on the scaling, are `size` of the projectile's density; checks of the sizes are left out.  `check_redundant_inputs` is True. -/
def make {Loc : Type} (norm : Loc → Option Loc) (zero : Loc) (dens : ℝ) (size : ℝ → ℝ × ℝ) (named : Bool) (p : Bodies.Proj Loc) (a : Args Loc)
    (w₁ w₂ : Bodies.Draws Loc) : Option (Kept Loc) :=
  if redundant a then none
  else
    match shoot norm zero dens named p a w₁ w₂ with
    | none => none
    | some q =>
      match q.velocity, q.density with
      | some v, some rho =>
        if v < 0 ∨ rho < 0 then none
        else some ⟨q.velocity, q.angle, q.direction, some (size rho).1, some (size rho).2, q.location⟩
      | _, _ => none

/-- A copy with one new size, `crater/__init__.py` lines 811-836, 887-927 and 984-1079: the arguments are filled up from the original and then used as
those of a new crater; what has been checked is not checked again.  `check_redundant_inputs` is True. -/
def resize {Loc : Type} (norm : Loc → Option Loc) (zero : Loc) (dens : ℝ) (size : ℝ → ℝ × ℝ) (named : Bool) (p : Bodies.Proj Loc)
    (old : Kept Loc) (a : Args Loc) (w₁ w₂ : Bodies.Draws Loc) : Option (Kept Loc) :=
  if redundant a then none
  else
    make norm zero dens size named p { filled old a with vertical := none, mean := none } w₁ w₂

end

end Verif.Impact
