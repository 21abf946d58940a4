import Mathlib.Data.Nat.Notation
import Mathlib.Logic.Function.Basic

/-!
Model of how the components of a simulation are connected with each other: the constructor of `Simulation`
(`cratermaker/core/simulation.py`) and the constructors, makers and setters of the components.  Objects are numbers, given out in the
order in which they are made.
-/

namespace Verif.Wiring

/-- The objects made so far and what each refers to.  Belongs to `simulation.py` lines 163-216. -/
structure World where
  /-- The number of the next object. -/
  next : ℕ
  /-- `Projectile.target`. -/
  projTarget : ℕ → ℕ
  /-- `Scaling.target`. -/
  scalTarget : ℕ → ℕ
  /-- `Scaling.projectile`. -/
  scalProj : ℕ → ℕ
  /-- `Surface.target`. -/
  surfTarget : ℕ → ℕ
  /-- `Counting.surface`. -/
  countSurf : ℕ → ℕ
  /-- `Counting.morphology`. -/
  countMorph : ℕ → Option ℕ
  /-- `Morphology.surface`. -/
  morphSurf : ℕ → ℕ
  /-- `Morphology.counting`. -/
  morphCount : ℕ → ℕ
  /-- `Morphology.scaling`. -/
  morphScal : ℕ → ℕ
  /-- `Morphology.production`. -/
  morphProd : ℕ → Option ℕ

/-- The arguments of `Simulation`, `simulation.py` lines 69-90: for each component the object that is given, or `none` for a name or
nothing.  `sampled` says whether a velocity, angle, direction, location or density of the projectiles is among the arguments.
Simplification: known names only, and no configuration file. -/
structure Args where
  target : Option ℕ
  production : Option ℕ
  projectile : Option ℕ
  scaling : Option ℕ
  surface : Option ℕ
  counting : Option ℕ
  morphology : Option ℕ
  subpixel : Bool
  sampled : Bool

/-- The components of a simulation.  Belongs to `simulation.py` lines 1455-1543. -/
structure Sim where
  target : ℕ
  production : ℕ
  projectile : ℕ
  scaling : ℕ
  surface : ℕ
  counting : ℕ
  morphology : ℕ

/-- `Target.maker`, `target/__init__.py` lines 204-236, and `Production.maker`, `production/__init__.py` lines 153-191: an object is
returned as it is. -/
def makePlain (w : World) : Option ℕ → World × ℕ
  | some t => (w, t)
  | none => ({ w with next := w.next + 1 }, w.next)

/-- A copy of a projectile (`new_projectile`, `projectile/__init__.py` line 315): it has the same target. -/
def copyProjectile (w : World) (p : ℕ) : World × ℕ :=
  ({ w with next := w.next + 1, projTarget := Function.update w.projTarget w.next (w.projTarget p) }, w.next)

/-- `Projectile.maker`, `projectile/__init__.py` lines 231-279: a new one is made for the target and copied; an object is copied if
some property of its impacts is given (lines 242-250), and otherwise kept. -/
def makeProjectile (w : World) (sampled : Bool) (t : ℕ) : Option ℕ → World × ℕ
  | some p => if sampled then copyProjectile w p else (w, p)
  | none => copyProjectile { w with next := w.next + 1, projTarget := Function.update w.projTarget w.next t } w.next

/-- `Scaling.maker`, `scaling/__init__.py` lines 105-121: an object is kept, then it is given the target and the projectiles. -/
def makeScaling (w : World) (t p : ℕ) : Option ℕ → World × ℕ
  | some k => ({ w with scalTarget := Function.update w.scalTarget k t, scalProj := Function.update w.scalProj k p }, k)
  | none => ({ w with
      next := w.next + 1, scalTarget := Function.update w.scalTarget w.next t, scalProj := Function.update w.scalProj w.next p }, w.next)

/-- `Surface.maker`, `surface/__init__.py` lines 180-191, and the constructor (line 138): an object is returned as it is, without regard
to the target. -/
def makeSurface (w : World) (t : ℕ) : Option ℕ → World × ℕ
  | some s => (w, s)
  | none => ({ w with next := w.next + 1, surfTarget := Function.update w.surfTarget w.next t }, w.next)

/-- `Counting.maker`, `counting/__init__.py` lines 132-142, and the constructor (lines 74-82): an object is returned as it is, without
regard to the surface; a new one belongs to no morphology model. -/
def makeCounting (w : World) (s : ℕ) : Option ℕ → World × ℕ
  | some c => (w, c)
  | none => ({ w with
      next := w.next + 1, countSurf := Function.update w.countSurf w.next s, countMorph := Function.update w.countMorph w.next none }, w.next)

/-- `Morphology.maker`, `morphology/__init__.py` lines 491-504, and the constructor (lines 404-434) with a surface, a counting object,
a scaling object and a production object: an object is returned as it is; a new one takes all of them and makes itself the morphology
model of the counting object (line 845); the production function is taken only with subpixel degradation. -/
def makeMorphology (w : World) (subpixel : Bool) (s p c k : ℕ) : Option ℕ → World × ℕ
  | some m => (w, m)
  | none => ({ w with
      next := w.next + 1
      morphSurf := Function.update w.morphSurf w.next s
      morphCount := Function.update w.morphCount w.next c
      countMorph := Function.update w.countMorph c (some w.next)
      morphScal := Function.update w.morphScal w.next k
      morphProd := Function.update w.morphProd w.next (if subpixel then some p else none) }, w.next)

/-- The constructor of `Simulation`, `simulation.py` lines 163-216. -/
def build (w : World) (a : Args) : World × Sim :=
  let t := makePlain w a.target
  let p := makePlain t.1 a.production
  let j := makeProjectile p.1 a.sampled t.2 a.projectile
  let k := makeScaling j.1 t.2 j.2 a.scaling
  let s := makeSurface k.1 t.2 a.surface
  let c := makeCounting s.1 s.2 a.counting
  let m := makeMorphology c.1 a.subpixel s.2 p.2 c.2 k.2 a.morphology
  (m.1, ⟨t.2, p.2, j.2, k.2, s.2, c.2, m.2⟩)

/-- Assignments of an object to a component of a simulation.  Belongs to `simulation.py` lines 1462-1543. -/
inductive Assign
  | target (t : ℕ)
  | production (p : ℕ)
  | projectile (j : ℕ)
  | scaling (k : ℕ)
  | surface (s : ℕ)
  | counting (c : ℕ)
  | morphology (m : ℕ)

/-- The setters, `simulation.py` lines 1462-1543: only the component itself is replaced.  Assigning a name, which is stored as text, is
not modelled. -/
def assign (s : Sim) : Assign → Sim
  | .target t => { s with target := t }
  | .production p => { s with production := p }
  | .projectile j => { s with projectile := j }
  | .scaling k => { s with scaling := k }
  | .surface x => { s with surface := x }
  | .counting c => { s with counting := c }
  | .morphology m => { s with morphology := m }

/-- The surface on which a simulation forms its craters (`simulation.py` line 865 and `morphology/__init__.py` lines 578-622). -/
def cratered (w : World) (s : Sim) : ℕ := w.morphSurf s.morphology

/-- The surface that a simulation saves, exports and plots (`simulation.py` lines 877, 925 and 1116). -/
def saved (s : Sim) : ℕ := s.surface

/-- The object in which the craters that a simulation forms are recorded (`morphology/__init__.py` lines 606-612). -/
def recorded (w : World) (s : Sim) : ℕ := w.morphCount s.morphology

/-- The object whose craters a simulation saves and shows (`simulation.py` lines 879 and 1803-1829). -/
def shown (s : Sim) : ℕ := s.counting

end Verif.Wiring
