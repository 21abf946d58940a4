import Mathlib.Data.List.Basic

/-!
Model of when craters are counted: `Morphology.__init__`, `Morphology.counting` and `Morphology.do_counting`
(`cratermaker/components/morphology/__init__.py` lines 392-434, 826-845 and 868-878), what `form_crater` does with them (lines 598-622),
and the flag of a simulation (`cratermaker/core/simulation.py` lines 85 and 208-216).
-/

namespace Verif.CountFlag

/-- A counting object: one the user made, or one made by the constructor. Belongs to `counting/__init__.py` lines 132-142. -/
inductive Obj
  | given (n : ℕ)
  | made (n : ℕ)
  deriving DecidableEq

/-- The argument `counting`: None, a name, or an object. Belongs to `counting/__init__.py` lines 132-142. -/
inductive Arg
  | nothing
  | name (s : String)
  | object (o : Obj)

/-- The attributes `_counting` and `_do_counting` of a morphology model, and whether the counting object refers to this model. Belongs to `morphology/__init__.py`
lines 832-845. -/
structure Morph where
  counting : Option Obj
  flag : Option Bool
  owned : Bool

/-- What can be raised. Belongs to `counting/__init__.py` lines 132-142. -/
inductive Raised
  | key
  | value
  | attribute
  deriving DecidableEq

/-- `Counting.maker` (`counting/__init__.py` lines 132-142 and `core/base.py` lines 855-866): None stands for the default model, an
object is returned as it is; `k` objects were made before. -/
def make (known : String → Bool) (a : Arg) (k : ℕ) : Except Raised (Obj × ℕ) :=
  match a with
  | .nothing => .ok (.made k, k + 1)
  | .name s => if known s then .ok (.made k, k + 1) else .error .key
  | .object o => .ok (o, k)

/-- The setter of `counting` with an object or None, `morphology/__init__.py` lines 832-845. -/
def setCounting (m : Morph) : Option Obj → Morph
  | none => { m with counting := none, flag := some false }
  | some o => { m with counting := some o, flag := some true, owned := true }

/-- The setter of `do_counting`, `morphology/__init__.py` lines 875-878. -/
def setFlag (m : Morph) (b : Bool) : Morph := { m with flag := some b }

/-- The constructor up to `morphology/__init__.py` line 411: surface and counting object.  `k` counts the objects made. -/
def first (known : String → Bool) (surfaceGiven : Bool) (a : Arg) (m : Morph) (k : ℕ) : Except Raised (Morph × ℕ) :=
  match surfaceGiven, a with
  | false, .object o => .ok (setCounting m (some o), k)
  | _, .nothing => .ok (m, k)
  | _, a =>
    match make known a k with
    | .error e => .error e
    | .ok (o, k') => .ok (setCounting m (some o), k')

/-- `morphology/__init__.py` lines 413-416. -/
def second (known : String → Bool) (a : Arg) (m : Morph) (k : ℕ) : Except Raised (Morph × ℕ) :=
  if m.counting.isSome && !m.owned then .ok ({ m with owned := true }, k)
  else
    match make known a k with
    | .error e => .error e
    | .ok (o, k') => .ok (setCounting m (some o), k')

/-- `morphology/__init__.py` lines 420-425. -/
def third (doCounting : Option Bool) (m : Morph) : Except Raised Morph :=
  match doCounting with
  | none => .ok m
  | some b => if b && m.counting.isNone then .error .value else .ok (setFlag m b)

/-- The constructor, `morphology/__init__.py` lines 392-434, as far as counting is concerned. -/
def construct (known : String → Bool) (surfaceGiven : Bool) (a : Arg) (doCounting : Option Bool) : Except Raised (Morph × ℕ) :=
  match first known surfaceGiven a ⟨none, none, false⟩ 0 with
  | .error e => .error e
  | .ok (m, k) =>
    match second known a m k with
    | .error e => .error e
    | .ok (m, k) =>
      match third doCounting m with
      | .error e => .error e
      | .ok m => .ok (m, k)

/-- What forming craters leaves: craters whose shape is on the surface, whose ejecta is, the list of emplaced craters and the list of
those recorded for counting. Belongs to `morphology/__init__.py` lines 578-622. -/
structure Book where
  shaped : List ℕ
  ejecta : List ℕ
  emplaced : List ℕ
  counted : List ℕ

/-- `form_crater` of a crater large enough to be seen, `morphology/__init__.py` lines 578-622: the shape is made first, then the crater is listed and recorded, then
the ejecta is formed. -/
def form (m : Morph) (b : Book) (c : ℕ) : Book × Option Raised :=
  let b1 := { b with shaped := b.shaped ++ [c] }
  match m.counting with
  | none => (b1, some .attribute)
  | some _ =>
    let b2 := { b1 with emplaced := b1.emplaced ++ [c] }
    let b3 := if m.flag = some true then { b2 with counted := b2.counted ++ [c] } else b2
    ({ b3 with ejecta := b3.ejecta ++ [c] }, none)

/-- Assignments a user can make. Belongs to `morphology/__init__.py` lines 832-878. -/
inductive Assign
  | counting (o : Option Obj)
  | flag (b : Bool)

/-- One assignment. Belongs to `morphology/__init__.py` lines 832-878. -/
def assign (m : Morph) : Assign → Morph
  | .counting o => setCounting m o
  | .flag b => setFlag m b

/-- The flag a simulation hands to its morphology model, `simulation.py` line 208: the argument `do_counting`, true when it is not given
(line 85); the flag saved in the configuration file, which is in `morphology_config`, is overridden. -/
def simulationFlag (_saved : Option Bool) (argument : Option Bool) : Bool := argument.getD true

end Verif.CountFlag
