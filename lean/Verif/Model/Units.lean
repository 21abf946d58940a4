import Mathlib.Data.Real.Basic
import Mathlib.Tactic.NormNum

/-! Units of the N(D) values of a production object, and their use for prescribed craters during construction.

Line numbers refer to `/repo/cratermaker/components/production/__init__.py`. -/

namespace Verif.Units

/-- The two factors as stored (`_N_conversion_factor`, `_D_conversion_factor`), `production/__init__.py` lines 69-70. -/
structure State where
  /-- `_N_conversion_factor`. -/
  n : Option ℝ
  /-- `_D_conversion_factor`. -/
  d : Option ℝ

/-- The getter of `N_conversion_factor`, `production/__init__.py` lines 1379-1387: the value and the object afterwards. -/
noncomputable def getN (s : State) : ℝ × State :=
  match s.n with
  | some x => (x, s)
  | none => (1e12, { s with n := some 1e12 })

/-- The getter of `D_conversion_factor`, `production/__init__.py` lines 1350-1358. -/
noncomputable def getD (s : State) : ℝ × State :=
  match s.d with
  | some x => (x, s)
  | none => (1000, { s with d := some 1000 })

open Classical in
/-- The setter of `N_conversion_factor`, `production/__init__.py` lines 1389-1396; `none`: ValueError. -/
noncomputable def setN (s : State) (v : Option ℝ) : Option State :=
  let x := v.getD 1e12
  if x = 1 ∨ x = 1e6 ∨ x = 1e12 then some { s with n := some x } else none

open Classical in
/-- The setter of `D_conversion_factor`, `production/__init__.py` lines 1360-1367; `none`: ValueError. -/
noncomputable def setD (s : State) (v : Option ℝ) : Option State :=
  let x := v.getD 1000
  if x = 1 ∨ x = 1000 then some { s with d := some x } else none

open Classical in
/-- `D_unit`, `production/__init__.py` lines 1369-1376. -/
noncomputable def dUnit (s : State) : String :=
  if (getD s).1 = 1 then "m" else if (getD s).1 = 1000 then "km" else "UNKNOWN UNITS"

open Classical in
/-- `N_unit`, `production/__init__.py` lines 1398-1410: reads the stored value, not the property. -/
noncomputable def nUnit (s : State) : String :=
  if s.n = some 1 then "per m²" else if s.n = some 1e6 then "per km²" else if s.n = some 1e12 then "per 10⁶ km²"
  else "UNKNOWN UNIT"

/-- What can be done with the factors of an object. Belongs to `production/__init__.py` lines 1360-1367. -/
inductive Step
  /-- Assignment to `N_conversion_factor`; a rejected one raises. -/
  | setN (v : Option ℝ)
  /-- Assignment to `D_conversion_factor`. -/
  | setD (v : Option ℝ)
  /-- Use of `N_conversion_factor`. -/
  | getN
  /-- Use of `D_conversion_factor`. -/
  | getD

/-- The object after a step; a rejected assignment leaves it alone. Belongs to `production/__init__.py` lines 1360-1367. -/
noncomputable def step (s : State) : Step → State
  | .setN v => (Units.setN s v).getD s
  | .setD v => (Units.setD s v).getD s
  | .getN => (Units.getN s).2
  | .getD => (Units.getD s).2

/-- Production metadata of a prescribed crater: its formation time, or a number of craters larger than some diameter. Belongs to `production/__init__.py` lines
996-1029. -/
inductive Given
  /-- `production_time`. -/
  | time (t : ℝ)
  /-- `production_ND`: the number, in the units of the object. -/
  | number (n : ℝ)

/-- What is made of it: a time, or a number per m² from which the time is computed. Belongs to `production/__init__.py` lines 996-1029. -/
inductive Meant
  /-- The time. -/
  | time (t : ℝ)
  /-- The number per m². -/
  | density (x : ℝ)

/-- The production functions: those of Neukum have their constants before the base class is initialised
(`neukum.py` lines 64-69), the power law only gets them afterwards (`powerlaw.py` lines 52-79). -/
inductive Family
  /-- Neukum. -/
  | neukum
  /-- Power law. -/
  | powerlaw

/-- Processing of a prescribed crater without sequence number, `production/__init__.py` lines 996-1029, up to the evaluation of the production
function; `ready`: the constants of the function are set.  `none`: AttributeError when they are not. -/
noncomputable def processOne (s : State) (ready : Bool) : Given → Option Meant
  | .time t => some (.time t)
  | .number n => if ready then some (.density (n / (getN s).1)) else none

/-- `_process_quasimc_craters` for such craters: the results and the object afterwards. Belongs to `production/__init__.py` lines 945-1246. -/
noncomputable def process (s : State) (ready : Bool) : List Given → Option (List Meant × State)
  | [] => some ([], s)
  | g :: gs =>
    match processOne s ready g with
    | none => none
    | some m =>
      let s' : State := match g with
        | .time _ => s
        | .number _ => (getN s).2
      match process s' ready gs with
      | none => none
      | some (ms, s'') => some (m :: ms, s'')

/-- `Production.__init__`, `production/__init__.py` lines 65-83: the prescribed craters are processed before the factors are set.  `none`: an
exception. -/
noncomputable def construct (f : Family) (n d : Option ℝ) (craters : List Given) : Option (State × List Meant) :=
  let ready := match f with
    | .neukum => true
    | .powerlaw => false
  match process ⟨none, none⟩ ready craters with
  | none => none
  | some (ms, s) =>
    match setN s n with
    | none => none
    | some s1 =>
      match setD s1 d with
      | none => none
      | some s2 => some (s2, ms)

/-- Assignment to `quasimc_craters` of a constructed object, lines 1321-1328; `Simulation` does it once more at its start
(`core/simulation.py` lines 232-236). -/
noncomputable def assign (s : State) (craters : List Given) : Option (List Meant × State) := process s true craters

end Verif.Units
