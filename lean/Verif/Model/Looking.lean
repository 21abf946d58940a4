import Verif.Model.SurfaceExport
import Verif.Model.Plot

/-!
Model of looking at a simulation: `Simulation.plot` (`cratermaker/core/simulation.py`, lines 1025-1117) with `Simulation.save` (lines 867-884), together with
exports and runs as far as they write saved states of the surface.  What a picture looks like, the options of a plot and the crater lists are left out.
-/

namespace Verif.Looking

open Verif.SurfaceExport

/-- A simulation: the number of its interval, its surface, its time variables, and the saved states. Belongs to `simulation.py` lines 867-884. -/
structure Sim (D T : Type) where
  interval : ℤ
  present : D
  times : T
  files : Files D T

/-- What a plot shows: the number and the time variables its label is made from, and the picture with the number in its file name. Belongs to `simulation.py`
lines 1089-1117. -/
structure Seen (D T : Type) where
  label : ℤ × Option T
  picture : Option ℤ × D

/-- `Simulation.save`, `simulation.py` lines 867-884, for the surface. -/
def save {D T : Type} (s : Sim D T) : Sim D T :=
  { s with files := Verif.SurfaceExport.save s.present (some s.times) s.interval s.files }

/-- The number and the time variables that `labelmaker` takes, `simulation.py` lines 975-982. -/
def labelOf {D T : Type} (s : Sim D T) : Option ℤ → ℤ × Option T
  | none => (s.interval, some s.times)
  | some k => (k, match read s.files (some k) with
    | [(j, f)] => if j = k then f.times else none
    | _ => none)

/-- `Simulation.plot`, `simulation.py` lines 1089-1117: the label, then, without an interval, a save; then the plot of the surface
(`surface/__init__.py` lines 3398-3404).  `none` is an exception. -/
def plot {D T : Type} (s : Sim D T) (interval : Option ℤ) : Option (Seen D T × Sim D T) :=
  let label := labelOf s interval
  let s' := match interval with
    | none => save s
    | some _ => s
  (Verif.Plot.shown s'.present (s'.files.map fun p => (p.1, p.2.data)) (some (interval.getD s.interval))).map fun p => (⟨label, p⟩, s')

/-- What can be done to a simulation: an interval of a run that ends with the given surface and times (`simulation.py` lines 588-645), a change of the surface by hand
(`emplace`, `populate`, `update_elevation`; lines 798-865), a save (lines 867-884), a plot (lines 1089-1117) or an export (lines 915-930). -/
inductive Op (D T : Type)
  | round (d : D) (t : T)
  | change (d : D)
  | save
  | plot (interval : Option ℤ)
  | export (driver : String) (interval : Option ℤ)

/-- One step; a plot that raises changes nothing.  Belongs to `simulation.py` lines 867-930 and 1089-1117. -/
def step {D T : Type} (s : Sim D T) : Op D T → Sim D T
  | .round d t => save { s with interval := s.interval + 1, present := d, times := t }
  | .change d => { s with present := d }
  | .save => save s
  | .plot i => ((plot s i).map Prod.snd).getD s
  | .export driver i => { s with files := (exportSim s.present s.times s.interval s.files false none driver i).files }

end Verif.Looking
