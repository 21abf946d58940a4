/-!
Model of the settings of a mesh (`gridlevel`, `pix`, `local_radius`, `local_location`, `superdomain_scale_factor`) that are assigned to
the surface of a simulation, of what is written to the configuration file, and of what happens to the saved states when the simulation
is opened again: `cratermaker/core/simulation.py` lines 107-251, 286-297, 866-884 and 1277-1320 with
`cratermaker/components/surface/__init__.py` lines 1076-1110 and 1197-1225.  The settings are one value of a type `S`; that two meshes have
the same identity only with the same settings is C128.  The content of a saved state is not modelled, only its interval and the settings
of the mesh it belongs to.  Left out: meshes that are made anew in the same process (C248), and crashes (C10).
-/

namespace Verif.MeshSettings

variable {S : Type} [DecidableEq S]

/-- The folder of the simulation: the settings in the configuration file (`simulation.py` lines 1316-1319), the settings the mesh in the
grid file was made with (`surface/__init__.py` line 1172), and the saved states, each with the settings of the mesh it belongs to
(`surface/__init__.py` lines 1232-1290). -/
structure Disk (S : Type) where
  config : Option S
  grid : Option S
  states : List (Nat × S)

/-- A simulation in memory: the settings that its surface reports (`icosphere.py` lines 94-103, `arbitrary_resolution.py` lines 64-80,
`hireslocal.py` lines 748-828), the settings the mesh in memory was made with (`surface/__init__.py` lines 1092-1102), and
`config_readonly` (`simulation.py` lines 1756-1761). -/
structure Session (S : Type) where
  settings : S
  mesh : S
  readonly : Bool

/-- `Simulation.to_config`, the file only (`simulation.py` lines 1316-1319): the settings the surface reports now. -/
def writeConfig (s : Session S) (d : Disk S) : Disk S :=
  if s.readonly then d else { d with config := some s.settings }

/-- `Simulation(..., reset=reset)` in a folder (`simulation.py` lines 107-248).  `given` are the settings given as arguments; without
them those of the configuration file are used, unless the simulation is reset, and the `default` without a file (lines 126-180).  The surface
compares the mesh in the grid file (`surface/__init__.py` lines 1092-1106): with another one, or none, a new mesh is made and the saved
states are removed without a question; a reset removes them as well.  The configuration file is written only if the
simulation is new (`simulation.py` lines 236-246). -/
def start (default : S) (given : Option S) (reset : Bool) (d : Disk S) : Session S × Disk S :=
  let settings := given.getD ((if reset then none else d.config).getD default)
  let regrid := decide (d.grid ≠ some settings)
  let isNew := reset || regrid
  let d' : Disk S := { d with grid := some settings, states := if isNew then [] else d.states }
  let s : Session S := ⟨settings, settings, !isNew⟩
  (s, writeConfig s d')

/-- What is done with a simulation that is open.  `assign` is the assignment of mesh settings to its surface, `touch` the assignment of an attribute of the
simulation itself, as `run` does in every interval (`simulation.py` lines 286-297 and 481-560), `save n` is `Simulation.save` in interval `n`
(`simulation.py` lines 866-884), `again given` ends the process and opens the simulation anew without `reset`
(`simulation.py` lines 107-248). -/
inductive Op (S : Type) where
  | assign (v : S)
  | touch
  | save (n : Nat)
  | again (given : Option S)

/-- One step.  An assignment changes what the surface reports, neither its mesh nor a file (`icosphere.py` lines 99-103,
`arbitrary_resolution.py` lines 71-80, `hireslocal.py` lines 755-760, 769-777, 786-790, 824-828); `touch` writes the configuration file
(`simulation.py` lines 288-297); saving writes the state, replacing one of the same interval, and then the configuration file
(`simulation.py` lines 875-882). -/
def step (default : S) (p : Session S × Disk S) : Op S → Session S × Disk S
  | .assign v => ({ p.1 with settings := v }, p.2)
  | .touch => (p.1, writeConfig p.1 p.2)
  | .save n =>
    (p.1, writeConfig p.1 { p.2 with states := p.2.states.filter (fun e => e.1 != n) ++ [(n, p.1.mesh)] })
  | .again given => start default given false p.2

/-- A history of steps (`simulation.py` lines 286-297, 866-884). -/
def run (default : S) (p : Session S × Disk S) (l : List (Op S)) : Session S × Disk S := l.foldl (step default) p

end Verif.MeshSettings
