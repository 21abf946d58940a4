import Verif.Model.QuasiMC

/-!
# Prescribed craters over the whole life of a simulation

Models when the craters of `Production.quasimc_craters` are used by a simulation: the setters of `quasimc_craters` and `quasimc_file`
(`cratermaker/components/production/__init__.py`, lines 1290-1303 and 1322-1329), `Simulation.do_quasimc` (`cratermaker/core/simulation.py`,
lines 1856-1878), the end of `Simulation.populate` (lines 794-816), and what a resumed simulation finds (lines 124-130, 233-236, 246, 881 and 1317).
-/

namespace Verif.Prescribed

open QuasiMC

/-- A prescribed crater as the user gives it, without sequence number (those are in `Verif.Sequence`). Belongs to `production/__init__.py` lines 945-1246. -/
structure Entry where
  tag : ℕ
  diam : ℝ
  data : Metadata

/-- `_process_quasimc_craters`, `production/__init__.py` lines 945-1246, for craters without sequence numbers; `z` gives the normal draw for each of them. -/
noncomputable def process (age : ℝ → ℝ) (z : ℕ → ℝ) (l : List Entry) : List Crater :=
  sortByTime (l.map fun e => ⟨e.tag, e.diam, drawTime age (z e.tag) e.data⟩)

/-- What matters of a simulation and of its directory. Belongs to `simulation.py` lines 99-130 and 1856-1878. -/
structure State where
  /-- `production._quasimc_craters`. -/
  prescribed : List Crater := []
  /-- What the file at `production._quasimc_file` holds. -/
  file : Option (List Entry) := none
  /-- What the file named in `cratermaker.yaml` holds. -/
  stored : Option (List Entry) := none
  /-- `_do_quasimc`. -/
  doQ : Option Bool := none
  /-- `_config_readonly`. -/
  readonly : Bool := false

/-- What happens to a simulation. Belongs to `simulation.py` lines 124-130, 794-816 and 1874-1910. -/
inductive Event
  /-- `quasimc_craters = l`. -/
  | assign (l : List Entry) (z : ℕ → ℝ)
  /-- `quasimc_file = path`, the file holding `l`. -/
  | assignFile (l : List Entry) (z : ℕ → ℝ)
  /-- `do_quasimc = b`.  (`None` is not accepted, although documented: `isinstance(None, (bool, None))` raises.) -/
  | flag (b : Bool)
  /-- One round of `run`: `populate` for the window with the random craters found, then `save`. -/
  | round (ts te : ℝ) (craters : List Given) (drawn : List ℝ)
  /-- The process ends and the simulation is opened again. -/
  | resume (z : ℕ → ℝ)

/-- `do_quasimc`, `simulation.py` lines 1866-1872: decided when first asked, and kept. -/
def wanted (s : State) : Bool :=
  match s.doQ with
  | some b => b
  | none => decide (s.prescribed.length > 0)

/-- The state after an event, and the craters handed to `emplace`. Belongs to `simulation.py` lines 124-130, 794-816, 1874-1878 and 1892-1910. -/
noncomputable def step (age : ℝ → ℝ) (s : State) : Event → State × List Crater
  | .assign l z => ({ s with prescribed := process age z l }, [])
  | .assignFile l z => ({ s with prescribed := process age z l, file := some l }, [])
  | .flag b => ({ s with doQ := some b }, [])
  | .round ts te craters drawn =>
    -- lines 794-812; without prescribed craters all the random craters are used
    ({ s with doQ := some (wanted s), stored := if s.readonly then s.stored else s.file },
      if wanted s then merge ts te craters drawn s.prescribed else giveTimes craters (craters.map fun g => g.time.getD 0))
  | .resume z =>
    -- a new object: `_do_quasimc` is `None`, the file is read again, the configuration stays as it is on the disk
    ({ prescribed := match s.stored with | some l => process age z l | none => []
       file := s.stored
       stored := s.stored
       doQ := none
       readonly := true }, [])

/-- All the craters handed to `emplace` in a history, in order. Belongs to `simulation.py` lines 794-816. -/
noncomputable def history (age : ℝ → ℝ) : State → List Event → List Crater
  | _, [] => []
  | s, e :: es => (step age s e).2 ++ history age (step age s e).1 es

/-- A new simulation, `simulation.py` lines 155-246: made with a file, or without prescribed craters. -/
noncomputable def create (age : ℝ → ℝ) (z : ℕ → ℝ) (file : Option (List Entry)) : State where
  prescribed := match file with | some l => process age z l | none => []
  file := file
  stored := file
  doQ := none
  readonly := false

end Verif.Prescribed
