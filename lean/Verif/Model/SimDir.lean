import Mathlib.Data.Nat.Notation

/-!
Model of the directory of a simulation: `simdir`, `output_dir`, `export_dir` and `plot_dir` of `cratermaker/core/base.py`
(lines 600-662), `_simdir_init` (lines 963-992), the directory handed to the components (lines 774-782, `core/simulation.py` lines
101-214) and the place of `cratermaker.yaml` (`core/simulation.py` line 1754).  Paths are lists of names.  Symbolic links, drives and
failures of `mkdir` are not modelled.
-/

namespace Verif.SimDir

/-- A `pathlib.Path`: whether it is absolute, and its parts (`pathlib` has removed parts `.`). Belongs to `base.py` lines 988-991. -/
structure P where
  abs : Bool
  parts : List String
  deriving DecidableEq, Repr

/-- `a / b` of `pathlib`. Belongs to `base.py` lines 963-992. -/
def join (a b : P) : P := if b.abs then b else ⟨a.abs, a.parts ++ b.parts⟩

/-- `Path.resolve` for the names after the root: `..` removes the name before it. Belongs to `base.py` lines 963-992. -/
def resolve (l : List String) : List String :=
  (l.foldl (fun acc x => if x = ".." then acc.drop 1 else x :: acc) []).reverse

/-- The directory a path means for a process whose working directory has the names `cwd`: what the operating system makes of it. Belongs to `base.py` lines 619-662. -/
def locate (cwd : List String) (p : P) : List String := resolve (join ⟨true, cwd⟩ p).parts

/-- `p.relative_to(cwd)`, `base.py` lines 988-991: the rest after the working directory, or the path itself. -/
def relativeTo (cwd p : List String) : P :=
  if cwd.isPrefixOf p then ⟨false, p.drop cwd.length⟩ else ⟨true, p⟩

/-- `_simdir_init`, `base.py` lines 963-992. -/
def simdirInit (cwd : List String) (arg : Option P) : P :=
  match arg with
  | none => relativeTo cwd cwd
  | some p => relativeTo cwd (resolve (join ⟨true, cwd⟩ p).parts)

/-- What can be assigned to `simdir`. Belongs to `base.py` lines 612-617. -/
inductive Value where
  | none
  | text (p : P)
  | path (p : P)
  | other
  deriving DecidableEq, Repr

/-- The setter of `simdir`, `base.py` lines 612-617: paths are kept as they are, anything but paths, strings and `None` is passed over. -/
def set (cwd : List String) (old : Option P) : Value → Option P
  | .path p => some p
  | .text p => some (simdirInit cwd (some p))
  | .none => some (simdirInit cwd Option.none)
  | .other => old

/-- A simulation: its own directory and those of its components. Belongs to `simulation.py` line 105. -/
structure Sim where
  own : Option P
  parts : List (Option P)

/-- The directories of a simulation with `n` components: they are made with the directory of the simulation, a `Path`
(`core/simulation.py` lines 105 and 163-214; `core/base.py` line 86). -/
def make (cwd : List String) (n : ℕ) (value : Value) : Sim :=
  let own := set cwd none value
  ⟨own, List.replicate n (match own with | some p => set cwd none (.path p) | none => set cwd none .none)⟩

/-- `sim.simdir = value`. Belongs to `base.py` lines 612-617. -/
def assign (cwd : List String) (s : Sim) (value : Value) : Sim := { s with own := set cwd s.own value }

/-- The directory of the files of a component with the directory name `name` (`base.py` lines 619-662: `output_dir`, `export_dir` and
`plot_dir`), for a process in `cwd`. -/
def outputDir (cwd : List String) (simdir : P) (name : String) : List String := locate cwd (join simdir ⟨false, [name]⟩)

/-- `plot_dir`, `base.py` line 656. -/
def plotDir (cwd : List String) (simdir : P) (name : String) : List String := outputDir cwd simdir (name ++ "_images")

/-- The directory of `cratermaker.yaml`, `core/simulation.py` line 1754. -/
def configDir (cwd : List String) (simdir : P) : List String := locate cwd simdir

end Verif.SimDir
