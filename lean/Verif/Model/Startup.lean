import Verif.Model.Base

/-!
Model of how `Simulation.__init__` (`cratermaker/core/simulation.py`, lines 65-247) decides between starting anew and resuming,
and combines the configuration file with the arguments.
-/

namespace Verif.Startup

open Verif.Base

/-! ### New or resumed -/

/-- Answers to the prompt of `simulation.py` line 109, after `lower()`. -/
inductive Answer
  | a
  | y
  | other

/-- `simulation.py` lines 107-124: whether a new simulation is started, and the asking mode after.  `exists_` is whether there is a
configuration file. -/
def decideReset (reset : Option Bool) (ask exists_ : Bool) (ans : Answer) : Bool × Bool :=
  match reset with
  | some r => (r, ask)
  | none =>
    if ask && exists_ then
      match ans with
      | .a => (true, false)
      | .y => (true, ask)
      | .other => (false, ask)
    else (false, ask)

/-! ### Configuration of the components -/

/-- The component names, `constants.py` `_COMPONENT_NAMES`. Belongs to `simulation.py` line 134. -/
inductive Comp
  | counting
  | target
  | scaling
  | production
  | morphology
  | projectile
  | surface
  deriving DecidableEq

/-- The configuration file: the name of each component, its own settings, and top-level entries which are not properties
of the simulation. Belongs to `simulation.py` lines 136-147. -/
structure Saved (V : Type) where
  name : Comp → Option String
  config : Comp → Option (List (String × V))
  extra : List (String × V)

/-- The arguments of `Simulation`: component names and further keyword arguments. Belongs to `simulation.py` lines 136-147. -/
structure Args (V : Type) where
  name : Comp → Option String
  kwargs : List (String × V)

/-- `{**d, **e}` of Python as far as looking up goes: entries of `e` win. Belongs to `simulation.py` lines 149-218. -/
def over {V : Type} (d e : List (String × V)) : List (String × V) := e ++ d

/-- The attributes `_target`, `_scaling`, … when `simulation.py` line 134 looks at them: lines 89-95 have set them to None and nothing has
assigned them since. -/
def attributesThen : Comp → Option String := fun _ => none

/-- `config_override`, `simulation.py` lines 131-134. -/
def configOverride (attr : Comp → Option String) (c : Comp) : Bool := (attr c).isSome

/-- The names after `_set_properties`, `simulation.py` lines 136-147: arguments win over the file. -/
def nameOf {V : Type} (s : Option (Saved V)) (a : Args V) (c : Comp) : Option String :=
  match a.name c with
  | some n => some n
  | none => s.bind fun s => s.name c

/-- The settings handed to the `maker` of a component, `simulation.py` lines 149-218.  `common` are the common arguments.
Simplification: arguments that a single component adds (target, reset, …) are left out. -/
def componentArgs {V : Type} (s : Option (Saved V)) (a : Args V) (common : List (String × V)) (c : Comp) :
    List (String × V) :=
  let saved := match s with
    | none => []
    | some s => if configOverride attributesThen c then [] else (s.config c).getD []
  let extra := match s with
    | none => []
    | some s => s.extra
  over saved (over (over a.kwargs extra) common)

/-! ### Random generator -/

/-- Entries of the merged mapping that concern the generator. Belongs to `base.py` lines 734-773. -/
inductive Entry (State Seed Dict : Type)
  | rng (g : State)
  | seed (s : Seed)
  | state (d : Dict)

/-- The setters of `rng`, `rng_seed` and `rng_state`, `base.py` lines 734-773. -/
def applyEntry {State Seed Dict : Type} (np : Numpy State Seed Dict) (fresh : State) (o : RngObj State Seed) :
    Entry State Seed Dict → Option (RngObj State Seed)
  | .rng g => (rngInit np fresh (.good g) o.seed .absent).map fun g => { o with rng := g }
  | .seed s => some { o with seed := some s }
  | .state d => o.setState np fresh d

/-- `CratermakerBase.__init__`, `base.py` lines 86-90. -/
def initRng {State Seed Dict : Type} (np : Numpy State Seed Dict) (fresh : State) (rng : Arg State) (seed : Option Seed)
    (state : Arg Dict) : Option (RngObj State Seed) :=
  (rngInit np fresh rng seed state).map fun g => ⟨g, seed, g⟩

/-- The generator entries of `common_args`, `base.py` lines 775-783. -/
def commonEntries {State Seed Dict : Type} (toDict : State → Dict) (o : RngObj State Seed) : List (Entry State Seed Dict) :=
  [.rng o.rng] ++ (match o.seed with | none => [] | some s => [.seed s]) ++ [.state (toDict o.rng)]

/-- The generator entries of `{**properties, **kwargs}`, `general_utils.py` line 147: the seed of the file is used if none
was given; its state is replaced by the one of `common_args`. -/
def mergedEntries {State Seed Dict : Type} (toDict : State → Dict) (o : RngObj State Seed) (fileSeed : Option Seed)
    (_fileState : Option Dict) : List (Entry State Seed Dict) :=
  (match o.seed, fileSeed with
    | none, some s => [.seed s]
    | _, _ => []) ++ commonEntries toDict o

/-- The generator of a resumed simulation, `simulation.py` lines 105 and 136-147: base class, then file merged with the common arguments,
then the common arguments again. -/
def resumeRng {State Seed Dict : Type} (np : Numpy State Seed Dict) (toDict : State → Dict) (fresh : State) (rng : Arg State)
    (seed : Option Seed) (state : Arg Dict) (fileSeed : Option Seed) (fileState : Option Dict) :
    Option (RngObj State Seed) := do
  let o ← initRng np fresh rng seed state
  let es := mergedEntries toDict o fileSeed fileState ++ commonEntries toDict o
  es.foldlM (applyEntry np fresh) o

end Verif.Startup
