import Verif.Model.Base
import Verif.Model.RunArgs

/-!
Model of `Simulation.reset` (`cratermaker/core/simulation.py:1323-1372`) and of the `reset` methods of
the components (`core/base.py:94-113`, `components/counting/__init__.py:151-165`,
`components/surface/__init__.py:220-247`).
-/

namespace Verif.SimReset

open Base (FS Path Answer Outcome overwriteCheck)
open RunArgs (Err)

/-- `_COMPONENT_NAMES`, `constants.py:9-17`. -/
def componentNames : List String :=
  ["counting", "target", "scaling", "production", "morphology", "projectile", "surface"]

/-- A component: the paths its file patterns match (when they exist), its own asking mode, its
in-memory data and the initial data, and what the user answers to this component's questions. Belongs to `base.py` lines 296-319. -/
structure Comp (M : Type) where
  patterns : List Path
  ask : Bool
  mem : M
  init : M
  answer : Path → Answer

/-- `saved_output_files`, `base.py:296-319`. -/
def savedFiles {M : Type} (fs : FS) (c : Comp M) : List Path :=
  c.patterns.filter fun p => (fs p).isSome

/-- A component's `reset`.  The counting component clears its memory before it asks
(`counting/__init__.py:160-164`), the surface after, whatever the answer was
(`surface/__init__.py:229-245`); the other components have no memory to clear.
The Boolean says whether the files were removed. -/
def compReset {M : Type} (fs : FS) (c : Comp M) : FS × Comp M × Bool :=
  let files := savedFiles fs c
  let r := overwriteCheck c.answer (fun _ => false) c.ask fs files
  (r.2.1, { c with mem := c.init }, r.1 = .ok)

/-- The simulation. Belongs to `simulation.py` lines 1358-1360. -/
structure Sim (M : Type) where
  fs : FS
  ask : Bool
  interval : ℕ
  time : Option ℝ
  elapsed : Option ℝ
  n1 : Option ℝ
  isNew : Bool
  comps : String → Option (Comp M)
  /-- Components reset so far and whether their files were removed; interval numbers saved. -/
  resets : List (String × Bool)
  saves : List ℕ

/-- The `skip_component` argument. Belongs to `simulation.py` lines 1334-1339. -/
inductive Skip
  | none
  | str (s : String)
  | list (xs : List String)
  | other

/-- `simulation.py` lines 1334-1339. -/
def skipped : Skip → Except Err (List String)
  | .none => .ok []
  | .str s => .ok [s]
  | .list xs => .ok xs
  | .other => .error .typeError

/-- The loop over the components, `simulation.py` lines 1358-1360. -/
def resetLoop {M : Type} (skip : List String) : List String → Sim M → Sim M
  | [], s => s
  | n :: ns, s =>
    if skip.contains n then resetLoop skip ns s
    else match s.comps n with
      | none => resetLoop skip ns s
      | some c =>
        let r := compReset s.fs c
        resetLoop skip ns { s with
          fs := r.1
          comps := fun m => if m = n then some r.2.1 else s.comps m
          resets := s.resets ++ [(n, r.2.2)] }

/-- The files listed before asking, `simulation.py` lines 1345-1348. -/
def filesToRemove {M : Type} (skip : List String) (s : Sim M) : List Path :=
  componentNames.flatMap fun n =>
    if skip.contains n then []
    else match s.comps n with
      | none => []
      | some c => savedFiles s.fs c

/-- `Simulation.reset`, `simulation.py:1323-1372`.  `answer` is what the user types at the
simulation's own prompt.  The second component is the simulation afterwards, also when an
exception was raised.  Simplification: the files written by the closing save are not part of `fs`. -/
def reset {M : Type} (answer : Answer) (skip : Skip) (s : Sim M) : Except Err Unit × Sim M :=
  match skipped skip with
  | .error e => (.error e, s)
  | .ok sk =>
    let asked := s.ask && !(filesToRemove sk s).isEmpty
    if asked && answer == .other then (.error .runtimeError, s)
    else
      let orig := s.ask
      let s := if asked && answer == .a then { s with ask := false } else s
      let s := resetLoop sk componentNames s
      (.ok (), { s with
        ask := orig
        interval := 0
        time := none
        elapsed := none
        n1 := none
        saves := s.saves ++ [0]     -- `self.save(skip_actions=True)` with interval 0
        isNew := true })

end Verif.SimReset
