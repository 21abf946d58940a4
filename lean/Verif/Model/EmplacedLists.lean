import Mathlib.Data.List.Basic

/-!
Model of the lists of emplaced craters that a simulation saves: `Simulation.run` (`cratermaker/core/simulation.py` lines 548-551 and 578-648), `emplace` (line 864) and
`save` (lines 867-884), `Counting.save` (`counting/__init__.py` lines 484-495) and `Morphology.form_crater` (`morphology/__init__.py` line 614, which appends a crater to the list).

One process; a crater is opaque.  The craters that `emplace` and `populate` get are those that are formed (`Verif.Emplace`, C170).
-/

namespace Verif.EmplacedLists

variable {K : Type}

/-- The state of a simulation (`simulation.py` lines 101-106, `counting/__init__.py` `emplaced`).  `files k` is the saved list of interval `k`, if there is a file. -/
structure Sim (K : Type) where
  isNew : Bool
  interval : ℕ
  emplaced : List K
  files : ℕ → Option (List K)

/-- A new simulation (`simulation.py` lines 238-240); its first save has no craters and writes no file of them. -/
def Sim.new : Sim K := ⟨true, 0, [], fun _ => none⟩

/-- `emplace` (`simulation.py` line 864): `emplaced.append` for every crater (`form_crater`, line 614). -/
def Sim.emplace (s : Sim K) (cs : List K) : Sim K :=
  { s with isNew := false, emplaced := s.emplaced ++ cs }

/-- `populate` (`simulation.py` lines 812-815), with the craters it samples: nothing is done when there are none. -/
def Sim.populate (s : Sim K) (cs : List K) : Sim K :=
  if cs = [] then s else s.emplace cs

/-- `save`: nothing is written for an empty list; the list itself stays as it is.  The file has the craters in the order of their ids (`to_xarray`, `counting/__init__.py`
line 449), which is what `sort` does. -/
def Sim.save (sort : List K → List K) (s : Sim K) : Sim K :=
  if s.emplaced = [] then s else { s with files := fun k => if k = s.interval then some (sort s.emplaced) else s.files k }

/-- One round of `run`, `simulation.py` lines 588-645, in which the craters `cs` are formed: the list is emptied, the surface populated, the interval counted on, and all saved. -/
def Sim.round (sort : List K → List K) (s : Sim K) (cs : List K) : Sim K :=
  let s := { s with emplaced := [] }
  let s := s.populate cs
  ({ s with interval := s.interval + 1 }).save sort

/-- `run`, `simulation.py` lines 578-648, with the craters that are formed in each round. -/
def Sim.run (sort : List K → List K) (s : Sim K) (rounds : List (List K)) : Sim K :=
  rounds.foldl (Sim.round sort) (if s.isNew then s.save sort else s)

/-- What a user does with a simulation: `emplace`, `populate`, `save` and `run` of `simulation.py`. Belongs to `simulation.py` lines 548-884. -/
inductive Op (K : Type) where
  | emplace (cs : List K)
  | populate (cs : List K)
  | save
  | run (rounds : List (List K))

/-- One of the operations of `simulation.py` lines 548-884. -/
def Sim.op (sort : List K → List K) (s : Sim K) : Op K → Sim K
  | .emplace cs => s.emplace cs
  | .populate cs => s.populate cs
  | .save => s.save sort
  | .run rounds => s.run sort rounds

/-- A history of operations on a new simulation. Belongs to `simulation.py` lines 548-884. -/
def history (sort : List K → List K) (ops : List (Op K)) : Sim K := ops.foldl (Sim.op sort) Sim.new

end Verif.EmplacedLists
