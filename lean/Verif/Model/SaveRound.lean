import Verif.Model.CountFiles

/-!
Model of what a crash during `Simulation.save` (`cratermaker/core/simulation.py` lines 867-884) leaves for the next process: the order in which the files of the surface and
of the crater lists are written, and what `Simulation` reads when it is made on the directory (`surface/__init__.py` lines 1076-1110, `counting/__init__.py` lines 87-96).

The state of the surface is opaque; its file is written elsewhere and moved into place (`Verif.Crash`), which is one step here.  The files of the crater lists are
written in place: first there is a file that cannot be read, then the complete one.  The configuration, whose contents do not decide what is read, is left out
(see `Verif.Run` for it), and so are the save actions.
-/

namespace Verif.SaveRound

open Verif.CountFiles (sorted fromXarray)

/-- The numbered files of one kind, in increasing order of the numbers. Belongs to `counting/__init__.py` lines 484-495. -/
abbrev Store (α : Type) := List (ℕ × α)

/-- Writing the file of a number; an existing one is replaced. Belongs to `counting/__init__.py` lines 484-495. -/
def put {α : Type} (st : Store α) (k : ℕ) (a : α) : Store α := st.filter (fun e => e.1 < k) ++ (k, a) :: st.filter (fun e => k < e.1)

/-- The files of a simulation.  The content `none` is a file that cannot be read. Belongs to `counting/__init__.py` lines 484-495. -/
structure Disk (S K : Type) where
  surface : Store S
  observed : Store (Option (List K))
  emplaced : Store (Option (List K))

/-- One step on the disk. Belongs to `counting/__init__.py` lines 484-495. -/
inductive Step (S K : Type) where
  | surface (k : ℕ) (s : S)
  | observed (k : ℕ) (l : Option (List K))
  | emplaced (k : ℕ) (l : Option (List K))

/-- The effect of a step. Belongs to `counting/__init__.py` lines 484-495. -/
def Disk.apply {S K : Type} (d : Disk S K) : Step S K → Disk S K
  | .surface k s => { d with surface := put d.surface k s }
  | .observed k l => { d with observed := put d.observed k l }
  | .emplaced k l => { d with emplaced := put d.emplaced k l }

/-- What a simulation holds when it is saved: the interval, the surface, and the observed and emplaced craters. Belongs to `counting/__init__.py` lines 484-495. -/
structure State (S K : Type) where
  interval : ℕ
  surface : S
  observed : List K
  emplaced : List K

/-- The steps of `Simulation.save`: `surface.save` in line 877, then `counting.save` in line 879, which writes the observed craters and then the emplaced ones, and
nothing for an empty list (`counting/__init__.py` lines 484-495). -/
def steps {S K : Type} (id : K → ℕ) (x : State S K) : List (Step S K) :=
  .surface x.interval x.surface ::
    ((if x.observed = [] then [] else [.observed x.interval none, .observed x.interval (some (sorted id x.observed))]) ++
      (if x.emplaced = [] then [] else [.emplaced x.interval none, .emplaced x.interval (some (sorted id x.emplaced))]))

/-- The disk after some steps. Belongs to `counting/__init__.py` lines 484-495. -/
def run {S K : Type} (d : Disk S K) (l : List (Step S K)) : Disk S K := l.foldl Disk.apply d

/-- The disk after complete saves of some states and a crash during the save of one more, after `t` steps of it. Belongs to `counting/__init__.py` lines 484-495. -/
def crashed {S K : Type} (id : K → ℕ) (history : List (State S K)) (x : State S K) (t : ℕ) : Disk S K :=
  run ⟨[], [], []⟩ (history.flatMap (steps id) ++ (steps id x).take t)

/-- What the next process starts from: the last surface (`none`: a new one) and the two lists of craters; `none` on the outside: the constructor raises because a
file cannot
be read.  Both last files are opened; the emplaced craters are taken if they are of the interval of the observed ones. Belongs to `counting/__init__.py` lines 87-96. -/
def reopen {S K : Type} (id : K → ℕ) (d : Disk S K) : Option (Option S × List K × List K) :=
  let s := (d.surface.getLast?).map Prod.snd
  match d.observed.getLast?, d.emplaced.getLast? with
  | some (_, none), _ => none
  | _, some (_, none) => none
  | none, _ => some (s, [], [])
  | some (_, some o), none => some (s, fromXarray id o, [])
  | some (k, some o), some (j, some e) => some (s, fromXarray id o, if j = k then fromXarray id e else [])

end Verif.SaveRound
