import Mathlib.Data.List.Basic

/-!
Model of `Surface.save`, `LocalSurface.save`, `Surface._save_data`, the saving part of `Surface._add_new_data` and
the reading of one interval, `cratermaker/components/surface/__init__.py`.  Values are of any type (a layered variable
has a list of layers for each face).  Exceptions are `none`.
-/

namespace Verif.SurfaceSave

/-- What a variable is defined on: the faces, the nodes, or only the interval (a time variable). Belongs to `surface/__init__.py` lines 1354-1357. -/
inductive Kind
  | face
  | node
  | once
  deriving DecidableEq

/-- A data variable of a dataset. Belongs to `surface/__init__.py` lines 1354-1357. -/
structure Var (α : Type) where
  /-- Its dimension. -/
  kind : Kind
  /-- Its values. -/
  vals : List α

/-- The data variables of a dataset (`uxds.data_vars`), in order. Belongs to `surface/__init__.py` lines 1257-1260. -/
abbrev Data (α : Type) := List (String × Var α)

/-- Access by name. Belongs to `surface/__init__.py` line 1271. -/
def lookup {β : Type} (l : List (String × β)) (name : String) : Option β := (l.find? fun e => e.1 = name).map (·.2)

/-- A variable in a file: its dimension and size, and its values at an interval of the file (`none`: all NaN). Belongs to `surface/__init__.py` lines 1257-1260. -/
structure FVar (α : Type) where
  /-- Its dimension. -/
  kind : Kind
  /-- Its length along that dimension. -/
  size : ℕ
  /-- Its values at each interval. -/
  at_ : ℕ → Option (List α)

/-- A NetCDF file: the coordinate `interval` and the variables. Belongs to `surface/__init__.py` lines 1257-1260. -/
structure File (α : Type) where
  /-- The intervals. -/
  intervals : List ℕ
  /-- The variables. -/
  vars : List (String × FVar α)

/-- `surface/__init__.py` lines 1257-1260 (and line 3287): the dataset with the coordinate `interval`. -/
def fileOf {α : Type} (interval : ℕ) (d : Data α) : File α :=
  ⟨[interval], d.map fun e => (e.1, ⟨e.2.kind, e.2.vals.length, fun j => if j = interval then some e.2.vals else none⟩)⟩

/-- Size of a dimension in a dataset, if any variable has it. Belongs to `surface/__init__.py` line 1271. -/
def dimSize {α : Type} (f : File α) (k : Kind) : Option ℕ := (f.vars.find? fun e => e.2.kind = k).map (·.2.size)

/-- Two datasets cannot be aligned if a dimension without coordinates has different sizes. Belongs to `surface/__init__.py` line 1271. -/
def clash {α : Type} (a b : File α) (k : Kind) : Bool :=
  match dimSize a k, dimSize b k with
  | some m, some n => m ≠ n
  | _, _ => false

/-- `ds.merge(ds_old, compat="override")`, `surface/__init__.py` line 1271: an outer join over `interval`, where missing values become NaN;
for variables in both, the one of `ds`; `none` is the error for different sizes of a dimension. -/
def merge {α : Type} (new old : File α) : Option (File α) :=
  if clash new old .face || clash new old .node then none
  else some ⟨new.intervals ++ old.intervals.filter (fun i => i ∉ new.intervals),
    new.vars ++ old.vars.filter (fun e => (lookup new.vars e.1).isNone)⟩

/-- The name of a data file: the one of an interval, or one given with `filename`.  Simplification: a given name is
different from the names of the interval files. Belongs to `surface/__init__.py` lines 1263-1266. -/
inductive Name
  | interval (i : ℕ)
  | given (s : String)
  deriving DecidableEq

/-- `surface/__init__.py` lines 1263-1266: the name of the file. -/
def nameOf (interval : ℕ) : Option String → Name
  | none => .interval interval
  | some s => .given s

/-- The data files of the surface. Belongs to `surface/__init__.py` lines 1232-1285. -/
abbrev Disk (α : Type) := Name → Option (File α)

/-- `_save_data`, `surface/__init__.py` lines 1232-1285.  What happens on a crash is in `Verif.Crash`. -/
def saveData {α : Type} (disk : Disk α) (d : Data α) (interval : ℕ) (filename : Option String) : Option (Disk α) :=
  match disk (nameOf interval filename) with
  | none => some (Function.update disk (nameOf interval filename) (some (fileOf interval d)))
  | some old =>
    match merge (fileOf interval d) old with
    | none => none
    | some f => some (Function.update disk (nameOf interval filename) (some f))

/-- `surface/__init__.py` lines 3287-3291: the dataset with the time variables; a time variable takes the place of a variable of the same
name.  Simplification: the sorting of the layers before, lines 3281-3283, is in `Verif.Tags`. -/
def withTime {α : Type} (d : Data α) (time : List (String × α)) : Data α :=
  (time.map fun e => (e.1, ⟨.once, [e.2]⟩)) ++ d.filter (fun e => (lookup time e.1).isNone)

/-- `Surface.save`, `surface/__init__.py` lines 666-692 and 3277-3297 for the whole surface. -/
def saveWhole {α : Type} (disk : Disk α) (uxds : Data α) (interval : Option ℕ) (time : List (String × α))
    (filename : Option String) : Option (Disk α) :=
  saveData disk (withTime uxds time) (interval.getD 0) filename

/-- `LocalSurface.uxds`, `surface/__init__.py` line 4446: the variables of the surface at the faces and nodes of the region. -/
def restrict {α : Type} (faces nodes : List ℕ) (d : Data α) : Data α :=
  d.map fun e => (e.1, ⟨e.2.kind, match e.2.kind with
    | .face => faces.filterMap (e.2.vals[·]?)
    | .node => nodes.filterMap (e.2.vals[·]?)
    | .once => e.2.vals⟩)

/-- `LocalSurface.save` of a local region, `surface/__init__.py` lines 3277-3297: the data of the region goes to the same file as that of
the whole surface. -/
def saveRegion {α : Type} (disk : Disk α) (uxds : Data α) (faces nodes : List ℕ) (interval : Option ℕ)
    (time : List (String × α)) (filename : Option String) : Option (Disk α) :=
  saveData disk (withTime (restrict faces nodes uxds) time) (interval.getD 0) filename

/-- `_add_new_data` with `save_to_file=True`, `surface/__init__.py` lines 1354-1357: the variable replaces one of the same name in memory, and
is written to the file of the interval by itself. -/
def addSave {α : Type} (disk : Disk α) (uxds : Data α) (name : String) (v : Var α) (interval : ℕ) :
    Option (Disk α × Data α) :=
  (saveData disk [(name, v)] interval none).map fun k =>
    (k, (name, v) :: uxds.filter (fun e => e.1 ≠ name))

/-- The values of a variable at an interval in a file. Belongs to `base.py` lines 417-419. -/
def readFile {α : Type} (disk : Disk α) (file : Name) (interval : ℕ) (name : String) : Option (List α) :=
  match disk file with
  | none => none
  | some f => (lookup f.vars name).bind fun v => v.at_ interval

/-- `read_saved_output(interval=i)` for a variable: lines 417-419 of `core/base.py` open the file of the interval.
How the file is found is in `Verif.Files`. -/
def read {α : Type} (disk : Disk α) (interval : ℕ) (name : String) : Option (List α) :=
  readFile disk (.interval interval) interval name

/-- What can happen to a surface: its data is changed in memory, it is saved, or a variable is added and saved. Belongs to `surface/__init__.py` lines 1232-1285. -/
inductive Op (α : Type)
  | change (uxds : Data α)
  | save (interval : ℕ) (time : List (String × α))
  | add (name : String) (v : Var α) (interval : ℕ)

/-- A surface and its files. Belongs to `surface/__init__.py` lines 1232-1285. -/
structure State (α : Type) where
  /-- Data in memory. -/
  uxds : Data α
  /-- Data files. -/
  disk : Disk α

/-- One operation. Belongs to `surface/__init__.py` lines 1232-1285. -/
def step {α : Type} (s : State α) : Op α → Option (State α)
  | .change d => some { s with uxds := d }
  | .save i time => (saveWhole s.disk s.uxds (some i) time none).map fun k => { s with disk := k }
  | .add n v i => (addSave s.disk s.uxds n v i).map fun r => ⟨r.2, r.1⟩

/-- A history; an exception ends it. Belongs to `surface/__init__.py` lines 1232-1285. -/
def run {α : Type} (s : State α) : List (Op α) → Option (State α)
  | [] => some s
  | o :: os => (step s o).bind fun s' => run s' os

end Verif.SurfaceSave
