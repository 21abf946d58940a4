import Mathlib.Data.List.Basic

/-!
Model of what the writing of files does to the disk, operation by operation, so that a crash can be placed
between any two operations: `Surface._save_data`, `Surface._write_grid_file` and `Surface._load_from_files`
(`cratermaker/components/surface/__init__.py`), `HiResLocalSurface._load_from_files` (`hireslocal.py`) and
`Counting.save` (`cratermaker/components/counting/__init__.py`).
-/

namespace Verif.Crash

/-- The files concerned: the grid, the surface data of an interval, the two crater lists of an interval, and
temporary files. Belongs to `counting/__init__.py` lines 484-495. -/
inductive Path
  | grid
  | data (interval : ℕ)
  | observed (interval : ℕ)
  | emplaced (interval : ℕ)
  | temp (n : ℕ)
  deriving DecidableEq

/-- A file on disk: completely written, or torn because writing it had begun but had not been completed. Belongs to `surface/__init__.py` lines 1264-1271. -/
inductive Blob (C : Type)
  | whole (c : C)
  | torn
  deriving DecidableEq

/-- The disk. Belongs to `surface/__init__.py` lines 1264-1271. -/
abbrev Disk (C : Type) := Path → Option (Blob C)

/-- Operations on the disk.  `create` opens a file for writing (its previous content is gone), `finish` is the
end of writing; `rename` is `os.rename`, which replaces the destination atomically. Belongs to `surface/__init__.py` lines 1263-1283. -/
inductive Op (C : Type)
  | unlink (p : Path)
  | create (p : Path)
  | finish (p : Path) (c : C)
  | rename (a b : Path)

/-- Replace one file. Belongs to `surface/__init__.py` lines 1213-1225. -/
def put {C : Type} (d : Disk C) (p : Path) (b : Option (Blob C)) : Disk C := fun q => if q = p then b else d q

/-- Effect of one operation. Belongs to `surface/__init__.py` lines 1213-1225. -/
def step {C : Type} (d : Disk C) : Op C → Disk C
  | .unlink p => put d p none
  | .create p => put d p (some .torn)
  | .finish p c => put d p (some (.whole c))
  | .rename a b => put (put d b (d a)) a none

/-- Effect of several operations. Belongs to `surface/__init__.py` lines 1213-1225. -/
def run {C : Type} (d : Disk C) (ops : List (Op C)) : Disk C := ops.foldl step d

/-- The disk found after a crash: only the first `n` operations were carried out. Belongs to `surface/__init__.py` lines 1213-1225. -/
def crash {C : Type} (n : ℕ) (d : Disk C) (ops : List (Op C)) : Disk C := run d (ops.take n)

/-- `shutil.move` of a file with content `c`: a rename if source and destination are on the same device, otherwise
a copy followed by the removal of the source. Belongs to `surface/__init__.py` lines 1263-1283. -/
def move {C : Type} (sameDevice : Bool) (a b : Path) (c : C) : List (Op C) :=
  if sameDevice then [.rename a b] else [.create b, .finish b c, .unlink a]

/-- `ds.merge(ds_old, compat="override")`: for variables in both, the new values, `surface/__init__.py` line 1269. -/
def merge {V X : Type} (new old : V → Option X) : V → Option X := fun v => (new v).orElse fun _ => old v

/-- What a file holds: the identifier of a grid, the variables of a surface, or a list of craters. Belongs to `surface/__init__.py` lines 1264-1271. -/
inductive Content (G V X K : Type)
  | grid (g : G)
  | vars (m : V → Option X)
  | craters (l : List K)

/-- What `_save_data` writes, `surface/__init__.py` lines 1264-1271: `none` if the existing file cannot be read (an exception). -/
def savedContent {G V X K : Type} (d : Disk (Content G V X K)) (interval : ℕ) (new : V → Option X) :
    Option (V → Option X) :=
  match d (.data interval) with
  | none => some new
  | some (.whole (.vars old)) => some (merge new old)
  | some _ => none

/-- The operations of `_save_data`, `surface/__init__.py` lines 1263-1283, with the temporary file it uses. -/
def saveOps {G V X K : Type} (sameDevice : Bool) (d : Disk (Content G V X K)) (tmp interval : ℕ) (new : V → Option X) :
    List (Op (Content G V X K)) :=
  match savedContent d interval new with
  | none => []
  | some c =>
    [.create (.temp tmp), .finish (.temp tmp) (.vars c)] ++ move sameDevice (.temp tmp) (.data interval) (.vars c)

/-- The operations of `_write_grid_file`, `surface/__init__.py` lines 1134-1158, for a grid with identifier `g`. -/
def gridOps {G V X K : Type} (sameDevice : Bool) (tmp : ℕ) (g : G) : List (Op (Content G V X K)) :=
  [.unlink .grid, .create (.temp tmp), .finish (.temp tmp) (.grid g)] ++ move sameDevice (.temp tmp) .grid (.grid g)

/-- One crater list of `Counting.save`, `counting/__init__.py` lines 484-495. -/
def listOps {G V X K : Type} (d : Disk (Content G V X K)) (p : Path) (l : List K) : List (Op (Content G V X K)) :=
  if l = [] then []
  else (if (d p).isSome then [.unlink p] else []) ++ [.create p, .finish p (.craters l)]

/-- `Counting.save` with `crater_type="both"`, `counting/__init__.py` lines 482-495.  The two files are different, so it does not matter
that the test for the second is evaluated on the disk before the first is written. -/
def countOps {G V X K : Type} (d : Disk (Content G V X K)) (interval : ℕ) (observed emplaced : List K) :
    List (Op (Content G V X K)) :=
  listOps d (.observed interval) observed ++ listOps d (.emplaced interval) emplaced

/-- `_is_same_grid`, `surface/__init__.py` lines 1183-1195: a file that cannot be read is not the same grid. -/
def sameGrid {G V X K : Type} [DecidableEq G] (d : Disk (Content G V X K)) (g : G) : Bool :=
  match d .grid with
  | some (.whole (.grid h)) => h = g
  | _ => false

/-- What a surface object and the disk hold.  `index`: the local grid index file of a high-resolution surface
exists. Belongs to `surface/__init__.py` lines 1213-1225. -/
structure State (G V X K : Type) where
  disk : Disk (Content G V X K)
  ask : Bool
  index : Bool

/-- `_regrid_if_needed`, `surface/__init__.py` lines 1213-1225, carried out without crash; the flag says whether it wrote a new grid. -/
def regridIfNeeded {G V X K : Type} [DecidableEq G] (s : State G V X K) (g : G) (regrid : Bool) :
    State G V X K × Bool :=
  if regrid = true ∨ sameGrid s.disk g = false then
    ({ s with disk := run s.disk (gridOps true 0 g) }, true)
  else (s, false)

/-- Removal of all surface data files. Belongs to `base.py` lines 94-113. -/
def dropData {G V X K : Type} (d : Disk (Content G V X K)) : Disk (Content G V X K) := fun q =>
  match q with
  | .data _ => none
  | q => d q

/-- `Surface.reset`, lines 220-247 and `base.py` lines 94-113: if the user is not asked or agrees, all data files are
removed; then, whatever the answer, the initial variables are saved to interval 0.  `agree` is the user's answer if
asked.  Simplifications: the initial variables are saved in one go; exported images are left out. -/
def resetSurface {G V X K : Type} (s : State G V X K) (init : V → Option X) (agree : Bool) : State G V X K :=
  let d := if s.ask = true ∧ agree = false then s.disk else dropData s.disk
  { s with disk := run d (saveOps true d 0 0 init) }

/-- `Surface._load_from_files`, `surface/__init__.py` lines 1076-1110, with `read_saved_output` of the full surface,
lines 4359-4362, which removes the file of interval 0 on a reset. -/
def load {G V X K : Type} [DecidableEq G] (s : State G V X K) (g : G) (init : V → Option X) (reset regrid agree : Bool) :
    State G V X K :=
  let r := regridIfNeeded s g regrid
  let ask := r.1.ask
  let s1 := if r.2 then { r.1 with ask := false } else r.1
  if reset || r.2 then
    let s2 := { s1 with disk := run s1.disk [.unlink (.data 0)] }
    { resetSurface s2 init agree with ask := ask }
  else { s1 with ask := ask }

/-- `HiResLocalSurface._load_from_files`, `hireslocal.py` lines 650-675; `agree2` is the answer to the second
question. -/
def loadHiRes {G V X K : Type} [DecidableEq G] (s : State G V X K) (g : G) (init : V → Option X)
    (reset regrid agree agree2 : Bool) : State G V X K :=
  let same := sameGrid s.disk g
  let ask := s.ask
  let s1 := load s g init reset regrid agree
  let s2 := if same = true ∧ s1.index = true then s1 else { s1 with ask := false, index := true }
  if reset then { resetSurface s2 init agree2 with ask := ask } else s2

end Verif.Crash
