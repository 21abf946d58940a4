import Mathlib.Data.List.Sort

/-!
Model of saving and reloading the crater lists of the counting component,
`cratermaker/components/counting/__init__.py` (`save` lines 451-498, `to_xarray` lines 421-449, `__init__` lines 87-96) and
`Crater.from_xarray`, `cratermaker/components/crater/__init__.py` lines 1341-1385.  A crater is opaque here, with an
identifier; reading back a single crater is the subject of `Verif.Model.Crater`.
-/

namespace Verif.CountFiles

/-- The files of one kind of list: interval number and content, in increasing order of the interval number (which is
the order of the file names, see `Verif.Files`). Belongs to `counting/__init__.py` lines 484-495. -/
abbrev Store (K : Type) := List (ℕ × List K)

/-- Writing the file of an interval; an existing one is replaced. Belongs to `counting/__init__.py` lines 484-495. -/
def write {K : Type} (st : Store K) (k : ℕ) (l : List K) : Store K :=
  st.filter (fun e => e.1 < k) ++ (k, l) :: st.filter (fun e => k < e.1)

/-- The files of the counting component. Belongs to `crater/__init__.py` lines 1363-1369. -/
structure Files (K : Type) where
  observed : Store K
  emplaced : Store K

/-- `to_xarray(...).sortby("id")`, `counting/__init__.py` line 449. -/
def sorted {K : Type} (id : K → ℕ) (l : List K) : List K := l.insertionSort (fun a b => id a ≤ id b)

/-- One list of `save`, `counting/__init__.py` lines 484-495: nothing is written for an empty list. -/
def saveList {K : Type} (id : K → ℕ) (st : Store K) (k : ℕ) (l : List K) : Store K :=
  if l = [] then st else write st k (sorted id l)

/-- `save` with `crater_type="both"`. Belongs to `counting/__init__.py` lines 484-495. -/
def save {K : Type} (id : K → ℕ) (f : Files K) (k : ℕ) (observed emplaced : List K) : Files K :=
  ⟨saveList id f.observed k observed, saveList id f.emplaced k emplaced⟩

/-- `from_xarray` for the content of one file, `crater/__init__.py` lines 1373-1383: selecting an identifier that occurs more than once gives
arrays, which are skipped (line 1376). -/
def fromXarray {K : Type} (id : K → ℕ) (l : List K) : List K :=
  l.filter fun c => (l.map id).count (id c) = 1

/-- `__init__` with `reset=False`, lines 87-96: the last file of each list is read; the emplaced craters are only
looked at if there is an observed file, and only taken if of the same interval
(`from_xarray` with an interval that is not in the file gives an empty list, `crater/__init__.py` lines 1363-1369). -/
def resume {K : Type} (id : K → ℕ) (f : Files K) : List K × List K :=
  match f.observed.getLast? with
  | none => ([], [])
  | some (k, obs) =>
    match f.emplaced.getLast? with
    | none => (fromXarray id obs, [])
    | some (j, emp) => (fromXarray id obs, if j = k then fromXarray id emp else [])

/-- A history of saves: interval number, observed and emplaced lists. Belongs to `counting/__init__.py` lines 484-495. -/
def saves {K : Type} (id : K → ℕ) : List (ℕ × List K × List K) → Files K → Files K
  | [], f => f
  | (k, o, e) :: h, f => saves id h (save id f k o e)

end Verif.CountFiles
