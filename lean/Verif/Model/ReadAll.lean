import Mathlib.Data.List.Sort
import Mathlib.Data.List.Dedup
import Verif.Model.SurfaceSave

/-!
Model of reading all saved intervals of a surface at once: `read_saved_output()` without an interval,
`cratermaker/core/base.py` and `cratermaker/components/surface/__init__.py`.
-/

namespace Verif.ReadAll

open Verif.SurfaceSave

/-- The dataset with all intervals. Belongs to `base.py` lines 425-432. -/
structure Combined (α : Type) where
  /-- The coordinate `interval`. -/
  intervals : List ℕ
  /-- The values of a variable at an interval (`none`: the variable does not exist, or all its values are NaN). -/
  at_ : String → ℕ → Option (List α)

/-- What a file has for a variable at an interval. Belongs to `base.py` lines 425-432. -/
def fileAt {α : Type} (f : File α) (name : String) (i : ℕ) : Option (List α) := (lookup f.vars name).bind fun v => v.at_ i

/-- `base.py` lines 425-432: the files can be opened together if the sizes of the faces and nodes agree, a variable has the
same dimension in all of them, and no two of them give different values (`compat="no_conflicts"`).  Simplification:
`xarray` is taken to refuse a variable that has different dimensions in two files. -/
def Compatible {α : Type} (fs : List (File α)) : Prop :=
  (∀ a ∈ fs, ∀ b ∈ fs, clash a b .face = false ∧ clash a b .node = false) ∧
  (∀ a ∈ fs, ∀ b ∈ fs, ∀ n v w, lookup a.vars n = some v → lookup b.vars n = some w → v.kind = w.kind) ∧
  ∀ a ∈ fs, ∀ b ∈ fs, ∀ n i v w, fileAt a n i = some v → fileAt b n i = some w → v = w

/-- `base.py` lines 425-432: the combined dataset, an outer join over `interval`: a variable has at an interval the values
of the file that has some. -/
def combine {α : Type} (fs : List (File α)) : Combined α :=
  ⟨((fs.flatMap (·.intervals)).dedup).insertionSort (· ≤ ·), fun n i => fs.findSome? fun f => fileAt f n i⟩

/-- `surface/__init__.py` lines 4384-4387: a layered variable is converted to unsigned integers, also where it was
missing; `ofNan` is what the conversion makes of NaN. -/
def castLayers {α : Type} (layered : String → Bool) (ofNan : α) (fs : List (File α)) (c : Combined α) : Combined α :=
  { c with at_ := fun n i =>
      match c.at_ n i with
      | some v => some v
      | none => if layered n && c.intervals.contains i then
          (fs.findSome? fun f => lookup f.vars n).map fun v => List.replicate v.size ofNan else none }

open Classical in
/-- `read_saved_output()` of a surface, `base.py` lines 263-292 and 417-445 and `surface/__init__.py` lines 4366-4388.
`saved` are the intervals of the files found, in order.  When the files cannot be opened together the result is a
dictionary, which cannot be made a dataset of the surface: `none` is that exception. -/
noncomputable def readAll {α : Type} (layered : String → Bool) (ofNan : α) (disk : Disk α) (saved : List ℕ) :
    Option (Combined α) :=
  let fs := saved.filterMap fun i => disk (.interval i)
  if Compatible fs then some (castLayers layered ofNan fs (combine fs)) else none

end Verif.ReadAll
