import Mathlib.Data.Int.Notation
import Mathlib.Data.List.Basic

/-!
Model of regions whose faces are given by a slice: `LocalSurface(surface, face_indices=slice(start, stop, step))`
(`cratermaker/components/surface/__init__.py` lines 2014-2031), how numpy selects the values of such a region, how the compiled code lists its
faces (`ensure_index_array`, `crates/cratermaker-py/src/surface_bindings.rs` lines 53-97), and the number of faces (`LocalSurface.n_face`,
`surface/__init__.py` lines 4043-4053).
-/

namespace Verif.SliceRegion

/-- A Python slice of integers. Belongs to `surface_bindings.rs` line 65. -/
structure Slice where
  start : Option ℤ
  stop : Option ℤ
  step : Option ℤ

/-- A slice with its defaults filled in for a sequence of a given length. Belongs to `surface_bindings.rs` line 65. -/
structure Resolved where
  start : ℤ
  stop : ℤ
  step : ℤ

/-- A bound that is given, adjusted to the length `n` (`PySlice_AdjustIndices` of CPython): counted from the end if negative, then clipped. Belongs to
`surface_bindings.rs` line 65. -/
def clip (n step x : ℤ) : ℤ :=
  if x < 0 then
    if x + n < 0 then (if step < 0 then -1 else 0) else x + n
  else if n ≤ x then (if step < 0 then n - 1 else n)
  else x

/-- `slice.indices(n)`, used in `surface_bindings.rs` line 65 and by numpy; ValueError (none) for a step of zero. -/
def resolve (s : Slice) (n : ℕ) : Option Resolved :=
  let step := s.step.getD 1
  if step = 0 then none
  else some
    { start := match s.start with
        | none => if step < 0 then (n : ℤ) - 1 else 0
        | some x => clip n step x
      stop := match s.stop with
        | none => if step < 0 then -1 else (n : ℤ)
        | some x => clip n step x
      step := step }

/-- The loop `while i < stop`, `surface_bindings.rs` lines 73-76. -/
def up (stop step : ℤ) (h : 0 < step) (i : ℤ) : List ℤ :=
  if i < stop then i :: up stop step h (i + step) else []
termination_by (stop - i).toNat

/-- The loop `while i > stop`, `surface_bindings.rs` lines 78-81. -/
def down (stop step : ℤ) (h : step < 0) (i : ℤ) : List ℤ :=
  if stop < i then i :: down stop step h (i + step) else []
termination_by (i - stop).toNat

/-- `ensure_index_array` for a slice, `surface_bindings.rs` lines 63-90. -/
def expand (s : Slice) (n : ℕ) : Option (List ℤ) :=
  (resolve s n).map fun r =>
    if h : 0 < r.step then up r.stop r.step h r.start
    else if h : r.step < 0 then down r.stop r.step h r.start
    else []

/-- The number of elements that numpy selects (`PySlice_AdjustIndices`). Belongs to `surface/__init__.py` lines 4075-4205. -/
def count (r : Resolved) : ℕ :=
  if r.step < 0 then (if r.stop < r.start then ((r.start - r.stop - 1) / (-r.step) + 1).toNat else 0)
  else (if r.start < r.stop then ((r.stop - r.start - 1) / r.step + 1).toNat else 0)

/-- `values[slice]` of numpy, `n` values: the element number `k` is the value at `start + k * step`.  Used for `face_elevation`, `face_lon` and the
other values of a region (`surface/__init__.py` lines 4075-4205 and 2103-2113). -/
def select {α : Type} (s : Slice) (n : ℕ) (values : ℤ → α) : Option (List α) :=
  (resolve s n).map fun r => (List.range (count r)).map fun k : ℕ => values (r.start + k * r.step)

/-- `LocalSurface.n_face` of a region given by a slice, `surface/__init__.py` lines 4046-4051: the size of an array is always a scalar, so the first branch is taken. -/
def nFace (_ : Slice) (n : ℕ) : ℕ := n

/-- A compiled loop over the faces of a region, `(0..n_face).map(|f| … values[f] …)`, for instance `compute_slope`
(`crates/cratermaker-components/src/surface/mod.rs` lines 299-309 with line 215): none is a panic. -/
def perFace {α β : Type} (nFace : ℕ) (values : List α) (f : α → β) : Option (List β) :=
  (List.range nFace).mapM fun i => (values[i]?).map f

end Verif.SliceRegion
