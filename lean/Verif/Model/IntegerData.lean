import Mathlib.Data.Rat.Floor

/-! Mesh data that are whole numbers (`add_data` with an integer `dtype`). One element of a variable is followed; `add_data` works element by element. -/

namespace Verif.IntegerData

/-- Storing a number in an integer array, as numpy does in `surface/__init__.py` lines 2163-2167, 2184 and 2186: the fraction is cut off.  Simplified: the
range of the integers is unbounded. -/
def store (x : ℚ) : ℤ := if 0 ≤ x then ⌊x⌋ else ⌈x⌉

/-- Result of a call of `add_data`, `surface/__init__.py` lines 2120-2191. -/
inductive Outcome
  | /-- numpy's `UFuncTypeError` (a sum of another type cannot be put into the array in place); the data stay as they are -/ typeError
  | value (v : ℤ)
deriving DecidableEq

/-- A call of `add_data` on an existing integer variable: the number, whether an integer `dtype` is given with it, whether it replaces the old value, and
whether only positive values are kept, `surface/__init__.py` lines 2120-2131. -/
structure Call where
  number : ℚ
  integer : Bool := false
  overwrite : Bool := false
  positive : Bool := false

/-- `add_data` for an existing integer variable, `surface/__init__.py` lines 2160-2191.  `whole`: called for the whole surface, where the elements are given by a
slice (lines 370-381 and 1227-1230) and `+=` of line 2186 works in place; for other regions they are given by an array, and the sum is stored as by an
assignment. -/
def add (whole : Bool) (v : ℤ) (c : Call) : Outcome :=
  let data : ℚ := if c.integer then store c.number else c.number
  if c.overwrite then
    .value (if c.positive then max 0 (store data) else store data)
  else if whole && !c.integer then .typeError
  else .value (if c.positive then max 0 (store (v + data)) else store (v + data))

/-- `add_data` for a new variable with an integer `dtype`, `surface/__init__.py` lines 2177-2184: the value is that of the data.  Simplified: the fill value of other
elements is left out. -/
def create (c : Call) : ℤ := if c.positive then max 0 (store c.number) else store c.number

/-- Several calls, each for the whole surface or for a region; a call that raises leaves the value.  Belongs to `surface/__init__.py` lines 2120-2191. -/
def run : ℤ → List (Bool × Call) → ℤ
  | v, [] => v
  | v, (whole, c) :: rest =>
    match add whole v c with
    | .typeError => run v rest
    | .value w => run w rest

end Verif.IntegerData
