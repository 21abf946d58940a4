import Mathlib.Data.Real.Basic
import Mathlib.Algebra.Order.Floor.Ring
import Mathlib.Algebra.Order.Archimedean.Real.Basic

/-!
Model of the coordinate normalisation helpers of `cratermaker/utils/general_utils.py`.
Doubles are modelled by exact reals.
-/

namespace Verif.Location

/-- Python's float `%`: the result has the sign of the divisor.  Used by
`general_utils.py:245` and `surface/mod.rs:656-658`. -/
noncomputable def pymod (a b : ℝ) : ℝ := a - b * ⌊a / b⌋

/-- `np.clip(x, lo, hi)`, `general_utils.py:258`. -/
noncomputable def clip (x lo hi : ℝ) : ℝ := min (max x lo) hi

/-- `normalize_coords`, `cratermaker/utils/general_utils.py:210-260`, for a pair of numbers
(degrees). -/
noncomputable def normalizeCoords (loc : ℝ × ℝ) : ℝ × ℝ :=
  let lon := loc.1
  let lat := loc.2
  let nlon := pymod (lon + 180) 360 - 180
  let r : ℝ × ℝ :=
    if lat > 90 then (lon - 180, 180 - lat)
    else if lat < -90 then (lon - 180, -180 - lat)
    else (nlon, lat)
  (r.1, clip r.2 (-90) 90)

/-- Exceptions that can leave the functions in this file. Belongs to `general_utils.py` lines 324-343. -/
inductive Err
  | typeError
  | valueError
  | indexError
  deriving DecidableEq, Repr

/-- The argument shapes accepted by `validate_and_normalize_location`
(`general_utils.py:263-345`).
* `flat xs`: tuple, list or one-dimensional array of numbers;
* `rows rs`: tuple or list whose items are sequences of numbers;
* `array2 rs`: two-dimensional float array of shape (N, 2);
* `dict lon lat`: dictionary, keys possibly missing.
Simplification: structured arrays and deeper nesting are left out. -/
inductive LocArg
  | flat (xs : List ℝ)
  | rows (rs : List (List ℝ))
  | array2 (rs : List (ℝ × ℝ))
  | dict (lon lat : Option ℝ)

/-- Result: one location or a list of locations (`general_utils.py:287-290`). -/
inductive LocRes
  | one (p : ℝ × ℝ)
  | many (ps : List (ℝ × ℝ))

/-- `validate_and_normalize_location` applied to a flat sequence of numbers
(`general_utils.py:324-343`).  A flat sequence of length two is normalised.  For any other
length line 329 evaluates `location[0]` (IndexError when empty), the remaining tests fail and
line 343 raises ValueError. -/
noncomputable def validateFlat : List ℝ → Except Err (ℝ × ℝ)
  | [x, y] => .ok (normalizeCoords (x, y))
  | [] => .error .indexError
  | _ => .error .valueError

/-- The loop of `general_utils.py:318-321` and `335-338`: every row is validated, the first
failing row raises. -/
noncomputable def validateAll : List (List ℝ) → Except Err (List (ℝ × ℝ))
  | [] => .ok []
  | r :: rs =>
    match validateFlat r with
    | .error e => .error e
    | .ok p =>
      match validateAll rs with
      | .error e => .error e
      | .ok ps => .ok (p :: ps)

/-- `validate_and_normalize_location`, `general_utils.py:263-345`. -/
noncomputable def validateLocation : LocArg → Except Err LocRes
  | .flat xs => (validateFlat xs).map .one
  | .rows rs =>
    -- line 324: a list of length two is taken for a single pair; `lon + 180` then fails on a
    -- sequence
    match rs with
    | [_, _] => .error .typeError
    | [] => .error .indexError
    | r :: rest =>
      if r.length = 2 then
        if rest = [] then (validateFlat r).map .one
        else (validateAll (r :: rest)).map .many
      else .error .valueError
  | .array2 rs =>
    match rs with
    -- zero rows: `len(location) == 2` fails, `location[0]` raises IndexError
    | [] => .error .indexError
    | [p] => .ok (.one (normalizeCoords p))
    | ps => .ok (.many (ps.map normalizeCoords))
  | .dict (some lon) (some lat) => .ok (.one (normalizeCoords (lon, lat)))
  -- a dictionary without the two keys: line 343 (or `location[0]` on a two-key dict: KeyError)
  | .dict _ _ => .error .valueError

end Verif.Location
