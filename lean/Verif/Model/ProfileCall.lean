import Verif.Model.Profile

/-!
# Calling the profile functions

Models the wrappers `crater_profile`, `ejecta_profile`, `ejecta_distribution` and `ray_intensity` of
`cratermaker/components/morphology/basicmoon.py` (lines 304-501) and their bindings
(`crates/cratermaker-py/src/morphology_bindings.rs`, lines 49-136): which arguments they take, and the shape of what they return.

The bindings take one-dimensional arrays of floats only; the conversion of other arrays fails with a TypeError.  Left out: numpy scalars,
which behave like arrays without dimensions; complex and boolean arrays.
-/

namespace Verif.ProfileCall

open Profile

/-- The kinds of numbers in an argument. Belongs to `basicmoon.py` line 328. -/
inductive Num where
  | int
  | float
  deriving DecidableEq

/-- An array of numpy: its kind, shape, and elements in order. Belongs to `basicmoon.py` line 328. -/
structure Arr where
  kind : Num
  shape : List ℕ
  data : List ℝ

/-- An argument: a Python number, a (nested) list or tuple, or an array. Belongs to `basicmoon.py` lines 330-333. -/
inductive Arg where
  | scalar (k : Num) (x : ℝ)
  | list (k : Num) (shape : List ℕ) (data : List ℝ)
  | array (a : Arr)

/-- What numpy makes of an argument (`np.ravel` and `np.zeros_like` begin with this): kinds and shapes are kept. Belongs to `basicmoon.rs` line 52. -/
def Arg.raw : Arg → Arr
  | .scalar k x => ⟨k, [], [x]⟩
  | .list k s d => ⟨k, s, d⟩
  | .array a => a

/-- `np.zeros_like`, `basicmoon.py` line 328. -/
def Arr.zerosLike (a : Arr) : Arr := ⟨a.kind, a.shape, a.data.map fun _ => 0⟩

/-- `basicmoon.py` lines 330-333 and 411-414: numbers, lists and tuples become arrays of floats, arrays stay as they are. -/
def Arg.prepare : Arg → Arr
  | .scalar _ x => ⟨.float, [1], [x]⟩
  | .list _ s d => ⟨.float, s, d⟩
  | .array a => a

/-- Ways to fail. Belongs to `basicmoon.rs` line 52. -/
inductive Err where
  | typeError
  | valueError
  | attributeError
  | panic
  deriving DecidableEq

/-- `crater_profile`, lines 304-352, with `crater_profile` of the bindings; a difference in length violates the assertion in
`basicmoon.rs` line 52, and an empty array the `unwrap` in line 73. -/
noncomputable def craterProfileCall (d : Dims) (r : Arg) (ref : Option Arg) : Except Err Arr :=
  let ref' := match ref with
    | none => r.raw.zerosLike
    | some v => v.raw
  let r' := r.prepare
  if r'.kind = .int ∨ ref'.kind = .int then .error .typeError
  else if r'.data.length ≠ ref'.data.length then .error .panic
  else
    match craterProfile d (r'.data.zip ref'.data) with
    | none => .error .panic
    | some l => .ok ⟨.float, r'.shape, l⟩

/-- `ejecta_profile`, `basicmoon.py` lines 389-421. -/
noncomputable def ejectaProfileCall (d : Dims) (r : Arg) : Except Err Arr :=
  let r' := r.prepare
  if r'.kind = .int then .error .typeError
  else .ok ⟨.float, r'.shape, r'.data.map fun x => ejectaFn x (d.diameter / 2) d.ejrim⟩

/-- The attribute `shape` of an argument: numbers, lists and tuples have none. Belongs to `basicmoon.py` lines 465-501. -/
def Arg.shape? : Arg → Option (List ℕ)
  | .array a => some a.shape
  | _ => none

/-- `ray_intensity`, `basicmoon.py` lines 465-501: `rays` is the compiled function, with its random numbers, on pairs of distance and bearing.  The
bearings are converted to radians, hence to floats. -/
def rayIntensityCall (rays : List (ℝ × ℝ) → List (Option ℝ)) (toRadians : ℝ → ℝ) (r theta : Arg) :
    Except Err (List ℕ × List (Option ℝ)) :=
  if r.raw.kind = .int then .error .typeError
  else if r.raw.data.length ≠ theta.raw.data.length then .error .valueError
  else
    match r.shape? with
    | none => .error .attributeError
    | some s => .ok (s, rays (r.raw.data.zip (theta.raw.data.map toRadians)))

/-- Whether an array of shape `s` can be multiplied in place by a one-dimensional array of length `n`: the last dimension is `n`, or `n`
is 1. Belongs to `basicmoon.py` lines 423-463. -/
def broadcasts (s : List ℕ) (n : ℕ) : Bool :=
  match s.getLast? with
  | none => false
  | some m => m == n || n == 1

/-- `ejecta_distribution`, `basicmoon.py` lines 423-463: the thickness without rays has the shape of the distances, the intensity is one-dimensional, and the
first is multiplied by the second in place (line 461).  Multiplication is only given for shapes with the same number of elements. -/
noncomputable def distributionCall (d : Dims) (rays : List (ℝ × ℝ) → List (Option ℝ)) (toRadians : ℝ → ℝ) (r theta : Arg) :
    Except Err (List ℕ × List (Option ℝ) × List (Option ℝ)) :=
  match ejectaProfileCall d r with
  | .error e => .error e
  | .ok thickness =>
    if r.raw.kind = .int then .error .typeError
    else if r.raw.data.length ≠ theta.raw.data.length then .error .valueError
    else
      let intensity := rays (r.raw.data.zip (theta.raw.data.map toRadians))
      if !broadcasts thickness.shape r.raw.data.length then .error .valueError
      else
        match r.shape? with
        | none => .error .attributeError
        | some s => .ok (s, List.zipWith (fun t i => i.map (t * ·)) thickness.data intensity, intensity)

end Verif.ProfileCall
