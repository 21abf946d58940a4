import Verif.Model.Parallel

/-!
Model of `normalize_coords` (`cratermaker/utils/general_utils.py` lines 210-260) and of the setter of measured orientations in double precision.  Numbers are rational; `double` rounds to the
nearest number of double precision after every addition and subtraction, as the processor does.
-/

namespace Verif.LocationDouble

open Verif.Parallel (double)

/-- The remainder of C, `fmod(a, b)`: it has the sign of `a`, and is computed without a rounding error. Belongs to `general_utils.py` line 245. -/
def fmod (a b : ℚ) : ℚ := if 0 ≤ a then a - b * ⌊a / b⌋ else a - b * ⌈a / b⌉

/-- The operator `%` of Python and numpy for floating point numbers and a positive divisor, used in `general_utils.py` line 245: the divisor is
added to a negative remainder, with rounding (`float_rem` of CPython, `npy_divmod` of numpy). -/
def floatMod (a b : ℚ) : ℚ := if fmod a b < 0 then double (fmod a b + b) else fmod a b

/-- Line 245 of `general_utils.py`. -/
def lonDouble (lon : ℚ) : ℚ := double (floatMod (double (lon + 180)) 360 - 180)

/-- `normalize_coords`, `general_utils.py` lines 242-260. -/
def normalizeDouble (loc : ℚ × ℚ) : ℚ × ℚ :=
  let r : ℚ × ℚ :=
    if loc.2 > 90 then (double (loc.1 - 180), double (180 - loc.2))
    else if loc.2 < -90 then (double (loc.1 - 180), double (-180 - loc.2))
    else (lonDouble loc.1, loc.2)
  (r.1, min (max r.2 (-90)) 90)

/-- The setter of `Crater.measured_orientation`, `cratermaker/components/crater/__init__.py` lines 302-308. -/
def setOrientation (value : Option ℚ) : Option ℚ := value.map fun v => floatMod v 360

end Verif.LocationDouble
