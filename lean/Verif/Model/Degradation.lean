import Mathlib.Analysis.SpecialFunctions.Pow.Real
import Mathlib.Analysis.SpecialFunctions.Log.Basic

/-!
Model of the degradation state and visibility limit of a crater
(`cratermaker/components/counting/depthcount.py:25-122`).
-/

namespace Verif.Degradation

noncomputable section

/-- `_VSMALL`, ten times the smallest normal float64 (`cratermaker/constants.py:20`). -/
def vsmall : ℝ := 10 / 2 ^ 1022

/-- `_DTR`, `depthcount.py` line 54. -/
def dtr : ℝ := 10000

/-- `a_vs_diameter`, `depthcount.py` lines 65-71, with the constants of lines 57-61. -/
def aOf (d : ℝ) : ℝ :=
  if d < dtr then 0.11511000581387373 + 0.017078961587273955 * Real.log d
  else 0.2771649498066961 +
    0.1032775007149389 * (1 - Real.exp ((dtr * 1e-3 - d * 1e-3) / 178.40182304735092))

/-- `p_vs_diameter`, `depthcount.py` lines 73-76, with the constants of lines 62-63. -/
def pOf (d : ℝ) : ℝ :=
  2.0700104291102317 + 0.0920770504148557 * Real.log (if d > dtr then dtr else d)

/-- The ratio after the lower clip, `depthcount.py` lines 84-85. -/
def clip (x : ℝ) : ℝ := if x < vsmall then vsmall else x

/-- `measure_degradation_state`, `depthcount.py` lines 78-90, for a crater of measured radius `r` whose measured depth
is `x` times the one it formed with.  The measured diameter is twice the measured radius.  Lines 81-82
return 0 for a crater without a measured depth. -/
def state (r : ℝ) (x : Option ℝ) : ℝ :=
  match x with
  | none => 0
  | some x => aOf (2 * r) * (clip x ^ (-1 / pOf (2 * r)) - 1) * r ^ 2

/-- `visibility_function` with the defaults `Kv1 = 0.30` and `gamma = 2.0`, `depthcount.py` lines 92-117; `Kv1` is kept
as a parameter. -/
def limit (kv1 r : ℝ) : ℝ := kv1 * r ^ 2

/-- The comparison made by `Counting.tally` (`counting/__init__.py:388-392`): hidden when the state has
reached the limit. -/
def Visible (kv1 r : ℝ) (x : Option ℝ) : Prop := ¬ limit kv1 r ≤ state r x

end

end Verif.Degradation
