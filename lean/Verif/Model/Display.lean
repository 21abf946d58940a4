import Mathlib.Algebra.Order.Archimedean.Real.Basic
import Mathlib.Analysis.SpecialFunctions.Log.Base

/-!
Model of the navigation between intervals in the interactive plot, `cratermaker/core/simulation.py` lines 1211-1274, and of
`format_large_units`, `cratermaker/utils/general_utils.py` lines 348-411.
-/

namespace Verif.Display

/-- The plot: the state of `IntervalState` (`simulation.py` lines 1211-1230) and the interval that is shown. -/
structure Plot where
  interval : ℤ
  maxInterval : ℤ
  shown : ℤ
  deriving DecidableEq

/-- `IntervalState.update`, `simulation.py` lines 1216-1228: the new interval, `none` if nothing changes. -/
def update (p : Plot) (forward : Bool) : Option ℤ :=
  if forward then
    if p.interval + 1 > p.maxInterval then none else some (p.interval + 1)
  else
    if p.interval - 1 < 0 then none else some (p.interval - 1)

/-- `update_interval`, `simulation.py` lines 1230-1235, and lines 1240-1242: when `update` returns nothing, `pyvista_plotter` is called
with `interval=None` and shows the current interval of the simulation, which is the maximum (line 1264). -/
def press (p : Plot) (forward : Bool) : Plot :=
  match update p forward with
  | some i => { p with interval := i, shown := i }
  | none => { p with shown := p.maxInterval }

/-- The plot as opened with `interval`, `simulation.py` lines 1240-1264. -/
def opened (interval : Option ℤ) (simInterval : ℤ) : Plot :=
  match interval with
  | none => ⟨simInterval, simInterval, simInterval⟩
  | some i => ⟨i, simInterval, i⟩

/-- A sequence of key presses. Belongs to `simulation.py` lines 1230-1235. -/
def presses (p : Plot) (keys : List Bool) : Plot := keys.foldl press p

/-- The quantities `format_large_units` knows, `general_utils.py` lines 376-393. -/
inductive Quantity
  | length | area | volume | velocity | time | pressure
  deriving DecidableEq

/-- The units, `general_utils.py` lines 376-393. -/
def units : Quantity → List String
  | .length => ["m", "km"]
  | .area => ["m²", "km²"]
  | .volume => ["m³", "km³"]
  | .velocity => ["m/s", "km/s"]
  | .time => ["My", "Gy"]
  | .pressure => ["Pa", "kPa", "MPa", "GPa"]

/-- The thresholds, `general_utils.py` lines 376-393. -/
noncomputable def threshold : Quantity → ℝ
  | .length => 1000
  | .area => 1000000
  | .volume => 1000000000
  | .velocity => 1000
  | .time => 1000
  | .pressure => 1000

/-- The loop of `general_utils.py` lines 398-401 with `left` units still available. -/
noncomputable def shift (thr : ℝ) : ℕ → ℝ → ℕ → ℝ × ℕ
  | 0, v, i => (v, i)
  | left + 1, v, i => if thr ≤ |v| then shift thr left (v / thr) (i + 1) else (v, i)

/-- Rounding to `n` decimals (`n` may be negative).  Simplification: ties are rounded up, Python rounds the binary
value half to even. Belongs to `general_utils.py` lines 403-411. -/
noncomputable def roundTo (n : ℤ) (v : ℝ) : ℝ := (round (v * (10 : ℝ) ^ n) : ℝ) / (10 : ℝ) ^ n

/-- The number printed, `general_utils.py` lines 403-411; `{:.4g}` rounds to four significant digits. -/
noncomputable def printed (v : ℝ) : ℝ :=
  if 100 ≤ |v| then roundTo 1 v
  else if 10 ≤ |v| then roundTo 2 v
  else if 1 ≤ |v| then roundTo 3 v
  else if v = 0 then 0
  else roundTo (3 - ⌊Real.logb 10 |v|⌋) v

/-- `format_large_units`: the number and the unit printed. Belongs to `general_utils.py` lines 403-411. -/
noncomputable def formatLarge (q : Quantity) (v : ℝ) : ℝ × String :=
  let r := shift (threshold q) ((units q).length - 1) v 0
  (printed r.1, (units q).getD r.2 "")

end Verif.Display
