import Mathlib.Analysis.SpecialFunctions.Log.Base
import Mathlib.Analysis.SpecialFunctions.Trigonometric.Basic

/-!
Model of the spectra of crater outlines and surfaces in `cratermaker/components/morphology/realisticmoon.py`: `_get_1D_power_spectral_density`, lines 38-129, and
`_get_2D_power_spectral_density`, lines 131-313.

The coefficients, which the code reads from a file that is not part of the repository, and the draws of the random generator are parameters.  Numbers are real.  The
noise of the two quadrants of the two-dimensional spectrum (lines 264-265) is a parameter, and so are the phases, which are left out.
-/

namespace Verif.Spectrum

noncomputable section

/-- An entry of the file of coefficients: two straight lines in the diameter, and where they meet. Belongs to `realisticmoon.py` lines 68-97. -/
structure Tie where
  /-- `D_tie`. -/
  tie : ℝ
  /-- `k1`. -/
  k1 : ℝ
  /-- `b1`. -/
  b1 : ℝ
  /-- `sigma_1`. -/
  sigma1 : ℝ
  /-- `k2`. -/
  k2 : ℝ
  /-- `b2`. -/
  b2 : ℝ
  /-- `sigma_2`. -/
  sigma2 : ℝ

/-- The mean and the deviation of a parameter for a crater of a diameter, `realisticmoon.py` lines 68-97 and 203-230. -/
def Tie.at (t : Tie) (diameter : ℝ) : ℝ × ℝ :=
  if diameter < t.tie then (t.k1 * diameter + t.b1, t.sigma1) else (t.k2 * diameter + t.b2, t.sigma2)

/-! ### One dimension -/

/-- The numbers drawn in `realisticmoon.py` lines 98-102. -/
structure Draws where
  /-- `slope_12`. -/
  slope12 : ℝ
  /-- `bp2_x`. -/
  bp2x : ℝ
  /-- `bp2_y`. -/
  bp2y : ℝ
  /-- `bp3_y`. -/
  bp3y : ℝ
  /-- `bp4_y`. -/
  bp4y : ℝ

/-- `bp4_x`, `realisticmoon.py` line 105. -/
def bp4x : ℝ := Real.logb 10 (2 * Real.pi)

/-- `bp3_x`, `realisticmoon.py` line 106. -/
def bp3x : ℝ := Real.logb 10 (10 ^ bp4x / 2)

/-- `wavelength[i]`, `realisticmoon.py` lines 107-109: `1 / freq[i + 1]`, with `freq[i + 1] = (i + 1) / (5000 * interval)`. -/
def wavelength (i : ℕ) : ℝ := 1 / ((i + 1 : ℝ) / (5000 * (2 * Real.pi / 5000)))

/-- `bp2_x_index`, `realisticmoon.py` line 113; the number is above -1, so that `int` of it is not negative. -/
def bp2Index (d : Draws) : ℕ := ⌊(10 : ℝ) ^ bp4x / 10 ^ d.bp2x - 1⌋₊

/-- `psd[i, 1]` before the noise, `realisticmoon.py` lines 114-122, for an index within the array: the last assignment that covers the index counts. -/
def power (d : Draws) (i : ℕ) : ℝ :=
  let k23 := (d.bp3y - d.bp2y) / (bp3x - d.bp2x)
  let b23 := d.bp3y - k23 * bp3x
  let k12 := d.slope12
  let b12 := d.bp2y - k12 * d.bp2x
  if bp2Index d + 1 ≤ i then 10 ^ (k12 * Real.logb 10 (wavelength i) + b12)
  else if 2 ≤ i then 10 ^ (k23 * Real.logb 10 (wavelength i) + b23)
  else if i = 1 then 10 ^ d.bp3y
  else 10 ^ bp4x

/-- The returned rows (wavelength, power), `realisticmoon.py` lines 124-128: the first `n`, with noise on the logarithm, in reverse order.  `n` is `num_psd_component_effec`, at most 2499. -/
def spectrum (d : Draws) (noise : ℕ → ℝ) (n : ℕ) : List (ℝ × ℝ) :=
  ((List.range n).map fun i : ℕ => (wavelength i, (10 : ℝ) ^ (Real.logb 10 (power d i) + noise i))).reverse

/-! ### Two dimensions -/

/-- An array as a function of row and column. Belongs to `realisticmoon.py` lines 267-271. -/
abbrev Arr := ℕ → ℕ → ℝ

/-- `q[1:, 1:]`. Belongs to `realisticmoon.py` lines 267-271. -/
def inner (q : Arr) : Arr := fun r c => q (r + 1) (c + 1)

/-- `np.fliplr` of an array with `w` columns. Belongs to `realisticmoon.py` lines 267-271. -/
def fliplr (w : ℕ) (q : Arr) : Arr := fun r c => q r (w - 1 - c)

/-- `np.flipud` of an array with `h` rows. Belongs to `realisticmoon.py` lines 267-271. -/
def flipud (h : ℕ) (q : Arr) : Arr := fun r c => q (h - 1 - r) c

/-- `a[r0:r1, c0:c1] = q`. Belongs to `realisticmoon.py` lines 267-271. -/
def assign (r0 r1 c0 c1 : ℕ) (q a : Arr) : Arr := fun i j => if r0 ≤ i ∧ i < r1 ∧ c0 ≤ j ∧ j < c1 then q (i - r0) (j - c0) else a i j

/-- `psd_log` after `realisticmoon.py` lines 267-271, for `r_number = 2 m` and `theta_number = 2 n`; `q1` and `q2` are `psd_log_quadrant_1st` and `psd_log_quadrant_2nd`. -/
def quadrants (m n : ℕ) (q1 q2 : Arr) : Arr :=
  assign 1 m 1 n (fliplr (n - 1) (flipud (m - 1) (inner q1)))
    (assign 1 m (n + 1) (2 * n) (flipud (m - 1) (inner q2))
      (assign (m + 1) (2 * m) 1 n (fliplr (n - 1) (inner q2))
        (assign m (2 * m) n (2 * n) q1 fun _ _ => 0)))

/-- The column of frequency zero, `realisticmoon.py` line 273. -/
def column (m n : ℕ) (a : Arr) : Arr := assign 1 m n (n + 1) (fun r _ => a (m + 1 + (m - 2 - r)) n) a

/-- The row of frequency zero, `realisticmoon.py` line 274. -/
def row (m n : ℕ) (a : Arr) : Arr := assign m (m + 1) 1 n (fun _ c => a m (n + 1 + (n - 2 - c))) a

/-- One half of the first row, `realisticmoon.py` line 276. -/
def top (n : ℕ) (a : Arr) : Arr := assign 0 1 (n + 1) (2 * n) (fun _ c => a 1 (n + 1 + c)) a

/-- One half of the first column, `realisticmoon.py` line 277. -/
def left (m : ℕ) (a : Arr) : Arr := assign (m + 1) (2 * m) 0 1 (fun r _ => a (m + 1 + r) 1) a

/-- The other half of the first row, `realisticmoon.py` line 279. -/
def topFlip (n : ℕ) (a : Arr) : Arr := assign 0 1 1 n (fun _ c => a 0 (n + 1 + (n - 2 - c))) a

/-- The other half of the first column, `realisticmoon.py` line 280. -/
def leftFlip (m : ℕ) (a : Arr) : Arr := assign 1 m 0 1 (fun r _ => a (m + 1 + (m - 2 - r)) 0) a

/-- The corner and the ends of the two axes, `realisticmoon.py` lines 282-284. -/
def corners (m n : ℕ) (a : Arr) : Arr :=
  assign m (m + 1) 0 1 (fun _ _ => a m 1) (assign 0 1 n (n + 1) (fun _ _ => a 1 n) (assign 0 1 0 1 (fun _ _ => a 1 1) a))

/-- `psd_log`, `realisticmoon.py` lines 267-284.  The three reads of lines 282-284 are of entries that those lines do not change. -/
def psdLog (m n : ℕ) (q1 q2 : Arr) : Arr :=
  corners m n (leftFlip m (topFlip n (left m (top n (row m n (column m n (quadrants m n q1 q2)))))))

/-- `psd`, `realisticmoon.py` lines 286-289; `mean` is true for the ejecta and the wall. -/
def psd (m n : ℕ) (q1 q2 : Arr) (mean : Bool) : Arr :=
  let a : Arr := fun i j => 10 ^ psdLog m n q1 q2 i j
  if mean then assign 0 (2 * m) n (n + 1) (fun _ _ => 0) a else a

/-- `fftshift(fftfreq(2 m, w / (2 m)))[i]`, `realisticmoon.py` lines 197-199, for a side of length `w`. -/
def freq (m : ℕ) (w : ℝ) (i : ℕ) : ℝ := ((i : ℝ) - m) / w

/-- `psd_log_quadrant`, `realisticmoon.py` lines 246-263, at a frequency `f`: `shape` is `(E_rad * sin) ** 2` for the ejecta, `(E_circ * cos) ** 2` for the wall and 0 for the floor. -/
def quadrant (pMax pDiff nuFall shape f : ℝ) : ℝ := pDiff / Real.sqrt (1 - shape) * (Real.exp (-Real.sqrt (f / nuFall)) - 1) + pMax

/-- `freq_r_num`, `realisticmoon.py` lines 291-294: the largest frequency asked for in steps of `(max - min) / number`. -/
def freqNum (m : ℕ) (w maxFreq : ℝ) : ℕ := ⌊maxFreq / ((freq m w (2 * m - 1) - freq m w 0) / (2 * m : ℕ))⌋₊

/-- The rows of `a[m - k : m + k]` for an array of `2 m` rows, `realisticmoon.py` lines 295-310: a negative start counts from the end. -/
def rowsKept (m k : ℕ) : List ℕ :=
  let start := if k ≤ m then m - k else 2 * m - (k - m)
  (List.range (2 * m)).filter fun i => decide (start ≤ i ∧ i < m + k)

end

end Verif.Spectrum
