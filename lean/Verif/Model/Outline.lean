import Mathlib.Analysis.SpecialFunctions.Trigonometric.Basic

/-!
Model of the outline of a crater, `Crater.to_geoseries` (`cratermaker/components/crater/__init__.py`, lines 1138-1227), as distances
and bearings from the centre; going a distance along a bearing (`Geod.fwd`) is external.  The heights of the vertices are left out.
-/

namespace Verif.Outline

noncomputable section

/-- `theta[i]` of `np.linspace(0, 360, num=n)`, `crater/__init__.py` line 1174, in degrees. -/
def theta (n i : ℕ) : ℝ := 360 * i / (n - 1)

/-- `r`, `crater/__init__.py` lines 1194-1196: distance of the vertex at `θ` degrees from the direction of the first axis. -/
def dist (a b θ : ℝ) : ℝ :=
  a * b / Real.sqrt ((b * Real.cos (θ * Real.pi / 180)) ^ 2 + (a * Real.sin (θ * Real.pi / 180)) ^ 2)

/-- `phi % 360.0`. Belongs to `crater/__init__.py` line 1199. -/
def wrap (φ : ℝ) : ℝ := φ - 360 * ⌊φ / 360⌋

/-- `bearings`, `crater/__init__.py` line 1199: `theta + phi % 360.0`. -/
def bearing (φ θ : ℝ) : ℝ := θ + wrap φ

/-- A vertex as distance and bearing, `crater/__init__.py` line 1202. -/
def vertex (n : ℕ) (a b φ : ℝ) (i : ℕ) : ℝ × ℝ := (dist a b (theta n i), bearing φ (theta n i))

/-- `np.sign`. Belongs to `crater/__init__.py` lines 1206-1207. -/
def sgn (x : ℝ) : ℝ := if 0 < x then 1 else if x < 0 then -1 else 0

/-- Moving the longitudes to the side of the centre, `crater/__init__.py` lines 1206-1207. -/
def shift (centre x : ℝ) : ℝ := if sgn x ≠ sgn centre then x + 360 * sgn centre else x

/-- `lon_flip`, `crater/__init__.py` lines 1213-1215. -/
def flip (x : ℝ) : ℝ := if 180 ≤ |x| then x - 360 * sgn x else x

end

end Verif.Outline
