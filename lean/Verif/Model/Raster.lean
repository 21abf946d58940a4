import Mathlib.Analysis.SpecialFunctions.Trigonometric.Basic
import Mathlib.Analysis.Real.Sqrt
import Mathlib.Algebra.Order.Floor.Semiring

/-!
Model of the grid of a raster: `LocalSurface.get_raster_dims` (`cratermaker/components/surface/__init__.py`, lines 3155-3182) and the part of `to_raster` that
places the pixels (lines 3108-3144).  Coordinates are longitude and latitude in degrees for a whole surface, metres in the coordinate system of the region for
a region.  Floats are real numbers.
-/

namespace Verif.Raster

/-- A raster: numbers of columns and rows, the coordinates of the upper left corner, the width and height of a pixel, and the extent
(xmin, xmax, ymin, ymax) that is returned with it. Belongs to `surface/__init__.py` lines 3110-3122. -/
structure Grid where
  width : ℕ
  height : ℕ
  left : ℝ
  top : ℝ
  dx : ℝ
  dy : ℝ
  extent : ℝ × ℝ × ℝ × ℝ

/-- The size of a face in degrees, `surface/__init__.py` lines 3166-3172 and 3116-3119, for `n` faces on a body of a radius. -/
noncomputable def faceDegrees (radius : ℝ) (n : ℕ) : ℝ :=
  180 * Real.sqrt (4 * Real.pi * radius ^ 2 / n) / (Real.pi * radius)

/-- The numbers of columns and rows for a whole surface, `surface/__init__.py` lines 3173-3175. -/
noncomputable def globalDims (radius : ℝ) (n : ℕ) : ℕ × ℕ :=
  (⌈(180 - -180) / faceDegrees radius n⌉₊, ⌈(90 - -90) / faceDegrees radius n⌉₊)

/-- The numbers of columns and rows for a region of radius `r` with pixels `pix`, `surface/__init__.py` lines 3177-3181. -/
noncomputable def localDims (r pix : ℝ) : ℕ × ℕ := (max 1 ⌈2 * r / pix⌉₊, max 1 ⌈2 * r / pix⌉₊)

/-- The raster of a whole surface, `surface/__init__.py` lines 3110-3122 (`from_bounds`). -/
noncomputable def globalGrid (radius : ℝ) (n : ℕ) : Grid :=
  let w := (globalDims radius n).1
  let h := (globalDims radius n).2
  ⟨w, h, -180, 90, (180 - -180) / w, (90 - -90) / h, (-180, 180, -90, 90)⟩

/-- The raster of a region, `surface/__init__.py` lines 3123-3135. -/
noncomputable def localGrid (r pix : ℝ) : Grid :=
  let w := (localDims r pix).1
  let h := (localDims r pix).2
  let b := r + 4 * pix
  ⟨w, h, -b, b, 2 * b / w, 2 * b / w, (-b, b, -b, b)⟩

end Verif.Raster
