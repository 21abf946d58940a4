import Verif.Model.Projection

/-!
Model of the grid of pixels from which the mesh of a local region with elevation data is made: `DataSurface._get_local_dem_data` (lines 205-301) and
`_interior_distribution` (lines 315-326) of `cratermaker/components/surface/datasurface.py`.  Reading and warping the files is external (`rasterio`); the
resolution `res` is the smallest of the files (line 223), in metres.  Angles are in radians, `R` is the radius of the body, `r` that of the region and `pix` the
size of its pixels.  The last rounding of the points is left out.
-/

namespace Verif.DemWindow

open Verif.Sphere Verif.Projection

/-- Half the side of the square that is read, `datasurface.py` lines 205-208. -/
noncomputable def halfBox (r : ℝ) : ℝ := Real.sqrt 2 * r * 1.05

/-- `dst_width` and `dst_height`, `datasurface.py` lines 224-225. -/
noncomputable def width (r res : ℝ) : ℕ := ⌈2 * halfBox r / res⌉₊

/-- Centre of the pixel in a row and column in the coordinate system of the region: the transformation of `datasurface.py` line 226 and `offset="center"` of line 277. -/
noncomputable def pixel (r res : ℝ) (row col : ℕ) : ℝ × ℝ :=
  (-halfBox r + (col + 1 / 2) * res, halfBox r - (row + 1 / 2) * res)

/-- The pixel makes a face of the local region: the mask of `datasurface.py` lines 290-297 and 318, on the distance of its longitude and latitude from the centre. -/
def Kept (R lon0 lat0 r pix : ℝ) (p : ℝ × ℝ) : Prop :=
  distance lon0 lat0 (toSurface R lon0 lat0 p.1 p.2).1 (toSurface R lon0 lat0 p.1 p.2).2 R ≤ r + pix / 4

/-- The points of the local region, in its coordinate system. Belongs to `datasurface.py` lines 290-297. -/
def facePoints (R lon0 lat0 r pix res : ℝ) : Set (ℝ × ℝ) :=
  {p | ∃ row col, row < width r res ∧ col < width r res ∧ p = pixel r res row col ∧ Kept R lon0 lat0 r pix p}

end Verif.DemWindow
