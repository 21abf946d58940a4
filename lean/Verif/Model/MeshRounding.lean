import Verif.Model.Rings
import Mathlib.Analysis.SpecialFunctions.Log.Base

/-!
Model of the last step of `_generate_face_distribution` in `cratermaker/components/surface/hireslocal.py`, lines 641-645, and in
`cratermaker/components/surface/datasurface.py`, lines 368-372: the coordinates of the points are rounded to a number of decimals and equal points are united.

Numbers are real; rounding to an integer (`np.round`, ties to even) is a parameter; the order of the points, which `np.unique` sorts, is left out.
-/

namespace Verif.MeshRounding

noncomputable section

open Classical

/-- `decimals = max(6, -int(np.floor(np.log10(self.pix / self.radius))))`, `hireslocal.py` line 641. -/
def decimals (pix radius : ℝ) : ℤ := max 6 (-⌊Real.logb 10 (pix / radius)⌋)

/-- `np.round(x, decimals=d)`, `hireslocal.py` line 644. -/
def roundTo (rnd : ℝ → ℤ) (d : ℤ) (x : ℝ) : ℝ := rnd (x * 10 ^ d) / 10 ^ d

/-- All coordinates of a point, `hireslocal.py` line 644. -/
def roundPoint (rnd : ℝ → ℤ) (d : ℤ) (p : ℝ × ℝ × ℝ) : ℝ × ℝ × ℝ := (roundTo rnd d p.1, roundTo rnd d p.2.1, roundTo rnd d p.2.2)

/-- The points of the mesh, `hireslocal.py` lines 641-645: rounded, each once. -/
def meshPoints (rnd : ℝ → ℤ) (pix radius : ℝ) (ps : List (ℝ × ℝ × ℝ)) : List (ℝ × ℝ × ℝ) :=
  (ps.map (roundPoint rnd (decimals pix radius))).dedup

end

end Verif.MeshRounding
