import Mathlib.Analysis.SpecialFunctions.Trigonometric.Basic

/-!
Model of the points of a mesh of uniform resolution: `_distribute_points` and `_generate_face_distribution`
(`cratermaker/components/surface/arbitrary_resolution.py`, lines 82-178) over the whole sphere of radius one, as they are called for a
surface.  Rounding to the nearest integer (`np.round`) is a parameter; the rounding of the coordinates (lines 158-159) is left out.
-/

namespace Verif.Uniform

noncomputable section

open Classical

/-- `n`, `arbitrary_resolution.py` line 135, for a distance in units of the radius. -/
def nPoints (distance : ℝ) : ℕ := ⌊4 * Real.pi / distance ^ 2⌋₊

/-- `a`, `arbitrary_resolution.py` line 139. -/
def cellArea (n : ℕ) : ℝ := 4 * Real.pi / n

/-- `mtheta`, `arbitrary_resolution.py` lines 140-141. -/
def rows (rnd : ℝ → ℤ) (n : ℕ) : ℕ := (rnd (Real.pi / Real.sqrt (cellArea n))).toNat

/-- `dphi`, `arbitrary_resolution.py` lines 142-143. -/
def dphi (rnd : ℝ → ℤ) (n : ℕ) : ℝ := cellArea n / (Real.pi / rows rnd n)

/-- `thetavals[k]`, `arbitrary_resolution.py` line 145; over the whole sphere none is cut off in line 146. -/
def rowAngle (rnd : ℝ → ℤ) (n k : ℕ) : ℝ := Real.pi * (k + 1 / 2) / rows rnd n

/-- `mphi`, `arbitrary_resolution.py` line 149. -/
def perRow (rnd : ℝ → ℤ) (n k : ℕ) : ℕ :=
  max 1 (rnd (2 * Real.pi * Real.sin (rowAngle rnd n k) / dphi rnd n)).toNat

/-- `phivals[j]`, `arbitrary_resolution.py` line 150; over the whole sphere none is cut off in line 151. -/
def longitude (rnd : ℝ → ℤ) (n k j : ℕ) : ℝ := 2 * Real.pi * j / perRow rnd n k

/-- `_sph2cart`, `arbitrary_resolution.py` lines 113-129, with radius one. -/
def cart (θ φ : ℝ) : ℝ × ℝ × ℝ := (Real.sin θ * Real.cos φ, Real.sin θ * Real.sin φ, Real.cos θ)

/-- The points, `arbitrary_resolution.py` lines 148-153. -/
def points (rnd : ℝ → ℤ) (n : ℕ) : List (ℝ × ℝ × ℝ) :=
  (List.range (rows rnd n)).flatMap fun k =>
    (List.range (perRow rnd n k)).map fun j => cart (rowAngle rnd n k) (longitude rnd n k j)

/-- `_distribute_points`, `arbitrary_resolution.py` lines 135-162: `none` is None, returned when not even one point fits. -/
def distribute (rnd : ℝ → ℤ) (distance : ℝ) : Option (List (ℝ × ℝ × ℝ)) :=
  if nPoints distance < 1 then none else some (points rnd (nPoints distance))

/-- `np.unique(..., axis=0)`, `arbitrary_resolution.py` lines 159-160, of the array of shape (3, n): the three rows of coordinates are sorted, and a row that
equals another is dropped.  The sorting only exchanges axes and is left out here; `false` means that a row is dropped. -/
def threeRows (ps : List (ℝ × ℝ × ℝ)) : Bool :=
  decide (ps.map (·.1) ≠ ps.map (·.2.1) ∧ ps.map (·.1) ≠ ps.map (·.2.2) ∧ ps.map (·.2.1) ≠ ps.map (·.2.2))

/-- `_generate_face_distribution`, `arbitrary_resolution.py` lines 164-178: the first point is moved to the north pole and the last to the south pole; `none`
is TypeError, for None, or ValueError, for points of fewer than three coordinates. -/
def mesh (rnd : ℝ → ℤ) (pix radius : ℝ) : Option (List (ℝ × ℝ × ℝ)) :=
  match distribute rnd (pix / radius) with
  | none => none
  | some ps => if threeRows ps then some ((ps.set 0 (0, 0, 1)).set (ps.length - 1) (0, 0, -1)) else none

end

end Verif.Uniform
