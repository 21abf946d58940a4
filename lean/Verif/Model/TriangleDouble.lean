import Verif.Model.Parallel

/-!
Model of the choice of a triangle of a face in `_get_one_random_location` (`cratermaker/utils/montecarlo_utils.py` lines 91-108) with rounding: `rnd` is
applied to the result of every operation; it is `Verif.Parallel.double` for the code.  The function is compiled by numba, which sums arrays from left to right.
-/

namespace Verif.TriangleDouble

/-- `areas.sum()` and the last entry of `np.cumsum`: a sum from left to right. Belongs to `montecarlo_utils.py` line 96. -/
def sumOf (rnd : ℚ → ℚ) (l : List ℚ) : ℚ := l.foldl (fun s a => rnd (s + a)) 0

/-- `areas /= areas.sum()`, `montecarlo_utils.py` line 96. -/
def weights (rnd : ℚ → ℚ) (areas : List ℚ) : List ℚ := areas.map fun a => rnd (a / sumOf rnd areas)

/-- `np.cumsum(areas)`, `montecarlo_utils.py` line 97. -/
def cumulative (rnd : ℚ → ℚ) (areas : List ℚ) : List ℚ :=
  (List.range areas.length).map fun k => sumOf rnd ((weights rnd areas).take (k + 1))

/-- `np.searchsorted(cum_areas, u)` for a sorted array, `montecarlo_utils.py` line 100: the number of entries below `u`. -/
def index (rnd : ℚ → ℚ) (areas : List ℚ) (u : ℚ) : ℕ := ((cumulative rnd areas).takeWhile fun c => decide (c < u)).length

/-- The weights of the three corners, `montecarlo_utils.py` lines 104-108. -/
def corners (rnd : ℚ → ℚ) (r1 r2 : ℚ) : ℚ × ℚ × ℚ :=
  let q : ℚ × ℚ := if rnd (r1 + r2) > 1 then (rnd (1 - r1), rnd (1 - r2)) else (r1, r2)
  (rnd (rnd (1 - q.1) - q.2), q.1, q.2)

end Verif.TriangleDouble
