import Verif.Model.SurfaceData

/-!
Model of `Surface._compute_face_bins` (`cratermaker/components/surface/__init__.py` lines 1624-1637) with rounding: `level a` is the number that is computed for
`np.log2(area / min_area)`, with whatever rounding the division and the logarithm have.
-/

namespace Verif.FaceBinsDouble

/-- The loop of `surface/__init__.py` lines 1633-1635: face `k` with area `a` is appended to its bin; an index beyond the list is an IndexError. -/
noncomputable def place (level : ℝ → ℝ) : List ℝ → ℕ → List (List ℕ) → Option (List (List ℕ))
  | [], _, bins => some bins
  | a :: as, k, bins =>
    if ⌊level a⌋₊ < bins.length then place level as (k + 1) (bins.modify ⌊level a⌋₊ (· ++ [k]))
    else none

/-- `_compute_face_bins`, `surface/__init__.py` lines 1624-1637, for the computed quotient `quot` and the computed logarithm `lg`.  An empty mesh is an error.  The levels are not negative,
since an area is at least the smallest one. -/
noncomputable def faceBins (quot : ℝ → ℝ → ℝ) (lg : ℝ → ℝ) (areas : List ℝ) : Option (List (List ℕ)) :=
  match areas.min?, areas.max? with
  | some mn, some mx =>
    (place (fun a => lg (quot a mn)) areas 0 (List.replicate ⌈lg (quot mx mn)⌉₊ [])).map (·.filter (fun b => b ≠ []))
  | _, _ => none

end Verif.FaceBinsDouble
