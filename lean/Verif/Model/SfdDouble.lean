import Verif.Model.Parallel

/-!
Model of how `sample_from_sfd` (`cratermaker/utils/montecarlo_utils.py` lines 313-351) finds the place of a draw in a table, with rounding: `rnd` is applied
to the result of every operation; it is `Verif.Parallel.double` for the code.  The logarithm of numpy is a parameter.
-/

namespace Verif.SfdDouble

/-- `Generator.uniform(low, high)` of numpy, `montecarlo_utils.py` line 327: `low + (high - low) * r`, where `r` is a multiple of `2 ^ -53` in [0, 1). -/
def uniform (rnd : ℚ → ℚ) (low high r : ℚ) : ℚ := rnd (low + rnd (rnd (high - low) * r))

/-- The normalised cumulative numbers, `montecarlo_utils.py` line 323, of a table whose last entry is `last`. -/
def normalised (rnd : ℚ → ℚ) (cdf : List ℚ) (last : ℚ) : List ℚ := cdf.map fun c => rnd (c / last)

/-- `np.searchsorted(log_sorted_cdf, u, side="right")` for a sorted table, `montecarlo_utils.py` line 341: the number of entries not above `u`. -/
def place (lg : ℚ → ℚ) (table : List ℚ) (u : ℚ) : ℕ := ((table.map lg).takeWhile fun c => decide (c ≤ lg u)).length

/-- The two entries of the table around the draw, `montecarlo_utils.py` lines 346-349, with the logarithms of their numbers; none is an IndexError.  The index `indices - 1` is
counted from the end if it is negative. -/
def around (lg : ℚ → ℚ) (table : List ℚ) (u : ℚ) : Option (ℚ × ℚ) :=
  let i := place lg table u
  match table[if i = 0 then table.length - 1 else i - 1]?, table[i]? with
  | some a, some b => some (lg a, lg b)
  | _, _ => none

end Verif.SfdDouble
