import Verif.Model.Production
import Verif.Model.RunArgs

/-!
Model of the conversions between number, diameter and age,
`cratermaker/components/production/__init__.py:373-523`, and of the N(D) units.
-/

namespace Verif.Inverse

/-- `scipy.optimize.root_scalar(method="brentq", bracket=[lo, hi])`: an external function; `none` is
the ValueError for a bracket without sign change.  Simplified: the tolerance `xtol = 1e-8` (`production/__init__.py` lines 409
and 498) is taken as zero. -/
abbrev Solver := (ℝ → ℝ) → ℝ → ℝ → Option ℝ

/-- `age_from_D_N` for one pair of valid values, `production/__init__.py` lines 404-445; `N D t` is `function(D, t)`,
`lo` and `hi` are the valid times (0 and 1e6 if there are none, lines 411-418). -/
noncomputable def ageFromDN (solve : Solver) (N : ℝ → ℝ → ℝ) (lo hi D n : ℝ) : Option ℝ :=
  solve (fun t => N D t - n) lo hi

/-- `D_from_N_age` for one value, `production/__init__.py` lines 484-523. -/
noncomputable def dFromNAge (solve : Solver) (N : ℝ → ℝ → ℝ → ℝ) (n ts te : ℝ) : Option ℝ :=
  solve (fun d => N d ts te - n) 1e-6 1e6

/-- The time of an N(D) pair in `Production._validate_sample_args`, `production/__init__.py` lines 665-677. -/
noncomputable def timeOfNDProduction (c : RunArgs.Ctx) (p : ℝ × ℝ) : Except RunArgs.Err ℝ :=
  RunArgs.ageV c (p.1 * c.dConv) (p.2 * c.nConv)

/-- The time of an N(D) pair in `Simulation`: converted to a total number
(`core/simulation.py:379-387`), which `_validate_sample_args` divides by the area again
(`production/__init__.py:712-717`). -/
noncomputable def timeOfNDSimulation (c : RunArgs.Ctx) (p : ℝ × ℝ) : Except RunArgs.Err ℝ :=
  RunArgs.ageV c (p.1 * c.dConv) (c.area * p.2 / c.nConv / c.area)

end Verif.Inverse
