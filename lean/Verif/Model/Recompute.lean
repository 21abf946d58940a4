import Verif.Model.Scaling
import Verif.Model.Sample
import Mathlib.Analysis.SpecialFunctions.Log.Base

/-!
Model of how the scaling models set their transition factors (`recompute` in
`cratermaker/components/scaling/montecarlo.py` and `ctem.py`).
-/

namespace Verif.Scaling

open Verif.Sampling

noncomputable section

/-- The two values that `transition_scale_type` can have in a target, `target/__init__.py:358-363` (`None` is refused by the
constructor, line 143). -/
inductive Crust
  | silicate
  | ice
deriving DecidableEq

/-- The constants `A`, `B` and `sigma`, `montecarlo.py:442-449`. -/
def transitionFit : Crust → ℝ × ℝ × ℝ
  | .silicate => (-0.5484575694575697, 4.201369948094472, 0.0699898822890725)
  | .ice => (-0.7066985617230864, 3.52268633631802, 0.10337890091526512)

/-- `_transition_nominal`, `montecarlo.py:456`. -/
def nominal (k : Crust) (g : ℝ) : ℝ := 10 ^ ((transitionFit k).1 * Real.logb 10 g + (transitionFit k).2.1)

/-- `recompute`, `montecarlo.py:426-475`, for gravity `g`.  `trunc1` and `trunc2` are the truncated normal numbers that the
library draws in the two calls of `bounded_norm`, `normal mu sigma` is the normal number drawn for the transition diameter. -/
def recompute (k : Crust) (g : ℝ) (mc : Bool) (trunc1 trunc2 normal : ℝ → ℝ → ℝ) : Laws :=
  if mc then
    { s := 1 / boundedNorm trunc1 0.84 0.04 none none
      c := 1.02
      t := 10 ^ normal ((transitionFit k).1 * Real.logb 10 g + (transitionFit k).2.1) (transitionFit k).2.2
      tn := nominal k g
      e := boundedNorm trunc2 0.079 0.0001 none none
      mc := true }
  else
    { s := 1 / 0.84, c := 1.02, t := nominal k g, tn := nominal k g, e := 0.079, mc := false }

/-- The constants of the CTEM model: factor and exponent of the transition diameter and exponent of the complex law,
`ctem.py:83-89, 101-108`. -/
def ctemFit : Crust → ℝ × ℝ × ℝ
  | .silicate => (16533.8, -1.0303, 1 / 0.885 - 1)
  | .ice => (3081.39, -1.22486, 0.155)

/-- `recompute`, `ctem.py:79-117`. -/
def ctemRecompute (k : Crust) (g : ℝ) : Laws :=
  { s := 1 / 0.84
    c := 1.02
    t := (ctemFit k).1 * g ^ (ctemFit k).2.1
    tn := (ctemFit k).1 * g ^ (ctemFit k).2.1
    e := (ctemFit k).2.2
    mc := false }

end

end Verif.Scaling
