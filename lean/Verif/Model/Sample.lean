import Verif.Model.Sampling

/-!
Model of `Production.sample` (`cratermaker/components/production/__init__.py` lines 194-284) from the arguments that the checks
have passed on, of the parameters of `get_random_velocity` and of `bounded_norm` (`cratermaker/utils/montecarlo_utils.py`).
The Poisson generator and the generator of truncated normal numbers are parameters.
-/

namespace Verif.Sampling

/-- Errors of `sample`: `type` is a TypeError, `value` the ValueErrors of the checks of the diameter range and of the area. Belongs to `production/__init__.py`
lines 239-284. -/
inductive SampleErr
  | type
  | value
  | size (e : SizeErr)
  deriving DecidableEq

/-- `input_diameters[j]`, `production/__init__.py:258`: `np.logspace` with its 50 points. -/
noncomputable def sizeGrid (lo hi : ℝ) (j : ℕ) : ℝ := Real.exp (Real.log lo + (Real.log hi - Real.log lo) * j / 49)

/-- The diameters with their cumulative numbers, `production/__init__.py:258-267`, in the order of `np.argsort(diameters)[::-1]`
(`montecarlo_utils.py:313-315`).  `N` is the number per area of craters larger than a diameter that form in the window. -/
noncomputable def sizeTable (N : ℝ → ℝ) (lo hi : ℝ) : List Entry :=
  (List.range 50).map fun (j : ℕ) => ⟨sizeGrid lo hi (49 - j), N (sizeGrid lo hi (49 - j))⟩

/-- The argument of the Poisson generator, `production/__init__.py:268`. -/
def expectedNumber (N : ℝ → ℝ) (lo area : ℝ) : ℝ := N lo * area

/-- The lower end of the uniform draw, `sorted_cdf[0]` after line 323 of `montecarlo_utils.py`. -/
noncomputable def lowest (l : List Entry) : ℝ :=
  (l.head?.map Entry.num).getD 1 / (l.getLast?.map Entry.num).getD 1

/-- One diameter from the standard uniform draws `t` and `r`, `montecarlo_utils.py:327-361`: `rng.uniform(low, high)` is
`low + (high - low) * t`. -/
noncomputable def drawSize (l : List Entry) (t r : ℝ) : Except SizeErr ℝ :=
  randomSize l (lowest l + (1 - lowest l) * t) r

/-- How many craters are drawn, `production/__init__.py:704-705, 268-274` and `montecarlo_utils.py:305-310`: an area that is not
given is 1 m². -/
noncomputable def sampleCount (poisson : ℝ → ℕ) (N : ℝ → ℝ) (lo : ℝ) (area : Option ℝ) : ℕ :=
  poisson (expectedNumber N lo (area.getD 1))

/-- The checks of `get_random_size` that do not depend on the draws, `montecarlo_utils.py:299-320`. -/
def tableOk (l : List Entry) : Prop :=
  2 ≤ l.length ∧ (∀ e ∈ l, 0 < e.diam) ∧ (∀ e ∈ l, 0 < e.num) ∧ l.IsChain (fun a b => a.num ≤ b.num)

open Classical in
/-- `Production.sample`, `production/__init__.py:239-284`, with the checks of the range and of the area on lines 680 and
695-710: a range that is not given is passed on as `None`, so that the default on line 680 is not used.  `N d t` is the number per
area of craters larger than `d` younger than `t`, so that `N d ts - N d te` is the number of the window; `sizes` and `times` are
the standard uniform draws for diameters and times. -/
noncomputable def sample (poisson : ℝ → ℕ) (N : ℝ → ℝ → ℝ) (ts te : ℝ) (range : Option (ℝ × ℝ)) (area : Option ℝ)
    (wantTimes : Bool) (sizes times : ℕ → ℝ × ℝ) : Except SampleErr (List ℝ × List ℝ) :=
  match range with
  | none => .error .type
  | some (lo, hi) =>
  if lo ≤ 0 ∨ hi < lo then .error .value
  else if area.getD 1 < 0 then .error .value
  else
    let F := fun d => N d ts - N d te
    let table := sizeTable F lo hi
    let n := sampleCount poisson F lo area
    if ¬ tableOk table then .error (.size .value)
    else match (List.range n).mapM fun (i : ℕ) => drawSize table (sizes i).1 (sizes i).2 with
      | .error e => .error (.size e)
      | .ok ds =>
        .ok (ds, if wantTimes then computeTime te ts (ds.mapIdx fun i d => (N d, times i)) else [])

/-! ### Velocities -/

/-- The standard deviation of each component, `montecarlo_utils.py:413`. -/
noncomputable def sigmaOf (vmean : ℝ) : ℝ := vmean / Real.sqrt (8 / Real.pi)

/-- The mean velocity passed on when there is an escape velocity below the mean, `montecarlo_utils.py:402`. -/
noncomputable def encounter (vmean vesc : ℝ) : ℝ := Real.sqrt (vmean ^ 2 - vesc ^ 2)

/-! ### Truncated normal numbers -/

/-- The bounds that `bounded_norm` uses, `montecarlo_utils.py:464-467`. -/
noncomputable def normBounds (loc scale : ℝ) (lower upper : Option ℝ) : ℝ × ℝ :=
  (lower.getD (loc - scale), upper.getD (loc + scale))

/-- `bounded_norm`, `montecarlo_utils.py:462-475`, for one number: `truncnorm a b` is the standard number the library draws between
the standardised bounds `a` and `b`. -/
noncomputable def boundedNorm (truncnorm : ℝ → ℝ → ℝ) (loc scale : ℝ) (lower upper : Option ℝ) : ℝ :=
  let b := normBounds loc scale lower upper
  loc + scale * truncnorm ((b.1 - loc) / scale) ((b.2 - loc) / scale)

end Verif.Sampling
