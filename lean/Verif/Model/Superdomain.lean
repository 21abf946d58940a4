import Verif.Model.HiRes

/-!
Model of the automatic choice of the face sizes outside the local region, `HiResLocalSurface.set_superdomain`
(`cratermaker/components/surface/hireslocal.py` lines 425-494), and of the settings that are kept with it (lines 122-143, 749-828).
Floats are reals.  The extent of the ejecta of a crater is a function `rmax` of its diameter (lines 467-472: angle, velocity and
minimum thickness are fixed in the loop).  The fit of a power law (`scipy.optimize.curve_fit`, lines 480-490) is a parameter.
-/

namespace Verif.Superdomain

open Verif.HiRes

/-- Trial diameter number `i` of `np.logspace(log10(size), log10(2 * radius), 1000)`, `hireslocal.py` lines 462-466. -/
noncomputable def trial (radius size : ℝ) (i : ℕ) : ℝ := size * (radius * 2 / size) ^ ((i : ℝ) / 999)

/-- All trial diameters, in the order of the loop. Belongs to `hireslocal.py` lines 462-475. -/
noncomputable def trials (radius size : ℝ) : List ℝ := (List.range 1000).map (trial radius size)

open Classical in
/-- The inner loop, `hireslocal.py` lines 462-475: the first trial crater whose ejecta reach the distance; the size is kept if none does. -/
noncomputable def pick (rmax : ℝ → ℝ) (radius distance size : ℝ) : ℝ :=
  ((trials radius size).find? fun x => decide (rmax x ≥ distance)).getD size

open Classical in
/-- The outer loop, `hireslocal.py` lines 461-478, run at most `n` times: the pairs that are appended to `dvals` and `sdvals`. -/
noncomputable def samples (rmax : ℝ → ℝ) (radius : ℝ) : ℕ → ℝ → ℝ → List (ℝ × ℝ)
  | 0, _, _ => []
  | n + 1, distance, size =>
    if distance < Real.pi * radius then
      (distance, pick rmax radius distance size) ::
        samples rmax radius n (distance + pick rmax radius distance size) (pick rmax radius distance size)
    else []

/-- The search from its start, `hireslocal.py` lines 457-460. -/
noncomputable def search (rmax : ℝ → ℝ) (radius : ℝ) (n : ℕ) : List (ℝ × ℝ) := samples rmax radius n 1 (1 * 0.1)

/-- The settings of a surface and what is kept of the power law. Belongs to `hireslocal.py` lines 824-828. -/
structure Settings where
  /-- `radius` of the target -/
  radius : ℝ
  /-- `_pix` -/
  pix : ℝ
  /-- `_local_radius` -/
  localRadius : ℝ
  /-- `_superdomain_scale_factor`, lines 68-70 -/
  factor : Option ℝ := none
  /-- `_superdomain_function_slope` -/
  slope : Option ℝ := none
  /-- `_superdomain_function_exponent` -/
  exponent : Option ℝ := none

/-- The setter of `superdomain_scale_factor`, `hireslocal.py` lines 824-828; `none` is the TypeError. -/
noncomputable def setFactor (s : Settings) (value : ℝ) : Option Settings :=
  if value < 1 then none else some { s with factor := some value }

/-- The setter of `pix`, `hireslocal.py` lines 755-759. -/
noncomputable def setPix (s : Settings) (value : ℝ) : Option Settings :=
  if value ≤ 0 then none else some { s with pix := value }

/-- `superdomain_function_slope`, `hireslocal.py` lines 799-807; `none` is an exception (no factor, or division by zero). -/
noncomputable def readSlope (s : Settings) : Option ℝ :=
  match s.slope, s.factor with
  | some m, _ => some m
  | none, none => none
  | none, some f => HiRes.slope ⟨s.radius, s.pix, s.localRadius, f⟩

/-- `superdomain_function`, `hireslocal.py` lines 122-143, at one distance, with the settings afterwards (slope and exponent are kept, lines 806
and 812). -/
noncomputable def readSize (s : Settings) (r : ℝ) : Option (Settings × ℝ) :=
  (readSlope s).map fun m =>
    ({ s with slope := some m, exponent := some (s.exponent.getD 1) },
      sizeAt s.pix s.localRadius m (s.exponent.getD 1) r)

/-- `set_superdomain`, `hireslocal.py` lines 480-491, after the search: `fit` is the result of the fit (slope and exponent), `none` if it failed. -/
noncomputable def finish (s : Settings) (fit : Option (ℝ × ℝ)) : Settings :=
  let p := fit.getD (1, 1)
  { s with
    slope := some p.1, exponent := some p.2,
    factor := some (sizeAt s.pix s.localRadius p.1 p.2 (Real.pi * s.radius)) }

/-- The settings that enter the identity of the mesh, `hireslocal.py` lines 831-835 (the location is the same in all cases below). -/
def identity (s : Settings) : ℝ × ℝ × Option ℝ := (s.pix, s.localRadius, s.factor)

end Verif.Superdomain
