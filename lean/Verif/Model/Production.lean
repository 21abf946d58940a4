import Mathlib.Analysis.SpecialFunctions.Pow.Real
import Mathlib.Analysis.SpecialFunctions.Log.Base

/-!
Model of the production functions, `cratermaker/components/production/powerlaw.py` and `neukum.py`.
Numbers are real; arrays are treated element by element.
-/

namespace Verif.Production

/-! ## Power law -/

/-- A power law object: its coefficient and slope. Belongs to `powerlaw.py` lines 61-79. -/
structure PowerLaw where
  coef : ℝ
  slope : ℝ

/-- The constructor's handling of the two numbers, `powerlaw.py:61-79`; `none`: ValueError. -/
noncomputable def PowerLaw.make (coef slope : ℝ) : Option PowerLaw :=
  open Classical in
  if coef < 0 then none
  else some ⟨coef, if slope > 0 then slope * -1 else slope⟩

/-- The setter of `slope`, `powerlaw.py:217-221`: it stores the value as it is. -/
def PowerLaw.setSlope (p : PowerLaw) (s : ℝ) : PowerLaw := { p with slope := s }

/-- `csfd`, `powerlaw.py:183-197`. -/
noncomputable def PowerLaw.csfd (p : PowerLaw) (D : ℝ) : ℝ := p.coef * D ^ p.slope

/-- `function`, `powerlaw.py:87-135`, for valid inputs. -/
noncomputable def PowerLaw.function (p : PowerLaw) (D ts te : ℝ) : ℝ := p.csfd D * (ts - te)

/-- `chronology`, `powerlaw.py:137-181`: the times are not used. -/
noncomputable def PowerLaw.chronology (p : PowerLaw) (_ts _te : ℝ) : ℝ := p.csfd 1000

/-! ## Neukum production function -/

/-- The version-dependent constants, `neukum.py:245-391`: coefficients of the size distribution,
`Clin`, `Cexp`, `tau` and the range of diameters in km. -/
structure Neukum where
  coef : List ℝ
  cLin : ℝ
  cExp : ℝ
  tau : ℝ
  lo : ℝ
  hi : ℝ

/-- `_N1km`, `neukum.py:160-179`. -/
noncomputable def Neukum.n1 (p : Neukum) (age : ℝ) : ℝ :=
  (p.cExp * (Real.exp (age * 1e-3 / p.tau) - 1) + p.cLin * age * 1e-3) * 1e-6

/-- `chronology`, `neukum.py:127-184`, for valid inputs and a given end time. -/
noncomputable def Neukum.chronology (p : Neukum) (ts te : ℝ) : ℝ := p.n1 ts - p.n1 te

/-- `chronology` without an end time, `neukum.py:181-182`. -/
noncomputable def Neukum.chronologySince (p : Neukum) (ts : ℝ) : ℝ := p.n1 ts

/-- `sum(co * x**i for i, co in enumerate(coef))`, `neukum.py:461` and 497, by Horner. -/
def polyEval : List ℝ → ℝ → ℝ
  | [], _ => 0
  | c :: cs, x => c + x * polyEval cs x

/-- `_dNdD` at an end of the range, used as the exponent of the extrapolation,
`neukum.py:421-441` and 452-461: the polynomial with the coefficients `coef[1:]`. -/
noncomputable def Neukum.exponent (p : Neukum) (D : ℝ) : ℝ :=
  polyEval p.coef.tail (Real.logb 10 D)

/-- The tabulated branch of `_CSFD`, `neukum.py:496-498`. -/
noncomputable def Neukum.table (p : Neukum) (D : ℝ) : ℝ :=
  (10 : ℝ) ^ polyEval p.coef (Real.logb 10 D)

/-- `_CSFD`, `neukum.py:486-500`, diameters in km. -/
noncomputable def Neukum.csfdKm (p : Neukum) (D : ℝ) : ℝ :=
  open Classical in
  if D < p.lo then p.table p.lo * (D / p.lo) ^ p.exponent p.lo
  else if D > p.hi then p.table p.hi * (D / p.hi) ^ (p.exponent p.hi - 5)
  else p.table D

/-- `csfd` of the crater versions, `neukum.py:505-519`, diameter in m. -/
noncomputable def Neukum.csfd (p : Neukum) (D : ℝ) : ℝ := p.csfdKm (D * 1e-3) * 1e3

/-- `function`, `neukum.py:113-125`, for valid inputs. -/
noncomputable def Neukum.function (p : Neukum) (D ts te : ℝ) : ℝ := p.csfd D * p.chronology ts te

/-- The lunar coefficients, `neukum.py:258-271`. -/
noncomputable def moonCoef : List ℝ :=
  [-3.0876, -3.557528, 0.781027, 1.021521, -0.156012, -0.444058, 0.019977, 0.086850, -0.005874,
    -0.006809, 8.25e-4, 5.54e-5]

/-- The martian coefficients, `neukum.py:272-285`. -/
noncomputable def marsCoef : List ℝ :=
  [-3.384, -3.197, 1.257, 0.7915, -0.4861, -0.3630, 0.1016, 6.756e-2, -1.181e-2, -4.753e-3,
    6.233e-4, 5.805e-5]

/-- The version "Moon". Belongs to `neukum.py` lines 186-196. -/
noncomputable def moon : Neukum where
  coef := moonCoef
  cLin := (10 : ℝ) ^ (-3.0876 : ℝ)
  cExp := 5.44e-14
  tau := 1 / 6.93
  lo := 10 * 1e-3
  hi := 1000e3 * 1e-3

/-- The version "Mars"; `Cexp` is scaled as in `neukum.py:330-349`. -/
noncomputable def mars : Neukum where
  coef := marsCoef
  cLin := (10 : ℝ) ^ (-3.384 : ℝ)
  cExp := 5.44e-14 * (10 : ℝ) ^ (-3.384 : ℝ) / (10 : ℝ) ^ (-3.0876 : ℝ)
  tau := 1 / 6.93
  lo := 15 * 1e-3
  hi := 362e3 * 1e-3

/-- The coefficients of the projectiles, `neukum.py:286-302`. -/
noncomputable def projectileCoef : List ℝ :=
  [0, 1.375458, 1.272521e-1, -1.282166, -3.074558e-1, 4.149280e-1, 1.910668e-1, -4.260980e-2, -3.976305e-2,
    -3.180179e-3, 2.799369e-3, 6.892223e-4, 2.614385e-6, -1.416178e-5, -1.191124e-6]

/-- The constants of the version "Projectile"; its polynomial is that of the R values, see `Model/Projectile.lean`. Belongs to `neukum.py` lines 186-196. -/
noncomputable def projectile : Neukum where
  coef := projectileCoef
  cLin := (10 : ℝ) ^ (0 : ℝ)
  cExp := 5.44e-14 * (10 : ℝ) ^ (0 : ℝ) / (10 : ℝ) ^ (-3.0876 : ℝ)
  tau := 1 / 6.93
  lo := 0.1 * 1e-3
  hi := 200e3 * 1e-3

/-! ## The version of a Neukum object -/

/-- The versions, `valid_versions`, `neukum.py:186-196`. -/
inductive Version
  | moon
  | mars
  | projectile
  deriving DecidableEq

/-- Coefficients of a version, `sfd_tables` and `sfd_coef`, `neukum.py:249-315`. -/
noncomputable def Version.coef : Version → List ℝ
  | .moon => moonCoef
  | .mars => marsCoef
  | .projectile => projectileCoef

/-- `sfd_range` in km, `neukum.py:364-384` and 414-415. -/
noncomputable def Version.lo : Version → ℝ
  | .moon => 10 * 1e-3
  | .mars => 15 * 1e-3
  | .projectile => 0.1 * 1e-3

/-- See `Version.lo`. Belongs to `neukum.py` lines 245-391. -/
noncomputable def Version.hi : Version → ℝ
  | .moon => 1000e3 * 1e-3
  | .mars => 362e3 * 1e-3
  | .projectile => 200e3 * 1e-3

/-- A Neukum object: its version and the values kept in `_Clin` and `_Cexp` (`None` until first
used), `neukum.py:66-70`. -/
structure NeukumObj where
  version : Version
  lin : Option ℝ
  exp : Option ℝ

/-- `__init__`, `neukum.py:66-71`. -/
def NeukumObj.new (v : Version) : NeukumObj := ⟨v, none, none⟩

/-- The setter of `version`, `neukum.py:229-246`: the kept values stay. -/
def NeukumObj.setVersion (o : NeukumObj) (v : Version) : NeukumObj := { o with version := v }

/-- The property `Clin`, `neukum.py:317-329`. -/
noncomputable def NeukumObj.getLin (o : NeukumObj) : ℝ × NeukumObj :=
  match o.lin with
  | some c => (c, o)
  | none =>
    let c := (10 : ℝ) ^ (o.version.coef.headD 0)
    (c, { o with lin := some c })

/-- The property `Cexp`, `neukum.py:331-348`. -/
noncomputable def NeukumObj.getExp (o : NeukumObj) : ℝ × NeukumObj :=
  match o.exp with
  | some c => (c, o)
  | none =>
    match o.version with
    | .moon => (5.44e-14, { o with exp := some 5.44e-14 })
    | _ =>
      let (l, o') := o.getLin
      let c := 5.44e-14 * l / (10 : ℝ) ^ (Version.moon.coef.headD 0)
      (c, { o' with exp := some c })

/-- The constants a call of `function` or `chronology` uses, and the object afterwards.
`neukum.py:178` reads `Cexp` first. -/
noncomputable def NeukumObj.constants (o : NeukumObj) : Neukum × NeukumObj :=
  let (e, o1) := o.getExp
  let (l, o2) := o1.getLin
  (⟨o.version.coef, l, e, 1 / 6.93, o.version.lo, o.version.hi⟩, o2)

end Verif.Production
