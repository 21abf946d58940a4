import Mathlib.Analysis.SpecialFunctions.Pow.Real

/-!
Model of the size scaling laws and of the scaling model's set-up
(`cratermaker/components/scaling/montecarlo.py`, `ctem.py`).
-/

namespace Verif.Scaling

noncomputable section

/-- The transition factors kept by a scaling model (`recompute`, montecarlo.py lines 426-475 and ctem.py
lines 79-117): enlargement factors `s` and `c`, sampled transition diameter `t`, nominal one `tn`, exponent
`e`, and whether the random version is on. -/
structure Laws where
  s : ℝ
  c : ℝ
  t : ℝ
  tn : ℝ
  e : ℝ
  mc : Bool

/-- Morphology types. Belongs to `montecarlo.py` lines 152-192. -/
inductive Morph
  | simple
  | transitional
  | complex
deriving DecidableEq

/-- `rng.choice([a, b], p=[p, 1 - p])` for the uniform draw `u`. Belongs to `montecarlo.py` lines 152-192. -/
def choice (a b : Morph) (p u : ℝ) : Morph := if u < p then a else b

/-- The probability used in `montecarlo.py` lines 176-187. -/
def prob (l : Laws) (d : ℝ) : ℝ :=
  if d < l.tn then (l.tn - d) / (l.tn - 0.5 * l.tn) else (d - l.tn) / (2 * l.tn - l.tn)

/-- `_get_morphology_type`, `montecarlo.py` lines 152-192, for the uniform draw `u`; raises (none) unless the diameter is
positive. -/
def morphType (l : Laws) (d u : ℝ) : Option Morph :=
  if d ≤ 0 then none
  else if d < 0.5 * l.tn then some .simple
  else if d > 2 * l.tn then some .complex
  else if l.mc then
    if d < l.tn then some (choice .simple .transitional (prob l d) u)
    else some (choice .complex .transitional (prob l d) u)
  else some .transitional

/-- `_f2t_simple`, `montecarlo.py` lines 477-478. -/
def f2tSimple (l : Laws) (d : ℝ) : ℝ := d / l.s

/-- `_f2t_complex`, `montecarlo.py` lines 480-485. -/
def f2tComplex (l : Laws) (d : ℝ) : ℝ := d / (l.s * l.c) * (d / l.t) ^ (-l.e)

/-- `final_to_transient`, `montecarlo.py` lines 194-230. -/
def finalToTransient (l : Laws) (d : ℝ) (m : Option Morph) (u : ℝ) : Option (ℝ × Morph) :=
  if d ≤ 0 then none
  else
    match m.or (morphType l d u) with
    | none => none
    | some .simple => some (f2tSimple l d, .simple)
    | some m => some (f2tComplex l d, m)

/-- The bracket given to the root finder, `montecarlo.py` line 265. -/
def bracket (l : Laws) (dt : ℝ) : ℝ × ℝ := (0.1 * (dt * l.s), 10 * (dt * l.s))

/-- `transient_to_final`, `montecarlo.py` lines 232-317.  `root` stands for the root finder applied to
`_f2t_complex(x) - dt` on the bracket (none when it raises); `u0`, `u1` are the draws of the two calls of
`_get_morphology_type`, `p` the draw of line 295, `pick` the outcome of the fair choice of line 311. -/
def transientToFinal (l : Laws) (root : (ℝ → ℝ) → ℝ × ℝ → Option ℝ) (dt u0 u1 p : ℝ) (pick : Bool) :
    Option (ℝ × Morph) :=
  if dt ≤ 0 then none
  else
    match root (fun x => f2tComplex l x - dt) (bracket l dt) with
    | none => none
    | some dc =>
      match morphType l (dt * l.s) u0, morphType l dc u1 with
      | some m0, some m1 =>
        if m0 = m1 then
          (if m0 = .simple then some (dt * l.s, m0) else some (dc, m0))
        else if m0 = .simple ∨ m1 = .simple then
          (if (if l.mc then p else 0.5) < |dc - l.t| / |dt * l.s - dc| then some (dt * l.s, .simple)
           else some (dc, if m0 = .simple then m1 else m0))
        else some (dc, if l.mc then (if pick then m0 else m1) else .transitional)
      | _, _ => none

/-- What `projectile_to_transient` reads of projectile and target: projectile density, vertical velocity,
target gravity and density, and the material constants. Belongs to `montecarlo.py` lines 319-356. -/
structure Impact where
  rhoP : ℝ
  v : ℝ
  g : ℝ
  rhoT : ℝ
  k1 : ℝ
  mu : ℝ
  ybar : ℝ

/-- `projectile_to_transient`, `montecarlo.py` lines 319-356. -/
def projToTransient (i : Impact) (d : ℝ) : ℝ :=
  let r := d / 2
  let mass := (4.0 / 3.0) * Real.pi * r ^ 3 * i.rhoP
  let c1 := 1 + 0.5 * i.mu
  let c2 := (-3 * i.mu) / (2 + i.mu)
  let pitwo := i.g * r / i.v ^ 2
  let pithree := i.ybar / (i.rhoT * i.v ^ 2)
  let pifour := i.rhoT / i.rhoP
  let pivol := i.k1 * (pitwo * pifour ^ (-1.0 / 3.0 : ℝ) + pithree ^ c1) ^ c2
  let cvol := pivol * (mass / i.rhoT)
  let dt := (3 * cvol / Real.pi) ^ (1.0 / 3.0 : ℝ) * 2
  if dt < d then d else dt

/-- `transient_to_projectile`, `montecarlo.py` lines 358-389. -/
def transientToProj (i : Impact) (root : (ℝ → ℝ) → ℝ × ℝ → Option ℝ) (dt : ℝ) : Option ℝ :=
  if dt ≤ 0 then none
  else root (fun x => projToTransient i x - dt) (1e-5 * dt, 1.2 * dt)

/-! ### Material properties -/

/-- An entry of the material catalogue, `montecarlo.py` lines 407-420. -/
structure Mat where
  k1 : ℝ
  mu : ℝ
  ybar : ℝ
  density : ℝ

/-- The attributes concerned: the material name, the three constants of the scaling model and the density
kept by the target object. Belongs to `montecarlo.py` lines 561-572. -/
structure Params where
  material : Option String
  k1 : Option ℝ
  mu : Option ℝ
  ybar : Option ℝ
  density : Option ℝ

/-- The numeric setters of `K1`, `mu` and `Ybar`, `montecarlo.py` lines 512-549: negative values raise. -/
def checked (v : ℝ) : Option ℝ := if v < 0 then none else some v

/-- The density setter of the target (`target/__init__.py:311-321`): must be positive. -/
def checkedDensity (v : ℝ) : Option ℝ := if v ≤ 0 then none else some v

/-- The `material` setter, `montecarlo.py` lines 561-572: it also sets the constants and the target's density from the
catalogue.  `title` is `str.title`. -/
def setMaterial (title : String → String) (cat : String → Option Mat) (name : String) (p : Params) :
    Option Params :=
  match cat (title name) with
  | none => some { p with material := some (title name) }
  | some m =>
    match checked m.k1, checked m.mu, checked m.ybar, checkedDensity m.density with
    | some k, some u, some y, some d => some ⟨some (title name), some k, some u, some y, some d⟩
    | _, _, _, _ => none

/-- Setting a constant from an optional argument: `None` is skipped. Belongs to `general_utils.py` lines 49-170. -/
def setOpt (v : Option ℝ) (old : Option ℝ) : Option (Option ℝ) :=
  match v with
  | none => some old
  | some v => (checked v).map some

/-- Arguments of the constructor. Belongs to `general_utils.py` lines 49-170. -/
structure Args where
  material : Option String
  k1 : Option ℝ
  mu : Option ℝ
  ybar : Option ℝ
  density : Option ℝ

/-- `MonteCarloScaling.__init__`, lines 109-133, for a target with the given material and density.  The
material set in lines 109-112 is set again by `_set_properties` from the catalogue and from the arguments
(`general_utils.py:49-170`), each time before the explicit constants; only the last two of these are kept
here since the earlier ones are overwritten.  With no material at all line 116 raises `AttributeError`. -/
def init (title : String → String) (cat : String → Option Mat) (targetMaterial : Option String)
    (targetDensity : Option ℝ) (a : Args) : Option Params :=
  match a.material.or targetMaterial with
  | none => none
  | some name =>
    match setMaterial title cat name ⟨none, none, none, none, targetDensity⟩ with
    | none => none
    | some p0 =>
      match setMaterial title cat (title name) p0 with
      | none => none
      | some p =>
        match setOpt a.k1 p.k1, setOpt a.mu p.mu, setOpt a.ybar p.ybar with
        | some (some k), some (some u), some (some y) =>
          match a.density with
          | some d => (checkedDensity d).map fun d => ⟨p.material, some k, some u, some y, some d⟩
          | none =>
            match p.density with
            | some d => some ⟨p.material, some k, some u, some y, some d⟩
            | none =>
              match p.material.bind cat with
              | some m => (checkedDensity m.density).map fun d => ⟨p.material, some k, some u, some y, some d⟩
              | none => none
        | _, _, _ => none

end

end Verif.Scaling
