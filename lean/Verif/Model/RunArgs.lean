import Mathlib.Data.Real.Basic
import Mathlib.Algebra.Order.Archimedean.Real.Basic
import Mathlib.Algebra.Order.Floor.Ring

/-!
Model of `Simulation._validate_run_args` (`cratermaker/core/simulation.py:299-452`) and of the part
of `Production._validate_sample_args` and `_validate_age`
(`cratermaker/components/production/__init__.py:590-858`) it relies on.  Numbers are real and
scalar; the checks of scalar-ness and of pair shapes are omitted (the types carry them).
-/

namespace Verif.RunArgs

/-- Exceptions. Belongs to `production/__init__.py` lines 578-582. -/
inductive Err
  | valueError
  | typeError
  | runtimeError
  | zeroDivision
  deriving DecidableEq

/-- The `ninterval` argument. Belongs to `simulation.py` lines 454-470. -/
inductive NInt
  | absent
  | int (z : ℤ)
  | other

/-- The arguments of `run` that concern the period, `simulation.py:454-470`. -/
structure Args where
  age : Option ℝ := none
  ts : Option ℝ := none
  te : Option ℝ := none
  nD : Option (ℝ × ℝ) := none
  nDend : Option (ℝ × ℝ) := none
  dn : Option (ℝ × ℝ) := none
  dnEnd : Option (ℝ × ℝ) := none
  ti : Option ℝ := none
  nint : NInt := .absent

/-- What the simulation and its production component provide: the current time (`_time`), the
surface area, the conversion factors, the cumulative number density `F D t` of craters larger
than `D` since time `t`, its inverse `ageOf D N` found by `brentq` (`none`: raises), the valid
times and the diameter range. Belongs to `production/__init__.py` lines 809-825. -/
structure Ctx where
  time : Option ℝ
  area : ℝ
  dConv : ℝ
  nConv : ℝ
  F : ℝ → ℝ → ℝ
  ageOf : ℝ → ℝ → Option ℝ
  vmin : Option ℝ
  vmax : Option ℝ
  dmin : ℝ
  dmax : ℝ

/-- Raise `e` if `p`. Belongs to `production/__init__.py` lines 578-582. -/
noncomputable def failIf (p : Prop) (e : Err) : Except Err Unit :=
  open Classical in if p then .error e else .ok ()

/-- `_validate_csfd` on a scalar pair, `production/__init__.py:578-582`. -/
noncomputable def validateCsfd (p : ℝ × ℝ) : Except Err Unit := do
  failIf (p.1 < 0) .valueError
  failIf (p.2 < 0) .valueError

/-- `_validate_age`, scalar case, `production/__init__.py:809-825`. -/
noncomputable def validateAge (c : Ctx) (ts te : ℝ) : Except Err Unit := do
  failIf (ts < te) .valueError
  failIf (∃ m, c.vmin = some m ∧ ts < m) .valueError
  failIf (∃ m, c.vmax = some m ∧ ts > m) .valueError

/-- `Production.function(diameter=D, time_start=t)` with validation, `powerlaw.py:118-135`. -/
noncomputable def fnV (c : Ctx) (D t : ℝ) : Except Err ℝ := do
  failIf (D < 0) .valueError
  validateAge c t 0
  return c.F D t

/-- `age_from_D_N` with validation, `production/__init__.py:373-445`. -/
noncomputable def ageV (c : Ctx) (D N : ℝ) : Except Err ℝ := do
  validateCsfd (D, N)
  match c.ageOf D N with
  | some t => return t
  | none => .error .valueError

/-- `production/__init__.py` lines 704-720 of `_validate_sample_args`: the start as a time and as a pair. -/
noncomputable def startOf (c : Ctx) (ts : Option ℝ) (dn : Option (ℝ × ℝ)) :
    Except Err (ℝ × (ℝ × ℝ)) :=
  match dn, ts with
  | some p, none => do
    validateCsfd p
    let t ← ageV c p.1 (p.2 / c.area)
    return (t, p)
  | none, some t => do
    let n ← fnV c 1000 t
    return (t, (1000, n * c.area))
  | _, _ => .error .valueError   -- lines 668-671

/-- `production/__init__.py` lines 722-768 of `_validate_sample_args`: the end as a time and as a pair, given the start. -/
noncomputable def endOf (c : Ctx) (t : ℝ) (p : ℝ × ℝ) (te : Option ℝ) (dnEnd : Option (ℝ × ℝ)) :
    Except Err (ℝ × (ℝ × ℝ)) :=
  match te, dnEnd with
  | some _, some _ => .error .valueError   -- lines 672-673
  | none, none =>
    -- 722-725, then 727-747 with `diameter_number_end = (1000, 0)` and `time_end = 0`
    if p.1 = 1000 then do
      validateAge c t 0
      return (0, (1000, 0))
    else do
      let n ← fnV c p.1 0
      validateAge c t 0
      return (0, (p.1, n * c.area))
  | none, some q => do
    validateCsfd q
    -- 738-747: `self.function(..., time_start=time_end)` with `time_end` still `None`
    failIf (q.1 ≠ p.1) .typeError
    let s ← ageV c q.1 (q.2 / c.area)
    validateAge c t s
    return (s, q)
  | some s, none => do
    validateAge c t s
    let n ← fnV c p.1 s
    return (s, (p.1, n * c.area))

/-- `_validate_sample_args`, `production/__init__.py:637-781`: start and end times and pairs. -/
noncomputable def sampleArgs (c : Ctx) (ts te : Option ℝ) (dn dnEnd : Option (ℝ × ℝ)) :
    Except Err (ℝ × ℝ × (ℝ × ℝ) × (ℝ × ℝ)) := do
  failIf (c.dmin ≤ 0) .valueError
  failIf (c.dmax < c.dmin) .valueError
  failIf (c.area < 0) .valueError
  let s ← startOf c ts dn
  let e ← endOf c s.1 s.2 te dnEnd
  return (s.1, e.1, s.2, e.2)

/-- `simulation.py` lines 337-395 of `_validate_run_args`: the four arguments handed to the production
validator.  Note which of the other arguments each branch looks at. -/
noncomputable def window (c : Ctx) (a : Args) :
    Except Err (Option ℝ × Option ℝ × Option (ℝ × ℝ) × Option (ℝ × ℝ)) :=
  let conv (p : ℝ × ℝ) : ℝ × ℝ := (p.1 * c.dConv, c.area * p.2 / c.nConv)
  match a.age with
  | some age =>
    if a.ts.isSome || a.te.isSome || a.dn.isSome || a.nD.isSome then .error .valueError
    else .ok (some age, some 0, none, a.dnEnd)
  | none =>
    match a.ts with
    | some t =>
      if a.dn.isSome || a.nD.isSome then .error .valueError
      else .ok (some t, some (a.te.getD 0), none, a.dnEnd)
    | none =>
      match a.te with
      | some e =>
        match c.time with
        | none => .error .valueError
        | some t => .ok (some t, some e, a.dn, a.dnEnd)
      | none =>
        match a.nD with
        | some p =>
          if a.dn.isSome || a.dnEnd.isSome then .error .valueError
          else .ok (none, none, some (conv p), some (conv (a.nDend.getD (p.1, 0))))
        | none =>
          if a.nDend.isSome then .error .valueError
          else if a.dn.isNone then .error .valueError
          else .ok (none, none, a.dn, a.dnEnd)

/-- `simulation.py` lines 397-405 of `_validate_run_args`: the number of intervals, if determined already. -/
def intervals (a : Args) : Except Err (Option ℤ) :=
  match a.nint with
  | .other => .error .typeError
  | .int z =>
    if z < 1 then .error .valueError
    else if a.ti.isSome then .error .valueError
    else .ok (some z)
  | .absent => .ok (if a.ti.isNone then some 1 else none)

/-- What `_validate_run_args` returns. Belongs to `simulation.py` lines 299-452. -/
structure Res where
  ts : ℝ
  te : ℝ
  dn : ℝ × ℝ
  dnEnd : ℝ × ℝ
  n : ℤ
  /-- `some ti`: equal time steps `ti`; `none`: equal number steps. -/
  ti : Option ℝ
  /-- The second component of `diameter_number_interval` in the number mode. -/
  dnStep : ℝ

/-- `_validate_run_args`, `simulation.py:299-452`. -/
noncomputable def runArgs (c : Ctx) (a : Args) : Except Err Res := do
  let w ← window c a
  let n ← intervals a
  let r ← sampleArgs c w.1 w.2.1 w.2.2.1 w.2.2.2
  match a.ti with
  | some ti =>
    -- lines 422-432 use the local `time_start` and `time_end`, not the validated ones
    match w.1, w.2.1 with
    | some ts, some te =>
      failIf (ti > ts - te) .valueError
      failIf (ti ≤ 0) .valueError
      return ⟨r.1, r.2.1, r.2.2.1, r.2.2.2, ⌈(ts - te) / ti⌉, some ti, 0⟩
    | _, _ => .error .typeError    -- `None - None`
  | none =>
    let k := n.getD 1
    return ⟨r.1, r.2.1, r.2.2.1, r.2.2.2, k, none, (r.2.2.1.2 - r.2.2.2.2) / k⟩

end Verif.RunArgs
