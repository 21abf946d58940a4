import Mathlib.Algebra.Order.Archimedean.Real.Basic

/-!
Model of the production functions called with several diameters and several ages: `function` of
`cratermaker/components/production/powerlaw.py` 109-132 and `neukum.py` 109-125, `_validate_age` of `production/__init__.py`
784-857 and the check of the diameters, `_validate_csfd`, 559-588.  Floats are real numbers, arrays are lists of at least one number
with one axis, and errors carry no message.
-/

namespace Verif.ManyAges

noncomputable section

/-- One number or an array. Belongs to `production/__init__.py` lines 812-815. -/
inductive Arg
  | one (x : ℝ)
  | many (xs : List ℝ)

/-- One number, an array or a table (rows of numbers). Belongs to `powerlaw.py` lines 113-132. -/
inductive Val
  | num (x : ℝ)
  | vec (xs : List ℝ)
  | tab (rows : List (List ℝ))

/-- What differs between the production functions: `csfd`, the number of craters relative to it for a window (`time_start - time_end`
in `powerlaw.py:127`, `chronology` in `neukum.py:180-184`), and `valid_time`. -/
structure Production where
  csfd : ℝ → ℝ
  window : ℝ → ℝ → ℝ
  first : Option ℝ
  last : Option ℝ

/-- The end for one start time, `production/__init__.py` lines 812-815: zero if there is none, an error if it is an array. -/
def endOne : Option Arg → Option ℝ
  | none => some 0
  | some (.one e) => some e
  | some (.many _) => none

/-- The ends for several start times, `production/__init__.py` lines 832-839. -/
def endsFor (ts : List ℝ) : Option Arg → List ℝ
  | none => ts.map fun _ => 0
  | some (.one e) => ts.map fun _ => e
  | some (.many es) => es

open Classical in
/-- `_validate_age` for one start time, `production/__init__.py` lines 809-825. -/
def validOne (p : Production) (ts : ℝ) (te : Option Arg) : Option (ℝ × ℝ) :=
  match endOne te with
  | none => none
  | some e =>
    if ts < e then none
    else if ∃ f, p.first = some f ∧ ts < f then none
    else if ∃ l, p.last = some l ∧ ts > l then none
    else some (ts, e)

open Classical in
/-- `_validate_age` for several start times, `production/__init__.py` lines 826-855. -/
def validMany (p : Production) (ts : List ℝ) (te : Option Arg) : Option (List (ℝ × ℝ)) :=
  let es := endsFor ts te
  if ts.length ≠ es.length then none
  else if ∃ q ∈ ts.zip es, q.1 < q.2 then none
  else if ∃ f, p.first = some f ∧ ((∃ t ∈ ts, t < f) ∨ ∃ e ∈ es, e < f) then none
  else if ∃ l, p.last = some l ∧ ((∃ t ∈ ts, t > l) ∨ ∃ e ∈ es, e > l) then none
  else some (ts.zip es)

open Classical in
/-- `_validate_csfd(diameter=...)`, `production/__init__.py` lines 563-588. -/
def validDiameter : Arg → Option Arg
  | .one d => if d < 0 then none else some (.one d)
  | .many ds => if ∃ d ∈ ds, d < 0 then none else some (.many ds)

/-- `function(diameter, time_start, time_end)`, `powerlaw.py:113-132` and `neukum.py:113-125`. -/
def function (p : Production) (diameter ts : Arg) (te : Option Arg) : Option Val :=
  match validDiameter diameter with
  | none => none
  | some d =>
    match ts with
    | .one t =>
      match validOne p t te with
      | none => none
      | some (t, e) =>
        match d with
        | .one d => some (.num (p.csfd d * p.window t e))
        | .many ds => some (.vec (ds.map fun d => p.csfd d * p.window t e))
    | .many ts =>
      match validMany p ts te with
      | none => none
      | some ws =>
        match d with
        | .one d => some (.vec (ws.map fun w => p.csfd d * p.window w.1 w.2))
        | .many ds => some (.tab (ds.map fun d => ws.map fun w => p.csfd d * p.window w.1 w.2))

end

end Verif.ManyAges
