import Verif.Model.Parallel

/-!
Model of the intervals of a run in double precision: `Simulation._validate_run_args`
(`cratermaker/core/simulation.py` lines 415-445) and the loop of `Simulation.run` (lines 537-539, 558-559 and 588-633), with the check that
`populate` makes of its arguments (`cratermaker/components/production/__init__.py` lines 578-582 and 809-817).  `Verif.Run` models the same lines with exact
numbers.  Here each operation is followed by a rounding `rd`; `Verif.Parallel.double` is the one of the processor.
-/

namespace Verif.Steps

/-- The arguments `time_start`, `time_end` and `time_interval`. Belongs to `simulation.py` lines 421-424. -/
structure Period where
  ts : ℚ
  te : ℚ
  ti : ℚ

/-- `simulation.py` lines 421-424: whether the time step is accepted. -/
def accepted (rd : ℚ → ℚ) (p : Period) : Prop := ¬ rd (p.ts - p.te) < p.ti ∧ ¬ p.ti ≤ 0

instance (rd : ℚ → ℚ) (p : Period) : Decidable (accepted rd p) := by unfold accepted; infer_instance

/-- `simulation.py` line 425: the number of intervals. -/
def number (rd : ℚ → ℚ) (p : Period) : ℤ := ⌈rd (rd (p.ts - p.te) / p.ti)⌉

/-- `simulation.py` lines 537-539: the time step that is used; a single interval gets the length of the period. -/
def step (rd : ℚ → ℚ) (p : Period) : ℚ := if number rd p = 1 then rd (p.ts - p.te) else p.ti

/-- `simulation.py` line 591: where interval `i` begins. -/
def begins (rd : ℚ → ℚ) (p : Period) (i : ℕ) : ℚ := rd (p.ts - rd (i * step rd p))

/-- `simulation.py` lines 592-594: where interval `i` ends. -/
def ends (rd : ℚ → ℚ) (p : Period) (i : ℕ) : ℚ :=
  if rd (p.ts - rd ((i + 1 : ℕ) * step rd p)) < p.te then p.te else rd (p.ts - rd ((i + 1 : ℕ) * step rd p))

/-- `simulation.py` line 559: the interval that a run goes on with, when the clock stands at `now`. -/
def resumes (rd : ℚ → ℚ) (p : Period) (now : ℚ) : ℕ := ⌊rd (rd (p.ts - now) / step rd p)⌋.toNat

/-- The intervals that were simulated, and whether the run stopped with an error after them. Belongs to `simulation.py` lines 588-598. -/
structure Outcome where
  done : List (ℚ × ℚ)
  failed : Bool
  deriving DecidableEq

/-- Put an interval before the others. Belongs to `simulation.py` lines 588-598. -/
def Outcome.cons (w : ℚ × ℚ) (o : Outcome) : Outcome := ⟨w :: o.done, o.failed⟩

/-- `simulation.py` lines 588-598, `k` rounds from round `i`.  `populate` raises an error when the start is after the end (`production/__init__.py` lines 816-817). -/
def rounds (rd : ℚ → ℚ) (p : Period) : ℕ → ℕ → Outcome
  | _, 0 => ⟨[], false⟩
  | i, k + 1 =>
    if begins rd p i < ends rd p i then ⟨[], true⟩
    else (rounds rd p (i + 1) k).cons (begins rd p i, ends rd p i)

/-- A run whose clock stands at `now`; `none` is the error for the time step. Belongs to `simulation.py` lines 528-648. -/
def run (rd : ℚ → ℚ) (p : Period) (now : ℚ) : Option Outcome :=
  if accepted rd p then some (rounds rd p (resumes rd p now) ((number rd p).toNat - resumes rd p now)) else none

/-- `simulation.py` line 633: the elapsed time after these intervals, each of which adds the time step. -/
def elapsed (rd : ℚ → ℚ) (p : Period) (n : ℕ) : ℚ := (List.replicate n (step rd p)).foldl (fun s t => rd (s + t)) 0

/-! ### Equal numbers of craters -/

/-- The number of craters at the start and at the end of a run, and the argument `ninterval`. Belongs to `simulation.py` lines 438-441. -/
structure Count where
  first : ℚ
  last : ℚ
  n : ℕ

/-- `simulation.py` lines 438-441: the number of craters of an interval. -/
def share (rd : ℚ → ℚ) (c : Count) : ℚ := rd (rd (c.first - c.last) / c.n)

/-- `simulation.py` lines 601-608: the number of craters at which interval `i` begins, and interval `i - 1` ends. -/
def countAt (rd : ℚ → ℚ) (c : Count) (i : ℕ) : ℚ := rd (c.first - rd (i * share rd c))

/-- `simulation.py` lines 588-613 with equal numbers of craters, `k` rounds from round `i`.  `populate` raises an error when a number is negative
(`production/__init__.py` lines 578-582, called in lines 715 and 736). -/
def countRounds (rd : ℚ → ℚ) (c : Count) : ℕ → ℕ → Outcome
  | _, 0 => ⟨[], false⟩
  | i, k + 1 =>
    if countAt rd c i < 0 ∨ countAt rd c (i + 1) < 0 then ⟨[], true⟩
    else (countRounds rd c (i + 1) k).cons (countAt rd c i, countAt rd c (i + 1))

/-- A new run with equal numbers of craters, `ninterval` being more than one. Belongs to `simulation.py` lines 528-648. -/
def runCount (rd : ℚ → ℚ) (c : Count) : Outcome := countRounds rd c 0 c.n

end Verif.Steps
