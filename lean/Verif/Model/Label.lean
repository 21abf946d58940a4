import Mathlib.Data.Real.Basic
import Mathlib.Algebra.Order.Archimedean.Real.Basic
import Mathlib.Data.Int.Notation

/-!
Model of the labels of plots: `Simulation.labelmaker` (`cratermaker/core/simulation.py`, lines 942-1023) with the time variables of a saved
state from `get_time_variables` (`cratermaker/core/base.py`, lines 321-379).  A label is a list of pieces holding numbers; how a number is
printed and the pieces are joined is left out.
-/

namespace Verif.Label

/-- The time variables of a state, lines 1776-1783 of `simulation.py`, as far as labels use them; `none` is a missing variable. -/
structure Times where
  time : Option ℝ
  elapsed : Option ℝ
  n1 : Option ℝ

/-- No variables at all. Belongs to `base.py` lines 266-289. -/
def Times.none : Times := ⟨.none, .none, .none⟩

/-- The saved states by interval number, in increasing order. Belongs to `base.py` lines 266-289. -/
abbrev Saved := List (ℤ × Times)

/-- The state that is read for an interval number (`read_saved_output`, `base.py` lines 266-289): a negative number counts from the end. -/
def read (fs : Saved) (k : ℤ) : Option (ℤ × Times) :=
  if k < 0 then
    if (-k).toNat ≤ fs.length then fs[fs.length - (-k).toNat]? else .none
  else (fs.lookup k).map fun t => (k, t)

/-- `get_time_variables(interval=k)` as a dictionary, `base.py` lines 340-379 and `simulation.py` lines 979-982: the values are used if
the number asked for is the one stored with the state (line 346). -/
def savedTimes (fs : Saved) (k : ℤ) : Times :=
  match read fs k with
  | .none => Times.none
  | some (i, t) => if i = k then t else Times.none

/-- The parts of a simulation that a label depends on. Belongs to `simulation.py` lines 990-996. -/
structure Sim where
  interval : ℤ
  times : Times
  saved : Saved
  smallestCrater : ℝ
  csfd : ℝ → ℝ
  /-- `D_conversion_factor`: metres per unit of diameter -/
  dFactor : ℝ

/-- The options of `labelmaker`, `simulation.py` lines 944-949. -/
structure Options where
  interval : Option ℤ
  intervalLabel : Bool
  timeLabel : Bool
  ageLabel : Bool
  nLabel : Bool
  nDiam : Option ℝ

/-- A piece of a label. Belongs to `simulation.py` lines 975-1023. -/
inductive Piece
  | interval (k : ℤ)
  | time (t : ℝ)
  | age (t : ℝ)
  | count (diam n : ℝ)

/-- `_DSTD`, `constants.py` line 23. -/
def dStd : ℝ := 1000

/-- The diameter of the N(D) piece, `simulation.py` lines 990-996. -/
noncomputable def nDiam (s : Sim) (o : Options) : ℝ :=
  match o.nDiam with
  | some d => d
  | .none => if s.smallestCrater < 100 then 1 else if s.smallestCrater < 10000 then 20 else 64

/-- Which interval number is shown and where the values come from, `simulation.py` lines 975-982. -/
def source (s : Sim) (o : Options) : ℤ × Times :=
  match o.interval with
  | .none => (s.interval, s.times)
  | some k => (k, savedTimes s.saved k)

/-- An optional piece. Belongs to `simulation.py` lines 975-1023. -/
def piece (wanted : Bool) (x : Option ℝ) (f : ℝ → Piece) : List Piece :=
  match wanted, x with
  | true, some v => [f v]
  | _, _ => []

/-- `labelmaker`, `simulation.py` lines 975-1023. -/
noncomputable def labelmaker (s : Sim) (o : Options) : List Piece :=
  (if o.intervalLabel then [Piece.interval (source s o).1] else []) ++
    piece o.timeLabel (source s o).2.time Piece.time ++
    piece o.ageLabel (source s o).2.elapsed Piece.age ++
    piece o.nLabel (source s o).2.n1 fun n1 =>
      Piece.count (nDiam s o) (n1 * (s.csfd (nDiam s o * s.dFactor) / s.csfd dStd))

end Verif.Label
