import Mathlib.Data.Real.Basic
import Mathlib.Algebra.Order.Archimedean.Real.Basic

/-!
Model of the quasi-Monte Carlo merge, `cratermaker/components/production/__init__.py:860-943`, and
of the time drawn for a prescribed crater without sequence number, 960-1029.
-/

namespace Verif.QuasiMC

/-- A crater with a formation time: the only fields the merge looks at, and a tag standing for all
the others. Belongs to `production/__init__.py` line 909. -/
structure Crater where
  tag : ℕ
  diam : ℝ
  time : ℝ

/-- A crater handed to the merge; `time` may be unset (`Crater.time is None`). Belongs to `production/__init__.py` line 909. -/
structure Given where
  tag : ℕ
  diam : ℝ
  time : Option ℝ

/-- `c.time <= time_start and c.time > time_end`, `production/__init__.py` lines 909 and 922. -/
def inWindow (ts te : ℝ) (t : ℝ) : Prop := t ≤ ts ∧ te < t

noncomputable instance (ts te t : ℝ) : Decidable (inWindow ts te t) := Classical.propDecidable _

/-- The timed craters inside the window, `production/__init__.py` line 909. -/
noncomputable def timedIn (ts te : ℝ) : List Given → List Crater
  | [] => []
  | g :: gs =>
    match g.time with
    | some t => if inWindow ts te t then ⟨g.tag, g.diam, t⟩ :: timedIn ts te gs else timedIn ts te gs
    | none => timedIn ts te gs

/-- The craters without a time, `production/__init__.py` line 910. -/
def untimed : List Given → List Given
  | [] => []
  | g :: gs =>
    match g.time with
    | some _ => untimed gs
    | none => g :: untimed gs

/-- `Crater.maker(c, time=t)` for each untimed crater and drawn time, `production/__init__.py` lines 916-917. -/
def giveTimes : List Given → List ℝ → List Crater
  | g :: gs, t :: ts => ⟨g.tag, g.diam, t⟩ :: giveTimes gs ts
  | _, _ => []

/-- Python's stable `list.sort(key=diameter)`, `production/__init__.py` lines 919 and 923. -/
noncomputable def sortByDiam (l : List Crater) : List Crater :=
  open Classical in l.mergeSort (fun a b => decide (a.diam ≤ b.diam))

/-- Python's stable `list.sort(key=time, reverse=True)`, `production/__init__.py` line 942. -/
noncomputable def sortByTime (l : List Crater) : List Crater :=
  open Classical in l.mergeSort (fun a b => decide (b.time ≤ a.time))

/-- `rnglist`, `production/__init__.py` lines 907-919; `drawn` is the result of `compute_time`. -/
noncomputable def rngList (ts te : ℝ) (craters : List Given) (drawn : List ℝ) : List Crater :=
  sortByDiam (timedIn ts te craters ++ giveTimes (untimed craters) drawn)

/-- `qmclist`, `production/__init__.py` lines 921-923.  (`quasimc_craters` is never `None`: its setter, 1322-1329, stores an
empty list instead, so the branch 924-925 is not modelled.) -/
noncomputable def qmcList (ts te : ℝ) (prescribed : List Crater) : List Crater :=
  open Classical in sortByDiam (prescribed.filter (fun c => inWindow ts te c.time))

/-- The walk over both lists, `production/__init__.py` lines 927-941. -/
noncomputable def walk : List Crater → List Crater → List Crater
  | [], qs => qs
  | c :: cs, [] => c :: walk cs []
  | c :: cs, q :: qs =>
    open Classical in
    if c.diam < q.diam then c :: walk cs (q :: qs) else q :: walk cs qs

/-- `quasimc_merge` after validation of the arguments, `production/__init__.py` lines 905-943. -/
noncomputable def merge (ts te : ℝ) (craters : List Given) (drawn : List ℝ)
    (prescribed : List Crater) : List Crater :=
  sortByTime (walk (rngList ts te craters drawn) (qmcList ts te prescribed))

/-- The production metadata of a prescribed crater without sequence number: an N(D) value already
converted to the number per m² at the standard diameter, with its uncertainty (`production/__init__.py` lines 998-1005), or
a time with its uncertainty. -/
inductive Metadata
  | number (mean sig : ℝ)
  | time (mean sig : ℝ)

/-- `_draw_quasimc_time` without sequence extents, `production/__init__.py` lines 996-1027; `z` is the standard normal
draw and `age` is `age_from_D_N` at the standard diameter.  Line 1026 computes `max(t, 0.0)` and
discards it. -/
noncomputable def drawTime (age : ℝ → ℝ) (z : ℝ) : Metadata → ℝ
  | .number mean sig =>
    open Classical in
    let n := if sig > 0 then mean + sig * z else mean
    age (max 0 n)
  | .time mean sig =>
    open Classical in
    if sig > 0 then mean + sig * z else mean

end Verif.QuasiMC
