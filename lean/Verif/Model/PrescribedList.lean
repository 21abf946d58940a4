import Verif.Model.QuasiMC

/-!
# Changing the list of prescribed craters

`Production.quasimc_craters` (`cratermaker/components/production/__init__.py` lines 1305-1329) hands out its list itself, so that craters are
added with `append`; the next reading finds a crater without a time and processes the whole list again (lines 945-1246), also the readings
that `quasimc_merge` makes (lines 921-922).  Craters with sequence numbers are in `Verif.Sequence`; here none has one.
-/

namespace Verif.PrescribedList

open QuasiMC

/-- A crater of the list: its production metadata and its time, both of which may be missing; `tag` stands for the other attributes.
Belongs to `production/__init__.py` lines 1306-1320. -/
structure Listed where
  tag : ℕ
  diam : ℝ
  data : Option Metadata
  time : Option ℝ

/-- The list and the upper end of the size range, `production/__init__.py` lines 68 and 1332-1347. -/
structure State where
  list : List Listed
  hi : ℝ

/-- The craters with metadata, each with a newly drawn time: lines 1182-1216 and 1233-1238 of `production/__init__.py`; `z` has the normal number
drawn for each crater.  (`Crater.maker(crater=c, time=t)` keeps the metadata, `Verif.CraterCopy`.) -/
noncomputable def drawn (age : ℝ → ℝ) (z : ℕ → ℝ) (l : List Listed) : List Listed :=
  l.filterMap fun c => c.data.map fun d => { c with time := some (drawTime age (z c.tag) d) }

/-- Python's stable `list.sort(key=time, reverse=True)`, `production/__init__.py` line 1245; a missing time (which does not occur there) counts as 0. -/
noncomputable def sortOldest (l : List Listed) : List Listed :=
  open Classical in l.mergeSort fun a b => decide (b.time.getD 0 ≤ a.time.getD 0)

/-- `_process_quasimc_craters`, `production/__init__.py` lines 1182-1246, for craters without sequence numbers and a production function of craters: the
size range then ends at the smallest of its end and the diameters, lines 1235-1243. -/
noncomputable def process (age : ℝ → ℝ) (z : ℕ → ℝ) (l : List Listed) (hi : ℝ) : State :=
  ⟨sortOldest (drawn age z l), (drawn age z l).foldl (fun m c => min m c.diam) hi⟩

/-- Reading `quasimc_craters`, `production/__init__.py` lines 1312-1320. -/
noncomputable def read (age : ℝ → ℝ) (z : ℕ → ℝ) (s : State) : State :=
  if s.list.any (fun c => c.time.isNone) then process age z s.list s.hi else s

/-- The craters of the list that have a time, as the merge sees them, `production/__init__.py` line 922. -/
def timed (l : List Listed) : List Crater := l.filterMap fun c => c.time.map fun t => ⟨c.tag, c.diam, t⟩

/-- What happens to the list. Belongs to `production/__init__.py` lines 1306-1329. -/
inductive Event
  /-- `quasimc_craters.append(c)`: the list is read, then the crater is put at its end. -/
  | append (c : Listed) (z : ℕ → ℝ)
  /-- `quasimc_craters` is read. -/
  | look (z : ℕ → ℝ)
  /-- `quasimc_craters = l`, lines 1323-1329. -/
  | assign (l : List Listed) (z : ℕ → ℝ)
  /-- `quasimc_merge` for a window, lines 860-943. -/
  | round (ts te : ℝ) (craters : List Given) (drawn : List ℝ) (z z' : ℕ → ℝ)

/-- The state after an event, and the craters to be emplaced: `production/__init__.py` lines 905-943 and 1306-1329. -/
noncomputable def step (age : ℝ → ℝ) (s : State) : Event → State × List Crater
  | .append c z => ({ read age z s with list := (read age z s).list ++ [c] }, [])
  | .look z => (read age z s, [])
  | .assign l z => (if l.isEmpty then { s with list := [] } else process age z l s.hi, [])
  | .round ts te craters times z z' =>
    -- lines 921 and 922 both read the list
    (read age z' (read age z s), merge ts te craters times (timed (read age z' (read age z s)).list))

/-- All the craters to be emplaced in a history. Belongs to `production/__init__.py` lines 860-943. -/
noncomputable def history (age : ℝ → ℝ) : State → List Event → List Crater
  | _, [] => []
  | s, e :: es => (step age s e).2 ++ history age (step age s e).1 es

end Verif.PrescribedList
