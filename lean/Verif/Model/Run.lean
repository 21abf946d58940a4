import Verif.Model.RunArgs

/-!
Model of the main loop `Simulation.run` (`cratermaker/core/simulation.py:454-648`) together with the
order in which it writes to disk (`__setattr__` 286-297, `save` 867-884, `to_config` 1277-1321) and
of a process start that resumes an old run (`__init__` 108-129, 236-246).
-/

namespace Verif.Run

open RunArgs (Err)

/-- The simulation's clock: `_time`, `elapsed_time` and `elapsed_n1` (the getters return 0 for an
unset value, `simulation.py:1560-1613`), `interval`, `is_new`. -/
structure Clock where
  time : Option ℝ
  elapsed : ℝ
  n1 : ℝ
  interval : ℕ
  isNew : Bool

/-- What a run does, in order.  A window is the pair of arguments handed to `populate`: start and
end times in time mode, start and end numbers in number mode. Belongs to `simulation.py` lines 588-646. -/
inductive Event
  | populate (start stop : ℝ)
  | save (interval : ℕ) (time elapsed : ℝ)

/-- A resolved period, as returned by `_validate_run_args` after the adjustment of
`simulation.py:533-542`. -/
structure Spec where
  ts : ℝ
  te : ℝ
  ti : ℝ
  n : ℕ

/-- `elapsed_n1` gained over a window, `simulation.py:634-642`, and whether `populate` on a window
produced at least one crater (only then `emplace` clears `is_new`, `simulation.py:810-865`). -/
structure World where
  n1 : ℝ → ℝ → ℝ
  hits : ℝ → ℝ → Bool

/-- The start and end of window `i` in time mode, `simulation.py:591-594`. -/
noncomputable def windowStart (s : Spec) (i : ℕ) : ℝ := s.ts - i * s.ti
/-- See `windowStart`. Belongs to `simulation.py` lines 588-646. -/
noncomputable def windowEnd (s : Spec) (i : ℕ) : ℝ :=
  open Classical in
  if s.ts - (i + 1 : ℕ) * s.ti < s.te then s.te else s.ts - (i + 1 : ℕ) * s.ti

/-- One round of the loop in time mode, `simulation.py:588-646`. -/
noncomputable def stepTime (w : World) (s : Spec) (i : ℕ) (c : Clock) : Clock × List Event :=
  let a := windowStart s i
  let b := windowEnd s i
  let c' : Clock := ⟨some b, c.elapsed + s.ti, c.n1 + w.n1 a b, c.interval + 1,
    c.isNew && !w.hits a b⟩
  (c', [.populate a b, .save c'.interval b c'.elapsed])

/-- `for i in range(initial, n)`: `k` rounds from round `i`. Belongs to `simulation.py` lines 528-648. -/
noncomputable def loopTime (w : World) (s : Spec) : ℕ → ℕ → Clock → Clock × List Event
  | _, 0, c => (c, [])
  | i, k + 1, c =>
    let r := stepTime w s i c
    let r' := loopTime w s (i + 1) k r.1
    (r'.1, r.2 ++ r'.2)

/-- `simulation.py` lines 551-553: a fresh run takes its time from the request. -/
noncomputable def started (ts : ℝ) (c : Clock) : Clock :=
  match c.time with
  | some _ => c
  | none => { c with time := some ts, interval := 0 }

/-- `simulation.py` lines 580-581: the state saved before the loop if the simulation is new. -/
noncomputable def firstSave (c : Clock) : List Event :=
  if c.isNew then [.save c.interval (c.time.getD 0) c.elapsed] else []

/-- `int((time_start - self.time) / time_interval)`, `simulation.py:559`; the argument is not
negative here, so that truncation is the floor. -/
noncomputable def initialTime (s : Spec) (now : ℝ) : ℕ := ⌊(s.ts - now) / s.ti⌋₊

/-- `run` in time mode, `simulation.py:528-648`. -/
noncomputable def runTime (w : World) (s : Spec) (c : Clock) : Except Err (Clock × List Event) :=
  open Classical in
  let c := started s.ts c
  let now := c.time.getD 0
  if s.ts < now then .error .runtimeError
  else if s.ti = 0 then .error .zeroDivision
  else
    let i := initialTime s now
    let r := loopTime w s i (s.n - i) c
    .ok (r.1, firstSave c ++ r.2)

/-! ### Equal number steps -/

/-- A period in number mode: the number at the start, the step, the number of steps, and the age
that belongs to a number (`age_from_D_N` of the number divided by the surface area). Belongs to `simulation.py` lines 601-608. -/
structure NSpec where
  num : ℝ
  step : ℝ
  n : ℕ
  age : ℝ → ℝ

/-- `current_diameter_number[1]`, `simulation.py:601-608`. -/
noncomputable def numAt (s : NSpec) (i : ℕ) : ℝ := s.num - i * s.step

/-- The end time of a window in number mode, `simulation.py:619-632`. -/
noncomputable def endAge (s : NSpec) (i : ℕ) : ℝ :=
  open Classical in
  let t := if numAt s (i + 1) > 0 then s.age (numAt s (i + 1)) else 0
  if t < 0 then 0 else t

/-- One round of the loop in number mode, `simulation.py:588-646`. -/
noncomputable def stepNum (w : World) (s : NSpec) (i : ℕ) (c : Clock) : Clock × List Event :=
  let t := s.age (numAt s i)
  let b := endAge s i
  let c' : Clock := ⟨some b, c.elapsed + (t - b), c.n1 + w.n1 t b, c.interval + 1,
    c.isNew && !w.hits t b⟩
  (c', [.populate (numAt s i) (numAt s (i + 1)), .save c'.interval b c'.elapsed])

/-- The loop in number mode. Belongs to `simulation.py` lines 544-648. -/
noncomputable def loopNum (w : World) (s : NSpec) : ℕ → ℕ → Clock → Clock × List Event
  | _, 0, c => (c, [])
  | i, k + 1, c =>
    let r := stepNum w s i c
    let r' := loopNum w s (i + 1) k r.1
    (r'.1, r.2 ++ r'.2)

/-- `run` in number mode, `simulation.py:544-648`.  `f a b` is
`production.function(1000, time_start=a, time_end=b)` and `te` the validated end time. -/
noncomputable def runNum (w : World) (s : NSpec) (f : ℝ → ℝ → ℝ) (te : ℝ) (c : Clock) :
    Except Err (Clock × List Event) :=
  open Classical in
  let ts := s.age s.num
  let c := started ts c
  let now := c.time.getD 0
  if ts < now then .error .runtimeError
  else
    let n1int := f ts te / s.n
    if n1int = 0 then .error .zeroDivision
    else
      let i := ⌊f ts now / n1int⌋₊
      let r := loopNum w s i (s.n - i) c
      .ok (r.1, firstSave c ++ r.2)

/-! ### Several processes working on one directory -/

/-- What is on disk: the configuration file's `time` and `interval`, and the latest surface file,
given by the list of windows whose craters it contains. Belongs to `simulation.py` lines 126-129. -/
structure Disk where
  time : Option ℝ
  interval : ℕ
  surf : List (ℝ × ℝ)

/-- What a process holds: the clock, the surface, and `_config_readonly`. Belongs to `simulation.py` lines 236-246. -/
structure Proc where
  time : Option ℝ
  interval : ℕ
  surf : List (ℝ × ℝ)
  readonly : Bool

/-- A write to disk, in the order `run` performs them. Belongs to `simulation.py` lines 633-646. -/
inductive Write
  | cfgTime (t : ℝ)
  | cfgInterval (i : ℕ)
  | surface (s : List (ℝ × ℝ))

/-- Effect of one write. Belongs to `simulation.py` lines 633-646. -/
def Disk.apply (d : Disk) : Write → Disk
  | .cfgTime t => { d with time := some t }
  | .cfgInterval i => { d with interval := i }
  | .surface s => { d with surf := s }

/-- Effect of a sequence of writes. Belongs to `simulation.py` lines 633-646. -/
def Disk.applyAll (d : Disk) (ws : List Write) : Disk := ws.foldl Disk.apply d

/-- A new run, `simulation.py:236-246`: the reset has cleared the directory, the configuration is
writable. -/
def freshProc : Proc := ⟨none, 0, [], false⟩
/-- The directory after that reset. Belongs to `simulation.py` lines 126-129. -/
def freshDisk : Disk := ⟨none, 0, []⟩

/-- A process that resumes an old run, `simulation.py:126-129`: it reads the configuration and the
latest surface file, and `_config_readonly` is set and never cleared. -/
def resume (d : Disk) : Proc := ⟨d.time, d.interval, d.surf, true⟩

/-- The writes of one round of the loop, `simulation.py:633-646`: assigning `time` and `interval`
rewrites the configuration (`__setattr__`, `simulation.py:286-297`) unless it is read-only; then
`save` writes the surface and the configuration again (`simulation.py:877-882`).
`elapsed_time` and `elapsed_n1` are written the same way and are left out. -/
noncomputable def roundWrites (s : Spec) (i : ℕ) (p : Proc) : Proc × List Write :=
  let a := windowStart s i
  let b := windowEnd s i
  let surf := p.surf ++ [(a, b)]
  let cfg := if p.readonly then [] else [Write.cfgTime b, Write.cfgInterval (p.interval + 1)]
  (⟨some b, p.interval + 1, surf, p.readonly⟩, cfg ++ [.surface surf] ++ cfg)

/-- The loop as a sequence of writes. Belongs to `simulation.py` lines 633-646. -/
noncomputable def loopWrites (s : Spec) : ℕ → ℕ → Proc → Proc × List Write
  | _, 0, p => (p, [])
  | i, k + 1, p =>
    let r := roundWrites s i p
    let r' := loopWrites s (i + 1) k r.1
    (r'.1, r.2 ++ r'.2)

/-- The writes before the loop of a run that has no time yet, `simulation.py:551-553` and 580-581
(a simulation without time is new unless craters were emplaced by hand). -/
def startWrites (s : Spec) (p : Proc) : List Write :=
  if p.time.isSome || p.readonly then []
  else [.cfgTime s.ts, .cfgInterval 0, .surface p.surf]

/-- The writes of the first `rounds` rounds of `run` executed by a process, starting at the window
the code computes from the process's time. Belongs to `simulation.py` lines 551-553. -/
noncomputable def sessionWrites (s : Spec) (rounds : ℕ) (p : Proc) : Proc × List Write :=
  let now := p.time.getD s.ts
  let i := initialTime s now
  let r := loopWrites s i (min rounds (s.n - i)) p
  (r.1, startWrites s p ++ r.2)

end Verif.Run
