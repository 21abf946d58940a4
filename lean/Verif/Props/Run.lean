import Verif.Model.Run
import Verif.Props.RunArgs
import Mathlib.Tactic.Linarith
import Mathlib.Tactic.NormNum
import Mathlib.Tactic.Ring

/-! Properties C08, C09, C10: the main loop. -/

namespace Verif.Run

open RunArgs (Err)

/-! ### Specification -/

/-- The windows populated, in order. -/
def windows : List Event → List (ℝ × ℝ)
  | [] => []
  | .populate a b :: es => (a, b) :: windows es
  | .save _ _ _ :: es => windows es

/-- The interval numbers saved, in order. -/
def savedIntervals : List Event → List ℕ
  | [] => []
  | .populate _ _ :: es => savedIntervals es
  | .save i _ _ :: es => i :: savedIntervals es

/-- Which events are saves. -/
def isSave : Event → Bool
  | .save _ _ _ => true
  | _ => false

/-- The windows go from `a` down to `b` without gap or overlap. -/
def Tiles : List (ℝ × ℝ) → ℝ → ℝ → Prop
  | [], a, b => a = b
  | (x, y) :: r, a, b => x = a ∧ y < x ∧ Tiles r y b

/-- A period in equal time steps as validation returns it. -/
structure Good (s : Spec) : Prop where
  pos : 0 < s.ti
  count : 1 ≤ s.n
  inner : ((s.n : ℝ) - 1) * s.ti < s.ts - s.te
  cover : s.ts - s.te ≤ s.n * s.ti

/-- Validation produces such periods: in time mode always, and for a single interval, which `run`
turns into one time step (`simulation.py:540-542`), unless the period is empty. -/
theorem good_of_wellFormed (r : RunArgs.Res) (h : RunArgs.WellFormed r) :
    (∀ ti, r.ti = some ti → Good ⟨r.ts, r.te, ti, r.n.toNat⟩) ∧
    (r.n = 1 → r.te < r.ts → Good ⟨r.ts, r.te, r.ts - r.te, r.n.toNat⟩) := by
  constructor
  · intro ti hti
    obtain ⟨h1, h2, h3⟩ := h.covers ti hti
    have hn : ((r.n.toNat : ℕ) : ℝ) = (r.n : ℝ) := by
      have := h.count_pos
      have h4 : ((r.n.toNat : ℕ) : ℤ) = r.n := Int.toNat_of_nonneg (by omega)
      exact_mod_cast h4
    refine ⟨h1, ?_, ?_, ?_⟩
    · have := h.count_pos; simp only; omega
    · simpa only [hn] using h2
    · simpa only [hn] using h3
  · intro hn hlt
    refine ⟨by simp only; linarith, by simp [hn], by simp [hn]; linarith, by simp [hn]⟩

/-! ### The loop in time mode -/

/-- The window with number `i`. -/
noncomputable def win (s : Spec) (i : ℕ) : ℝ × ℝ := (windowStart s i, windowEnd s i)

theorem windows_append (a b : List Event) : windows (a ++ b) = windows a ++ windows b := by
  induction a with
  | nil => rfl
  | cons e es ih => cases e <;> simp [windows, ih]

theorem savedIntervals_append (a b : List Event) :
    savedIntervals (a ++ b) = savedIntervals a ++ savedIntervals b := by
  induction a with
  | nil => rfl
  | cons e es ih => cases e <;> simp [savedIntervals, ih]

theorem windowEnd_inner {s : Spec} (g : Good s) {i : ℕ} (h : i + 1 < s.n) :
    windowEnd s i = windowStart s (i + 1) := by
  have h1 : ((i + 1 : ℕ) : ℝ) ≤ s.n - 1 := by
    have : i + 1 + 1 ≤ s.n := h
    have : ((i + 1 + 1 : ℕ) : ℝ) ≤ s.n := by exact_mod_cast this
    push_cast at this ⊢; linarith
  have h2 : ((i + 1 : ℕ) : ℝ) * s.ti ≤ (s.n - 1) * s.ti := mul_le_mul_of_nonneg_right h1 g.pos.le
  unfold windowEnd windowStart
  rw [if_neg]
  have := g.inner
  linarith

theorem windowEnd_last {s : Spec} (g : Good s) {i : ℕ} (h : i + 1 = s.n) :
    windowEnd s i = s.te := by
  have hc := g.cover
  unfold windowEnd
  rw [h]
  split_ifs with h1
  · rfl
  · linarith

theorem windowEnd_lt {s : Spec} (g : Good s) {i : ℕ} (h : i < s.n) :
    windowEnd s i < windowStart s i := by
  have hp := g.pos
  rcases Nat.lt_or_ge (i + 1) s.n with h1 | h1
  · rw [windowEnd_inner g h1]
    unfold windowStart
    push_cast
    linarith
  · have h2 : i + 1 = s.n := by omega
    rw [windowEnd_last g h2]
    unfold windowStart
    have := g.inner
    rw [← h2] at this
    push_cast at this
    linarith

theorem loop_windows (w : World) (s : Spec) (i k : ℕ) (c : Clock) :
    windows (loopTime w s i k c).2 = (List.range' i k).map (win s) := by
  induction k generalizing i c with
  | zero => rfl
  | succ k ih =>
    simp only [loopTime, windows_append, ih, List.range'_succ, List.map_cons]
    simp [stepTime, windows, win]

theorem loop_saved (w : World) (s : Spec) (i k : ℕ) (c : Clock) :
    savedIntervals (loopTime w s i k c).2 = List.range' (c.interval + 1) k := by
  induction k generalizing i c with
  | zero => rfl
  | succ k ih =>
    simp only [loopTime, savedIntervals_append, ih, List.range'_succ]
    simp [stepTime, savedIntervals]

theorem loop_kinds (w : World) (s : Spec) (i k : ℕ) (c : Clock) :
    (loopTime w s i k c).2.map isSave = (List.replicate k [false, true]).flatten := by
  induction k generalizing i c with
  | zero => rfl
  | succ k ih =>
    simp only [loopTime, List.map_append, ih, List.replicate_succ, List.flatten_cons]
    rfl

theorem loop_append (w : World) (s : Spec) (i k m : ℕ) (c : Clock) :
    loopTime w s i (k + m) c =
      ((loopTime w s (i + k) m (loopTime w s i k c).1).1,
        (loopTime w s i k c).2 ++ (loopTime w s (i + k) m (loopTime w s i k c).1).2) := by
  induction k generalizing i c with
  | zero => simp [loopTime]
  | succ k ih =>
    rw [show k + 1 + m = (k + m) + 1 by omega]
    simp only [loopTime, ih]
    rw [show i + 1 + k = i + (k + 1) by omega]
    simp

theorem tiles_range (s : Spec) (g : Good s) (i k : ℕ) (h : i + (k + 1) = s.n) :
    Tiles ((List.range' i (k + 1)).map (win s)) (windowStart s i) s.te := by
  induction k generalizing i with
  | zero =>
    exact ⟨rfl, windowEnd_lt g (by omega), windowEnd_last g (by omega)⟩
  | succ k ih =>
    rw [List.range'_succ, List.map_cons]
    refine ⟨rfl, windowEnd_lt g (by omega), ?_⟩
    rw [windowEnd_inner g (by omega)]
    exact ih (i + 1) (by omega)

theorem initial_zero (s : Spec) : initialTime s s.ts = 0 := by simp [initialTime]

theorem run_at (w : World) (s : Spec) (g : Good s) (c : Clock) (t : ℝ) (hc : c.time = some t)
    (hle : t ≤ s.ts) :
    runTime w s c = .ok ((loopTime w s (initialTime s t) (s.n - initialTime s t) c).1,
      firstSave c ++ (loopTime w s (initialTime s t) (s.n - initialTime s t) c).2) := by
  have hst : started s.ts c = c := by simp [started, hc]
  simp only [runTime, hst, hc, Option.getD_some]
  rw [if_neg (not_lt.mpr hle), if_neg g.pos.ne']

theorem run_fresh (w : World) (s : Spec) (g : Good s) (c : Clock) (ht : c.time = none) :
    runTime w s c = .ok ((loopTime w s 0 s.n { c with time := some s.ts, interval := 0 }).1,
      firstSave { c with time := some s.ts, interval := 0 } ++
        (loopTime w s 0 s.n { c with time := some s.ts, interval := 0 }).2) := by
  have h := run_at w s g { c with time := some s.ts, interval := 0 } s.ts rfl (le_refl _)
  rw [initial_zero] at h
  have : runTime w s c = runTime w s { c with time := some s.ts, interval := 0 } := by
    simp [runTime, started, ht]
  rw [this, h]; simp

/-- A fresh run in time mode: the windows populated tile the period from `ts` down to `te`, there
are `n` of them, the states saved have the interval numbers `0, 1, …, n`, and saving and populating
alternate, beginning and ending with a save. -/
theorem C08_fresh_run (w : World) (s : Spec) (g : Good s) (c : Clock) (ht : c.time = none)
    (hn : c.isNew = true) :
    ∃ c' evs, runTime w s c = .ok (c', evs) ∧ Tiles (windows evs) s.ts s.te ∧
      (windows evs).length = s.n ∧ savedIntervals evs = List.range (s.n + 1) ∧
      evs.map isSave = true :: (List.replicate s.n [false, true]).flatten ∧
      c'.time = some s.te ∧ c'.interval = s.n := by
  obtain ⟨k, hk⟩ : ∃ k, s.n = k + 1 := ⟨s.n - 1, by have := g.count; omega⟩
  set c0 : Clock := { c with time := some s.ts, interval := 0 } with hc0
  have hrun := run_fresh w s g c ht
  rw [← hc0] at hrun
  refine ⟨_, _, hrun, ?_, ?_, ?_, ?_, ?_, ?_⟩
  · rw [windows_append, loop_windows]
    have : windows (firstSave c0) = [] := by simp [firstSave, c0, hn, windows]
    rw [this, List.nil_append, hk]
    have := tiles_range s g 0 k (by omega)
    simpa [windowStart] using this
  · rw [windows_append, loop_windows]
    simp [firstSave, c0, hn, windows]
  · rw [savedIntervals_append, loop_saved]
    simp only [firstSave, c0, hn, if_true, savedIntervals, List.singleton_append]
    rw [List.range_eq_range', List.range'_succ]
  · rw [List.map_append, loop_kinds]
    simp [firstSave, c0, hn, isSave]
  · rw [hk, show k + 1 = k + 1 from rfl, loop_append]
    simp only [loopTime, stepTime]
    rw [windowEnd_last g (by omega)]
  · have : ∀ i k c, (loopTime w s i k c).1.interval = c.interval + k := by
      intro i k
      induction k generalizing i with
      | zero => intro c; rfl
      | succ k ih => intro c; simp only [loopTime, ih]; simp [stepTime]; omega
    simp [this, c0]

/-- A run whose single interval is empty (`time_start = time_end`, which validation accepts) ends
with a division by zero. -/
theorem C08_empty_period (w : World) (t : ℝ) (n : ℕ) (c : Clock) (hc : c.time = none) :
    runTime w ⟨t, t, t - t, n⟩ c = .error .zeroDivision := by
  simp [runTime, started, hc]

/-! ### C09: elapsed time -/

theorem loop_saves (w : World) (s : Spec) (i k : ℕ) (c : Clock) (j : ℕ) (t e : ℝ)
    (h : Event.save j t e ∈ (loopTime w s i k c).2) :
    ∃ m, m < k ∧ j = c.interval + m + 1 ∧ t = windowEnd s (i + m) ∧
      e = c.elapsed + (m + 1 : ℕ) * s.ti := by
  induction k generalizing i c with
  | zero => simp [loopTime] at h
  | succ k ih =>
    simp only [loopTime, List.mem_append] at h
    rcases h with h | h
    · simp only [stepTime, List.mem_cons, reduceCtorEq, Event.save.injEq, false_or,
        List.not_mem_nil, or_false] at h
      obtain ⟨rfl, rfl, rfl⟩ := h
      exact ⟨0, by omega, by omega, rfl, by simp⟩
    · obtain ⟨m, hm, hj, ht, he⟩ := ih _ _ h
      refine ⟨m + 1, by omega, ?_, ?_, ?_⟩
      · simp [stepTime] at hj; omega
      · rw [ht]; congr 1; omega
      · rw [he]; simp only [stepTime]; push_cast; ring

/-- In a fresh run every saved state except the last one has elapsed time `ts - time`, and the
last one too if the step divides the period; otherwise its elapsed time is too large, by less than
one step.  Missing from the full statement: the last state, see `C09_last_state_fails`. -/
theorem C09_elapsed_partial (w : World) (s : Spec) (g : Good s) (c c' : Clock) (evs : List Event)
    (ht : c.time = none) (h0 : c.elapsed = 0) (hr : runTime w s c = .ok (c', evs))
    (j : ℕ) (t e : ℝ) (h : Event.save j t e ∈ evs) :
    (j < s.n → e = s.ts - t) ∧
    (j = s.n → t = s.te ∧ e = s.n * s.ti ∧ s.ts - t ≤ e ∧ e < s.ts - t + s.ti) ∧
    (s.n * s.ti = s.ts - s.te → e = s.ts - t) := by
  set c0 : Clock := { c with time := some s.ts, interval := 0 } with hc0
  have hrun := run_fresh w s g c ht
  rw [← hc0] at hrun
  rw [hrun] at hr
  simp only [Except.ok.injEq, Prod.mk.injEq] at hr
  rw [← hr.2, List.mem_append] at h
  have hn := g.count
  rcases h with h | h
  · have : j = 0 ∧ t = s.ts ∧ e = 0 := by
      unfold firstSave at h
      split_ifs at h
      · simp only [List.mem_singleton, Event.save.injEq] at h
        obtain ⟨rfl, rfl, rfl⟩ := h
        exact ⟨rfl, rfl, h0⟩
      · simp at h
    obtain ⟨rfl, rfl, rfl⟩ := this
    refine ⟨by intro; ring, by intro; omega, by intro; ring⟩
  · obtain ⟨m, hm, hj, hte, he⟩ := loop_saves w s 0 s.n c0 j t e h
    simp only [hc0, h0, zero_add] at hj he hte
    have hcov := g.cover
    have hin := g.inner
    refine ⟨?_, ?_, ?_⟩
    · intro hlt
      rw [hte, windowEnd_inner g (by omega), he]
      unfold windowStart
      ring
    · intro hjn
      have hmn : m + 1 = s.n := by omega
      rw [hte, windowEnd_last g hmn, he, hmn]
      refine ⟨rfl, rfl, hcov, ?_⟩
      linarith
    · intro hex
      by_cases hmn : m + 1 = s.n
      · rw [hte, windowEnd_last g hmn, he, hmn, hex]
      · rw [hte, windowEnd_inner g (by omega), he]
        unfold windowStart
        ring

/-- The full statement is false: running 10 My in steps of 3 My ends with an elapsed time of
12 My. -/
theorem C09_last_state_fails (w : World) :
    ∃ (s : Spec) (c c' : Clock) (evs : List Event), Good s ∧ runTime w s c = .ok (c', evs) ∧
      Event.save 4 0 12 ∈ evs ∧ s.ts - 0 ≠ (12 : ℝ) := by
  have g : Good ⟨10, 0, 3, 4⟩ := ⟨by norm_num, by norm_num, by norm_num, by norm_num⟩
  refine ⟨⟨10, 0, 3, 4⟩, ⟨none, 0, 0, 0, true⟩, _, _, g,
    run_fresh w ⟨10, 0, 3, 4⟩ g ⟨none, 0, 0, 0, true⟩ rfl, ?_, by norm_num⟩
  rw [List.mem_append]; right
  simp only [loopTime, stepTime]
  rw [windowEnd_last (i := 3) g rfl]
  norm_num

/-! ### C10: resuming -/

theorem loop_time (w : World) (s : Spec) (i k : ℕ) (c : Clock) :
    (loopTime w s i (k + 1) c).1.time = some (windowEnd s (i + k)) := by
  rw [loop_append]; rfl

theorem initial_at (s : Spec) (g : Good s) (k : ℕ) (hk : k < s.n ∨ s.n * s.ti = s.ts - s.te)
    (hkn : k ≤ s.n) (w : World) (c : Clock) (hc : c.time = some s.ts) :
    ∃ t, (loopTime w s 0 k c).1.time = some t ∧ t ≤ s.ts ∧ initialTime s t = k := by
  have hp := g.pos
  have key : initialTime s (windowStart s k) = k := by
    unfold initialTime windowStart
    rw [sub_sub_cancel, mul_div_assoc, div_self hp.ne', mul_one, Nat.floor_natCast]
  have hle : windowStart s k ≤ s.ts := by
    unfold windowStart
    have : (0 : ℝ) ≤ (k : ℝ) * s.ti := by positivity
    linarith
  cases k with
  | zero => exact ⟨s.ts, hc, le_refl _, by simp [initialTime]⟩
  | succ k =>
    have hw : windowEnd s (0 + k) = windowStart s (k + 1) := by
      rw [Nat.zero_add]
      by_cases h1 : k + 1 < s.n
      · exact windowEnd_inner g h1
      · have h2 : k + 1 = s.n := by omega
        rcases hk with h | h
        · omega
        · rw [windowEnd_last g h2]; unfold windowStart; rw [h2]; linarith
    exact ⟨_, by rw [loop_time, hw], hle, key⟩

/-- A run stopped after `k` of its `n` intervals and called again with the same arguments does
exactly the remaining ones: the windows of the two calls together are those of the uninterrupted
run, and the final clock (time, elapsed time, counters, interval) is the same.
Holds for `k < n`, and for `k = n` if the step divides the period.  Missing from the full
statement: repeating a finished run whose last window is shorter, see
`C10_repeats_last_window_fails`; several processes, see `C10_second_resume_fails`. -/
theorem C10_resume_partial (w : World) (s : Spec) (g : Good s) (c : Clock)
    (hc : c.time = some s.ts) (k : ℕ) (hkn : k ≤ s.n)
    (hk : k < s.n ∨ s.n * s.ti = s.ts - s.te) :
    ∃ c' evs, runTime w s (loopTime w s 0 k c).1 = .ok (c', evs) ∧
      c' = (loopTime w s 0 s.n c).1 ∧
      windows (loopTime w s 0 k c).2 ++ windows evs = windows (loopTime w s 0 s.n c).2 := by
  obtain ⟨t, ht, hle, hi⟩ := initial_at s g k hk hkn w c hc
  have hst : started s.ts (loopTime w s 0 k c).1 = (loopTime w s 0 k c).1 := by
    simp [started, ht]
  have hsplit := loop_append w s 0 k (s.n - k) c
  rw [Nat.add_sub_cancel' hkn, Nat.zero_add] at hsplit
  refine ⟨(loopTime w s k (s.n - k) (loopTime w s 0 k c).1).1,
    firstSave (loopTime w s 0 k c).1 ++ (loopTime w s k (s.n - k) (loopTime w s 0 k c).1).2,
    ?_, ?_, ?_⟩
  · simp only [runTime, hst, ht, Option.getD_some, hi]
    rw [if_neg (not_lt.mpr hle), if_neg g.pos.ne']
  · rw [hsplit]
  · rw [hsplit]
    have : windows (firstSave (loopTime w s 0 k c).1) = [] := by
      unfold firstSave; split_ifs <;> rfl
    simp [windows_append, this]

/-- Calling `run` again after it has finished repeats the last window whenever the step does not
divide the period: those craters are emplaced twice. -/
theorem C10_repeats_last_window_fails (w : World) (s : Spec) (g : Good s)
    (hdiv : s.n * s.ti ≠ s.ts - s.te) (c : Clock) (hc : c.time = some s.te) :
    ∃ c' evs, runTime w s c = .ok (c', evs) ∧
      windows evs = [(windowStart s (s.n - 1), s.te)] := by
  have hp := g.pos
  have hn := g.count
  have hte : s.te ≤ s.ts := by
    have h1 : (0 : ℝ) ≤ ((s.n : ℝ) - 1) * s.ti := by
      have : (1 : ℝ) ≤ s.n := by exact_mod_cast hn
      exact mul_nonneg (by linarith) hp.le
    have := g.inner; linarith
  have hi : initialTime s s.te = s.n - 1 := by
    unfold initialTime
    rw [Nat.floor_eq_iff (div_nonneg (by linarith) hp.le)]
    have hcast : ((s.n - 1 : ℕ) : ℝ) = (s.n : ℝ) - 1 := by
      rw [Nat.cast_sub hn]; simp
    rw [hcast]
    constructor
    · rw [le_div_iff₀ hp]; exact g.inner.le
    · rw [div_lt_iff₀ hp]
      have := lt_of_le_of_ne g.cover (Ne.symm hdiv)
      linarith
  have hr := run_at w s g c s.te hc hte
  rw [hi] at hr
  refine ⟨_, _, hr, ?_⟩
  have : windows (firstSave c) = [] := by unfold firstSave; split_ifs <;> rfl
  rw [windows_append, this, loop_windows]
  rw [show s.n - (s.n - 1) = 1 by omega]
  simp only [List.range'_one, List.map_cons, List.map_nil, List.nil_append, win]
  rw [windowEnd_last g (by omega)]

/-! ### C10 across processes -/

theorem applyAll_append (d : Disk) (a b : List Write) :
    d.applyAll (a ++ b) = (d.applyAll a).applyAll b := List.foldl_append ..

/-- What a process's rounds leave on disk: the surface always, the clock only if the
configuration is writable. -/
theorem loopWrites_disk (s : Spec) (i k : ℕ) (p : Proc) (d : Disk) (hd : d.surf = p.surf) :
    (d.applyAll (loopWrites s i k p).2).surf = p.surf ++ (List.range' i k).map (win s) ∧
    (p.readonly = true → (d.applyAll (loopWrites s i k p).2).time = d.time) ∧
    (p.readonly = false → ∀ m, k = m + 1 →
      (d.applyAll (loopWrites s i k p).2).time = some (windowEnd s (i + m))) := by
  induction k generalizing i p d with
  | zero => simp [loopWrites, Disk.applyAll, hd]
  | succ k ih =>
    simp only [loopWrites, applyAll_append]
    set p' := (roundWrites s i p).1 with hp'
    set d' := d.applyAll (roundWrites s i p).2 with hd'
    have hs : d'.surf = p'.surf := by
      cases hro : p.readonly <;>
        simp [hd', hp', roundWrites, hro, Disk.applyAll, Disk.apply]
    have hps : p'.surf = p.surf ++ [win s i] := by simp [hp', roundWrites, win]
    have hpr : p'.readonly = p.readonly := by simp [hp', roundWrites]
    have hdt : p.readonly = true → d'.time = d.time := by
      intro hro; simp [hd', roundWrites, hro, Disk.applyAll, Disk.apply]
    have hdt' : p.readonly = false → d'.time = some (windowEnd s i) := by
      intro hro; simp [hd', roundWrites, hro, Disk.applyAll, Disk.apply]
    obtain ⟨h1, h2, h3⟩ := ih (i + 1) p' d' hs
    refine ⟨?_, ?_, ?_⟩
    · rw [h1, hps, List.range'_succ]; simp
    · intro hro; rw [h2 (hpr.trans hro), hdt hro]
    · intro hro m hm
      have hmk : m = k := by omega
      subst hmk
      cases m with
      | zero => simpa [loopWrites, Disk.applyAll] using hdt' hro
      | succ m =>
        rw [h3 (hpr.trans hro) m rfl]
        rw [show i + 1 + m = i + (m + 1) by omega]

theorem initial_window (s : Spec) (g : Good s) (k : ℕ) (hk : k + 1 < s.n) :
    initialTime s (windowEnd s k) = k + 1 := by
  rw [windowEnd_inner g hk]
  unfold initialTime windowStart
  rw [sub_sub_cancel, mul_div_assoc, div_self g.pos.ne', mul_one, Nat.floor_natCast]

/-- The directory after a new run was stopped between rounds, having finished `j` of them. -/
noncomputable def afterFirst (s : Spec) (j : ℕ) : Disk :=
  freshDisk.applyAll (sessionWrites s j freshProc).2

/-- The directory after another process has resumed from a directory and finished `m` more. -/
noncomputable def afterResume (s : Spec) (m : ℕ) (d : Disk) : Disk :=
  d.applyAll (sessionWrites s m (resume d)).2

theorem afterFirst_spec (s : Spec) (j : ℕ) (h : j + 1 < s.n) :
    (afterFirst s (j + 1)).surf = (List.range' 0 (j + 1)).map (win s) ∧
    (afterFirst s (j + 1)).time = some (windowEnd s j) := by
  unfold afterFirst sessionWrites
  simp only [freshProc, Option.getD_none, initial_zero, applyAll_append]
  rw [show min (j + 1) (s.n - 0) = j + 1 by omega]
  set d := freshDisk.applyAll (startWrites s ⟨none, 0, [], false⟩) with hd
  have hds : d.surf = [] := by simp [hd, startWrites, Disk.applyAll, Disk.apply]
  obtain ⟨h1, _, h3⟩ := loopWrites_disk s 0 (j + 1) ⟨none, 0, [], false⟩ d hds
  refine ⟨by rw [h1]; simp, ?_⟩
  have := h3 rfl j rfl
  rwa [Nat.zero_add] at this

theorem afterResume_spec (s : Spec) (g : Good s) (j m : ℕ) (d : Disk)
    (hj : j + 1 < s.n) (hm : j + 1 + m ≤ s.n) (ht : d.time = some (windowEnd s j)) :
    (afterResume s m d).surf = d.surf ++ (List.range' (j + 1) m).map (win s) ∧
    (afterResume s m d).time = d.time := by
  unfold afterResume sessionWrites
  simp only [resume, ht, Option.getD_some, initial_window s g j hj, applyAll_append]
  rw [show min m (s.n - (j + 1)) = m by omega]
  have hst : startWrites s ⟨some (windowEnd s j), d.interval, d.surf, true⟩ = [] := by
    simp [startWrites]
  rw [hst]
  obtain ⟨h1, h2, _⟩ := loopWrites_disk s (j + 1) m
    ⟨some (windowEnd s j), d.interval, d.surf, true⟩ (d.applyAll []) rfl
  exact ⟨h1, by rw [h2 rfl]; simpa [Disk.applyAll] using ht⟩

/-- One interruption between rounds is harmless: a second process that finishes the run leaves a
surface whose windows tile the whole period. -/
theorem C10_one_resume (s : Spec) (g : Good s) (j : ℕ) (hj : j + 1 < s.n) :
    Tiles (afterResume s (s.n - (j + 1)) (afterFirst s (j + 1))).surf s.ts s.te := by
  obtain ⟨h1, h2⟩ := afterFirst_spec s j hj
  obtain ⟨h3, _⟩ := afterResume_spec s g j (s.n - (j + 1)) _ hj (by omega) h2
  have hcat : List.range' 0 (j + 1) ++ List.range' (j + 1) (s.n - (j + 1)) =
      List.range' 0 (j + 1 + (s.n - (j + 1))) := by
    have := List.range'_append_1 (s := 0) (m := j + 1) (n := s.n - (j + 1))
    rwa [Nat.zero_add] at this
  rw [h3, h1, ← List.map_append, hcat]
  obtain ⟨k, hk⟩ : ∃ k, s.n = k + 1 := ⟨s.n - 1, by omega⟩
  have := tiles_range s g 0 k (by omega)
  rw [show j + 1 + (s.n - (j + 1)) = k + 1 by omega]
  simpa [windowStart] using this

/-- A second interruption is not: a resumed process never updates the configuration, so a third
process starts where the second one did, on a surface that already has the second one's craters,
and emplaces them again. -/
theorem C10_second_resume_fails (s : Spec) (g : Good s) (j m r : ℕ) (hj : j + 1 < s.n)
    (hm : j + 1 + m ≤ s.n) (hr : j + 1 + r ≤ s.n) :
    (afterResume s r (afterResume s m (afterFirst s (j + 1)))).surf =
      (List.range' 0 (j + 1) ++ List.range' (j + 1) m ++ List.range' (j + 1) r).map (win s) := by
  obtain ⟨h1, h2⟩ := afterFirst_spec s j hj
  obtain ⟨h3, h4⟩ := afterResume_spec s g j m _ hj hm h2
  obtain ⟨h5, _⟩ := afterResume_spec s g j r _ hj hr (h4.trans h2)
  rw [h5, h3, h1]; simp

/-- Hence, after two interruptions, a completed run has emplaced at least one window twice. -/
theorem C10_second_resume_duplicates (s : Spec) (g : Good s) (j m : ℕ) (hj : j + 1 < s.n)
    (hm : j + 1 + (m + 1) ≤ s.n) :
    ¬ (afterResume s (s.n - (j + 1)) (afterResume s (m + 1) (afterFirst s (j + 1)))).surf.Nodup := by
  rw [C10_second_resume_fails s g j (m + 1) (s.n - (j + 1)) hj hm (by omega)]
  obtain ⟨k, hk⟩ : ∃ k, s.n - (j + 1) = k + 1 := ⟨s.n - (j + 1) - 1, by omega⟩
  rw [hk, List.map_append, List.nodup_append]
  rintro ⟨_, _, h⟩
  exact h (win s (j + 1)) (by simp [List.range'_succ]) (win s (j + 1)) (by simp [List.range'_succ])
    rfl

/-- A crash inside a round can lose a window: the configuration is written before the surface, so
that after a crash between the two the resumed run skips craters that were never saved. -/
theorem C10_crash_inside_round_fails :
    ∃ (s : Spec) (crash : ℕ), Good s ∧
      let d := freshDisk.applyAll ((sessionWrites s s.n freshProc).2.take crash)
      (afterResume s s.n d).surf = [(5, 0)] ∧ s.ts = 10 ∧ s.te = 0 := by
  have g : Good ⟨10, 0, 5, 2⟩ := ⟨by norm_num, by norm_num, by norm_num, by norm_num⟩
  refine ⟨⟨10, 0, 5, 2⟩, 5, g, ?_, rfl, rfl⟩
  have hd : freshDisk.applyAll ((sessionWrites ⟨10, 0, 5, 2⟩ 2 freshProc).2.take 5)
      = ⟨some (windowEnd ⟨10, 0, 5, 2⟩ 0), 1, []⟩ := by
    simp only [sessionWrites, freshProc, Option.getD_none, initial_zero ⟨10, 0, 5, 2⟩]
    simp [loopWrites, roundWrites, startWrites, Disk.applyAll, Disk.apply]
  simp only [hd]
  obtain ⟨h1, _⟩ := afterResume_spec ⟨10, 0, 5, 2⟩ g 0 1
    ⟨some (windowEnd ⟨10, 0, 5, 2⟩ 0), 1, []⟩ (by norm_num) (by norm_num) rfl
  have h2 : afterResume ⟨10, 0, 5, 2⟩ 2 ⟨some (windowEnd ⟨10, 0, 5, 2⟩ 0), 1, []⟩ =
      afterResume ⟨10, 0, 5, 2⟩ 1 ⟨some (windowEnd ⟨10, 0, 5, 2⟩ 0), 1, []⟩ := by
    simp only [afterResume, sessionWrites, resume, Option.getD_some,
      initial_window ⟨10, 0, 5, 2⟩ g 0 (by norm_num)]
    rfl
  rw [h2, h1]
  simp only [List.nil_append, List.range'_one, List.map_cons, List.map_nil, win, Nat.zero_add]
  rw [windowEnd_last (i := 1) g rfl]
  norm_num [windowStart]

/-! ### Equal number steps -/

/-- The windows of a run in number mode: adjacent, from the first number to the last. -/
theorem C08_number_windows (w : World) (s : NSpec) (i k : ℕ) (c : Clock) :
    windows (loopNum w s i k c).2 =
      (List.range' i k).map (fun j => (numAt s j, numAt s (j + 1))) := by
  induction k generalizing i c with
  | zero => rfl
  | succ k ih =>
    simp only [loopNum, windows_append, ih, List.range'_succ, List.map_cons]
    simp [stepNum, windows]

theorem num_saves (w : World) (s : NSpec) (i k : ℕ) (c : Clock) (T : ℝ)
    (hpos : ∀ j, j < i + k → 0 < numAt s j ∧ 0 ≤ s.age (numAt s j))
    (hc : c.elapsed = T - s.age (numAt s i)) (j : ℕ) (t e : ℝ)
    (h : Event.save j t e ∈ (loopNum w s i k c).2) : e = T - t := by
  induction k generalizing i c with
  | zero => simp [loopNum] at h
  | succ k ih =>
    simp only [loopNum, List.mem_append] at h
    rcases h with h | h
    · simp only [stepNum, List.mem_cons, reduceCtorEq, Event.save.injEq, false_or,
        List.not_mem_nil, or_false] at h
      obtain ⟨_, rfl, rfl⟩ := h
      rw [hc]; ring
    · cases k with
      | zero => simp [loopNum] at h
      | succ k =>
        refine ih (i + 1) _ (fun j hj => hpos j (by omega)) ?_ h
        obtain ⟨h1, h2⟩ := hpos (i + 1) (by omega)
        simp only [stepNum, endAge, hc]
        rw [if_pos h1, if_neg (not_lt.mpr h2)]
        ring

theorem numAt_gt (s : NSpec) (last : ℝ) (hstep : s.step = (s.num - last) / s.n)
    (hlt : last < s.num) (j : ℕ) (hj : j < s.n) : last < numAt s j := by
  have hn : (0 : ℝ) < s.n := by exact_mod_cast (by omega : 0 < s.n)
  have hj' : (j : ℝ) < s.n := by exact_mod_cast hj
  unfold numAt
  rw [hstep, ← mul_div_assoc]
  have : (j : ℝ) * (s.num - last) / s.n < s.num - last := by
    rw [div_lt_iff₀ hn, mul_comm (s.num - last)]
    exact mul_lt_mul_of_pos_right hj' (by linarith)
  linarith

/-- In number mode the elapsed time of every saved state is the starting time minus the current
time. -/
theorem C09_number (w : World) (s : NSpec) (f : ℝ → ℝ → ℝ) (te : ℝ) (c c' : Clock)
    (evs : List Event) (last : ℝ) (hstep : s.step = (s.num - last) / s.n) (hlast : 0 ≤ last)
    (hlt : last < s.num) (hage : ∀ x, 0 < x → 0 ≤ s.age x)
    (hf0 : f (s.age s.num) (s.age s.num) = 0)
    (ht : c.time = none) (h0 : c.elapsed = 0) (hr : runNum w s f te c = .ok (c', evs))
    (j : ℕ) (t e : ℝ) (h : Event.save j t e ∈ evs) : e = s.age s.num - t := by
  have hpos : ∀ j, j < s.n → 0 < numAt s j := fun j hj =>
    lt_of_le_of_lt hlast (numAt_gt s last hstep hlt j hj)
  unfold runNum at hr
  simp only [started, ht, Option.getD_some, hf0, zero_div, Nat.floor_zero, Nat.sub_zero] at hr
  split_ifs at hr
  simp only [Except.ok.injEq, Prod.mk.injEq] at hr
  rw [← hr.2, List.mem_append] at h
  rcases h with h | h
  · unfold firstSave at h
    split_ifs at h
    · simp only [List.mem_singleton, Event.save.injEq] at h
      obtain ⟨rfl, rfl, rfl⟩ := h
      simp [h0]
    · simp at h
  · refine num_saves w s 0 s.n _ (s.age s.num) ?_ ?_ j t e h
    · intro j hj; rw [Nat.zero_add] at hj; exact ⟨hpos j hj, hage _ (hpos j hj)⟩
    · simp [h0, numAt]

/-- A fresh run in number mode populates `n` adjacent number windows from the starting number down
to the final one and saves the states `0 … n`. -/
theorem C08_fresh_number (w : World) (s : NSpec) (f : ℝ → ℝ → ℝ) (te : ℝ) (c : Clock)
    (last : ℝ) (hstep : s.step = (s.num - last) / s.n)
    (hf0 : f (s.age s.num) (s.age s.num) = 0) (hf1 : f (s.age s.num) te ≠ 0) (hn : 1 ≤ s.n)
    (ht : c.time = none) (hnew : c.isNew = true) :
    ∃ c' evs, runNum w s f te c = .ok (c', evs) ∧
      windows evs = (List.range s.n).map (fun j => (numAt s j, numAt s (j + 1))) ∧
      numAt s 0 = s.num ∧ numAt s s.n = last ∧ savedIntervals evs = List.range (s.n + 1) := by
  have hne : f (s.age s.num) te / s.n ≠ 0 := by
    have : (s.n : ℝ) ≠ 0 := by
      have : (0 : ℝ) < s.n := by exact_mod_cast hn
      exact this.ne'
    exact div_ne_zero hf1 this
  have hsv : ∀ i k c, savedIntervals (loopNum w s i k c).2 = List.range' (c.interval + 1) k := by
    intro i k
    induction k generalizing i with
    | zero => intro c; rfl
    | succ k ih =>
      intro c
      simp only [loopNum, savedIntervals_append, ih, List.range'_succ]
      simp [stepNum, savedIntervals]
  set c0 : Clock := { c with time := some (s.age s.num), interval := 0 } with hc0
  have hr : runNum w s f te c = .ok ((loopNum w s 0 s.n c0).1,
      firstSave c0 ++ (loopNum w s 0 s.n c0).2) := by
    unfold runNum
    simp only [started, ht, Option.getD_some, hf0, zero_div, Nat.floor_zero, Nat.sub_zero]
    rw [if_neg (lt_irrefl _), if_neg hne]
  refine ⟨_, _, hr, ?_, by simp [numAt], ?_, ?_⟩
  · rw [windows_append, C08_number_windows, List.range_eq_range']
    simp [firstSave, hc0, hnew, windows]
  · have : (s.n : ℝ) ≠ 0 := by
      have : (0 : ℝ) < s.n := by exact_mod_cast hn
      exact this.ne'
    unfold numAt; rw [hstep]; field_simp; ring
  · rw [savedIntervals_append, hsv]
    simp only [firstSave, hc0, hnew, if_true, savedIntervals, List.singleton_append]
    rw [List.range_eq_range', List.range'_succ]

example : ∃ s : Spec, Good s ∧ s.n * s.ti ≠ s.ts - s.te :=
  ⟨⟨10, 0, 3, 4⟩, ⟨by norm_num, by norm_num, by norm_num, by norm_num⟩, by norm_num⟩
example : ∃ s : Spec, Good s ∧ s.n = 5 ∧ s.n * s.ti = s.ts - s.te :=
  ⟨⟨3800, 3300, 100, 5⟩, ⟨by norm_num, by norm_num, by norm_num, by norm_num⟩, rfl, by norm_num⟩

/-- A period given by numbers: 80 craters in 4 steps with a constant rate. -/
example : ∃ s : NSpec, s.step = (s.num - 0) / s.n ∧ 0 < s.num ∧ 1 ≤ s.n ∧
    (∀ x, 0 < x → 0 ≤ s.age x) :=
  ⟨⟨80, 20, 4, fun x => x / 2⟩, by norm_num, by norm_num, by norm_num, fun x hx => by
    simp only; positivity⟩

end Verif.Run
