import Verif.Props.Run
import Mathlib.Tactic.Linarith
import Mathlib.Tactic.Ring
import Mathlib.Tactic.FieldSimp

/-! Resuming a run with equal numbers of craters (C221). -/

namespace Verif.Run

/-- The production function: at each size the number of craters that formed since time `t` is a multiple of `T t`, which is larger for longer times.
`f a b` is the number from time `a` to time `b` at the size that the clock is read off with; the run itself counts craters of another size, with
the factor `g`. -/
structure Rate (f : ℝ → ℝ → ℝ) (T : ℝ → ℝ) (g : ℝ) : Prop where
  factor : ∃ k, 0 < k ∧ ∀ a b, f a b = k * (T a - T b)
  pos : 0 < g
  mono : StrictMono T

theorem resume_num (w : World) (s : NSpec) (f : ℝ → ℝ → ℝ) (T : ℝ → ℝ) (g : ℝ) (hr : Rate f T g) (te t : ℝ) (c : Clock) (hc : c.time = some t)
    (hnew : c.isNew = false) (hn : 0 < s.n) (hte : T te < T (s.age s.num)) (ht : t ≤ s.age s.num) :
    ∃ c' evs i, runNum w s f te c = .ok (c', evs) ∧ i = ⌊(T (s.age s.num) - T t) / (T (s.age s.num) - T te) * s.n⌋₊ ∧
      windows evs = (List.range' i (s.n - i)).map fun m => (numAt s m, numAt s (m + 1)) := by
  obtain ⟨k, hk, hf⟩ := hr.factor
  have hnq : (0 : ℝ) < s.n := by exact_mod_cast hn
  have hd : 0 < T (s.age s.num) - T te := by linarith
  have hs : started (s.age s.num) c = c := by simp [started, hc]
  have hne : f (s.age s.num) te / s.n ≠ 0 := by rw [hf]; positivity
  have hq : f (s.age s.num) t / (f (s.age s.num) te / s.n) = (T (s.age s.num) - T t) / (T (s.age s.num) - T te) * s.n := by
    rw [hf, hf]; field_simp
  set i := ⌊(T (s.age s.num) - T t) / (T (s.age s.num) - T te) * s.n⌋₊ with hi
  have hrun : runNum w s f te c = .ok ((loopNum w s i (s.n - i) c).1, firstSave c ++ (loopNum w s i (s.n - i) c).2) := by
    unfold runNum
    simp only [hs, hc, Option.getD_some]
    rw [if_neg (not_lt.2 ht), if_neg hne, hq]
  refine ⟨_, _, i, hrun, rfl, ?_⟩
  rw [windows_append, C08_number_windows]
  simp [firstSave, hnew, windows]

/-- Resuming a run with equal numbers of craters after `j` intervals.  The times that belong to numbers are found up to an error: the number at the time found is
off by at most `ε`.  As long as this is less than a sixth of an interval, the run goes on with interval `j`, or repeats the interval before it; it does not
leave one out.  Without an error it goes on with interval `j`.  Missing: with an error it can repeat an interval, see `C221_repeat_fails`. -/
theorem C221_resume_partial (w : World) (s : NSpec) (f : ℝ → ℝ → ℝ) (T : ℝ → ℝ) (g : ℝ) (hr : Rate f T g) (te t last ε : ℝ) (c : Clock)
    (hc : c.time = some t) (hnew : c.isNew = false) (hstep : s.step = (s.num - last) / s.n) (hpos : 0 < s.step) (j : ℕ) (hj : j < s.n)
    (h6 : 6 * ε < s.step) (hts : |g * T (s.age s.num) - s.num| ≤ ε) (hte : |g * T te - last| ≤ ε)
    (ht : |g * T t - (s.num - j * s.step)| ≤ ε) (hlate : t ≤ s.age s.num) :
    ∃ c' evs i, runNum w s f te c = .ok (c', evs) ∧ (i = j ∨ i + 1 = j) ∧ (ε = 0 → i = j) ∧
      windows evs = (List.range' i (s.n - i)).map fun m : ℕ => (s.num - m * s.step, s.num - (m + 1) * s.step) := by
  have hn : 0 < s.n := by omega
  have hnq : (0 : ℝ) < s.n := by exact_mod_cast hn
  have hn1 : (1 : ℝ) ≤ s.n := by exact_mod_cast hn
  have hjq : (j : ℝ) + 1 ≤ s.n := by exact_mod_cast hj
  have hj0 : (0 : ℝ) ≤ j := by positivity
  have hlast : s.num - last = s.n * s.step := by rw [hstep]; field_simp
  have hε : 0 ≤ ε := (abs_nonneg _).trans hts
  rw [abs_le] at hts hte ht
  have hg := hr.pos
  have hden : 0 < g * T (s.age s.num) - g * T te := by nlinarith [hts.1, hte.2]
  have hTe : T te < T (s.age s.num) := by
    have : g * T te < g * T (s.age s.num) := by linarith
    exact lt_of_mul_lt_mul_left this hg.le
  obtain ⟨c', evs, i, h1, hi, h2⟩ := resume_num w s f T g hr te t c hc hnew hn hTe hlate
  have hq : (T (s.age s.num) - T t) / (T (s.age s.num) - T te) * s.n =
      (g * T (s.age s.num) - g * T t) * s.n / (g * T (s.age s.num) - g * T te) := by
    rw [← mul_sub, ← mul_sub]
    have : T (s.age s.num) - T te ≠ 0 := by linarith
    field_simp
  rw [hq] at hi
  have lo : (j : ℝ) - 1 ≤ (g * T (s.age s.num) - g * T t) * s.n / (g * T (s.age s.num) - g * T te) := by
    rw [le_div_iff₀ hden]
    rcases le_or_gt ((j : ℝ) - 1) 0 with h | h
    · have hT : T t ≤ T (s.age s.num) := hr.mono.monotone hlate
      have : 0 ≤ g * T (s.age s.num) - g * T t := by rw [← mul_sub]; exact mul_nonneg hg.le (by linarith)
      nlinarith
    · have a1 : g * T (s.age s.num) - g * T te ≤ s.n * s.step + 2 * ε := by linarith [hts.2, hte.1]
      have a2 : j * s.step - 2 * ε ≤ g * T (s.age s.num) - g * T t := by linarith [hts.1, ht.2]
      calc ((j : ℝ) - 1) * (g * T (s.age s.num) - g * T te) ≤ (j - 1) * (s.n * s.step + 2 * ε) := mul_le_mul_of_nonneg_left a1 h.le
        _ ≤ (j * s.step - 2 * ε) * s.n := by nlinarith
        _ ≤ _ := mul_le_mul_of_nonneg_right a2 hnq.le
  have hi' : (g * T (s.age s.num) - g * T t) * s.n / (g * T (s.age s.num) - g * T te) < j + 1 := by
    rw [div_lt_iff₀ hden]
    have a1 : s.n * s.step - 2 * ε ≤ g * T (s.age s.num) - g * T te := by linarith [hts.1, hte.2]
    have a2 : g * T (s.age s.num) - g * T t ≤ j * s.step + 2 * ε := by linarith [hts.2, ht.1]
    calc (g * T (s.age s.num) - g * T t) * s.n ≤ (j * s.step + 2 * ε) * s.n := mul_le_mul_of_nonneg_right a2 hnq.le
      _ < (j + 1) * (s.n * s.step - 2 * ε) := by nlinarith
      _ ≤ _ := mul_le_mul_of_nonneg_left a1 (by linarith)
  have q0 : 0 ≤ (g * T (s.age s.num) - g * T t) * s.n / (g * T (s.age s.num) - g * T te) := by
    have hT : T t ≤ T (s.age s.num) := hr.mono.monotone hlate
    have : 0 ≤ g * T (s.age s.num) - g * T t := by rw [← mul_sub]; exact mul_nonneg hg.le (by linarith)
    positivity
  have f1 : i < j + 1 := by
    rw [hi, Nat.floor_lt q0]; push_cast; exact hi'
  have f2 : j - 1 ≤ i := by
    rw [hi, Nat.le_floor_iff q0]
    rcases Nat.eq_zero_or_pos j with rfl | h
    · simpa using q0
    · rw [Nat.cast_sub h]; simpa using lo
  refine ⟨c', evs, i, h1, by omega, ?_, by rw [h2]; simp [numAt]⟩
  rintro rfl
  have e1 : g * T (s.age s.num) - g * T t = j * s.step := by linarith [hts.1, hts.2, ht.1, ht.2]
  have e2 : g * T (s.age s.num) - g * T te = s.n * s.step := by linarith [hts.1, hts.2, hte.1, hte.2]
  rw [e1, e2] at hi
  have : (j : ℝ) * s.step * s.n / (s.n * s.step) = j := by field_simp
  rw [this] at hi
  rw [hi]; simp

/-- 80 craters in four intervals with a constant rate, resumed after the second one. -/
example : ∃ (s : NSpec) (f : ℝ → ℝ → ℝ) (T : ℝ → ℝ) (g t : ℝ), Rate f T g ∧ s.step = (s.num - 0) / s.n ∧ 0 < s.step ∧ 2 < s.n ∧
    |g * T (s.age s.num) - s.num| ≤ 0 ∧ |g * T t - (s.num - 2 * s.step)| ≤ 0 ∧ t ≤ s.age s.num :=
  ⟨⟨80, 20, 4, fun x => x / 2⟩, fun a b => 3 * (a - b), id, 2, 20, ⟨⟨3, by norm_num, fun a b => rfl⟩, by norm_num, strictMono_id⟩,
    by norm_num, by norm_num, by norm_num, by norm_num, by norm_num, by norm_num⟩

/-- However small the error `δ` of the times that belong to numbers, an interval can be repeated: here two craters form in two intervals at a
constant rate, the time found for one crater is too large by `δ`, and a run that is resumed after the first interval simulates both intervals. -/
theorem C221_repeat_fails (w : World) (δ : ℝ) (h0 : 0 < δ) (h1 : δ < 1) (c : Clock) (hnew : c.isNew = false) :
    ∃ (s : NSpec) (f : ℝ → ℝ → ℝ), s.num = 2 ∧ s.step = 1 ∧ s.n = 2 ∧ (∀ x, |s.age x - x| ≤ δ) ∧ (∀ a b, f a b = a - b) ∧
      ∃ c' evs, runNum w s f 0 { c with time := some (endAge s 0) } = .ok (c', evs) ∧ windows evs = [(2, 1), (1, 0)] := by
  classical
  let s : NSpec := ⟨2, 1, 2, fun x => if x = 1 then 1 + δ else x⟩
  have hend : endAge s 0 = 1 + δ := by
    have : numAt s (0 + 1) = 1 := by norm_num [numAt, s]
    have h3 : s.age 1 = 1 + δ := by simp [s]
    simp only [endAge, this, h3, gt_iff_lt, zero_lt_one, if_true]
    rw [if_neg (by linarith)]
  have hage : s.age s.num = 2 := by simp [s]
  refine ⟨s, fun a b => a - b, rfl, rfl, rfl, ?_, fun _ _ => rfl, ?_⟩
  · intro x
    by_cases h : x = 1
    · simp [s, h, abs_of_pos h0]
    · simp [s, h, h0.le]
  · have hr : Rate (fun a b : ℝ => a - b) id 1 := ⟨⟨1, one_pos, by simp⟩, one_pos, strictMono_id⟩
    obtain ⟨c', evs, i, e1, e2, e3⟩ := resume_num w s (fun a b => a - b) id 1 hr 0 (endAge s 0) { c with time := some (endAge s 0) } rfl hnew
      (by norm_num [s]) (by rw [hage]; norm_num) (by rw [hage, hend]; linarith)
    refine ⟨c', evs, e1, ?_⟩
    have hi : i = 0 := by
      rw [e2, hage, hend, Nat.floor_eq_zero]
      simp only [id, s]
      push_cast
      linarith
    rw [e3, hi]
    norm_num [s, numAt, List.range'_succ]

end Verif.Run
