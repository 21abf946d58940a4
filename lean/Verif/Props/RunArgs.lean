import Verif.Model.RunArgs
import Mathlib.Tactic.Linarith
import Mathlib.Tactic.NormNum
import Mathlib.Tactic.FieldSimp

/-! Property C07: the arguments of `run`. -/

namespace Verif.RunArgs

/-! ### Specification -/

/-- The contradictions listed in the docstring of `_validate_run_args` and in its messages:
two descriptions of the start, an end without a start, two descriptions of the number of
intervals, or no start at all.  Independent of the model's control flow. -/
inductive Contradictory (c : Ctx) (a : Args) : Prop
  | ageAndTime : a.age.isSome → (a.ts.isSome ∨ a.te.isSome) → Contradictory c a
  | ageAndNumber : a.age.isSome → (a.dn.isSome ∨ a.nD.isSome) → Contradictory c a
  | startAndNumber : a.ts.isSome → (a.dn.isSome ∨ a.nD.isSome) → Contradictory c a
  | twoNumbers : a.nD.isSome → a.dn.isSome → Contradictory c a
  | noStart : a.age = none → a.ts = none → a.nD = none → a.dn = none →
      (a.te = none ∨ c.time = none) → Contradictory c a
  | numberEndAlone : a.nDend.isSome → a.age = none → a.ts = none → a.te = none → a.nD = none →
      Contradictory c a
  | timeEndAndNumber : a.te.isSome → (a.dn.isSome ∨ a.dnEnd.isSome) → Contradictory c a
  | bothSteps : a.nint ≠ .absent → a.ti.isSome → Contradictory c a
  | badCount : (∃ z, a.nint = .int z ∧ z < 1) ∨ a.nint = .other → Contradictory c a

/-- A well-formed resolved period. -/
structure WellFormed (r : Res) : Prop where
  start_ge_end : r.te ≤ r.ts
  end_nonneg : 0 ≤ r.te
  count_pos : 1 ≤ r.n
  /-- In time mode the steps are positive, cover the period, and all but the last lie inside. -/
  covers : ∀ ti, r.ti = some ti → 0 < ti ∧ (r.n - 1) * ti < r.ts - r.te ∧ r.ts - r.te ≤ r.n * ti
  /-- In number mode the steps go exactly from the first number to the last. -/
  numbers : r.ti = none → r.dn.2 - r.n * r.dnStep = r.dnEnd.2

/-! ### Proofs -/

theorem bind_ok {ε α β : Type} {x : Except ε α} {f : α → Except ε β} {b : β} :
    (x >>= f) = .ok b ↔ ∃ a, x = .ok a ∧ f a = .ok b := by
  cases x <;> simp [bind, Except.bind]

theorem failIf_ok {p : Prop} {e : Err} {u : Unit} : failIf p e = .ok u ↔ ¬ p := by
  unfold failIf; split_ifs <;> simp_all

theorem pure_ok {ε α : Type} {a b : α} : (pure a : Except ε α) = .ok b ↔ a = b := by
  simp [pure, Except.pure]

theorem validateAge_ok {c : Ctx} {ts te : ℝ} {u : Unit} (h : validateAge c ts te = .ok u) :
    te ≤ ts ∧ (∀ m, c.vmin = some m → m ≤ ts) ∧ ∀ m, c.vmax = some m → ts ≤ m := by
  simp only [validateAge, bind_ok, failIf_ok] at h
  obtain ⟨_, h1, _, h2, h3⟩ := h
  push Not at h1 h2 h3
  exact ⟨h1, h2, h3⟩

/-- The root finder only returns non-negative ages: the bracket of `brentq` is `valid_time`, or
starts at zero. -/
def AgesNonneg (c : Ctx) : Prop := ∀ D N t, c.ageOf D N = some t → 0 ≤ t

theorem ageV_nonneg {c : Ctx} (hc : AgesNonneg c) {D N t : ℝ} (h : ageV c D N = .ok t) : 0 ≤ t := by
  simp only [ageV, bind_ok] at h
  obtain ⟨_, _, h⟩ := h
  split at h
  next t' ht => rw [pure_ok] at h; subst h; exact hc _ _ _ ht
  next => simp at h

theorem fnV_nonneg {c : Ctx} {D t n : ℝ} (h : fnV c D t = .ok n) : 0 ≤ t := by
  simp only [fnV, bind_ok] at h
  obtain ⟨_, _, _, h2, _⟩ := h
  exact (validateAge_ok h2).1

theorem startOf_time {c : Ctx} {t0 : ℝ} {dn : Option (ℝ × ℝ)} {s : ℝ × (ℝ × ℝ)}
    (h : startOf c (some t0) dn = .ok s) : s.1 = t0 := by
  cases dn with
  | some p => simp [startOf] at h
  | none =>
    simp only [startOf, bind_ok, pure_ok] at h
    obtain ⟨n, _, rfl⟩ := h; rfl

theorem endOf_spec {c : Ctx} (hc : AgesNonneg c) {t : ℝ} {p : ℝ × ℝ} {te : Option ℝ}
    {q : Option (ℝ × ℝ)} {e : ℝ × (ℝ × ℝ)} (h : endOf c t p te q = .ok e) :
    e.1 ≤ t ∧ 0 ≤ e.1 ∧ ∀ s, te = some s → e.1 = s := by
  cases te with
  | none =>
    cases q with
    | none =>
      simp only [endOf] at h
      split_ifs at h
      · simp only [bind_ok, pure_ok] at h
        obtain ⟨_, h1, rfl⟩ := h
        exact ⟨(validateAge_ok h1).1, le_refl _, by simp⟩
      · simp only [bind_ok, pure_ok] at h
        obtain ⟨_, _, _, h1, rfl⟩ := h
        exact ⟨(validateAge_ok h1).1, le_refl _, by simp⟩
    | some q =>
      simp only [endOf, bind_ok, pure_ok] at h
      obtain ⟨_, _, _, _, s, hs, _, h1, rfl⟩ := h
      exact ⟨(validateAge_ok h1).1, ageV_nonneg hc hs, by simp⟩
  | some s =>
    cases q with
    | some q => simp [endOf] at h
    | none =>
      simp only [endOf, bind_ok, pure_ok] at h
      obtain ⟨_, h1, _, h2, rfl⟩ := h
      refine ⟨(validateAge_ok h1).1, fnV_nonneg h2, ?_⟩
      intro s' hs'; simpa using hs'

/-- Every accepted combination of arguments resolves to a well-formed period: `ts ≥ te ≥ 0`, at
least one interval, and steps that cover the period. -/
theorem C07_wellformed (c : Ctx) (hc : AgesNonneg c) (a : Args) (r : Res)
    (h : runArgs c a = .ok r) : WellFormed r := by
  simp only [runArgs, bind_ok] at h
  obtain ⟨⟨wts, wte, wdn, wdnEnd⟩, hw, n, hn, ⟨ts, te, dn, dnEnd⟩, hs, h⟩ := h
  simp only at hs h
  simp only [sampleArgs, bind_ok, pure_ok] at hs
  obtain ⟨_, _, _, _, _, _, s, hstart, e, hend, hse⟩ := hs
  simp only [Prod.mk.injEq] at hse
  obtain ⟨rfl, rfl, rfl, rfl⟩ := hse
  obtain ⟨h1, h2, h3⟩ := endOf_spec hc hend
  cases hti : a.ti with
  | some ti =>
    rw [hti] at h
    simp only at h
    cases wts with
    | none => simp at h
    | some ts0 =>
    cases wte with
    | none => simp at h
    | some te0 =>
    simp only [bind_ok, pure_ok, failIf_ok] at h
    obtain ⟨_, hle, _, hpos, rfl⟩ := h
    have hts := startOf_time hstart
    have hte := h3 _ rfl
    push Not at hle hpos
    have hq : 0 < (ts0 - te0) / ti := div_pos (by linarith) hpos
    refine ⟨h1, h2, ?_, ?_, by simp⟩
    · exact Int.one_le_ceil_iff.mpr hq
    · intro ti' hti'
      simp only [Option.some.injEq] at hti'
      subst hti'
      simp only [hts, hte]
      refine ⟨hpos, ?_, ?_⟩
      · have := Int.ceil_lt_add_one ((ts0 - te0) / ti)
        have h4 : ((⌈(ts0 - te0) / ti⌉ : ℝ) - 1) < (ts0 - te0) / ti := by linarith
        rwa [lt_div_iff₀ hpos] at h4
      · have := Int.le_ceil ((ts0 - te0) / ti)
        rwa [div_le_iff₀ hpos] at this
  | none =>
    rw [hti] at h
    simp only [pure_ok] at h
    subst h
    have hn1 : 1 ≤ n.getD 1 := by
      unfold intervals at hn
      rw [hti] at hn
      split at hn
      · simp at hn
      next z _ =>
        split_ifs at hn with hz
        simp only [Except.ok.injEq] at hn
        subst hn; simp; omega
      · simp at hn; subst hn; simp
    refine ⟨h1, h2, hn1, by simp, ?_⟩
    intro _
    have : ((n.getD 1 : ℤ) : ℝ) ≠ 0 := by
      have : (0 : ℤ) < n.getD 1 := by omega
      exact_mod_cast this.ne'
    simp only
    field_simp
    ring

theorem window_contra (c : Ctx) (a : Args)
    (w : Option ℝ × Option ℝ × Option (ℝ × ℝ) × Option (ℝ × ℝ)) (hw : window c a = .ok w)
    (n : Option ℤ) (hn : intervals a = .ok n)
    (hstarts : ∀ t q, w.1 = some t → w.2.2.1 = some q → False)
    (hbounds : ∀ t q, w.2.1 = some t → w.2.2.2 = some q → False)
    (h : Contradictory c a) : False := by
  rcases a with ⟨age, ts, te, nD, nDend, dn, dnEnd, ti, nint⟩
  rcases c with ⟨time, area, dConv, nConv, F, ageOf, vmin, vmax, dmin, dmax⟩
  rcases w with ⟨w1, w2, w3, w4⟩
  cases h with
  | badCount h =>
    rcases h with ⟨z, h, hz⟩ | h <;> simp only at h <;> subst h <;> simp [intervals] at hn
    rw [if_pos (by omega)] at hn; simp at hn
  | bothSteps h h' =>
    simp only at h h'
    cases nint <;> simp [intervals, h'] at hn h
  | ageAndTime h h' =>
    cases age <;> simp_all [window]
  | ageAndNumber h h' =>
    cases age <;> rcases h' with h' | h' <;> simp_all [window]
  | startAndNumber h h' =>
    cases ts <;> simp_all
    cases age <;> rcases h' with h' | h' <;> simp_all [window]
  | twoNumbers h h' =>
    cases nD <;> cases dn <;> cases age <;> cases ts <;> cases te <;> cases time <;>
      simp [window] at h h' hw
    obtain ⟨rfl, rfl, rfl, rfl⟩ := hw
    exact hstarts _ _ rfl rfl
  | noStart h1 h2 h3 h4 h5 =>
    simp only at h1 h2 h3 h4 h5
    subst h1 h2 h3 h4
    cases te <;> cases time <;> cases nDend <;> simp_all [window]
  | numberEndAlone h1 h2 h3 h4 h5 =>
    simp only at h1 h2 h3 h4 h5
    subst h2 h3 h4 h5
    simp_all [window]
  | timeEndAndNumber h h' =>
    clear hn
    cases te with
    | none => simp at h
    | some e =>
    cases age with
    | some g => simp [window] at hw
    | none =>
    cases ts with
    | some t =>
      cases dn with
      | some p => simp [window] at hw
      | none =>
        cases dnEnd with
        | none => simp at h'
        | some q =>
          cases nD <;> simp [window] at hw
          obtain ⟨rfl, rfl, rfl, rfl⟩ := hw
          exact hbounds _ _ rfl rfl
    | none =>
      cases time with
      | none => simp [window] at hw
      | some t =>
        simp [window] at hw
        obtain ⟨rfl, rfl, rfl, rfl⟩ := hw
        cases dn with
        | some p => exact hstarts _ _ rfl rfl
        | none =>
          cases dnEnd with
          | none => simp at h'
          | some q => exact hbounds _ _ rfl rfl

/-- A combination that asks for two different things, or for nothing, is rejected.
Missing from the full statement: `N_D` together with `time_end` on a simulation that has been run
before, and `N_D_end` without `N_D`, see `C07_ignored_fails`. -/
theorem C07_contradictions_partial (c : Ctx) (a : Args) (h : Contradictory c a) :
    ∃ e, runArgs c a = .error e := by
  cases hr : runArgs c a with
  | error e => exact ⟨e, rfl⟩
  | ok r =>
  exfalso
  simp only [runArgs, bind_ok] at hr
  obtain ⟨w, hw, n, hn, rr, hs, hr⟩ := hr
  simp only [sampleArgs, bind_ok, pure_ok] at hs
  obtain ⟨_, _, _, _, _, _, s, hstart, e, hend, hse⟩ := hs
  have hbounds : ∀ t q, w.2.1 = some t → w.2.2.2 = some q → False := by
    intro t q h1 h2
    rw [h1, h2] at hend; simp [endOf] at hend
  have hstarts : ∀ t q, w.1 = some t → w.2.2.1 = some q → False := by
    intro t q h1 h2
    rw [h1, h2] at hstart; simp [startOf] at hstart
  exact window_contra c a w hw n hn hstarts hbounds h

/-- A simulation on a body with constant cratering rate, not yet run. -/
noncomputable def sampleCtx (time : Option ℝ) : Ctx where
  time := time
  area := 1
  dConv := 1
  nConv := 1
  F := fun _ t => t
  ageOf := fun _ N => some N
  vmin := none
  vmax := some 4500
  dmin := 1
  dmax := 2

theorem failIf_false {p : Prop} {e : Err} (h : ¬ p) : failIf p e = .ok () := by
  simp [failIf, h]

/-- `run(age=…)` is accepted for every age in the valid range and is the period from that age to
the present, with the requested number of intervals (one if not given) or the smallest number of
steps of the requested length that covers it. -/
theorem C07_age (c : Ctx) (age : ℝ) (h0 : 0 ≤ age) (hmin : ∀ m, c.vmin = some m → m ≤ 0)
    (hmax : ∀ m, c.vmax = some m → age ≤ m)
    (hd : 0 < c.dmin) (hd' : c.dmin ≤ c.dmax) (ha : 0 ≤ c.area) :
    (∀ z : ℤ, 1 ≤ z → ∃ r, runArgs c { age := some age, nint := .int z } = .ok r ∧
      r.ts = age ∧ r.te = 0 ∧ r.n = z ∧ r.ti = none) ∧
    (∃ r, runArgs c { age := some age } = .ok r ∧ r.ts = age ∧ r.te = 0 ∧ r.n = 1) ∧
    (∀ ti : ℝ, 0 < ti → ti ≤ age → ∃ r, runArgs c { age := some age, ti := some ti } = .ok r ∧
      r.ts = age ∧ r.te = 0 ∧ r.ti = some ti) := by
  have va : ∀ t e, 0 ≤ t → t ≤ age → e ≤ t → validateAge c t e = .ok () := by
    intro t e ht hta he
    have h2 : ¬ ∃ m, c.vmin = some m ∧ t < m := by
      rintro ⟨m, hm, hlt⟩; linarith [hmin m hm]
    have h3 : ¬ ∃ m, c.vmax = some m ∧ t > m := by
      rintro ⟨m, hm, hlt⟩; linarith [hmax m hm]
    simp [validateAge, failIf_false (not_lt.mpr he), failIf_false h2, failIf_false h3, bind,
      Except.bind]
  have fnv : ∀ t, 0 ≤ t → t ≤ age → fnV c 1000 t = .ok (c.F 1000 t) := by
    intro t ht hta
    have h1 : ¬ ((1000 : ℝ) < 0) := by norm_num
    simp [fnV, failIf_false h1, va t 0 ht hta ht, bind, Except.bind, pure, Except.pure]
  have hs : sampleArgs c (some age) (some 0) none none = .ok
      (age, 0, (1000, c.F 1000 age * c.area), (1000, c.F 1000 0 * c.area)) := by
    simp [sampleArgs, failIf_false (not_le.mpr hd), failIf_false (not_lt.mpr hd'),
      failIf_false (not_lt.mpr ha), startOf, endOf, fnv age h0 (le_refl _),
      fnv 0 (le_refl _) h0, va age 0 h0 (le_refl _) h0, bind, Except.bind, pure, Except.pure]
  refine ⟨?_, ?_, ?_⟩
  · intro z hz
    have key : runArgs c { age := some age, nint := .int z } = .ok
        ⟨age, 0, (1000, c.F 1000 age * c.area), (1000, c.F 1000 0 * c.area), z, none,
          (c.F 1000 age * c.area - c.F 1000 0 * c.area) / z⟩ := by
      simp [runArgs, window, intervals, hs, not_lt.mpr hz, bind, Except.bind, pure, Except.pure]
    exact ⟨_, key, rfl, rfl, rfl, rfl⟩
  · have key : runArgs c { age := some age } = .ok
        ⟨age, 0, (1000, c.F 1000 age * c.area), (1000, c.F 1000 0 * c.area), 1, none,
          (c.F 1000 age * c.area - c.F 1000 0 * c.area) / (1 : ℤ)⟩ := by
      simp [runArgs, window, intervals, hs, bind, Except.bind, pure, Except.pure]
    exact ⟨_, key, rfl, rfl, rfl⟩
  · intro ti h1 h2
    have h2' : ¬ (ti > age - 0) := by simpa using h2
    have key : runArgs c { age := some age, ti := some ti } = .ok
        ⟨age, 0, (1000, c.F 1000 age * c.area), (1000, c.F 1000 0 * c.area),
          ⌈(age - 0) / ti⌉, some ti, 0⟩ := by
      simp [runArgs, window, intervals, hs, bind, Except.bind, pure, Except.pure,
        failIf_false (not_lt.mpr h2), failIf_false (not_le.mpr h1)]
    exact ⟨_, key, rfl, rfl, rfl⟩

/-- Some arguments are silently ignored, whatever their values are: `N_D` next to `time_end` without a start, which is accepted only if the simulation has
been run before, and `N_D_end` next to an age, a start or an end. -/
theorem C07_always_ignored_fails (c : Ctx) (a : Args) (p : ℝ × ℝ) :
    (a.age = none → a.ts = none → a.te.isSome = true → runArgs c { a with nD := some p } = runArgs c { a with nD := none }) ∧
    (a.age.isSome = true ∨ a.ts.isSome = true ∨ a.te.isSome = true → runArgs c { a with nDend := some p } = runArgs c { a with nDend := none }) := by
  obtain ⟨age, ts, te, nD, nDend, dn, dnEnd, ti, nint⟩ := a
  constructor
  · rintro rfl rfl h
    obtain ⟨e, rfl⟩ := Option.isSome_iff_exists.mp h
    rfl
  · intro h
    cases age with
    | some x => rfl
    | none =>
      cases ts with
      | some x => rfl
      | none =>
        cases te with
        | some x => rfl
        | none => simp at h

/-- Such combinations are accepted: `N_D` next to `time_end` on a simulation that has been
run before, and `N_D_end` next to `time_start`. -/
theorem C07_ignored_fails :
    (∃ r, runArgs (sampleCtx (some 10)) { te := some 4, nD := some (7, 100) } = .ok r ∧
      runArgs (sampleCtx (some 10)) { te := some 4 } = .ok r) ∧
    (∃ r, runArgs (sampleCtx none) { ts := some 10, nDend := some (7, 3) } = .ok r ∧
      runArgs (sampleCtx none) { ts := some 10 } = .ok r) := by
  have hs : ∀ time e, (0 : ℝ) ≤ e → e ≤ 10 → ∃ r,
      sampleArgs (sampleCtx time) (some 10) (some e) none none = .ok r := by
    intro time e h0 h1
    have v : ∀ t s : ℝ, s ≤ t → t ≤ 10 → validateAge (sampleCtx time) t s = .ok () := by
      intro t s hst ht
      have h3 : ¬ ∃ m, (sampleCtx time).vmax = some m ∧ t > m := by
        rintro ⟨m, hm, hlt⟩
        simp only [sampleCtx, Option.some.injEq] at hm
        subst hm; linarith
      have h2 : ¬ ∃ m, (sampleCtx time).vmin = some m ∧ t < m := by simp [sampleCtx]
      simp [validateAge, failIf_false (not_lt.mpr hst), failIf_false h2, failIf_false h3, bind,
        Except.bind]
    have f : ∀ t : ℝ, 0 ≤ t → t ≤ 10 → fnV (sampleCtx time) 1000 t = .ok t := by
      intro t h0 ht
      have h1 : ¬ ((1000 : ℝ) < 0) := by norm_num
      simp [fnV, failIf_false h1, v t 0 h0 ht, bind, Except.bind, pure, Except.pure]
      simp [sampleCtx]
    have g1 : ¬ ((sampleCtx time).dmin ≤ 0) := by norm_num [sampleCtx]
    have g2 : ¬ ((sampleCtx time).dmax < (sampleCtx time).dmin) := by norm_num [sampleCtx]
    have g3 : ¬ ((sampleCtx time).area < 0) := by norm_num [sampleCtx]
    refine ⟨(10, e, (1000, 10), (1000, e)), ?_⟩
    simp [sampleArgs, failIf_false g1, failIf_false g2, failIf_false g3, startOf, endOf,
      f 10 (by norm_num) (le_refl _), f e h0 h1, v 10 e h1 (le_refl _), bind, Except.bind, pure,
      Except.pure]
    simp [sampleCtx]
  constructor
  · obtain ⟨r, hr⟩ := hs (some 10) 4 (by norm_num) (by norm_num)
    refine ⟨⟨r.1, r.2.1, r.2.2.1, r.2.2.2, 1, none, (r.2.2.1.2 - r.2.2.2.2) / (1 : ℤ)⟩, ?_, ?_⟩ <;>
      simp [runArgs, window, intervals, bind, Except.bind, pure, Except.pure] <;>
      simp [sampleCtx] <;> simp [sampleCtx] at hr <;> simp [hr]
  · obtain ⟨r, hr⟩ := hs none 0 (by norm_num) (by norm_num)
    refine ⟨⟨r.1, r.2.1, r.2.2.1, r.2.2.2, 1, none, (r.2.2.1.2 - r.2.2.2.2) / (1 : ℤ)⟩, ?_, ?_⟩ <;>
      simp [runArgs, window, intervals, bind, Except.bind, pure, Except.pure, hr]

/-- A number-defined period can never be run in equal time steps: `N_D` or `diameter_number`
together with `time_interval` is rejected whatever the values are, although neither the
documentation nor the list of exceptions mentions it. -/
theorem C07_number_with_time_interval (c : Ctx) (a : Args) (ti : ℝ) (hti : a.ti = some ti)
    (h1 : a.age = none) (h2 : a.ts = none) (h3 : a.te = none) :
    ∃ e, runArgs c a = .error e := by
  cases hr : runArgs c a with
  | error e => exact ⟨e, rfl⟩
  | ok r =>
  exfalso
  simp only [runArgs, bind_ok] at hr
  obtain ⟨w, hw, n, hn, rr, hs, hr⟩ := hr
  have : w.1 = none := by
    simp only [window, h1, h2, h3] at hw
    split at hw
    · split_ifs at hw; simp only [Except.ok.injEq] at hw; rw [← hw]
    · split_ifs at hw; simp only [Except.ok.injEq] at hw; rw [← hw]
  rw [hti, this] at hr
  simp at hr

/-- An end given as a number for another diameter than the start is rejected, although the code
that would convert it is there: it looks at an end time that is not set yet. -/
theorem C07_other_diameter (c : Ctx) (a : Args) (p q : ℝ × ℝ) (hp : a.dn = some p)
    (hq : a.dnEnd = some q) (hne : q.1 ≠ p.1) : ∃ e, runArgs c a = .error e := by
  cases hr : runArgs c a with
  | error e => exact ⟨e, rfl⟩
  | ok r =>
  exfalso
  simp only [runArgs, bind_ok] at hr
  obtain ⟨w, hw, n, hn, rr, hs, hr⟩ := hr
  simp only [sampleArgs, bind_ok, pure_ok] at hs
  obtain ⟨_, _, _, _, _, _, s, hstart, e, hend, hse⟩ := hs
  have hw' : w.2.2.1 = some p ∧ w.2.2.2 = some q := by
    unfold window at hw
    rw [hp, hq] at hw
    simp only [Option.isSome_some, Bool.or_true, Bool.true_or, if_true] at hw
    split at hw
    · simp at hw
    · split at hw
      · simp at hw
      · split at hw
        · split at hw
          · simp at hw
          · simp only [Except.ok.injEq] at hw; rw [← hw]; exact ⟨rfl, rfl⟩
        · split at hw
          · simp at hw
          · split_ifs at hw
            · simp only [Except.ok.injEq] at hw; rw [← hw]; exact ⟨rfl, rfl⟩
  rw [hw'.1] at hstart
  rw [hw'.2] at hend
  have hsp : s.2 = p := by
    cases h1 : w.1 with
    | some t => rw [h1] at hstart; simp [startOf] at hstart
    | none =>
      rw [h1] at hstart
      simp only [startOf, bind_ok, pure_ok] at hstart
      obtain ⟨_, _, _, _, rfl⟩ := hstart; rfl
  rw [hsp] at hend
  cases h1 : w.2.1 with
  | some t => rw [h1] at hend; simp [endOf] at hend
  | none =>
    rw [h1] at hend
    simp only [endOf, bind_ok, failIf_ok] at hend
    obtain ⟨_, _, _, h, _⟩ := hend
    exact h hne

example : Contradictory (sampleCtx none) { age := some 3, ts := some 4 } :=
  .ageAndTime rfl (Or.inl rfl)
/-- The hypotheses of `C07_wellformed` are met by a run with a time step that does not divide the
period. -/
example : ∃ r, runArgs { sampleCtx none with ageOf := fun _ N => some |N| }
    { age := some 10, ti := some 3 } = .ok r ∧ r.n = 4 := by
  obtain ⟨r, hr, h1, h2, h3⟩ :=
    (C07_age { sampleCtx none with ageOf := fun _ N => some |N| } 10 (by norm_num)
      (by simp [sampleCtx]) (by norm_num [sampleCtx]) (by norm_num [sampleCtx])
      (by norm_num [sampleCtx]) (by norm_num [sampleCtx])).2.2 3 (by norm_num) (by norm_num)
  refine ⟨r, hr, ?_⟩
  have w := C07_wellformed _ (by intro D N t h; simp at h; subst h; exact abs_nonneg N) _ _ hr
  obtain ⟨_, h4, h5⟩ := w.covers 3 h3
  rw [h1, h2] at h4 h5
  have a1 : (r.n : ℝ) < 5 := by linarith
  have a2 : (3 : ℝ) < r.n := by linarith
  have a1' : r.n < 5 := by exact_mod_cast a1
  have a2' : 3 < r.n := by exact_mod_cast a2
  omega

end Verif.RunArgs
