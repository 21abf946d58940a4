import Verif.Model.Units
import Mathlib.Tactic.Linarith

/-! Property C142: units of N(D) values. -/

namespace Verif.Units

/-- The area, in m², that a text names. -/
def areaOf : List (String × ℝ) := [("per m²", 1), ("per km²", 1e6), ("per 10⁶ km²", 1e12)]

/-- The length, in m, that a text names. -/
def lengthOf : List (String × ℝ) := [("m", 1), ("km", 1000)]

/-- A constructed object: both factors are set to one of the documented values. -/
def Ok (s : State) : Prop :=
  (∃ x, s.n = some x ∧ (x = 1 ∨ x = 1e6 ∨ x = 1e12)) ∧ ∃ y, s.d = some y ∧ (y = 1 ∨ y = 1000)

theorem setN_ok {s s' : State} {v : Option ℝ} (h : setN s v = some s') :
    s'.n = some (v.getD 1e12) ∧ (v.getD 1e12 = 1 ∨ v.getD 1e12 = 1e6 ∨ v.getD 1e12 = 1e12) ∧ s'.d = s.d := by
  unfold setN at h
  dsimp only at h
  split_ifs at h with hx
  simp only [Option.some.injEq] at h
  subst h
  exact ⟨rfl, hx, rfl⟩

theorem setD_ok {s s' : State} {v : Option ℝ} (h : setD s v = some s') :
    s'.d = some (v.getD 1000) ∧ (v.getD 1000 = 1 ∨ v.getD 1000 = 1000) ∧ s'.n = s.n := by
  unfold setD at h
  dsimp only at h
  split_ifs at h with hx
  simp only [Option.some.injEq] at h
  subst h
  exact ⟨rfl, hx, rfl⟩

theorem step_ok (s : State) (h : Ok s) (a : Step) : Ok (step s a) := by
  obtain ⟨⟨x, hx, hx'⟩, y, hy, hy'⟩ := h
  cases a with
  | setN v =>
    show Ok ((setN s v).getD s)
    rcases hs : setN s v with _ | s'
    · exact ⟨⟨x, hx, hx'⟩, y, hy, hy'⟩
    · obtain ⟨a, b, c⟩ := setN_ok hs
      exact ⟨⟨_, a, b⟩, y, c.trans hy, hy'⟩
  | setD v =>
    show Ok ((setD s v).getD s)
    rcases hs : setD s v with _ | s'
    · exact ⟨⟨x, hx, hx'⟩, y, hy, hy'⟩
    · obtain ⟨a, b, c⟩ := setD_ok hs
      exact ⟨⟨x, c.trans hx, hx'⟩, _, a, b⟩
  | getN => simp only [step, getN, hx]; exact ⟨⟨x, hx, hx'⟩, y, hy, hy'⟩
  | getD => simp only [step, getD, hy]; exact ⟨⟨x, hx, hx'⟩, y, hy, hy'⟩

theorem construct_ok (f : Family) (n d : Option ℝ) (cs : List Given) (s : State) (ms : List Meant)
    (h : construct f n d cs = some (s, ms)) : s.n = some (n.getD 1e12) ∧ s.d = some (d.getD 1000) ∧ Ok s := by
  unfold construct at h
  dsimp only at h
  split at h
  · cases h
  split at h
  · cases h
  next h1 =>
  split at h
  · cases h
  next h2 =>
  simp only [Option.some.injEq, Prod.mk.injEq] at h
  obtain ⟨rfl, _⟩ := h
  obtain ⟨a, b, c⟩ := setN_ok h1
  obtain ⟨a', b', c'⟩ := setD_ok h2
  exact ⟨c'.trans a, a', ⟨_, c'.trans a, b⟩, _, a', b'⟩

/-- After construction and any history of assignments (accepted or rejected) and uses, both factors have a documented
value, the printed units are the units of the factors, the factors are the last accepted ones, and using them changes
nothing. -/
theorem C142_units (f : Family) (n d : Option ℝ) (cs : List Given) (s0 : State) (ms : List Meant)
    (h : construct f n d cs = some (s0, ms)) (hist : List Step) :
    let s := hist.foldl step s0
    (getN s).1 ∈ [(1 : ℝ), 1e6, 1e12] ∧ (getD s).1 ∈ [(1 : ℝ), 1000] ∧
    areaOf.lookup (nUnit s) = some (getN s).1 ∧ lengthOf.lookup (dUnit s) = some (getD s).1 ∧
    (getN s).2 = s ∧ (getD s).2 = s ∧
    (∀ v s', setN s v = some s' → (getN s').1 = v.getD 1e12 ∧ (getD s').1 = (getD s).1) ∧
    (∀ v s', setD s v = some s' → (getD s').1 = v.getD 1000 ∧ (getN s').1 = (getN s).1) := by
  have hok : ∀ (hist : List Step) (s : State), Ok s → Ok (hist.foldl step s) := by
    intro hist
    induction hist with
    | nil => exact fun s h => h
    | cons a l ih => exact fun s h => ih _ (step_ok s h a)
  intro s
  obtain ⟨⟨x, hx, hx'⟩, y, hy, hy'⟩ := hok hist s0 (construct_ok f n d cs s0 ms h).2.2
  have b1 : ("per km²" == "per m²") = false := by decide +kernel
  have b2 : ("per 10⁶ km²" == "per m²") = false := by decide +kernel
  have b3 : ("per 10⁶ km²" == "per km²") = false := by decide +kernel
  have b4 : ("km" == "m") = false := by decide +kernel
  have gn : getN s = (x, s) := by unfold getN; rw [hx]
  have gd : getD s = (y, s) := by unfold getD; rw [hy]
  refine ⟨?_, ?_, ?_, ?_, ?_, ?_, ?_, ?_⟩
  · rw [gn]; rcases hx' with h | h | h <;> rw [h] <;> simp
  · rw [gd]; rcases hy' with h | h <;> rw [h] <;> simp
  · rw [gn]
    unfold nUnit
    rw [hx]
    rcases hx' with h | h | h <;> subst h <;> norm_num [areaOf, List.lookup, b1, b2, b3]
  · unfold dUnit
    rw [gd]
    rcases hy' with h | h <;> subst h <;> norm_num [lengthOf, List.lookup, b4]
  · rw [gn]
  · rw [gd]
  · intro v s' h
    obtain ⟨a, _, c⟩ := setN_ok h
    unfold getN getD
    rw [a, c, hy]
    exact ⟨rfl, rfl⟩
  · intro v s' h
    obtain ⟨a, _, c⟩ := setD_ok h
    unfold getN getD
    rw [a, c, hx]
    exact ⟨rfl, rfl⟩

/-- Exactly the documented values are accepted, and a rejected one changes nothing. -/
theorem C142_accepted (s : State) (x : ℝ) :
    ((∃ s', setN s (some x) = some s') ↔ x ∈ [(1 : ℝ), 1e6, 1e12]) ∧
    ((∃ s', setD s (some x) = some s') ↔ x ∈ [(1 : ℝ), 1000]) ∧
    (x ∉ [(1 : ℝ), 1e6, 1e12] → step s (.setN (some x)) = s) ∧
    (x ∉ [(1 : ℝ), 1000] → step s (.setD (some x)) = s) := by
  simp only [List.mem_cons, List.not_mem_nil, or_false]
  refine ⟨⟨?_, ?_⟩, ⟨?_, ?_⟩, ?_, ?_⟩
  · rintro ⟨s', h⟩; exact (setN_ok h).2.1
  · intro h; exact ⟨_, by unfold setN; dsimp only; rw [if_pos (by simpa using h)]⟩
  · rintro ⟨s', h⟩; exact (setD_ok h).2.1
  · intro h; exact ⟨_, by unfold setD; dsimp only; rw [if_pos (by simpa using h)]⟩
  · intro h
    have : setN s (some x) = none := by unfold setN; dsimp only; rw [if_neg (by simpa using h)]
    simp [step, this]
  · intro h
    have : setD s (some x) = none := by unfold setD; dsimp only; rw [if_neg (by simpa using h)]
    simp [step, this]

/-- Reading a factor changes neither what is read later nor the other factor; one that was never set reads as the documented
default. -/
theorem C142_reading (s : State) :
    (getN (getN s).2).1 = (getN s).1 ∧ (getN (getD s).2).1 = (getN s).1 ∧
    (getD (getD s).2).1 = (getD s).1 ∧ (getD (getN s).2).1 = (getD s).1 ∧
    (s.n = none → (getN s).1 = 1e12 ∧ (getN s).2.d = s.d) ∧ (s.d = none → (getD s).1 = 1000 ∧ (getD s).2.n = s.n) := by
  obtain ⟨n, d⟩ := s
  cases n <;> cases d <;> simp [getN, getD]

/-- What prescribed craters mean when numbers are per `area` (in m²). -/
noncomputable def meant (area : ℝ) : Given → Meant
  | .time t => .time t
  | .number n => .density (n / area)

theorem process_ready (s : State) (cs : List Given) :
    ∃ s', process s true cs = some (cs.map (meant (getN s).1), s') ∧ (getN s').1 = (getN s).1 := by
  induction cs generalizing s with
  | nil => exact ⟨s, rfl, rfl⟩
  | cons g gs ih =>
    have h2 : getN (getN s).2 = getN s ∨ (getN (getN s).2).1 = (getN s).1 := by
      right
      unfold getN
      rcases s with ⟨_ | x, d⟩ <;> rfl
    have h2' : (getN (getN s).2).1 = (getN s).1 := by
      rcases h2 with h | h
      · rw [h]
      · exact h
    cases g with
    | time t =>
      obtain ⟨s', h, e⟩ := ih s
      refine ⟨s', ?_, e⟩
      simp only [process, processOne, h, List.map_cons, meant]
    | number n =>
      obtain ⟨s', h, e⟩ := ih (getN s).2
      refine ⟨s', ?_, e.trans h2'⟩
      rw [h2'] at h
      simp only [process, processOne, if_true, h, List.map_cons, meant]

/-- Craters assigned to an object are understood in the units it has at that time. -/
theorem C142_assigned (s : State) (craters : List Given) :
    ∃ s', assign s craters = some (craters.map (meant (getN s).1), s') ∧ (getN s').1 = (getN s).1 :=
  process_ready s craters

/-- Craters given to the constructor are understood in the units given to it if these are the default ones and the
function is Neukum's.  What is missing: other units and the power law, see `C142_constructor_fails` and
`C142_powerlaw_fails`. -/
theorem C142_constructor_partial (n d : Option ℝ) (hn : n = none ∨ n = some 1e12) (hd : d = none ∨ d = some 1 ∨ d = some 1000)
    (cs : List Given) :
    ∃ s, construct .neukum n d cs = some (s, cs.map (meant (n.getD 1e12))) := by
  obtain ⟨s', h, _⟩ := process_ready ⟨none, none⟩ cs
  have hN : (getN ⟨none, none⟩).1 = 1e12 := rfl
  have hg : n.getD 1e12 = 1e12 := by rcases hn with h | h <;> rw [h] <;> rfl
  have hg' : d.getD 1000 = 1 ∨ d.getD 1000 = 1000 := by
    rcases hd with h | h | h <;> rw [h] <;> simp
  unfold construct
  dsimp only
  rw [h, hN, hg]
  dsimp only
  unfold setN
  dsimp only
  rw [hg, if_pos (Or.inr (Or.inr rfl))]
  dsimp only
  unfold setD
  dsimp only
  rw [if_pos hg']
  exact ⟨_, rfl⟩

/-- Craters given to the constructor with other units are understood in the default units all the same: for numbers per
km², one million times too low. -/
theorem C142_constructor_fails (x : ℝ) (hx : x ≠ 0) :
    ∃ s y, construct .neukum (some 1e6) none [.number x] = some (s, [.density y]) ∧ (getN s).1 = 1e6 ∧
      y = x / 1e12 ∧ y ≠ x / (getN s).1 := by
  refine ⟨⟨some 1e6, some 1000⟩, x / 1e12, ?_, rfl, rfl, ?_⟩
  · have h6 : ((1e6 : ℝ) = 1 ∨ (1e6 : ℝ) = 1e6 ∨ (1e6 : ℝ) = 1e12) := Or.inr (Or.inl rfl)
    simp [construct, process, processOne, getN, setN, setD]
  · show x / 1e12 ≠ x / 1e6
    intro h
    rw [div_eq_div_iff (by norm_num) (by norm_num)] at h
    apply hx
    linarith

/-- A power law cannot be constructed with a prescribed crater given by a number: the coefficients of the function are
not set yet. -/
theorem C142_powerlaw_fails (n d : Option ℝ) (x : ℝ) (before after : List Given) :
    construct .powerlaw n d (before ++ .number x :: after) = none := by
  have h : ∀ (s : State), process s false (before ++ .number x :: after) = none := by
    induction before with
    | nil => intro s; rfl
    | cons g gs ih =>
      intro s
      cases g with
      | time t =>
        rw [List.cons_append]
        unfold process
        simp only [processOne, ih]
      | number m => rfl
  unfold construct
  dsimp only
  rw [h]

example : ∃ s, construct .neukum none (some 1000) [.number 5, .time 3] = some (s, [.density (5 / 1e12), .time 3]) := by
  obtain ⟨s, h⟩ := C142_constructor_partial none (some 1000) (Or.inl rfl) (Or.inr (Or.inr rfl)) [.number 5, .time 3]
  exact ⟨s, h⟩

end Verif.Units
