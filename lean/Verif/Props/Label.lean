import Verif.Model.Label
import Mathlib.Tactic.NormNum

/-! Property C138: a label shows the numbers of the state that is shown. -/

namespace Verif.Label

/-- A label tells the truth about a state: what it says about time, age and number of craters is what was stored. -/
def Truthful (k : ℤ) (t : Times) (density : ℝ → ℝ → ℝ) (l : List Piece) : Prop :=
  ∀ p ∈ l, match p with
    | .interval i => i = k
    | .time x => t.time = some x
    | .age x => t.elapsed = some x
    | .count d n => ∃ n1, t.n1 = some n1 ∧ n = density n1 d

/-- A label is complete: every number asked for and stored is in it. -/
def Complete (o : Options) (t : Times) (l : List Piece) : Prop :=
  (o.intervalLabel = true → ∃ i, Piece.interval i ∈ l) ∧
    (o.timeLabel = true → ∀ x, t.time = some x → Piece.time x ∈ l) ∧
    (o.ageLabel = true → ∀ x, t.elapsed = some x → Piece.age x ∈ l) ∧
    (o.nLabel = true → ∀ x, t.n1 = some x → ∃ d n, Piece.count d n ∈ l ∧ ∀ d', o.nDiam = some d' → d = d')

theorem mem_piece {w : Bool} {x : Option ℝ} {f : ℝ → Piece} {p : Piece} :
    p ∈ piece w x f ↔ w = true ∧ ∃ v, x = some v ∧ p = f v := by
  cases w <;> cases x <;> simp [piece]

/-- The number of craters per area above a diameter in kilometres, from the number above one kilometre and the shape of the production
function. -/
noncomputable def scaledNumber (csfd : ℝ → ℝ) (n1 km : ℝ) : ℝ := n1 * csfd (1000 * km) / csfd 1000

theorem label_source (s : Sim) (o : Options) (hd : s.dFactor = 1000) (k : ℤ) (t : Times) (h : source s o = (k, t)) :
    Truthful k t (scaledNumber s.csfd) (labelmaker s o) ∧ Complete o t (labelmaker s o) := by
  unfold labelmaker
  rw [h]
  constructor
  · intro p hp
    simp only [List.mem_append, mem_piece] at hp
    rcases hp with ((hp | hp) | hp) | hp
    · split_ifs at hp with hi
      · rw [List.mem_singleton] at hp
        subst hp
        rfl
      · simp at hp
    · obtain ⟨_, v, hv, rfl⟩ := hp
      exact hv
    · obtain ⟨_, v, hv, rfl⟩ := hp
      exact hv
    · obtain ⟨_, v, hv, rfl⟩ := hp
      refine ⟨v, hv, ?_⟩
      unfold scaledNumber dStd
      rw [hd, mul_comm (1000 : ℝ), mul_div_assoc]
  · refine ⟨fun hi => ⟨k, ?_⟩, fun hw x hx => ?_, fun hw x hx => ?_, fun hw x hx => ?_⟩
    · simp [hi]
    · simp only [List.mem_append, mem_piece]
      exact .inl (.inl (.inr ⟨hw, x, hx, rfl⟩))
    · simp only [List.mem_append, mem_piece]
      exact .inl (.inr ⟨hw, x, hx, rfl⟩)
    · refine ⟨nDiam s o, x * (s.csfd (nDiam s o * s.dFactor) / s.csfd dStd), ?_, fun d' hd' => by simp [nDiam, hd']⟩
      simp only [List.mem_append, mem_piece]
      exact .inr ⟨hw, x, hx, rfl⟩

/-- C138, for the present state: with diameters in kilometres the label shows the present interval, time, age and number of craters, as
far as they are asked for and known. -/
theorem C138_present_partial (s : Sim) (o : Options) (hd : s.dFactor = 1000) (ho : o.interval = none) :
    Truthful s.interval s.times (scaledNumber s.csfd) (labelmaker s o) ∧ Complete o s.times (labelmaker s o) := by
  apply label_source s o hd
  simp [source, ho]

/-- C138, for a saved state given by its number: the label shows what was stored with it. -/
theorem C138_saved_partial (s : Sim) (o : Options) (hd : s.dFactor = 1000) (k : ℤ) (hk : 0 ≤ k) (t : Times)
    (hs : s.saved.lookup k = some t) (ho : o.interval = some k) :
    Truthful k t (scaledNumber s.csfd) (labelmaker s o) ∧ Complete o t (labelmaker s o) := by
  apply label_source s o hd
  simp [source, ho, savedTimes, read, not_lt.mpr hk, hs]

/-- An interval that was not saved has no times in its label. -/
theorem C138_not_saved (s : Sim) (o : Options) (k : ℤ) (hk : 0 ≤ k) (hs : s.saved.lookup k = none) (ho : o.interval = some k) :
    ∀ p ∈ labelmaker s o, p = .interval k := by
  have h : source s o = (k, Times.none) := by simp [source, ho, savedTimes, read, not_lt.mpr hk, hs]
  intro p hp
  unfold labelmaker at hp
  rw [h] at hp
  simp only [List.mem_append, mem_piece, Times.none] at hp
  rcases hp with ((hp | hp) | hp) | hp
  · split_ifs at hp with hi
    · simpa using hp
    · simp at hp
  all_goals
    obtain ⟨_, v, hv, _⟩ := hp
    cases hv

/-- A simulation with two saved states, the second of age 100. -/
noncomputable def exSim (d : ℝ) : Sim where
  interval := 1
  times := ⟨some 3900, some 100, some 5⟩
  saved := [(0, ⟨some 4000, some 0, some 0⟩), (1, ⟨some 3900, some 100, some 5⟩)]
  smallestCrater := 50
  csfd := fun x => 1 / x
  dFactor := d

/-- The default options, with a choice of interval. -/
def exOptions (k : Option ℤ) : Options := ⟨k, false, false, true, false, none⟩

example : labelmaker (exSim 1000) (exOptions (some 1)) = [.age 100] := by
  simp [labelmaker, source, savedTimes, read, exSim, exOptions, piece, List.lookup]

/-- C138, the gap: a state counted from the end, as in `plot(interval=-1)`, is read and drawn, but its label has neither time nor age,
whatever was stored. -/
theorem C138_from_end_fails (s : Sim) (o : Options) (k : ℤ) (hk : k < 0) (hn : ∀ p ∈ s.saved, 0 ≤ p.1) (ho : o.interval = some k) :
    (∀ p ∈ labelmaker s o, p = .interval k) ∧ ((-k).toNat ≤ s.saved.length → ∃ st, read s.saved k = some st) := by
  have hsrc : source s o = (k, Times.none) := by
    simp only [source, ho, savedTimes]
    rcases hr : read s.saved k with _ | ⟨i, t⟩
    · rfl
    · have hmem : (i, t) ∈ s.saved := by
        unfold read at hr
        rw [if_pos hk] at hr
        split_ifs at hr with hl
        exact List.mem_of_getElem? hr
      have := hn _ hmem
      have hne : i ≠ k := by
        simp only at this
        omega
      simp [hne]
  constructor
  · intro p hp
    unfold labelmaker at hp
    rw [hsrc] at hp
    simp only [List.mem_append, mem_piece, Times.none] at hp
    rcases hp with ((hp | hp) | hp) | hp
    · split_ifs at hp with hi
      · simpa using hp
      · simp at hp
    all_goals
      obtain ⟨_, v, hv, _⟩ := hp
      cases hv
  · intro hl
    unfold read
    rw [if_pos hk, if_pos hl]
    have : s.saved.length - (-k).toNat < s.saved.length := by omega
    exact ⟨_, List.getElem?_eq_getElem this⟩

example : labelmaker (exSim 1000) (exOptions (some (-1))) = [] := by
  simp [labelmaker, source, savedTimes, read, exSim, exOptions, piece, Times.none]

/-- The diameter shown when none is given depends on the smallest crater of the simulation only: 1 below 100 m, 20 below 10 km, 64
from there on. -/
theorem C138_diameter (s : Sim) (o : Options) (hn : o.nDiam = none) (d n : ℝ) (h : Piece.count d n ∈ labelmaker s o) :
    (s.smallestCrater < 100 → d = 1) ∧ (100 ≤ s.smallestCrater → s.smallestCrater < 10000 → d = 20) ∧
      (10000 ≤ s.smallestCrater → d = 64) := by
  have hd : d = nDiam s o := by
    unfold labelmaker at h
    simp only [List.mem_append, mem_piece] at h
    rcases h with ((h | h) | h) | h
    · split_ifs at h <;> simp at h
    · obtain ⟨_, v, _, hv⟩ := h; cases hv
    · obtain ⟨_, v, _, hv⟩ := h; cases hv
    · obtain ⟨_, v, _, hv⟩ := h
      injection hv
  subst hd
  refine ⟨fun h1 => ?_, fun h1 h2 => ?_, fun h1 => ?_⟩
  · simp [nDiam, hn, h1]
  · simp [nDiam, hn, not_lt.mpr h1, h2]
  · simp [nDiam, hn, not_lt.mpr h1, not_lt.mpr (show (100 : ℝ) ≤ s.smallestCrater by linarith)]

example : ∃ n, Piece.count 20 n ∈ labelmaker { exSim 1000 with smallestCrater := 5000 } ⟨none, false, false, false, true, none⟩ := by
  have hd : nDiam { exSim 1000 with smallestCrater := 5000 } ⟨none, false, false, false, true, none⟩ = 20 := by
    norm_num [nDiam]
  refine ⟨5 * ((exSim 1000).csfd (20 * 1000) / (exSim 1000).csfd 1000), ?_⟩
  unfold labelmaker
  rw [hd]
  simp [source, exSim, piece, dStd]

/-- C138, exactly when the number shown is the one for the diameter in kilometres, for every unit of diameter: the label gives the number
of craters above `d` of the production function's own units, which is the number above `d` kilometres exactly if the production function
has equally many craters above both. -/
theorem C138_units_exact_partial (s : Sim) (o : Options) (n1 : ℝ) (hl : o.nLabel = true) (hn : (source s o).2.n1 = some n1)
    (h0 : n1 ≠ 0) (h1 : s.csfd 1000 ≠ 0) :
    (∀ d x, Piece.count d x ∈ labelmaker s o ↔ d = nDiam s o ∧ x = n1 * s.csfd (d * s.dFactor) / s.csfd 1000) ∧
    (Piece.count (nDiam s o) (scaledNumber s.csfd n1 (nDiam s o)) ∈ labelmaker s o ↔
      s.csfd (nDiam s o * s.dFactor) = s.csfd (nDiam s o * 1000)) := by
  have key : ∀ d x, Piece.count d x ∈ labelmaker s o ↔
      d = nDiam s o ∧ x = n1 * s.csfd (d * s.dFactor) / s.csfd 1000 := by
    intro d x
    have hi : Piece.count d x ∉ (if o.intervalLabel then [Piece.interval (source s o).1] else []) := by
      split_ifs <;> simp
    have ht : Piece.count d x ∉ piece o.timeLabel (source s o).2.time Piece.time := by
      unfold piece; split <;> simp
    have ha : Piece.count d x ∉ piece o.ageLabel (source s o).2.elapsed Piece.age := by
      unfold piece; split <;> simp
    unfold labelmaker
    rw [hl, hn]
    simp only [List.mem_append, hi, ht, ha, false_or]
    simp only [piece, List.mem_singleton, Piece.count.injEq, dStd, mul_div_assoc]
    constructor
    · rintro ⟨rfl, h⟩; exact ⟨rfl, h⟩
    · rintro ⟨rfl, h⟩; exact ⟨rfl, h⟩
  refine ⟨key, ?_⟩
  rw [key]
  simp only [true_and, scaledNumber]
  rw [div_left_inj' h1, mul_right_inj' h0, mul_comm 1000, eq_comm]

example : (⟨none, false, false, false, true, some 1⟩ : Options).nLabel = true ∧
    (source (exSim 1) ⟨none, false, false, false, true, some 1⟩).2.n1 = some 5 ∧ (exSim 1).csfd 1000 ≠ 0 := by
  refine ⟨rfl, ?_, ?_⟩
  · simp [source, exSim]
  · norm_num [exSim]

/-- C138, another gap: the diameter of the N(D) piece is documented in kilometres, but with diameters in metres
(`D_conversion_factor = 1`) it is taken in metres: here N(1) is 1000 times as large as it should be. -/
theorem C138_metres_fails : ∃ n, labelmaker (exSim 1) ⟨none, false, false, false, true, some 1⟩ = [.count 1 n] ∧
    n = 1000 * scaledNumber (exSim 1).csfd 5 1 := by
  refine ⟨5 * ((exSim 1).csfd (1 * 1) / (exSim 1).csfd 1000), ?_, ?_⟩
  · simp [labelmaker, source, exSim, piece, nDiam, dStd]
  · norm_num [scaledNumber, exSim]

end Verif.Label
