import Verif.Model.CraterCopy
import Verif.Props.Crater
import Verif.Props.Location

/-! C165-C168: measured sizes and other variable attributes of craters and of their copies. -/

namespace Verif.CraterCopy

open Verif.Crater (Axes setMajor setMinor setRadius setDiameter Ordered)
open Verif.Location (pymod normalizeCoords spherePoint LonInRange LatInRange)

/-! ### Specification -/

/-- A copy was made and its measured axes are these. -/
def HasAxes (r : Option Vars) (x y : ℝ) : Prop := ∃ v, r = some v ∧ v.axes = ⟨some x, some y⟩

/-- The measured axes of an existing crater. -/
def ellipse (M m : ℝ) : Option Axes := some ⟨some M, some m⟩

/-! ### Helpers -/

theorem entries_circle {R : ℝ} (h : 0 < R) : sizeEntries ⟨some R, some R⟩ = (some (R * 2), none, none) := by
  have : Real.sqrt (R * R) = R := Real.sqrt_mul_self h.le
  simp [sizeEntries, Verif.Crater.radius, Verif.Crater.diameter, this]

theorem entries_ellipse {M m : ℝ} (hm : 0 < m) (h : m < M) : sizeEntries ⟨some M, some m⟩ = (none, some M, some m) := by
  have hM := hm.trans h
  have : Real.sqrt (M * m) ≠ M := by
    intro e
    have := Real.mul_self_sqrt (mul_nonneg hM.le hm.le)
    rw [e] at this
    nlinarith
  simp [sizeEntries, Verif.Crater.radius, this]

theorem construct_axes {x y : ℝ} (hy : 0 < y) (h : y ≤ x) : HasAxes (construct { major := some x, minor := some y }) x y := by
  have h1 : ¬ x ≤ 0 := by linarith
  have h2 : ¬ y ≤ 0 := by linarith
  have h3 : ¬ x < y := by linarith
  simp [HasAxes, construct, given, assign, withAxes, setMajor, setMinor, Vars.empty, h1, h2, h3]

/-! ### C165: measured sizes of a copy -/

/-- A copy that is given no measured size has the measured size of the original, and one that is given a measured
diameter has that diameter. -/
theorem C165_kept_or_diameter (check : Bool) (M m d : ℝ) (hm : 0 < m) (h : m ≤ M) (hd : 0 < d) (a b : Option ℝ) :
    HasAxes (measured check true {} (ellipse M m) a b) M m ∧
    HasAxes (measured check true { diameter := some d } (ellipse M m) a b) (d / 2) (d / 2) := by
  rcases h.lt_or_eq with h | rfl
  · constructor
    · simp only [measured, collect, ellipse, entries_ellipse hm h, copyBranch, resolve, if_true]
      simpa using construct_axes hm h.le
    · have hd' : ¬ d / 2 ≤ 0 := by linarith
      simp only [measured, collect, ellipse, entries_ellipse hm h, copyBranch, resolve, if_true]
      simpa using construct_axes (show 0 < d / 2 by linarith) le_rfl
  · constructor
    · simp only [measured, collect, ellipse, entries_circle hm, copyBranch, resolve, if_true]
      simpa using construct_axes hm le_rfl
    · simp only [measured, collect, ellipse, entries_circle hm, copyBranch, resolve, if_true]
      simpa using construct_axes (show 0 < d / 2 by linarith) le_rfl

/-- If the original is not a circle, a copy has the measured radius or the measured axes that it is given; a single
axis is combined with the other axis of the original.  Missing from the full claim: originals that are circles, see
`C165_radius_fails` and `C165_axes_fails`. -/
theorem C165_ellipse_partial (check : Bool) (M m r x y : ℝ) (hm : 0 < m) (h : m < M) (hr : 0 < r) (hy : 0 < y) (hxy : y ≤ x)
    (a b : Option ℝ) :
    HasAxes (measured check true { radius := some r } (ellipse M m) a b) r r ∧
    HasAxes (measured check true { major := some x, minor := some y } (ellipse M m) a b) x y ∧
    (m ≤ x → HasAxes (measured check true { major := some x } (ellipse M m) a b) x m) ∧
    (y ≤ M → HasAxes (measured check true { minor := some y } (ellipse M m) a b) M y) := by
  refine ⟨?_, ?_, fun hx => ?_, fun hx => ?_⟩
  · simp only [measured, collect, ellipse, entries_ellipse hm h, copyBranch, resolve, if_true]
    simpa using construct_axes hr le_rfl
  · simp only [measured, collect, ellipse, entries_ellipse hm h, copyBranch, resolve, if_true]
    simpa using construct_axes hy hxy
  · simp only [measured, collect, ellipse, entries_ellipse hm h, copyBranch, resolve, if_true]
    simpa using construct_axes hm hx
  · simp only [measured, collect, ellipse, entries_ellipse hm h, copyBranch, resolve, if_true]
    simpa using construct_axes hy hx

/-- The full claim fails: a measured radius given to a copy of a circle is lost if it is smaller than the old one, and
otherwise makes an ellipse with the old radius as the other axis. -/
theorem C165_radius_fails (check : Bool) (R r : ℝ) (hR : 0 < R) (hr : 0 < r) (a b : Option ℝ) :
    HasAxes (measured check true { radius := some r } (ellipse R R) a b) (max r R) R := by
  have h1 : ¬ R ≤ 0 := not_le.2 hR
  have h2 : ¬ r ≤ 0 := not_le.2 hr
  simp only [measured, collect, ellipse, entries_circle hR, copyBranch, resolve, if_true]
  rcases lt_or_ge R r with h | h
  · rw [max_eq_left h.le]
    simp [HasAxes, construct, given, assign, withAxes, setRadius, setMajor, setMinor, Vars.empty, h1, h2, h, not_lt.2 h.le]
  · rw [max_eq_right h]
    simp [HasAxes, construct, given, assign, withAxes, setRadius, setMajor, setMinor, Vars.empty, h1, h2, not_lt.2 h]

/-- The full claim fails: measured axes given to a copy of a circle are lost. -/
theorem C165_axes_fails (check : Bool) (R : ℝ) (x y : Option ℝ) (hR : 0 < R) (a b : Option ℝ) :
    HasAxes (measured check true { major := x, minor := y } (ellipse R R) a b) R R := by
  simp only [measured, collect, ellipse, entries_circle hR, copyBranch, resolve, if_true]
  simpa using construct_axes hR le_rfl

/-- A crater of 10 by 8 copied with a measured radius of 9; a circle of 10 copied with a measured radius of 9. -/
example : HasAxes (measured true true { radius := some 9 } (ellipse 10 8) none none) 9 9 ∧
    HasAxes (measured true true { radius := some 9 } (ellipse 10 10) none none) 10 10 := by
  refine ⟨(C165_ellipse_partial true 10 8 9 1 1 (by norm_num) (by norm_num) (by norm_num) (by norm_num) le_rfl _ _).1, ?_⟩
  have := C165_radius_fails true 10 9 (by norm_num) (by norm_num) none none
  rwa [max_eq_right (by norm_num)] at this

/-! ### C166: measured size of a crater with a new size -/

/-- The measured axes of a new crater are its axes, unless a measured size is given: a diameter, a radius or both axes. -/
theorem C166_new (check : Bool) (p q d r x y : ℝ) (hq : 0 < q) (hpq : q ≤ p) (hd : 0 < d) (hr : 0 < r) (hy : 0 < y) (hxy : y ≤ x) :
    HasAxes (measured check false {} none (some p) (some q)) p q ∧
    HasAxes (measured check false { diameter := some d } none (some p) (some q)) (d / 2) (d / 2) ∧
    HasAxes (measured check false { radius := some r } none (some p) (some q)) r r ∧
    HasAxes (measured check false { major := some x, minor := some y } none (some p) (some q)) x y := by
  have h1 : ¬ d / 2 ≤ 0 := by linarith
  have h2 : ¬ r ≤ 0 := by linarith
  refine ⟨?_, ?_, ?_, ?_⟩
  · simp only [measured, collect, resolve]
    simpa using construct_axes hq hpq
  · simp [measured, collect, resolve, HasAxes, construct, given, assign, withAxes, setDiameter, setRadius, setMajor, setMinor,
      Vars.empty, h1]
  · simp [measured, collect, resolve, HasAxes, construct, given, assign, withAxes, setRadius, setMajor, setMinor, Vars.empty, h2]
  · simp only [measured, collect, resolve]
    simpa using construct_axes hy hxy

/-- One measured axis alone is an error, unless redundant arguments are allowed, when the crater is a circle. -/
theorem C166_single (x p q : ℝ) (hx : 0 < x) :
    measured true false { major := some x } none (some p) (some q) = none ∧
    measured true false { minor := some x } none (some p) (some q) = none ∧
    HasAxes (measured false false { major := some x } none (some p) (some q)) x x ∧
    HasAxes (measured false false { minor := some x } none (some p) (some q)) x x := by
  refine ⟨by simp [measured, collect, resolve], by simp [measured, collect, resolve], ?_, ?_⟩
  · simp only [measured, collect, resolve]
    simpa using construct_axes hx le_rfl
  · simp only [measured, collect, resolve]
    simpa using construct_axes hx le_rfl

/-- A crater made from another one with a new size has measured axes equal to the new axes, except exactly when the
original was a circle with a radius larger than the new semimajor axis. -/
theorem C166_resized_partial (check : Bool) (M m p q : ℝ) (hm : 0 < m) (h : m ≤ M) (hq : 0 < q) (hpq : q ≤ p) :
    HasAxes (measured check false {} (ellipse M m) (some p) (some q)) p q ↔ ¬ (m = M ∧ p < M) := by
  rcases h.lt_or_eq with h | rfl
  · have : ¬ (m = M ∧ p < M) := fun e => h.ne e.1
    simp only [this, not_false_eq_true, iff_true]
    simp only [measured, collect, ellipse, entries_ellipse hm h, resolve]
    simpa using construct_axes hq hpq
  · have h1 : ¬ m ≤ 0 := not_le.2 hm
    have h2 : ¬ q ≤ 0 := not_le.2 hq
    have h3 : ¬ p ≤ 0 := by linarith
    have h4 : ¬ p < q := not_lt.2 hpq
    simp only [measured, collect, ellipse, entries_circle hm, resolve]
    by_cases hp : p < m
    · have h5 : ¬ m < q := by linarith
      simp [HasAxes, construct, given, assign, withAxes, setDiameter, setRadius, setMajor, setMinor, Vars.empty, h1, h2, h3, hp, h5]
      exact fun e => absurd e hp.ne'
    · simp [HasAxes, construct, given, assign, withAxes, setDiameter, setRadius, setMajor, setMinor, Vars.empty, h1, h2, h3, hp, h4]

/-- The full claim fails: a crater made from a circle with a smaller size is measured as an ellipse with the old radius as its semimajor axis. -/
theorem C166_smaller_fails (check : Bool) (R p q : ℝ) (hq : 0 < q) (hpq : q ≤ p) (hp : p < R) :
    HasAxes (measured check false {} (ellipse R R) (some p) (some q)) R q := by
  have hR : 0 < R := by linarith
  have h1 : ¬ R ≤ 0 := not_le.2 hR
  have h2 : ¬ q ≤ 0 := not_le.2 hq
  have h3 : ¬ p ≤ 0 := by linarith
  have h5 : ¬ R < q := by linarith
  simp only [measured, collect, ellipse, entries_circle hR, resolve]
  simp [HasAxes, construct, given, assign, withAxes, setDiameter, setRadius, setMajor, setMinor, Vars.empty, h1, h2, h3, hp, h5]

/-- A crater of radius 50 made from one of radius 100. -/
example : HasAxes (measured true false {} (ellipse 100 100) (some 50) (some 50)) 100 50 :=
  C166_smaller_fails true 100 50 50 (by norm_num) le_rfl (by norm_num)

example : HasAxes (measured true false {} (ellipse 100 100) (some 150) (some 150)) 150 150 :=
  (C166_resized_partial true 100 100 150 150 (by norm_num) le_rfl (by norm_num) le_rfl).2 (by norm_num)

/-! ### C167: assigned attributes read back -/

/-- An assigned orientation reads back as the same direction in [0, 360), a location as the normalised location, heights,
depths and degradation as assigned, and None clears each of them; nothing else changes. -/
theorem C167_measured (s : Vars) (x : Option ℝ) (p : Option (ℝ × ℝ)) :
    (∃ o, assign s (.orientation x) = some { s with orientation := o } ∧ (o = none ↔ x = none) ∧
      ∀ u v, o = some u → x = some v → 0 ≤ u ∧ u < 360 ∧ ∃ k : ℤ, v = u + 360 * k) ∧
    assign s (.location p) = some { s with location := p.map normalizeCoords } ∧
    assign s (.rimHeight x) = some { s with rimHeight := x } ∧
    assign s (.floorDepth x) = some { s with floorDepth := x } ∧
    assign s (.degradation x) = some { s with degradation := x } := by
  refine ⟨⟨x.map fun v => pymod v 360, rfl, by cases x <;> simp, ?_⟩, rfl, rfl, rfl, rfl⟩
  rintro u v hu rfl
  simp only [Option.map_some, Option.some.injEq] at hu
  subst hu
  refine ⟨Verif.Location.pymod_nonneg (by norm_num), Verif.Location.pymod_lt (by norm_num), ⌊v / 360⌋, ?_⟩
  simp only [pymod]; ring

/-- Prescribed times, numbers, sequence numbers and names read back: a single time has deviation zero, as has a pair of
diameter and number; nothing else changes. -/
theorem C167_prescribed_partial (s : Vars) (t d n e : ℝ) (k : ℤ) (name : String) :
    assign s (.time (some (.num t))) = some { s with time := some (t, 0) } ∧
    assign s (.time (some (.seq [some t, some e]))) = some { s with time := some (t, e) } ∧
    assign s (.nd (some (.seq [some d, some n]))) = some { s with nd := some (d, n, 0) } ∧
    assign s (.nd (some (.seq [some d, some n, some e]))) = some { s with nd := some (d, n, e) } ∧
    assign s (.sequence (some k)) = some { s with sequence := some k } ∧
    assign s (.name (some name)) = some { s with name := some name } := by
  refine ⟨rfl, rfl, rfl, rfl, ?_, rfl⟩
  simp only [assign, setSequence, Int.floor_intCast, Int.ceil_intCast, ite_self]

/-- Sequences of a wrong length are rejected. -/
theorem C167_rejected (s : Vars) (l : List (Option ℝ)) :
    (l.length ≠ 2 → assign s (.time (some (.seq l))) = none) ∧
    (l.length ≠ 2 → l.length ≠ 3 → assign s (.nd (some (.seq l))) = none) := by
  constructor
  · intro h
    match l, h with
    | [], _ => rfl
    | [_], _ => cases ‹Option ℝ› <;> rfl
    | [_, _], h => simp at h
    | a :: b :: c :: l, _ => cases a <;> cases b <;> rfl
  · intro h h'
    match l, h, h' with
    | [], _, _ => rfl
    | [_], _, _ => cases ‹Option ℝ› <;> rfl
    | [_, _], h, _ => simp at h
    | [_, _, _], _, h => simp at h
    | a :: b :: c :: d :: l, _, _ => cases a <;> cases b <;> cases c <;> rfl

/-- The full claim fails: None does not clear a prescribed time, number, sequence number or name. -/
theorem C167_clear_fails (s : Vars) :
    assign s (.time none) = some s ∧ assign s (.nd none) = some s ∧ assign s (.sequence none) = some s ∧
    assign s (.name none) = some s := ⟨rfl, rfl, rfl, rfl⟩

example : ∃ s : Vars, s.name ≠ none ∧ s.time ≠ none ∧ assign s (.time none) = some s :=
  ⟨{ Vars.empty with name := some "Tycho", time := some (108, 4) }, by simp, by simp, rfl⟩

/-! ### C168: converted craters keep their variable attributes -/

/-- What holds for every crater: axes positive and in order, orientation in range, latitude in range. -/
def Inv (s : Vars) : Prop :=
  Ordered s.axes ∧ (∀ o, s.orientation = some o → 0 ≤ o ∧ o < 360) ∧ ∀ p, s.location = some p → LatInRange p.2

theorem assign_inv {s s' : Vars} (h : Inv s) (a : Assign) (e : assign s a = some s') : Inv s' := by
  obtain ⟨h1, h2, h3⟩ := h
  have ax : ∀ r : Option Axes, (∀ t, r = some t → Ordered t) → withAxes s r = some s' → Inv s' := by
    intro r hr he
    simp only [withAxes, Option.map_eq_some_iff] at he
    obtain ⟨t, ht, rfl⟩ := he
    exact ⟨hr t ht, h2, h3⟩
  cases a with
  | diameter v =>
    exact ax _ (fun t ht => Verif.Crater.assign_ordered (a := .diameter v) h1 ht) e
  | radius v => exact ax _ (fun t ht => Verif.Crater.setRadius_ordered h1 ht) e
  | major v => exact ax _ (fun t ht => Verif.Crater.setMajor_ordered h1 ht) e
  | minor v => exact ax _ (fun t ht => Verif.Crater.setMinor_ordered h1 ht) e
  | orientation v =>
    simp only [assign, setOrientation, Option.some.injEq] at e
    subst e
    refine ⟨h1, ?_, h3⟩
    intro o ho
    simp only [Option.map_eq_some_iff] at ho
    obtain ⟨x, _, rfl⟩ := ho
    exact ⟨Verif.Location.pymod_nonneg (by norm_num), Verif.Location.pymod_lt (by norm_num)⟩
  | location v =>
    simp only [assign, setLocation, Option.some.injEq] at e
    subst e
    refine ⟨h1, h2, ?_⟩
    intro p hp
    simp only [Option.map_eq_some_iff] at hp
    obtain ⟨x, _, rfl⟩ := hp
    exact Verif.Location.C01_lat_range x
  | rimHeight v => simp only [assign, setRimHeight, Option.some.injEq] at e; subst e; exact ⟨h1, h2, h3⟩
  | floorDepth v => simp only [assign, setFloorDepth, Option.some.injEq] at e; subst e; exact ⟨h1, h2, h3⟩
  | degradation v => simp only [assign, setDegradation, Option.some.injEq] at e; subst e; exact ⟨h1, h2, h3⟩
  | time v =>
    simp only [assign] at e
    unfold setTime at e
    split at e <;> first | (cases e; exact ⟨h1, h2, h3⟩) | cases e
  | nd v =>
    simp only [assign] at e
    unfold setND at e
    split at e <;> first | (cases e; exact ⟨h1, h2, h3⟩) | cases e
  | sequence v =>
    cases v <;> (simp only [assign, setSequence, Option.some.injEq] at e; subst e; exact ⟨h1, h2, h3⟩)
  | name v =>
    cases v <;> (simp only [assign, setName, Option.some.injEq] at e; subst e; exact ⟨h1, h2, h3⟩)

theorem history_inv (as : List Assign) (s : Vars) (h : Inv s) : Inv (history s as) := by
  induction as generalizing s with
  | nil => exact h
  | cons a as ih =>
    apply ih
    rcases e : assign s a with _ | s'
    · exact h
    · exact assign_inv h a e

theorem empty_inv : Inv Vars.empty := by
  refine ⟨⟨?_, ?_, ?_⟩, ?_, ?_⟩ <;> simp [Vars.empty]

theorem normalize_eq {p : ℝ × ℝ} (h1 : LonInRange p.1) (h2 : LatInRange p.2) : normalizeCoords p = p := by
  obtain ⟨lon, lat⟩ := p
  obtain ⟨a, b⟩ := h1
  simp only at a b h2
  have c := Verif.Location.clip_id h2
  simp only [normalizeCoords, not_lt.2 h2.1, not_lt.2 h2.2, if_false, c]
  rw [Verif.Location.pymod_eq_self (by norm_num) (by linarith) (by linarith)]
  simp

/-- The measured size after conversion: the same, except that a semiminor axis alone is lost. -/
theorem convert_axes {s : Vars} (h : Ordered s.axes) :
    given .minor (asDict s).minor (given .major (asDict s).major (given .radius (asDict s).radius
      (given .diameter (asDict s).diameter (some .empty)))) =
    some { Vars.empty with axes := if s.axes.major = none then ⟨none, none⟩ else s.axes } := by
  obtain ⟨⟨M, m⟩, _, _, _, _, _, _, _, _, _⟩ := s
  obtain ⟨h1, h2, h3⟩ := h
  simp only at h1 h2 h3
  cases M with
  | none => simp [asDict, sizeEntries, given, Vars.empty]
  | some M =>
    have hM := h1 M rfl
    have hM' : ¬ M ≤ 0 := not_le.2 hM
    cases m with
    | none =>
      simp [asDict, sizeEntries, Verif.Crater.radius, given, assign, withAxes, setMajor, Vars.empty, hM']
    | some m =>
      have hm := h2 m rfl
      have hm' : ¬ m ≤ 0 := not_le.2 hm
      rcases (h3 M m rfl rfl).lt_or_eq with hlt | rfl
      · simp [asDict, entries_ellipse hm hlt, given, assign, withAxes, setMajor, setMinor, Vars.empty, hM', hm', not_lt.2 hlt.le]
      · simp [asDict, entries_circle hm, given, assign, withAxes, setDiameter, setRadius, setMajor, setMinor, Vars.empty, hm']

theorem convert_eq {s : Vars} (h : Inv s) :
    convert s = some { s with
      axes := if s.axes.major = none then ⟨none, none⟩ else s.axes
      location := s.location.map normalizeCoords } := by
  obtain ⟨h1, h2, h3⟩ := h
  have hax := convert_axes h1
  simp only [convert, construct, hax]
  obtain ⟨ax, ori, loc, rim, fl, deg, tim, nd, sq, nam⟩ := s
  simp only at h2
  have ho : ∀ o, ori = some o → pymod o 360 = o := fun o e =>
    Verif.Location.pymod_eq_self (by norm_num) (h2 o e).1 (h2 o e).2
  simp only [asDict, Vars.empty]
  generalize (if ax.major = none then (⟨none, none⟩ : Axes) else ax) = z
  have e1 : given .orientation ori (some ⟨z, none, none, none, none, none, none, none, none, none⟩) =
      some ⟨z, ori, none, none, none, none, none, none, none, none⟩ := by
    cases ori with
    | none => rfl
    | some o => simp [given, assign, setOrientation, ho o rfl]
  have e2 : given .location loc (some ⟨z, ori, none, none, none, none, none, none, none, none⟩) =
      some ⟨z, ori, loc.map normalizeCoords, none, none, none, none, none, none, none⟩ := by
    cases loc <;> rfl
  generalize loc.map normalizeCoords = loc' at *
  have e3 : given .rimHeight rim (some ⟨z, ori, loc', none, none, none, none, none, none, none⟩) =
      some ⟨z, ori, loc', rim, none, none, none, none, none, none⟩ := by cases rim <;> rfl
  have e4 : given .floorDepth fl (some ⟨z, ori, loc', rim, none, none, none, none, none, none⟩) =
      some ⟨z, ori, loc', rim, fl, none, none, none, none, none⟩ := by cases fl <;> rfl
  have e5 : given .degradation deg (some ⟨z, ori, loc', rim, fl, none, none, none, none, none⟩) =
      some ⟨z, ori, loc', rim, fl, deg, none, none, none, none⟩ := by cases deg <;> rfl
  rw [e1, e2, e3, e4, e5]
  cases tim <;> cases nd <;> cases sq <;> cases nam <;>
    simp [given, assign, setTime, setND, setSequence, setName]

/-- Converting a crater with any history keeps all its variable attributes, except that a measured semiminor axis is
lost if there is no measured semimajor axis, and that a location whose longitude was left out of range is normalised
again. -/
theorem C168_converted_partial (as : List Assign) (s : Vars) (hs : s = history .empty as)
    (hax : s.axes.major = none → s.axes.minor = none) (hloc : ∀ p, s.location = some p → LonInRange p.1) :
    convert s = some s := by
  have h := history_inv as _ empty_inv
  rw [← hs] at h
  rw [convert_eq h]
  have hl : s.location.map normalizeCoords = s.location := by
    cases e : s.location with
    | none => rfl
    | some p => simp only [Option.map_some]; rw [normalize_eq (hloc p e) (h.2.2 p e)]
  rw [hl]
  have ha : (if s.axes.major = none then ⟨none, none⟩ else s.axes) = s.axes := by
    split_ifs with hn
    · have := hax hn
      generalize s.axes = z at hn this
      obtain ⟨M, m⟩ := z
      simp only at hn this
      rw [hn, this]
    · rfl
  rw [ha]

/-- Even then, the crater stays at the same point of the sphere and conversion succeeds. -/
theorem C168_same_point (as : List Assign) :
    ∃ t, convert (history .empty as) = some t ∧
      (t.location.map spherePoint = (history .empty as).location.map spherePoint) ∧
      t.orientation = (history .empty as).orientation ∧ t.name = (history .empty as).name := by
  have h := history_inv as _ empty_inv
  refine ⟨_, convert_eq h, ?_, rfl, rfl⟩
  generalize history .empty as = s at h
  cases e : s.location with
  | none => rfl
  | some p =>
    have hp := h.2.2 p e
    simp only [Option.map_some, Option.some.injEq]
    exact Verif.Location.C01_same_point_partial p (by
      rw [abs_le]; exact ⟨by linarith [hp.1], by linarith [hp.2]⟩)

/-- The full claim fails: a crater keeps its measured axes in a conversion exactly if it has a measured semimajor axis or no measured semiminor axis
either; otherwise it has none afterwards. -/
theorem C168_minor_fails (as : List Assign) :
    ∃ t, convert (history .empty as) = some t ∧
      (t.axes = (history .empty as).axes ↔ ((history .empty as).axes.major = none → (history .empty as).axes.minor = none)) ∧
      ((history .empty as).axes.major = none → t.axes = ⟨none, none⟩) := by
  have h := history_inv as _ empty_inv
  refine ⟨_, convert_eq h, ?_, ?_⟩
  · dsimp only
    generalize (history .empty as).axes = z
    obtain ⟨M, m⟩ := z
    dsimp only
    split_ifs with hn
    · subst hn
      simp [eq_comm]
    · simp [hn]
  · intro hn
    dsimp only
    rw [if_pos hn]

/-- A semiminor axis alone. -/
example : (history .empty [.minor (some 3)]).axes = ⟨none, some 3⟩ := by
  norm_num [history, assign, withAxes, setMinor, Vars.empty]

/-- A crater with some attributes set is converted unchanged. -/
example : ∃ s : Vars, s = history .empty [.diameter (some 10), .orientation (some 370), .name (some "Tycho")] ∧
    s.axes = ⟨some 5, some 5⟩ ∧ s.name = some "Tycho" ∧ convert s = some s := by
  refine ⟨_, rfl, ?_, ?_, ?_⟩
  · norm_num [history, assign, withAxes, setDiameter, setRadius, setMajor, setMinor, setOrientation, setName, Vars.empty]
  · simp [history, assign, withAxes, setDiameter, setRadius, setMajor, setMinor, setOrientation, setName, Vars.empty]
  · refine C168_converted_partial _ _ rfl ?_ ?_
    · norm_num [history, assign, withAxes, setDiameter, setRadius, setMajor, setMinor, setOrientation, setName, Vars.empty]
    · norm_num [history, assign, withAxes, setDiameter, setRadius, setMajor, setMinor, setOrientation, setName, Vars.empty]
      rintro _ _ ⟨⟩

end Verif.CraterCopy
