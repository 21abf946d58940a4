import Verif.Model.Location
import Mathlib.Analysis.SpecialFunctions.Trigonometric.Basic
import Mathlib.Tactic.Linarith
import Mathlib.Tactic.NormNum
import Mathlib.Tactic.FieldSimp
import Mathlib.Tactic.Ring

/-! Property C01 and C71: coordinate normalisation. -/

namespace Verif.Location

open Real

/-! ### Specification -/

/-- The point of the unit sphere with the given longitude and latitude in degrees. -/
noncomputable def spherePoint (loc : ℝ × ℝ) : ℝ × ℝ × ℝ :=
  let lam := loc.1 * (π / 180)
  let phi := loc.2 * (π / 180)
  (cos phi * cos lam, cos phi * sin lam, sin phi)

/-- Documented range of the longitude. -/
def LonInRange (lon : ℝ) : Prop := -180 ≤ lon ∧ lon < 180

/-- Documented range of the latitude. -/
def LatInRange (lat : ℝ) : Prop := -90 ≤ lat ∧ lat ≤ 90

/-! ### Helper lemmas -/

theorem pymod_nonneg {a b : ℝ} (hb : 0 < b) : 0 ≤ pymod a b := by
  unfold pymod
  have h := Int.floor_le (a / b)
  have : b * ⌊a / b⌋ ≤ b * (a / b) := mul_le_mul_of_nonneg_left h hb.le
  have e : b * (a / b) = a := by field_simp
  linarith

theorem pymod_lt {a b : ℝ} (hb : 0 < b) : pymod a b < b := by
  unfold pymod
  have h := Int.lt_floor_add_one (a / b)
  have : b * (a / b) < b * (⌊a / b⌋ + 1) := mul_lt_mul_of_pos_left h hb
  have e : b * (a / b) = a := by field_simp
  linarith

theorem pymod_eq_self {a b : ℝ} (hb : 0 < b) (h0 : 0 ≤ a) (h1 : a < b) : pymod a b = a := by
  unfold pymod
  have : ⌊a / b⌋ = 0 := by
    rw [Int.floor_eq_zero_iff]
    exact ⟨div_nonneg h0 hb.le, (div_lt_one hb).2 h1⟩
  simp [this]

theorem clip_range (x : ℝ) : LatInRange (clip x (-90) 90) := by
  unfold clip LatInRange
  refine ⟨le_min (le_max_right _ _) (by norm_num), min_le_right _ _⟩

theorem clip_id {x : ℝ} (h : LatInRange x) : clip x (-90) 90 = x := by
  unfold clip
  rw [max_eq_left h.1, min_eq_left h.2]

/-! ### C01 -/

/-- The returned latitude is always in [-90, 90]. -/
theorem C01_lat_range (loc : ℝ × ℝ) : LatInRange (normalizeCoords loc).2 := by
  unfold normalizeCoords
  exact clip_range _

/-- For inputs whose latitude is a latitude, the longitude is in [-180, 180).
Missing from the full statement: latitudes beyond the poles (see `C01_lon_range_iff`). -/
theorem C01_lon_range_partial (loc : ℝ × ℝ) (h : LatInRange loc.2) :
    LonInRange (normalizeCoords loc).1 := by
  obtain ⟨h1, h2⟩ := h
  unfold normalizeCoords LonInRange
  simp only [not_lt.2 h2, not_lt.2 h1, if_false]
  have a := pymod_nonneg (a := loc.1 + 180) (b := 360) (by norm_num)
  have b := pymod_lt (a := loc.1 + 180) (b := 360) (by norm_num)
  constructor <;> linarith

/-- Exact extent of the range defect: over the pole the flipped longitude is not wrapped, so it
is in range only if the input longitude was in [0, 360). -/
theorem C01_lon_range_iff (loc : ℝ × ℝ) :
    LonInRange (normalizeCoords loc).1 ↔ (LatInRange loc.2 ∨ (0 ≤ loc.1 ∧ loc.1 < 360)) := by
  constructor
  · intro h
    by_cases hl : LatInRange loc.2
    · exact Or.inl hl
    · right
      unfold LatInRange at hl
      unfold normalizeCoords LonInRange at h
      by_cases h2 : loc.2 > 90
      · simp only [h2, if_true] at h
        constructor <;> linarith [h.1, h.2]
      · have h3 : loc.2 < -90 := by
          by_contra h3
          exact hl ⟨not_lt.1 h3, not_lt.1 h2⟩
        simp only [h2, h3, if_true, if_false] at h
        constructor <;> linarith [h.1, h.2]
  · rintro (h | h)
    · exact C01_lon_range_partial loc h
    · by_cases hl : LatInRange loc.2
      · exact C01_lon_range_partial loc hl
      · unfold LatInRange at hl
        unfold normalizeCoords LonInRange
        by_cases h2 : loc.2 > 90
        · simp only [h2, if_true]
          constructor <;> linarith [h.1, h.2]
        · have h3 : loc.2 < -90 := by
            by_contra h3
            exact hl ⟨not_lt.1 h3, not_lt.1 h2⟩
          simp only [h2, h3, if_true, if_false]
          constructor <;> linarith [h.1, h.2]

/-- The documented range is not guaranteed: the point (-100, 95) is mapped to longitude -280. -/
theorem C01_lon_range_fails : ∃ loc, ¬ LonInRange (normalizeCoords loc).1 := by
  refine ⟨(-100, 95), ?_⟩
  rw [C01_lon_range_iff]
  simp only [LatInRange]
  norm_num

/-- Up to one trip over a pole (|lat| ≤ 270) the result is the same point of the sphere.
Missing from the full statement: latitudes beyond ±270 (see `C01_same_point_fails`). -/
theorem C01_same_point_partial (loc : ℝ × ℝ) (h : |loc.2| ≤ 270) :
    spherePoint (normalizeCoords loc) = spherePoint loc := by
  obtain ⟨lon, lat⟩ := loc
  rw [abs_le] at h
  simp only at h
  unfold normalizeCoords spherePoint
  by_cases h2 : lat > 90
  · have hc : clip (180 - lat) (-90) 90 = 180 - lat :=
      clip_id ⟨by linarith [h.2], by linarith⟩
    simp only [h2, if_true, hc]
    have e1 : (180 - lat) * (π / 180) = π - lat * (π / 180) := by ring
    have e2 : (lon - 180) * (π / 180) = lon * (π / 180) - π := by ring
    rw [e1, e2, cos_pi_sub, sin_pi_sub, cos_sub_pi, sin_sub_pi]
    simp
  · by_cases h3 : lat < -90
    · have hc : clip (-180 - lat) (-90) 90 = -180 - lat :=
        clip_id ⟨by linarith, by linarith [h.1]⟩
      simp only [h2, h3, if_true, if_false, hc]
      have e1 : (-180 - lat) * (π / 180) = -(lat * (π / 180) + π) := by ring
      have e2 : (lon - 180) * (π / 180) = lon * (π / 180) - π := by ring
      rw [e1, e2, cos_neg, sin_neg, cos_add_pi, sin_add_pi, cos_sub_pi, sin_sub_pi]
      simp
    · have hc : clip lat (-90) 90 = lat := clip_id ⟨not_lt.1 h3, not_lt.1 h2⟩
      simp only [h2, h3, if_false, hc]
      have e2 : (pymod (lon + 180) 360 - 180) * (π / 180)
          = lon * (π / 180) - ⌊(lon + 180) / 360⌋ * (2 * π) := by
        unfold pymod; ring
      rw [e2, cos_sub_int_mul_two_pi, sin_sub_int_mul_two_pi]

/-- Beyond ±270 the clip moves the point to a pole: latitude 360 is the equator, but the result
is the south pole. -/
theorem C01_same_point_fails :
    ∃ loc, spherePoint (normalizeCoords loc) ≠ spherePoint loc := by
  refine ⟨(0, 360), ?_⟩
  unfold normalizeCoords spherePoint clip
  norm_num
  intro _ _
  have e : (90 * (π / 180) : ℝ) = π / 2 := by ring
  have e2 : (360 * (π / 180) : ℝ) = 2 * π := by ring
  rw [e, e2]
  simp

/-- Exact extent of the defect: beyond ±270 the point is kept only if it is the pole that the clip moves everything to. -/
theorem C01_same_point_iff (loc : ℝ × ℝ) : spherePoint (normalizeCoords loc) = spherePoint loc ↔
    |loc.2| ≤ 270 ∨ (270 < loc.2 ∧ sin (loc.2 * (π / 180)) = -1) ∨ (loc.2 < -270 ∧ sin (loc.2 * (π / 180)) = 1) := by
  by_cases h : |loc.2| ≤ 270
  · exact ⟨fun _ => .inl h, fun _ => C01_same_point_partial loc h⟩
  obtain ⟨lon, lat⟩ := loc
  simp only at h ⊢
  have hcos : ∀ x : ℝ, sin x ^ 2 = 1 → cos x = 0 := by
    intro x hx
    have := sin_sq_add_cos_sq x
    have h0 : cos x ^ 2 = 0 := by linarith
    exact pow_eq_zero_iff (by norm_num) |>.mp h0
  have e90 : (90 * (π / 180) : ℝ) = π / 2 := by ring
  have e90' : (-90 * (π / 180) : ℝ) = -(π / 2) := by ring
  rw [abs_le, not_and_or, not_le, not_le] at h
  by_cases h2 : 270 < lat
  · have hc : clip (180 - lat) (-90) 90 = -90 := by
      unfold clip
      rw [max_eq_right (by linarith), min_eq_left (by norm_num)]
    unfold normalizeCoords spherePoint
    simp only [show lat > 90 by linarith, if_true, hc, e90', cos_neg, sin_neg, cos_pi_div_two, sin_pi_div_two, zero_mul]
    constructor
    · intro e
      simp only [Prod.mk.injEq] at e
      exact .inr (.inl ⟨h2, e.2.2.symm⟩)
    · rintro (e | e | e)
      · exact absurd (abs_le.mp e).2 (not_le.mpr h2)
      · rw [e.2, hcos _ (by rw [e.2]; norm_num)]
        simp
      · linarith [e.1]
  · have h3 : lat < -270 := by
      rcases h with h | h
      · exact h
      · exact absurd h h2
    have hc : clip (-180 - lat) (-90) 90 = 90 := by
      unfold clip
      rw [max_eq_left (by linarith), min_eq_right (by linarith)]
    unfold normalizeCoords spherePoint
    simp only [show ¬ lat > 90 by linarith, show lat < -90 by linarith, if_true, if_false, hc, e90, cos_pi_div_two, sin_pi_div_two,
      zero_mul]
    constructor
    · intro e
      simp only [Prod.mk.injEq] at e
      exact .inr (.inr ⟨h3, e.2.2.symm⟩)
    · rintro (e | e | e)
      · exact absurd (abs_le.mp e).1 (not_le.mpr h3)
      · linarith [e.1]
      · rw [e.2, hcos _ (by rw [e.2]; norm_num)]
        simp

/-- Normalising twice is the same as normalising once, when the latitude is a latitude. -/
theorem C01_idempotent_partial (loc : ℝ × ℝ) (h : LatInRange loc.2) :
    normalizeCoords (normalizeCoords loc) = normalizeCoords loc := by
  have hr := C01_lon_range_partial loc h
  have hl := C01_lat_range loc
  generalize normalizeCoords loc = p at *
  obtain ⟨lon, lat⟩ := p
  obtain ⟨a, b⟩ := hr
  obtain ⟨c, d⟩ := hl
  simp only at a b c d
  unfold normalizeCoords
  simp only [not_lt.2 c, not_lt.2 d, if_false]
  rw [pymod_eq_self (by norm_num) (by linarith) (by linarith), clip_id ⟨c, d⟩]
  simp

/-- Exact extent of that: normalising twice is the same as normalising once exactly where the longitude is right at once. -/
theorem C01_idempotent_iff (loc : ℝ × ℝ) :
    normalizeCoords (normalizeCoords loc) = normalizeCoords loc ↔ (LatInRange loc.2 ∨ (0 ≤ loc.1 ∧ loc.1 < 360)) := by
  rw [← C01_lon_range_iff]
  have hl := C01_lat_range loc
  generalize normalizeCoords loc = p at *
  obtain ⟨lon, lat⟩ := p
  obtain ⟨c, d⟩ := hl
  simp only at c d
  constructor
  · intro h
    rw [← h]
    exact C01_lon_range_partial _ ⟨c, d⟩
  · rintro ⟨a, b⟩
    simp only at a b
    unfold normalizeCoords
    simp only [not_lt.2 c, not_lt.2 d, if_false]
    rw [pymod_eq_self (by norm_num) (by linarith) (by linarith), clip_id ⟨c, d⟩]
    simp

/-- Over the pole, normalising is not idempotent. -/
theorem C01_idempotent_fails :
    ∃ loc, normalizeCoords (normalizeCoords loc) ≠ normalizeCoords loc := by
  refine ⟨(-100, 95), fun h => ?_⟩
  have h1 : LonInRange (normalizeCoords (normalizeCoords (-100, 95))).1 :=
    C01_lon_range_partial _ (C01_lat_range _)
  rw [h, C01_lon_range_iff] at h1
  simp only [LatInRange] at h1
  norm_num at h1

-- the hypotheses are met by ordinary inputs
example : LatInRange ((10, 45) : ℝ × ℝ).2 := by norm_num [LatInRange]
example : |((370, 95) : ℝ × ℝ).2| ≤ 270 := by norm_num [abs_le]
example : normalizeCoords (370, 45) = (10, 45) := by
  unfold normalizeCoords clip pymod
  norm_num

/-! ### C71: collections of locations -/

/-- What the documentation promises for a collection of pairs: one pair gives one location,
several give the list of normalised locations. -/
noncomputable def expected : List (ℝ × ℝ) → Option LocRes
  | [] => none
  | [p] => some (.one (normalizeCoords p))
  | ps => some (.many (ps.map normalizeCoords))

/-- Forget that a row is a pair. -/
def row (p : ℝ × ℝ) : List ℝ := [p.1, p.2]

theorem validateAll_rows (ps : List (ℝ × ℝ)) :
    validateAll (ps.map row) = .ok (ps.map normalizeCoords) := by
  induction ps with
  | nil => rfl
  | cons p ps ih => simp [validateAll, row, validateFlat] at *; simp [ih]

/-- Two-dimensional arrays of any number of rows are normalised row by row. -/
theorem C71_array_elementwise (ps : List (ℝ × ℝ)) (r : LocRes) (h : expected ps = some r) :
    validateLocation (.array2 ps) = .ok r := by
  match ps, h with
  | [p], h => simp [expected] at h; simp [validateLocation, h]
  | p :: q :: ps, h => simp [expected] at h; simp [validateLocation, ← h]

/-- Lists of pairs are normalised pair by pair, except lists of exactly two pairs.
Missing from the full statement: the two-element list, see `C71_list_of_two_fails`. -/
theorem C71_list_elementwise_partial (ps : List (ℝ × ℝ)) (h2 : ps.length ≠ 2) (r : LocRes)
    (h : expected ps = some r) : validateLocation (.rows (ps.map row)) = .ok r := by
  match ps, h, h2 with
  | [p], h, _ =>
    simp [expected] at h
    simp [validateLocation, row, validateFlat, Except.map, h]
  | p :: q :: s :: ps, h, _ =>
    simp [expected] at h
    have := validateAll_rows (p :: q :: s :: ps)
    simp only [List.map_cons] at this
    subst h
    simp only [validateLocation, List.map_cons]
    have hl : (row p).length = 2 := rfl
    simp [hl, this, Except.map]

/-- One location means the same however it is written: as a pair, as a dictionary with the two keys, as a list with
one pair, or as an array with one row; longitude and latitude are not exchanged. -/
theorem C71_single (lon lat : ℝ) (a : LocArg)
    (ha : a = .flat [lon, lat] ∨ a = .dict (some lon) (some lat) ∨ a = .rows [[lon, lat]] ∨ a = .array2 [(lon, lat)]) :
    validateLocation a = .ok (.one (normalizeCoords (lon, lat))) := by
  rcases ha with rfl | rfl | rfl | rfl <;> simp [validateLocation, validateFlat, Except.map]

/-- A dictionary without one of the keys, and a flat sequence of any other length, are rejected. -/
theorem C71_rejected (a : LocArg)
    (ha : (∃ o, a = .dict none o ∨ a = .dict o none) ∨ ∃ xs : List ℝ, xs.length ≠ 2 ∧ a = .flat xs) :
    ∃ e, validateLocation a = .error e := by
  rcases ha with ⟨o, rfl | rfl⟩ | ⟨xs, hx, rfl⟩
  · exact ⟨_, rfl⟩
  · cases o <;> exact ⟨_, rfl⟩
  · match xs, hx with
    | [], _ => exact ⟨_, rfl⟩
    | [x], _ => exact ⟨_, rfl⟩
    | x :: y :: z :: r, _ => exact ⟨_, rfl⟩

example : validateLocation (.dict (some 370) (some 20)) = .ok (.one (normalizeCoords (370, 20))) :=
  C71_single 370 20 _ (Or.inr (Or.inl rfl))

/-- A list of exactly two locations is taken for one pair and fails with a TypeError. -/
theorem C71_list_of_two_fails (p q : ℝ × ℝ) :
    validateLocation (.rows [row p, row q]) = .error .typeError := rfl

example : expected [((0 : ℝ), (1 : ℝ)), (2, 3), (4, 5)] ≠ none := by simp [expected]

end Verif.Location
