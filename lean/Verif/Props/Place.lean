import Verif.Model.Place
import Verif.Props.Points

/-!
# C199: A crater lies where it is placed
-/

namespace Verif.Place

open Location Points Sphere Real

/-- The pair is the location written with a longitude from -180 (included) to 180 (excluded). -/
def Here (lon lat : ℝ) (p : ℝ × ℝ) : Prop :=
  p.2 = lat ∧ -180 ≤ p.1 ∧ p.1 < 180 ∧ ∃ k : ℤ, p.1 = lon + 360 * k

theorem here_normalize {lon lat : ℝ} (h1 : -90 ≤ lat) (h2 : lat ≤ 90) : Here lon lat (normalizeCoords (lon, lat)) := by
  have a := C01_lon_range_partial (lon, lat) ⟨h1, h2⟩
  refine ⟨?_, a.1, a.2, ?_⟩
  · unfold normalizeCoords
    simp only [not_lt.2 h1, not_lt.2 h2, if_false]
    exact clip_id ⟨h1, h2⟩
  · refine ⟨-⌊(lon + 180) / 360⌋, ?_⟩
    unfold normalizeCoords pymod
    simp only [not_lt.2 h1, not_lt.2 h2, if_false]
    push_cast
    ring

theorem here_fix {lon lat : ℝ} {p : ℝ × ℝ} (h1 : -90 ≤ lat) (h2 : lat ≤ 90) (h : Here lon lat p) : normalizeCoords p = p :=
  normalize_id p h.2.1 h.2.2.1 (h.1 ▸ h1) (h.1 ▸ h2)

/-- A new crater with a size and one location lies there, in whichever of the three ways the location is written, and its measured location is
the same unless another is given.  What is left out: latitudes beyond the poles. -/
theorem C199_here_partial (check : Bool) (old : Option Old) (own : ℝ × ℝ) (lon lat : ℝ) (h1 : -90 ≤ lat) (h2 : lat ≤ 90) :
    ∃ p, Here lon lat p ∧
      make check true old own (some (.flat [lon, lat])) none none none none = .ok ⟨p, p⟩ ∧
      make check true old own none (some lon) (some lat) none none = .ok ⟨p, p⟩ ∧
      make check true old own none none none (some (.flat [lon, lat])) none = .ok ⟨p, p⟩ ∧
      ∀ mlon mlat, -90 ≤ mlat → mlat ≤ 90 → ∃ m, Here mlon mlat m ∧
        make check true old own (some (.flat [lon, lat])) none none none (some (mlon, mlat)) = .ok ⟨p, m⟩ := by
  have hp := here_normalize (lon := lon) h1 h2
  have hf := here_fix h1 h2 hp
  refine ⟨_, hp, ?_, ?_, ?_, fun mlon mlat g1 g2 => ⟨_, here_normalize (lon := mlon) g1 g2, ?_⟩⟩ <;>
    simp [make, chosen, orProjectile, fresh, orOld, validateLocation, validateFlat, Except.map, finish, hf]

/-- A crater placed by a distance and a bearing lies at that distance from the reference location and in that direction.  The reference
location is the one given or else the centre of the local region.  The measured location is the same. -/
theorem C199_relative (R : ℝ) (hR : 0 < R) (centre : Option (ℝ × ℝ)) (check : Bool) (old : Option Old) (own : ℝ × ℝ)
    (lon lat d b : ℝ) (hlat : -90 < lat ∧ lat < 90) (hd : 0 < d ∧ d < π * R) (hb : 0 ≤ b ∧ b < 360) :
    ∃ p, makeRel R centre (some ⟨some [d], some [b], .given (.flat [lon, lat]), false⟩) check true old own none none none none none = .ok ⟨p, p⟩ ∧
      makeRel R (some (lon, lat)) (some ⟨some [d], some [b], .absent, false⟩) check true old own none none none none none = .ok ⟨p, p⟩ ∧
      makeRel R (some (lon, lat)) (some ⟨some [d], some [b], .null, false⟩) check true old own none none none none none = .ok ⟨p, p⟩ ∧
      computeDistances R none (.flat [p.1, p.2]) (some (.flat [lon, lat])) = .ok [d] ∧
      computeBearings none (.flat [p.1, p.2]) (some (.flat [lon, lat])) = .ok [b] := by
  obtain ⟨r, hr⟩ := (C187_accepted R none lon lat [d] [b]).1.2 (by simp)
  have hdist := C187_distances_partial R hR none _ [d] [b] r hr (by simp; exact ⟨hd.1.le, hd.2.le⟩) (by simp)
  have hbear := C187_bearings R hR none lon lat hlat [d] [b] r hr (by simpa using hd) (by simpa using hb)
  obtain ⟨q, hq, -, -, ⟨x, hx, rfl⟩ | ⟨h2, -⟩⟩ := locations_ok hr
  · have hn := normalize_dest R q x
    refine ⟨dest R q x, ?_, ?_, ?_, hdist, hbear⟩ <;>
      simp [makeRel, relative, refArg, hr, LocRes.arg, make, chosen, orProjectile, fresh, orOld, validateLocation, validateFlat, Except.map, finish,
        hn]
  · simp at h2

/-- What decides where the crater lies is given at most once when redundant arguments are checked, and a longitude comes with a latitude in any
case. -/
theorem C199_once (R : ℝ) (centre : Option (ℝ × ℝ)) (rel : Option Rel) (check sized : Bool) (old : Option Old) (own : ℝ × ℝ)
    (location : Option LocArg) (lon lat : Option ℝ) (projectile : Option LocArg) (measured : Option (ℝ × ℝ)) (pl : Placed)
    (h : makeRel R centre rel check sized old own location lon lat projectile measured = .ok pl) :
    lon.isSome = lat.isSome ∧
      (check = true → [location.isSome, lon.isSome, projectile.isSome, rel.isSome].count true ≤ 1) := by
  have key : ∀ loc, make check sized old own loc lon lat projectile measured = .ok pl →
      lon.isSome = lat.isSome ∧ (check = true → [loc.isSome, lon.isSome, projectile.isSome].count true ≤ 1) := by
    intro loc h
    unfold make at h
    cases lon <;> cases lat <;> cases check <;> cases loc <;> cases projectile <;>
      simp_all [chosen, orProjectile]
  cases rel with
  | none =>
    refine ⟨(key location h).1, fun hc => ?_⟩
    simpa [List.count_cons] using (key location h).2 hc
  | some r =>
    simp only [makeRel] at h
    split_ifs at h with hc
    split at h
    · cases h
    refine ⟨(key _ h).1, fun hch => ?_⟩
    have := (key _ h).2 hch
    subst hch
    cases location <;> simp_all [List.count_cons]

/-- Unchecked, the longitude and latitude count first, then the relative location, the location, and the location of the projectile. -/
theorem C199_first (R : ℝ) (centre : Option (ℝ × ℝ)) (sized : Bool) (old : Option Old) (own : ℝ × ℝ)
    (rel : Option Rel) (a : Option LocArg) (projectile : Option LocArg) (measured : Option (ℝ × ℝ)) :
    (∀ lon lat, (∀ r, rel = some r → ∃ l, relative R centre r = .ok l) →
      makeRel R centre rel false sized old own a (some lon) (some lat) projectile measured =
        makeRel R centre none false sized old own none (some lon) (some lat) none measured) ∧
    (∀ r, makeRel R centre (some r) false sized old own a none none projectile measured =
      makeRel R centre (some r) false sized old own none none none none measured) ∧
    (∀ l, makeRel R centre none false sized old own (some l) none none projectile measured =
      makeRel R centre none false sized old own (some l) none none none measured) := by
  refine ⟨fun lon lat hr => ?_, fun r => ?_, fun l => ?_⟩
  · cases rel with
    | none => simp [makeRel, make, chosen, orProjectile]
    | some r =>
      obtain ⟨l, hl⟩ := hr r rfl
      simp [makeRel, make, chosen, orProjectile, hl]
  · simp only [makeRel, Bool.and_false, Bool.false_eq_true, if_false]
    split <;> simp [make, chosen, orProjectile]
  · simp [makeRel, make, chosen, orProjectile]

/-- Relative locations that are refused: without a distance or a bearing, with other entries, with several places, or without a reference
location on a surface without a local region. -/
theorem C199_refused (R : ℝ) (r : Rel) (centre : Option (ℝ × ℝ)) (sized : Bool) (old : Option Old) (own : ℝ × ℝ)
    (projectile : Option LocArg) (measured : Option (ℝ × ℝ)) (pl : Placed)
    (h : makeRel R centre (some r) true sized old own none none none projectile measured = .ok pl) :
    (∃ d b, r.distance = some [d] ∧ r.bearing = some [b]) ∧ r.others = false ∧ (centre = none → ∃ a, r.ref = .given a) := by
  have hmany : ∀ ps : List (ℝ × ℝ), 2 ≤ ps.length →
      make true sized old own (some (.rows (ps.map fun p => [p.1, p.2]))) none none projectile measured ≠ .ok pl := by
    intro ps hps h
    match ps, hps with
    | [x, y], _ =>
      cases sized <;> cases old <;> cases projectile <;>
        simp [make, chosen, orProjectile, fresh, copied, orOld, validateLocation, entries] at h
    | x :: y :: z :: zs, _ =>
      have hv : ∃ q, validateLocation (.rows ((x :: y :: z :: zs).map fun p => [p.1, p.2])) = .ok (.many q) := by
        simp only [List.map_cons, validateLocation, List.length_cons, List.length_nil]
        simp only [if_true, reduceCtorEq, if_false]
        have := validateAll_rows (x :: y :: z :: zs)
        simp only [List.map_cons] at this
        exact ⟨_, congrArg (Except.map LocRes.many) this⟩
      obtain ⟨q, hq⟩ := hv
      cases sized <;> cases old <;> cases projectile <;>
        simp [make, chosen, orProjectile, fresh, copied, orOld, entries] at h
      all_goals
        simp only [List.map_cons] at hq
        rw [hq] at h
        cases h
  simp only [makeRel, Option.isSome_none, Bool.false_and, Bool.false_eq_true, if_false] at h
  split at h
  · cases h
  rename_i l hl
  unfold relative at hl
  split at hl
  · rename_i d b hd hb
    split_ifs at hl with ho
    split at hl
    · cases hl
    rename_i ref href
    split at hl
    · cases hl
    rename_i q hq
    cases hl
    obtain ⟨p, hp, hlen, -, hcase⟩ := locations_ok hq
    refine ⟨?_, by simpa using ho, fun hc => ?_⟩
    · rcases hcase with ⟨x, hx, rfl⟩ | ⟨h2, rfl⟩
      · have h1 : d = [x.1] := by rw [← zip_map_fst d b hlen, hx]; rfl
        have h2 : b = [x.2] := by rw [← zip_map_snd d b hlen, hx]; rfl
        exact ⟨x.1, x.2, by rw [hd, h1], by rw [hb, h2]⟩
      · exact absurd h (hmany _ (by simpa using h2))
    · subst hc
      cases hr : r.ref with
      | absent => rw [hr] at href; cases href
      | null =>
        rw [hr] at href
        cases href
        cases hp
      | given a => exact ⟨a, rfl⟩
  · cases hl

/-- Without a location a crater made from another stays where the other is.  If a size is given, the measured location becomes the location; a
copy keeps the measured location. -/
theorem C199_stays (check : Bool) (own : ℝ × ℝ) (lon lat : ℝ) (h1 : -180 ≤ lon ∧ lon < 180) (h2 : -90 ≤ lat ∧ lat ≤ 90)
    (m : ℝ × ℝ) (m1 : -180 ≤ m.1 ∧ m.1 < 180) (m2 : -90 ≤ m.2 ∧ m.2 ≤ 90) :
    make check true (some ⟨(lon, lat), some m⟩) own none none none none none = .ok ⟨(lon, lat), (lon, lat)⟩ ∧
    make check false (some ⟨(lon, lat), some m⟩) own none none none none none = .ok ⟨(lon, lat), m⟩ := by
  have a : normalizeCoords (lon, lat) = (lon, lat) := normalize_id _ h1.1 h1.2 h2.1 h2.2
  have b := normalize_id m m1.1 m1.2 m2.1 m2.2
  cases check <;>
    simp [make, chosen, orProjectile, fresh, copied, orOld, validateLocation, validateFlat, Except.map, finish, entries, a, b]

/-- A crater that is made without any location lies where its projectile strikes (at random, or the projectile's own location), and a measured
location that is given is the one of the crater made, also of a copy whose pattern has another one. -/
theorem C199_given (check : Bool) (own : ℝ × ℝ) (o1 : -180 ≤ own.1 ∧ own.1 < 180) (o2 : -90 ≤ own.2 ∧ own.2 ≤ 90)
    (old : ℝ × ℝ) (n : Option (ℝ × ℝ)) (m : ℝ × ℝ) (m1 : -180 ≤ m.1 ∧ m.1 < 180) (m2 : -90 ≤ m.2 ∧ m.2 ≤ 90) :
    make check true none own none none none none none = .ok ⟨own, own⟩ ∧
    make check true none own none none none none (some m) = .ok ⟨own, m⟩ ∧
    make check false (some ⟨old, n⟩) own none none none none (some m) = .ok ⟨old, m⟩ := by
  have a := normalize_id own o1.1 o1.2 o2.1 o2.2
  have b := normalize_id m m1.1 m1.2 m2.1 m2.2
  cases check <;> simp [make, chosen, orProjectile, fresh, copied, orOld, finish, entries, a, b]

/-- A copy that is moved is measured where the pattern is: the measured location, which is used to count and draw craters, is not moved. -/
theorem C199_moved_fails (check : Bool) (own : ℝ × ℝ) (old : ℝ × ℝ) (m : ℝ × ℝ) (m1 : -180 ≤ m.1 ∧ m.1 < 180)
    (m2 : -90 ≤ m.2 ∧ m.2 ≤ 90) (lon lat : ℝ) :
    make check false (some ⟨old, some m⟩) own (some (.flat [lon, lat])) none none none none = .ok ⟨(lon, lat), m⟩ := by
  have b := normalize_id m m1.1 m1.2 m2.1 m2.2
  cases check <;> simp [make, chosen, orProjectile, copied, orOld, finish, entries, b]

/-- The location of a moved copy is never brought into the range of longitudes, and any number of further numbers is accepted, whereas a crater with a size
is brought into the range and refused with further numbers. -/
theorem C199_copy_fails (old : Old) (own : ℝ × ℝ) (lon lat : ℝ) (rest : List ℝ) (hlon : lon < -180 ∨ 180 ≤ lon) (hlat : -90 ≤ lat ∧ lat ≤ 90) :
    (∃ q, make true false (some old) own (some (.flat (lon :: lat :: rest))) none none none none = .ok ⟨(lon, lat), q⟩) ∧
    (∃ p, make true true (some old) own (some (.flat [lon, lat])) none none none none = .ok ⟨p, p⟩ ∧ Here lon lat p ∧ p ≠ (lon, lat)) ∧
    (rest ≠ [] → make true true (some old) own (some (.flat (lon :: lat :: rest))) none none none none = .error .value) := by
  refine ⟨?_, ?_, ?_⟩
  · obtain ⟨l, m⟩ := old
    rcases m with _ | m
    · exact ⟨_, by simp [make, chosen, orProjectile, copied, orOld, finish, entries]; rfl⟩
    · exact ⟨_, by simp [make, chosen, orProjectile, copied, orOld, finish, entries]; rfl⟩
  · obtain ⟨p, hp, h, -⟩ := C199_here_partial true (some old) own lon lat hlat.1 hlat.2
    refine ⟨p, h, hp, ?_⟩
    rintro rfl
    have h1 := hp.2.1
    have h2 := hp.2.2.1
    simp only at h1 h2
    rcases hlon with h | h <;> linarith
  · intro hr
    obtain ⟨z, zs, rfl⟩ := List.exists_cons_of_ne_nil hr
    simp [make, chosen, orProjectile, fresh, orOld, validateLocation, validateFlat, Except.map, lift]

/-- A place at longitude 350. -/
example : ((350 : ℝ) < -180 ∨ (180 : ℝ) ≤ 350) ∧ (-90 : ℝ) ≤ 10 ∧ (10 : ℝ) ≤ 90 := by norm_num

/-- The conditions hold for a crater a quarter of the way around a body of radius 2 from (170, 45). -/
example : (-90 : ℝ) < 45 ∧ (45 : ℝ) < 90 ∧ (0 : ℝ) < π ∧ π < π * 2 ∧ (0 : ℝ) ≤ 30 ∧ (30 : ℝ) < 360 := by
  have := pi_pos
  refine ⟨by norm_num, by norm_num, this, by linarith, by norm_num, by norm_num⟩

/-- A call that is accepted, for the theorems about accepted calls. -/
example : ∃ pl, makeRel 2 none (some ⟨some [1], some [30], .given (.flat [170, 45]), false⟩) true true none (0, 0) none none none none none
    = .ok pl := by
  obtain ⟨p, hp, -⟩ := C199_relative 2 (by norm_num) none true none (0, 0) 170 45 1 30 (by norm_num)
    ⟨by norm_num, by have := pi_gt_three; linarith⟩ (by norm_num)
  exact ⟨_, hp⟩

end Verif.Place
