import Verif.Model.Points
import Verif.Props.Location
import Verif.Props.Sphere
import Mathlib.Tactic.Linarith
import Mathlib.Tactic.Ring
import Mathlib.Tactic.FieldSimp

/-!
# C187: going a distance in a direction, and measuring both again, for several points at once
-/

namespace Verif.Points

open Location Sphere Real

theorem rad_deg (x : ℝ) : rad (deg x) = x := by
  unfold rad deg
  have := pi_ne_zero
  field_simp

theorem deg_rad (x : ℝ) : deg (rad x) = x := by
  unfold rad deg
  have := pi_ne_zero
  field_simp

theorem deg_lt {x y : ℝ} (h : x < y) : deg x < deg y := by
  unfold deg
  have := pi_pos
  exact mul_lt_mul_of_pos_right h (by positivity)

theorem deg_le {x y : ℝ} (h : x ≤ y) : deg x ≤ deg y := by
  unfold deg
  have := pi_pos
  exact mul_le_mul_of_nonneg_right h (by positivity)

theorem rad_lt {x y : ℝ} (h : x < y) : rad x < rad y := by
  unfold rad
  have := pi_pos
  exact mul_lt_mul_of_pos_right h (by positivity)

theorem rad_le {x y : ℝ} (h : x ≤ y) : rad x ≤ rad y := by
  unfold rad
  have := pi_pos
  exact mul_le_mul_of_nonneg_right h (by positivity)

theorem deg_pi : deg π = 180 := by
  unfold deg
  have := pi_ne_zero
  field_simp

theorem deg_half : deg (π / 2) = 90 := by
  unfold deg
  have := pi_ne_zero
  field_simp
  norm_num

theorem deg_neg (x : ℝ) : deg (-x) = -deg x := by unfold deg; ring

theorem rad_90 : rad 90 = π / 2 := by unfold rad; ring

theorem rad_neg90 : rad (-90) = -(π / 2) := by unfold rad; ring

theorem normalize_id (p : ℝ × ℝ) (h1 : -180 ≤ p.1) (h2 : p.1 < 180) (h3 : -90 ≤ p.2) (h4 : p.2 ≤ 90) : normalizeCoords p = p := by
  obtain ⟨lon, lat⟩ := p
  simp only at h1 h2 h3 h4
  unfold normalizeCoords
  simp only [not_lt.2 h3, not_lt.2 h4, if_false]
  rw [pymod_eq_self (by norm_num) (by linarith) (by linarith), clip_id ⟨h3, h4⟩]
  simp

/-- The destination in degrees. -/
noncomputable def dest (R : ℝ) (p : ℝ × ℝ) (x : ℝ × ℝ) : ℝ × ℝ :=
  (deg (location (rad p.1) (rad p.2) x.1 (rad x.2) R).1, deg (location (rad p.1) (rad p.2) x.1 (rad x.2) R).2)

theorem normalize_dest (R : ℝ) (p x : ℝ × ℝ) : normalizeCoords (dest R p x) = dest R p x := by
  obtain ⟨a, b, c, d⟩ := C42_range (rad p.1) (rad p.2) x.1 (rad x.2) R
  apply normalize_id
  · have := deg_le a; rw [deg_neg, deg_pi] at this; exact this
  · have := deg_lt b; rw [deg_pi] at this; exact this
  · have := deg_le c; rw [deg_neg, deg_half] at this; exact this
  · have := deg_le d; rw [deg_half] at this; exact this

theorem reference_lat {centre : Option (ℝ × ℝ)} {ref : Option LocArg} {p : ℝ × ℝ} (h : reference centre ref = .ok p) : -90 ≤ p.2 ∧ p.2 ≤ 90 := by
  have key : ∀ q : ℝ × ℝ, -90 ≤ (normalizeCoords q).2 ∧ (normalizeCoords q).2 ≤ 90 := fun q => C01_lat_range q
  have hflat : ∀ xs q, validateFlat xs = .ok q → -90 ≤ q.2 ∧ q.2 ≤ 90 := by
    intro xs q hq
    unfold validateFlat at hq
    split at hq <;> cases hq
    exact key _
  cases ref with
  | none =>
    cases centre with
    | none => simp [reference] at h
    | some c =>
      simp only [reference, Except.ok.injEq] at h
      rw [← h]; exact key c
  | some a =>
    simp only [reference] at h
    split at h <;> try cases h
    rename_i hv
    cases a with
    | flat xs =>
      simp only [validateLocation] at hv
      cases hx : validateFlat xs with
      | error e => rw [hx] at hv; cases hv
      | ok q => rw [hx] at hv; cases hv; exact hflat _ _ hx
    | rows rs =>
      simp only [validateLocation] at hv
      split at hv
      · cases hv
      · cases hv
      · rename_i r rest _
        split_ifs at hv
        · cases hx : validateFlat r with
          | error e => rw [hx] at hv; cases hv
          | ok q => rw [hx] at hv; cases hv; exact hflat _ _ hx
        · cases hx : validateAll (r :: rest) with
          | error e => rw [hx] at hv; cases hv
          | ok q => rw [hx] at hv; cases hv
    | array2 rs =>
      simp only [validateLocation] at hv
      split at hv <;> cases hv
      exact key _
    | dict a b =>
      cases a <;> cases b <;> simp only [validateLocation] at hv <;> cases hv
      exact key _

theorem locations_ok {R : ℝ} {centre : Option (ℝ × ℝ)} {ds bs : List ℝ} {ref : Option LocArg} {r : LocRes}
    (h : computeLocations R centre ds bs ref = .ok r) :
    ∃ p, reference centre ref = .ok p ∧ bs.length = ds.length ∧ ds ≠ [] ∧
      ((∃ x, ds.zip bs = [x] ∧ r = .one (dest R p x)) ∨ (2 ≤ (ds.zip bs).length ∧ r = .many ((ds.zip bs).map (dest R p)))) := by
  unfold computeLocations at h
  split at h
  · cases h
  rename_i p hp
  split_ifs at h with hl
  have hl' : bs.length = ds.length := not_not.1 hl
  refine ⟨p, hp, hl', ?_, ?_⟩
  · rintro rfl
    simp [validateLocation] at h
  · match hz : ds.zip bs with
    | [] => rw [hz] at h; simp [validateLocation] at h
    | [x] =>
      rw [hz] at h
      simp only [List.map_cons, List.map_nil, validateLocation, Except.ok.injEq] at h
      refine .inl ⟨x, rfl, ?_⟩
      rw [← h]
      exact congrArg LocRes.one (normalize_dest R p x)
    | x :: y :: zs =>
      rw [hz] at h
      simp only [List.map_cons, validateLocation, Except.ok.injEq] at h
      refine .inr ⟨by simp, ?_⟩
      rw [← h]
      refine congrArg LocRes.many ?_
      have hm : ∀ l : List (ℝ × ℝ), l.map (fun x => normalizeCoords (dest R p x)) = l.map (dest R p) := by
        intro l
        exact List.map_congr_left fun x _ => normalize_dest R p x
      simpa [dest, Function.comp_def] using hm (x :: y :: zs)

theorem validateAll_dest (R : ℝ) (p : ℝ × ℝ) (l : List (ℝ × ℝ)) :
    validateAll ((l.map (dest R p)).map fun q => [q.1, q.2]) = .ok (l.map (dest R p)) := by
  induction l with
  | nil => rfl
  | cons x xs ih =>
    simp only [List.map_cons, validateAll, validateFlat]
    rw [ih]
    exact congrArg (fun q => Except.ok (q :: xs.map (dest R p))) (normalize_dest R p x)

theorem zip_map_fst {α β : Type} : ∀ (l : List α) (m : List β), m.length = l.length → (l.zip m).map Prod.fst = l
  | [], _, _ => rfl
  | a :: l, [], h => by simp at h
  | a :: l, b :: m, h => by
    simp only [List.zip_cons_cons, List.map_cons]
    rw [zip_map_fst l m (by simpa using h)]

theorem zip_map_snd {α β : Type} : ∀ (l : List α) (m : List β), m.length = l.length → (l.zip m).map Prod.snd = m
  | [], [], _ => rfl
  | [], b :: m, h => by simp at h
  | a :: l, [], h => by simp at h
  | a :: l, b :: m, h => by
    simp only [List.zip_cons_cons, List.map_cons]
    rw [zip_map_snd l m (by simpa using h)]

theorem not_both_none {centre : Option (ℝ × ℝ)} {ref : Option LocArg} {p : ℝ × ℝ} (h : reference centre ref = .ok p) : ¬(ref = none ∧ centre = none) := by
  rintro ⟨rfl, rfl⟩
  simp [reference] at h

/-- Going out from a place by distances up to half the circumference, in any directions, and measuring the distances of the places
reached gives the distances gone, in their order, whatever the place is.
Missing from the full statement: exactly two places, which cannot be measured at all (`C187_two_fails`). -/
theorem C187_distances_partial (R : ℝ) (hR : 0 < R) (centre : Option (ℝ × ℝ)) (ref : Option LocArg) (ds bs : List ℝ) (places : LocRes)
    (h : computeLocations R centre ds bs ref = .ok places) (hd : ∀ d ∈ ds, 0 ≤ d ∧ d ≤ π * R) (h2 : ds.length ≠ 2) :
    computeDistances R centre (LocRes.arg places) ref = .ok ds := by
  obtain ⟨p, hp, hl, _, hcase⟩ := locations_ok h
  obtain ⟨l1, l2⟩ := reference_lat hp
  have hlat1 : -(π / 2) ≤ rad p.2 := by rw [← rad_neg90]; exact rad_le l1
  have hlat2 : rad p.2 ≤ π / 2 := by rw [← rad_90]; exact rad_le l2
  have hone : ∀ x ∈ ds.zip bs, distance (rad p.1) (rad p.2) (rad (dest R p x).1) (rad (dest R p x).2) R = x.1 := by
    intro x hx
    have hx1 : x.1 ∈ ds := (List.of_mem_zip (a := x.1) (b := x.2) hx).1
    simp only [dest, rad_deg]
    exact C42_distance _ _ _ _ _ hR hlat1 hlat2 (hd _ hx1).1 (hd _ hx1).2
  have hlen : (ds.zip bs).length = ds.length := by simp [hl]
  unfold computeDistances
  rw [if_neg (not_both_none hp), hp]
  rcases hcase with ⟨x, hx, rfl⟩ | ⟨h3, rfl⟩
  · have hds : ds = [x.1] := by rw [← zip_map_fst ds bs hl, hx]; rfl
    have hn := normalize_dest R p x
    simp only [LocRes.arg, validateLocation, validateFlat, Except.map, Prod.mk.eta, hn, LocRes.list, List.map_cons, List.map_nil]
    rw [hone x (by rw [hx]; simp), hds]
  · have hv : validateLocation (LocRes.arg (.many ((ds.zip bs).map (dest R p)))) = .ok (.many ((ds.zip bs).map (dest R p))) := by
      have hall := validateAll_dest R p (ds.zip bs)
      match hz : ds.zip bs with
      | [] => rw [hz] at h3; simp at h3
      | [x] => rw [hz] at h3; simp at h3
      | [x, y] => rw [hz] at hlen; simp at hlen; omega
      | x :: y :: z :: zs =>
        rw [hz] at hall
        simp only [List.map_cons] at hall
        simp only [LocRes.arg, List.map_cons, validateLocation]
        rw [if_pos (by simp), if_neg (by simp), hall]
        rfl
    rw [hv]
    simp only [LocRes.list, List.map_map]
    refine congrArg Except.ok ?_
    exact (List.map_congr_left (g := Prod.fst) (fun x hx => hone x hx)).trans (zip_map_fst ds bs hl)

/-- Likewise for the directions, for places neither at the start nor opposite to it, unless the start is a pole; here any number of places
is accepted. -/
theorem C187_bearings (R : ℝ) (hR : 0 < R) (centre : Option (ℝ × ℝ)) (lon lat : ℝ) (hlat : -90 < lat ∧ lat < 90) (ds bs : List ℝ) (places : LocRes)
    (h : computeLocations R centre ds bs (some (.flat [lon, lat])) = .ok places) (hd : ∀ d ∈ ds, 0 < d ∧ d < π * R)
    (hb : ∀ b ∈ bs, 0 ≤ b ∧ b < 360) :
    computeBearings centre (LocRes.arg places) (some (.flat [lon, lat])) = .ok bs := by
  obtain ⟨p, hp, hl, _, hcase⟩ := locations_ok h
  have hp2 : p.2 = lat := by
    simp only [reference, validateLocation, validateFlat, Except.map, Except.ok.injEq] at hp
    rw [← hp]
    unfold normalizeCoords
    simp only [not_lt.2 hlat.1.le, not_lt.2 hlat.2.le, if_false]
    exact clip_id ⟨hlat.1.le, hlat.2.le⟩
  have hlat1 : -(π / 2) < rad p.2 := by rw [← rad_neg90, hp2]; exact rad_lt hlat.1
  have hlat2 : rad p.2 < π / 2 := by rw [← rad_90, hp2]; exact rad_lt hlat.2
  have hone : ∀ x ∈ ds.zip bs, deg (bearing (rad p.1) (rad p.2) (rad (dest R p x).1) (rad (dest R p x).2)) = x.2 := by
    intro x hx
    have hx1 := (List.of_mem_zip (a := x.1) (b := x.2) hx)
    simp only [dest, rad_deg]
    rw [C42_bearing _ _ _ _ _ hR hlat1 hlat2 (hd _ hx1.1).1 (hd _ hx1.1).2, deg_rad]
    · have := rad_le (hb _ hx1.2).1; simpa [rad] using this
    · have := rad_lt (hb _ hx1.2).2
      have e : rad 360 = 2 * π := by unfold rad; ring
      rwa [e] at this
  unfold computeBearings
  rw [if_neg (not_both_none hp), hp]
  rcases hcase with ⟨x, hx, rfl⟩ | ⟨h3, rfl⟩
  · have hbs : bs = [x.2] := by rw [← zip_map_snd ds bs hl, hx]; rfl
    simp only [LocRes.arg, asRows, List.map_cons, List.map_nil, Prod.mk.eta]
    rw [hone x (by rw [hx]; simp), hbs]
  · have hv : asRows (LocRes.arg (.many ((ds.zip bs).map (dest R p)))) = .ok ((ds.zip bs).map (dest R p)) := by
      match hz : ds.zip bs with
      | [] => rw [hz] at h3; simp at h3
      | x :: xs =>
        simp only [LocRes.arg, List.map_cons, asRows]
        rw [if_pos (by simp), if_pos (by simp)]
        simp [Function.comp_def]
    rw [hv]
    simp only [List.map_map]
    refine congrArg Except.ok ?_
    exact (List.map_congr_left (g := Prod.snd) (fun x hx => hone x hx)).trans (zip_map_snd ds bs hl)

/-- Two places reached cannot be measured: the list of two tuples that is returned is taken for one pair of numbers, and measuring raises a
`TypeError`. -/
theorem C187_two_fails (R : ℝ) (centre : Option (ℝ × ℝ)) (ref : LocArg) (d1 d2 b1 b2 : ℝ) (places : LocRes)
    (h : computeLocations R centre [d1, d2] [b1, b2] (some ref) = .ok places) :
    computeDistances R centre (LocRes.arg places) (some ref) = .error .typeError := by
  obtain ⟨p, hp, hl, _, hcase⟩ := locations_ok h
  rcases hcase with ⟨x, hx, rfl⟩ | ⟨h3, rfl⟩
  · simp at hx
  · unfold computeDistances
    rw [if_neg (not_both_none hp)]
    rfl

/-- Places are given exactly for equally many distances and directions, at least one, from one place; the place is the centre of the region when
none is given, and a whole surface has no such centre. -/
theorem C187_accepted (R : ℝ) (centre : Option (ℝ × ℝ)) (lon lat : ℝ) (ds bs : List ℝ) :
    ((∃ r, computeLocations R centre ds bs (some (.flat [lon, lat])) = .ok r) ↔ ds ≠ [] ∧ bs.length = ds.length) ∧
    computeLocations R (some (lon, lat)) ds bs none = computeLocations R centre ds bs (some (.flat [lon, lat])) ∧
    (∀ q, computeDistances R (some (lon, lat)) q none = computeDistances R centre q (some (.flat [lon, lat]))) ∧
    (∀ q, computeBearings (some (lon, lat)) q none = computeBearings centre q (some (.flat [lon, lat]))) ∧
    computeLocations R none ds bs none = .error .valueError ∧
    (∀ q, computeDistances R none q none = .error .valueError) ∧ ∀ q, computeBearings none q none = .error .valueError := by
  refine ⟨⟨?_, ?_⟩, ?_, ?_, ?_, ?_, ?_, ?_⟩
  · rintro ⟨r, hr⟩
    obtain ⟨p, _, h1, h2, _⟩ := locations_ok hr
    exact ⟨h2, h1⟩
  · rintro ⟨h1, h2⟩
    have hp : reference centre (some (.flat [lon, lat])) = .ok (normalizeCoords (lon, lat)) := rfl
    unfold computeLocations
    rw [hp]
    simp only [h2, ne_eq, not_true_eq_false, if_false]
    match ds, bs, h1, h2 with
    | [], _, h1, _ => exact absurd rfl h1
    | d :: ds, [], _, h2 => simp at h2
    | d :: [], b :: bs, _, h2 => exact ⟨_, rfl⟩
    | d :: d' :: ds, b :: [], _, h2 => simp at h2
    | d :: d' :: ds, b :: b' :: bs, _, h2 => exact ⟨_, rfl⟩
  · rfl
  · intro q
    unfold computeDistances
    rw [if_neg (by simp), if_neg (by simp)]
    rfl
  · intro q
    unfold computeBearings
    rw [if_neg (by simp), if_neg (by simp)]
    rfl
  · rfl
  · intro q; rfl
  · intro q; rfl

/-- Several places are measured as each of them alone, at least three of them. -/
theorem C187_each (R : ℝ) (centre : Option (ℝ × ℝ)) (ref : LocArg) (qs : List (ℝ × ℝ)) (h3 : 3 ≤ qs.length) (out : List ℝ) :
    computeDistances R centre (.rows (qs.map fun q => [q.1, q.2])) (some ref) = .ok out ↔
      out.length = qs.length ∧ ∀ i (hi : i < qs.length) (ho : i < out.length),
        computeDistances R centre (.flat [qs[i].1, qs[i].2]) (some ref) = .ok [out[i]] := by
  have hall : ∀ l : List (ℝ × ℝ), validateAll (l.map fun q => [q.1, q.2]) = .ok (l.map normalizeCoords) := by
    intro l
    induction l with
    | nil => rfl
    | cons x xs ih =>
      simp only [List.map_cons, validateAll, validateFlat]
      rw [ih]
  have hv : validateLocation (.rows (qs.map fun q => [q.1, q.2])) = .ok (.many (qs.map normalizeCoords)) := by
    have := hall qs
    match qs, h3, this with
    | x :: y :: z :: zs, _, this =>
      simp only [List.map_cons] at this
      simp only [List.map_cons, validateLocation]
      rw [if_pos (by simp), if_neg (by simp), this]
      rfl
  unfold computeDistances
  rw [if_neg (by simp), hv]
  cases hr : reference centre (some ref) with
  | error e =>
    simp only [reduceCtorEq, false_iff, not_and]
    intro hlen hall'
    have := hall' 0 (by omega) (by omega)
    simp [validateLocation, validateFlat, Except.map] at this
  | ok p =>
    simp only [LocRes.list, Except.ok.injEq, validateLocation, validateFlat, Except.map, List.map_map]
    constructor
    · rintro rfl
      refine ⟨by simp, fun i hi ho => ?_⟩
      simp
    · rintro ⟨hlen, hi⟩
      apply List.ext_getElem
      · simp [hlen]
      · intro i h1 h2
        have := hi i (by simpa using h1) h2
        simpa using this

/-- Three distances and directions from a place across the date line: the hypotheses of the theorems above hold. -/
example : (∃ r, computeLocations 2 none [1, 2, 3] [0, 90, 359] (some (.flat [179, 45])) = .ok r) ∧
    (∀ d ∈ ([1, 2, 3] : List ℝ), 0 < d ∧ d < π * 2) ∧ (∀ b ∈ ([0, 90, 359] : List ℝ), 0 ≤ b ∧ b < 360) ∧
    (∃ r, computeLocations 2 none [1, 2] [0, 90] (some (.flat [179, 45])) = .ok r) := by
  refine ⟨(C187_accepted 2 none 179 45 _ _).1.2 (by simp), ?_, ?_, (C187_accepted 2 none 179 45 _ _).1.2 (by simp)⟩
  · have := pi_gt_three
    simp only [List.mem_cons, List.not_mem_nil, or_false, forall_eq_or_imp, forall_eq]
    refine ⟨⟨by norm_num, by linarith⟩, ⟨by norm_num, by linarith⟩, by norm_num, by linarith⟩
  · simp only [List.mem_cons, List.not_mem_nil, or_false, forall_eq_or_imp, forall_eq]
    norm_num

end Verif.Points
