import Verif.Model.Projection
import Verif.Props.Sphere
import Mathlib.Analysis.SpecialFunctions.Trigonometric.Bounds
import Mathlib.Tactic.Linarith
import Mathlib.Tactic.FieldSimp

/-!
# Projected coordinates of a region: C192
-/

namespace Verif.Projection

open Verif.Sphere Real

theorem cos_distance (lon1 lat1 lon2 lat2 R : ℝ) (hR : 0 < R) :
    cos (distance lon1 lat1 lon2 lat2 R / R) = sin lat1 * sin lat2 + cos lat1 * cos lat2 * cos (lon2 - lon1) := by
  rw [C41_great_circle, mul_div_cancel_left₀ _ hR.ne', InnerProductGeometry.cos_angle, inner_unit, norm_unit, norm_unit]
  simp

theorem bearing_trig (lon1 lat1 lon2 lat2 R : ℝ) (hR : 0 < R) :
    sin (distance lon1 lat1 lon2 lat2 R / R) * sin (bearing lon1 lat1 lon2 lat2) = cos lat2 * sin (lon2 - lon1) ∧
    sin (distance lon1 lat1 lon2 lat2 R / R) * cos (bearing lon1 lat1 lon2 lat2) =
      cos lat1 * sin lat2 - sin lat1 * cos lat2 * cos (lon2 - lon1) := by
  have hm := C41_metric lon1 lat1 lon2 lat2 lon2 lat2 R hR.le
  have h0 : 0 ≤ sin (distance lon1 lat1 lon2 lat2 R / R) := by
    apply sin_nonneg_of_nonneg_of_le_pi
    · exact div_nonneg hm.2.1 hR.le
    · rw [div_le_iff₀ hR]; exact hm.2.2.1
  have hc := cos_distance lon1 lat1 lon2 lat2 R hR
  generalize distance lon1 lat1 lon2 lat2 R / R = t at h0 hc ⊢
  obtain ⟨-, -, k, hk⟩ := positiveMod_spec (oneBearing lon1 lat1 lon2 lat2) (2 * π) (by positivity)
  have hs : sin (bearing lon1 lat1 lon2 lat2) = sin (oneBearing lon1 lat1 lon2 lat2) := by
    unfold bearing
    rw [hk, mul_comm, sin_add_int_mul_two_pi]
  have hcb : cos (bearing lon1 lat1 lon2 lat2) = cos (oneBearing lon1 lat1 lon2 lat2) := by
    unfold bearing
    rw [hk, mul_comm, cos_add_int_mul_two_pi]
  rw [hs, hcb]
  unfold oneBearing
  simp only [sin_wrap, cos_wrap]
  obtain ⟨e1, e2⟩ := atan2_cos (cos lat1 * sin lat2 - sin lat1 * cos lat2 * cos (lon2 - lon1)) (sin (lon2 - lon1) * cos lat2)
  have hsq : sqrt ((cos lat1 * sin lat2 - sin lat1 * cos lat2 * cos (lon2 - lon1)) ^ 2 + (sin (lon2 - lon1) * cos lat2) ^ 2) = sin t := by
    rw [← Real.sqrt_sq h0]
    congr 1
    have a1 := sin_sq_add_cos_sq t
    have a2 := sin_sq_add_cos_sq lat1
    have a3 := sin_sq_add_cos_sq lat2
    have a4 := sin_sq_add_cos_sq (lon2 - lon1)
    have : sin t ^ 2 = 1 - (sin lat1 * sin lat2 + cos lat1 * cos lat2 * cos (lon2 - lon1)) ^ 2 := by rw [← hc]; linarith
    rw [this]
    have b2 : sin lat1 ^ 2 = 1 - cos lat1 ^ 2 := by linarith
    have b3 : sin lat2 ^ 2 = 1 - cos lat2 ^ 2 := by linarith
    have b4 : sin (lon2 - lon1) ^ 2 = 1 - cos (lon2 - lon1) ^ 2 := by linarith
    ring_nf
    rw [b2, b3, b4]
    ring
  rw [hsq] at e1 e2
  constructor
  · rw [e2]; ring
  · exact e1

/-- The transformation to the coordinate system of the region keeps the bearing of a point from the centre, and puts it at the distance of the chord instead of that along
the surface: equal areas, not equal distances. -/
theorem C192_forward (R lon0 lat0 lon lat : ℝ) (hR : 0 < R) (ha : distance lon0 lat0 lon lat R < π * R) :
    fromSurface R lon0 lat0 lon lat =
      (2 * R * sin (distance lon0 lat0 lon lat R / (2 * R)) * sin (bearing lon0 lat0 lon lat),
       2 * R * sin (distance lon0 lat0 lon lat R / (2 * R)) * cos (bearing lon0 lat0 lon lat)) := by
  have hm := C41_metric lon0 lat0 lon lat lon lat R hR.le
  obtain ⟨b1, b2⟩ := bearing_trig lon0 lat0 lon lat R hR
  have hc := cos_distance lon0 lat0 lon lat R hR
  have ht : distance lon0 lat0 lon lat R / R = 2 * (distance lon0 lat0 lon lat R / (2 * R)) := by field_simp
  have hu0 : 0 ≤ distance lon0 lat0 lon lat R / (2 * R) := div_nonneg hm.2.1 (by linarith)
  have hu1 : distance lon0 lat0 lon lat R / (2 * R) < π / 2 := by
    rw [div_lt_iff₀ (by linarith)]; linarith
  rw [ht] at b1 b2 hc
  generalize distance lon0 lat0 lon lat R / (2 * R) = u at *
  have hcu : 0 < cos u := cos_pos_of_mem_Ioo ⟨by linarith [pi_pos], hu1⟩
  have hk : sqrt (2 / (1 + sin lat0 * sin lat + cos lat0 * cos lat * cos (lon - lon0))) = 1 / cos u := by
    have : 1 + sin lat0 * sin lat + cos lat0 * cos lat * cos (lon - lon0) = 2 * cos u ^ 2 := by
      have := cos_two_mul u
      linarith
    rw [this]
    have : 2 / (2 * cos u ^ 2) = (1 / cos u) ^ 2 := by field_simp
    rw [this, Real.sqrt_sq (by positivity)]
  unfold fromSurface
  simp only [hk]
  rw [← b1, ← b2, sin_two_mul]
  refine Prod.ext ?_ ?_ <;> · simp only; field_simp

/-- C192.  The projected coordinates of a face and what the transformation makes of its longitude and latitude have the same direction; their
distance is at most `d³ / (24 R²)` for a face `d` from the centre.  **Missing:** they are not the same, see `C192_fails`. -/
theorem C192_close_partial (R lon0 lat0 lon lat : ℝ) (hR : 0 < R) (ha : distance lon0 lat0 lon lat R < π * R) :
    ∃ e, 0 ≤ e ∧ e ≤ distance lon0 lat0 lon lat R ^ 3 / (24 * R ^ 2) ∧
      (faceProj R lon0 lat0 lon lat).1 = (fromSurface R lon0 lat0 lon lat).1 + e * sin (bearing lon0 lat0 lon lat) ∧
      (faceProj R lon0 lat0 lon lat).2 = (fromSurface R lon0 lat0 lon lat).2 + e * cos (bearing lon0 lat0 lon lat) := by
  have hm := (C41_metric lon0 lat0 lon lat lon lat R hR.le).2.1
  rw [C192_forward R lon0 lat0 lon lat hR ha]
  simp only [faceProj]
  generalize distance lon0 lat0 lon lat R = d at *
  have hu : 0 ≤ d / (2 * R) := div_nonneg hm (by linarith)
  have h1 := Real.sin_le hu
  have h2 : d / (2 * R) - (d / (2 * R)) ^ 3 / 6 ≤ sin (d / (2 * R)) := Real.sin_ge_sub_cube hu
  have hd : d = 2 * R * (d / (2 * R)) := by field_simp
  refine ⟨d - 2 * R * sin (d / (2 * R)), ?_, ?_, by ring, by ring⟩
  · nlinarith
  · have : d ^ 3 / (24 * R ^ 2) = 2 * R * ((d / (2 * R)) ^ 3 / 6) := by field_simp; ring
    rw [this]
    nlinarith

theorem atan2_scale {k : ℝ} (hk : 0 < k) (x y : ℝ) : atan2 (k * y) (k * x) = atan2 y x := by
  unfold atan2
  have : (⟨k * x, k * y⟩ : ℂ) = (k : ℂ) * ⟨x, y⟩ := by
    apply Complex.ext <;> simp
  rw [this, Complex.arg_real_mul _ hk]

/-- Backwards, the point is at the same bearing and at the distance along the surface that belongs to the chord. -/
theorem C192_back (R lon0 lat0 rho b : ℝ) (hR : 0 < R) (h1 : -(π / 2) < lat0) (h2 : lat0 < π / 2) (hr : 0 < rho) :
    toSurface R lon0 lat0 (rho * sin b) (rho * cos b) = location lon0 lat0 (2 * R * arcsin (rho / (2 * R))) b R := by
  have hc : 0 < cos lat0 := cos_pos_of_mem_Ioo ⟨h1, h2⟩
  have hq : sqrt ((rho * sin b) ^ 2 + (rho * cos b) ^ 2) = rho := by
    have : (rho * sin b) ^ 2 + (rho * cos b) ^ 2 = rho ^ 2 := by
      have := sin_sq_add_cos_sq b
      linear_combination rho ^ 2 * this
    rw [this, Real.sqrt_sq hr.le]
  have ht : 2 * R * arcsin (rho / (2 * R)) / R = 2 * arcsin (rho / (2 * R)) := by field_simp
  unfold toSurface location destination
  simp only [hq, ht]
  generalize 2 * arcsin (rho / (2 * R)) = c
  have hlat : cos c * sin lat0 + rho * cos b * sin c * cos lat0 / rho = sin lat0 * cos c + cos lat0 * sin c * cos b := by
    field_simp
  rw [hlat]
  have hsin : sin (arcsin (sin lat0 * cos c + cos lat0 * sin c * cos b)) = sin lat0 * cos c + cos lat0 * sin c * cos b := by
    have hsq : (sin lat0 * cos c + cos lat0 * sin c * cos b) ^ 2 ≤ 1 := by
      have a1 := sin_sq_add_cos_sq lat0
      have a2 := sin_sq_add_cos_sq c
      have a3 := sin_sq_add_cos_sq b
      nlinarith [sq_nonneg (cos lat0 * cos c - sin lat0 * sin c * cos b), sq_nonneg (sin c * sin b), sq_nonneg (cos b * sin c),
        mul_nonneg (sq_nonneg (sin c)) (sq_nonneg (sin b)), mul_self_nonneg (sin lat0), mul_self_nonneg (cos lat0)]
    rw [sq_le_one_iff_abs_le_one, abs_le] at hsq
    exact sin_arcsin hsq.1 hsq.2
  rw [hsin]
  have hat : atan2 (rho * sin b * sin c) (rho * cos lat0 * cos c - rho * cos b * sin lat0 * sin c) =
      atan2 (sin b * sin c * cos lat0) (cos c - sin lat0 * (sin lat0 * cos c + cos lat0 * sin c * cos b)) := by
    have e1 : rho * sin b * sin c = rho * (sin b * sin c) := by ring
    have e2 : rho * cos lat0 * cos c - rho * cos b * sin lat0 * sin c = rho * (cos lat0 * cos c - cos b * sin lat0 * sin c) := by ring
    have e3 : sin b * sin c * cos lat0 = cos lat0 * (sin b * sin c) := by ring
    have e4 : cos c - sin lat0 * (sin lat0 * cos c + cos lat0 * sin c * cos b) = cos lat0 * (cos lat0 * cos c - cos b * sin lat0 * sin c) := by
      have := sin_sq_add_cos_sq lat0
      linear_combination (-cos c) * this
    rw [e1, e2, e3, e4, atan2_scale hr, atan2_scale hc]
  rw [hat]
  refine Prod.ext rfl ?_
  simp only
  have g1 := neg_pi_div_two_le_arcsin (sin lat0 * cos c + cos lat0 * sin c * cos b)
  have g2 := arcsin_le_pi_div_two (sin lat0 * cos c + cos lat0 * sin c * cos b)
  rw [positiveMod_of_mem _ _ (by positivity) (by linarith [pi_pos]) (by linarith [pi_pos])]
  ring

theorem same_point (R lon0 lat0 lon lat lon' lat' : ℝ) (hR : 0 < R) (hd : distance lon0 lat0 lon lat R = distance lon0 lat0 lon' lat' R)
    (hb : bearing lon0 lat0 lon lat = bearing lon0 lat0 lon' lat') : unit lon lat = unit lon' lat' := by
  have c1 := cos_distance lon0 lat0 lon lat R hR
  have c2 := cos_distance lon0 lat0 lon' lat' R hR
  obtain ⟨e1, n1⟩ := bearing_trig lon0 lat0 lon lat R hR
  obtain ⟨e2, n2⟩ := bearing_trig lon0 lat0 lon' lat' R hR
  rw [hd] at c1 e1 n1
  rw [hb] at e1 n1
  have a := sin_sq_add_cos_sq lat0
  have E : cos lat * sin (lon - lon0) = cos lat' * sin (lon' - lon0) := by linarith
  have C : sin lat0 * sin lat + cos lat0 * cos lat * cos (lon - lon0) = sin lat0 * sin lat' + cos lat0 * cos lat' * cos (lon' - lon0) := by linarith
  have N : cos lat0 * sin lat - sin lat0 * cos lat * cos (lon - lon0) = cos lat0 * sin lat' - sin lat0 * cos lat' * cos (lon' - lon0) := by linarith
  have Z : sin lat = sin lat' := by linear_combination sin lat0 * C + cos lat0 * N - (sin lat - sin lat') * a
  have A : cos lat * cos (lon - lon0) = cos lat' * cos (lon' - lon0) := by
    linear_combination cos lat0 * C - sin lat0 * N - (cos lat * cos (lon - lon0) - cos lat' * cos (lon' - lon0)) * a
  have L : lon = lon0 + (lon - lon0) := by ring
  have L' : lon' = lon0 + (lon' - lon0) := by ring
  have X : cos lat * cos lon = cos lat' * cos lon' := by
    rw [L, L', cos_add, cos_add]
    linear_combination cos lon0 * A - sin lon0 * E
  have Y : cos lat * sin lon = cos lat' * sin lon' := by
    rw [L, L', sin_add, sin_add]
    linear_combination sin lon0 * A + cos lon0 * E
  unfold unit
  rw [X, Y, Z]

/-- The two transformations are inverse to each other. -/
theorem C192_inverse (R lon0 lat0 lon lat : ℝ) (hR : 0 < R) (h1 : -(π / 2) < lat0) (h2 : lat0 < π / 2)
    (h0 : 0 < distance lon0 lat0 lon lat R) (ha : distance lon0 lat0 lon lat R < π * R) :
    let p := fromSurface R lon0 lat0 lon lat
    unit (toSurface R lon0 lat0 p.1 p.2).1 (toSurface R lon0 lat0 p.1 p.2).2 = unit lon lat := by
  obtain ⟨b0, b1⟩ := C42_bearing_range lon0 lat0 lon lat
  have hu0 : 0 < distance lon0 lat0 lon lat R / (2 * R) := by positivity
  have hu1 : distance lon0 lat0 lon lat R / (2 * R) < π / 2 := by
    rw [div_lt_iff₀ (by linarith)]; linarith
  have hs : 0 < sin (distance lon0 lat0 lon lat R / (2 * R)) := sin_pos_of_pos_of_lt_pi hu0 (by linarith [pi_pos])
  intro p
  have hp : p = _ := C192_forward R lon0 lat0 lon lat hR ha
  rw [hp]
  simp only
  rw [C192_back R lon0 lat0 _ _ hR h1 h2 (by positivity)]
  have e : 2 * R * arcsin (2 * R * sin (distance lon0 lat0 lon lat R / (2 * R)) / (2 * R)) = distance lon0 lat0 lon lat R := by
    rw [mul_div_cancel_left₀ _ (by positivity), arcsin_sin (by linarith) hu1.le]
    field_simp
  rw [e]
  apply same_point R lon0 lat0 _ _ _ _ hR
  · exact C42_distance lon0 lat0 _ _ R hR h1.le h2.le h0.le ha.le
  · exact C42_bearing lon0 lat0 _ _ R hR h1 h2 h0 ha b0 b1

/-- C192 fails: the projected coordinates of a face are not those of the coordinate system of its region: turned into longitude and latitude they give, for
every face off the centre (and nearer than two radii of the body), a point in the same direction but farther from the centre.  `set_face_proj` uses distances along the
surface, `get_crs` an equal-area projection (called equidistant in the comments); the rim fit takes its start and its result through the one and the
faces through the other. -/
theorem C192_fails (R lon0 lat0 lon lat : ℝ) (hR : 0 < R) (h1 : -(π / 2) < lat0) (h2 : lat0 < π / 2)
    (h0 : 0 < distance lon0 lat0 lon lat R) (ha : distance lon0 lat0 lon lat R < 2 * R) :
    let p := faceProj R lon0 lat0 lon lat
    let q := toSurface R lon0 lat0 p.1 p.2
    distance lon0 lat0 lon lat R < distance lon0 lat0 q.1 q.2 R ∧ bearing lon0 lat0 q.1 q.2 = bearing lon0 lat0 lon lat ∧
      unit q.1 q.2 ≠ unit lon lat := by
  obtain ⟨b0, b1⟩ := C42_bearing_range lon0 lat0 lon lat
  have hu0 : 0 < distance lon0 lat0 lon lat R / (2 * R) := by positivity
  have hu1 : distance lon0 lat0 lon lat R / (2 * R) < 1 := by
    rw [div_lt_one (by linarith)]; exact ha
  have has : distance lon0 lat0 lon lat R / (2 * R) < arcsin (distance lon0 lat0 lon lat R / (2 * R)) := by
    have h3 : 0 < arcsin (distance lon0 lat0 lon lat R / (2 * R)) := arcsin_pos.2 hu0
    have := sin_lt h3
    rwa [sin_arcsin (by linarith) hu1.le] at this
  have hlt : arcsin (distance lon0 lat0 lon lat R / (2 * R)) < π / 2 := arcsin_lt_pi_div_two.2 hu1
  have hd : distance lon0 lat0 lon lat R < 2 * R * arcsin (distance lon0 lat0 lon lat R / (2 * R)) := by
    have := mul_lt_mul_of_pos_left has (show 0 < 2 * R by linarith)
    rwa [mul_div_cancel₀ _ (by positivity)] at this
  have hd2 : 2 * R * arcsin (distance lon0 lat0 lon lat R / (2 * R)) < π * R := by nlinarith
  intro p q
  have hq : q = location lon0 lat0 (2 * R * arcsin (distance lon0 lat0 lon lat R / (2 * R))) (bearing lon0 lat0 lon lat) R :=
    C192_back R lon0 lat0 _ _ hR h1 h2 h0
  have k1 : distance lon0 lat0 q.1 q.2 R = 2 * R * arcsin (distance lon0 lat0 lon lat R / (2 * R)) := by
    rw [hq]; exact C42_distance lon0 lat0 _ _ R hR h1.le h2.le (by linarith) hd2.le
  have k2 : bearing lon0 lat0 q.1 q.2 = bearing lon0 lat0 lon lat := by
    rw [hq]; exact C42_bearing lon0 lat0 _ _ R hR h1 h2 (by linarith) hd2 b0 b1
  refine ⟨by rw [k1]; exact hd, k2, fun h => ?_⟩
  have e1 := C41_great_circle lon0 lat0 q.1 q.2 R
  rw [h, ← C41_great_circle, k1] at e1
  linarith

theorem sector_area (R r1 r2 b1 b2 : ℝ) (hR : 0 < R) :
    (b2 - b1) / 2 * ((2 * R * sin (r2 / (2 * R))) ^ 2 - (2 * R * sin (r1 / (2 * R))) ^ 2) = (b2 - b1) * R ^ 2 * (cos (r1 / R) - cos (r2 / R)) := by
  have k : ∀ r : ℝ, cos (r / R) = 1 - 2 * sin (r / (2 * R)) ^ 2 := by
    intro r
    have : r / R = 2 * (r / (2 * R)) := by field_simp
    rw [this, cos_two_mul]
    have := sin_sq_add_cos_sq (r / (2 * R))
    linarith
  rw [k r1, k r2]
  ring

/-- In the coordinate system of the region the sector between two bearings, from the distance of one place to that of another, has the area it has on the
sphere: the width of the sector times the difference of the heights of the two places. -/
theorem C192_area (R lon0 lat0 lon lat lon' lat' b1 b2 : ℝ) (hR : 0 < R) (h : distance lon0 lat0 lon lat R < π * R)
    (h' : distance lon0 lat0 lon' lat' R < π * R) :
    let p := fromSurface R lon0 lat0 lon lat
    let q := fromSurface R lon0 lat0 lon' lat'
    (b2 - b1) / 2 * ((q.1 ^ 2 + q.2 ^ 2) - (p.1 ^ 2 + p.2 ^ 2)) =
      (b2 - b1) * R ^ 2 * (cos (distance lon0 lat0 lon lat R / R) - cos (distance lon0 lat0 lon' lat' R / R)) := by
  intro p q
  have e : ∀ lon lat, distance lon0 lat0 lon lat R < π * R →
      (fromSurface R lon0 lat0 lon lat).1 ^ 2 + (fromSurface R lon0 lat0 lon lat).2 ^ 2 =
        (2 * R * sin (distance lon0 lat0 lon lat R / (2 * R))) ^ 2 := by
    intro lon lat h
    rw [C192_forward R lon0 lat0 lon lat hR h]
    simp only
    rw [mul_pow, mul_pow (2 * R * sin _) (cos _), ← mul_add, sin_sq_add_cos_sq, mul_one]
  rw [← sector_area R _ _ b1 b2 hR, e lon lat h, e lon' lat' h']

/-- A face a quarter of the way round a body of radius 1, from a centre on the equator. -/
example : ∃ lon lat : ℝ, distance 0 0 lon lat 1 = π / 2 ∧ 0 < distance 0 0 lon lat 1 ∧ distance 0 0 lon lat 1 < 2 * 1 := by
  have h : distance 0 0 (π / 2) 0 1 = π / 2 := by
    rw [C41_great_circle, InnerProductGeometry.angle, inner_unit, norm_unit, norm_unit]
    simp
  exact ⟨π / 2, 0, h, by rw [h]; positivity, by rw [h]; linarith [pi_lt_four]⟩

end Verif.Projection
