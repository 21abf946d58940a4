import Verif.Model.Sphere
import Mathlib.Geometry.Euclidean.Angle.Unoriented.TriangleInequality
import Mathlib.Analysis.InnerProductSpace.PiL2
import Mathlib.Analysis.SpecialFunctions.Trigonometric.Angle
import Mathlib.Analysis.Real.Pi.Bounds
import Mathlib.Tactic.Linarith
import Mathlib.Tactic.LinearCombination
import Mathlib.Tactic.FieldSimp

/-! Properties C41, C42: great-circle distances, destinations and bearings. -/

namespace Verif.Sphere

open Real

/-! ### Remainders -/

theorem rem_spec (x m : ℝ) (hm : 0 < m) : ∃ k : ℤ, rem x m = x - m * k ∧ (0 ≤ x → 0 ≤ rem x m) ∧
    rem x m < m ∧ -m < rem x m := by
  unfold rem
  by_cases h : 0 ≤ x / m
  · rw [if_pos h]
    have h1 := Int.floor_le (x / m)
    have h2 := Int.lt_floor_add_one (x / m)
    rw [le_div_iff₀ hm] at h1
    rw [div_lt_iff₀ hm] at h2
    exact ⟨⌊x / m⌋, rfl, fun _ => by linarith, by linarith, by linarith⟩
  · rw [if_neg h]
    have h1 := Int.le_ceil (x / m)
    have h2 := Int.ceil_lt_add_one (x / m)
    rw [div_le_iff₀ hm] at h1
    rw [← sub_lt_iff_lt_add, lt_div_iff₀ hm] at h2
    exact ⟨⌈x / m⌉, rfl, fun h0 => absurd (div_nonneg h0 hm.le) h, by linarith, by linarith⟩

/-- `positive_mod` gives the representative in `[0, m)`. -/
theorem positiveMod_spec (x m : ℝ) (hm : 0 < m) :
    0 ≤ positiveMod x m ∧ positiveMod x m < m ∧ ∃ k : ℤ, positiveMod x m = x + m * k := by
  unfold positiveMod
  obtain ⟨k, hk, _, _, hlow⟩ := rem_spec x m hm
  obtain ⟨j, hj, hpos, hup, _⟩ := rem_spec (rem x m + m) m hm
  refine ⟨hpos (by linarith), hup, 1 - k - j, ?_⟩
  rw [hj, hk]
  push_cast
  ring

theorem positiveMod_of_mem (x m : ℝ) (hm : 0 < m) (h0 : 0 ≤ x) (h1 : x < m) : positiveMod x m = x := by
  obtain ⟨a, b, k, hk⟩ := positiveMod_spec x m hm
  have : k = 0 := by
    have h2 : -1 < (k : ℝ) := by
      by_contra hc
      push Not at hc
      nlinarith
    have h3 : (k : ℝ) < 1 := by
      by_contra hc
      push Not at hc
      nlinarith
    have h4 : -1 < k := by exact_mod_cast h2
    have h5 : k < 1 := by exact_mod_cast h3
    omega
  rw [hk, this]
  simp

/-! ### C41 -/

/-- The unit vector of a point given by longitude and latitude. -/
noncomputable def unit (lon lat : ℝ) : EuclideanSpace ℝ (Fin 3) :=
  !₂[cos lat * cos lon, cos lat * sin lon, sin lat]

theorem inner_unit (lon1 lat1 lon2 lat2 : ℝ) :
    inner ℝ (unit lon1 lat1) (unit lon2 lat2) =
      sin lat1 * sin lat2 + cos lat1 * cos lat2 * cos (lon2 - lon1) := by
  unfold unit
  rw [EuclideanSpace.inner_eq_star_dotProduct]
  simp [Matrix.vecHead, Matrix.vecTail, cos_sub]
  ring

theorem norm_unit (lon lat : ℝ) : ‖unit lon lat‖ = 1 := by
  have h : ‖unit lon lat‖ ^ 2 = 1 := by
    rw [← real_inner_self_eq_norm_sq, inner_unit]
    simp
    nlinarith [sin_sq_add_cos_sq lat]
  have h0 := norm_nonneg (unit lon lat)
  nlinarith

theorem cos_wrap (x : ℝ) : cos (positiveMod (x + π) (2 * π) - π) = cos x := by
  obtain ⟨_, _, k, hk⟩ := positiveMod_spec (x + π) (2 * π) (by positivity)
  rw [hk]
  rw [show x + π + 2 * π * k - π = x + k * (2 * π) by ring]
  exact cos_add_int_mul_two_pi x k

theorem sin_wrap (x : ℝ) : sin (positiveMod (x + π) (2 * π) - π) = sin x := by
  obtain ⟨_, _, k, hk⟩ := positiveMod_spec (x + π) (2 * π) (by positivity)
  rw [hk]
  rw [show x + π + 2 * π * k - π = x + k * (2 * π) by ring]
  exact sin_add_int_mul_two_pi x k

theorem wrap_sub (x y : ℝ) : sin (positiveMod (x + π) (2 * π) - π - y) = sin (x - y) ∧
    cos (positiveMod (x + π) (2 * π) - π - y) = cos (x - y) := by
  rw [sin_sub, sin_sub x y, cos_sub (positiveMod (x + π) (2 * π) - π) y, cos_sub x y, sin_wrap, cos_wrap]
  exact ⟨rfl, rfl⟩

theorem half_sq (x : ℝ) : sin (x / 2) ^ 2 = (1 - cos x) / 2 := by
  have := cos_two_mul (x / 2)
  rw [show 2 * (x / 2) = x by ring] at this
  nlinarith [sin_sq_add_cos_sq (x / 2)]

/-- The haversine of the distance. -/
theorem hav_eq (lon1 lat1 lon2 lat2 : ℝ) :
    sin ((lat2 - lat1) / 2) ^ 2 + cos lat1 * cos lat2 *
      sin ((positiveMod (lon2 - lon1 + π) (2 * π) - π) / 2) ^ 2 =
    (1 - inner ℝ (unit lon1 lat1) (unit lon2 lat2)) / 2 := by
  rw [half_sq, half_sq, cos_wrap, inner_unit, cos_sub lat2 lat1]
  ring

/-- The distance is the radius times the angle between the unit vectors of the two points: it is the
great-circle distance. -/
theorem C41_great_circle (lon1 lat1 lon2 lat2 R : ℝ) :
    distance lon1 lat1 lon2 lat2 R = R * InnerProductGeometry.angle (unit lon1 lat1) (unit lon2 lat2) := by
  unfold distance
  simp only
  rw [hav_eq]
  congr 1
  have hab : |inner ℝ (unit lon1 lat1) (unit lon2 lat2)| ≤ 1 := by
    have := abs_real_inner_le_norm (unit lon1 lat1) (unit lon2 lat2)
    rwa [norm_unit, norm_unit, one_mul] at this
  unfold InnerProductGeometry.angle
  rw [norm_unit, norm_unit, mul_one, div_one]
  generalize (inner ℝ (unit lon1 lat1) (unit lon2 lat2) : ℝ) = w at *
  obtain ⟨h1, h2⟩ := abs_le.mp hab
  have hs0 : 0 ≤ (1 - w) / 2 := by linarith
  have hs1 : sqrt ((1 - w) / 2) ≤ 1 := by
    exact sqrt_le_iff.mpr ⟨zero_le_one, by linarith⟩
  have hsq := sq_sqrt hs0
  have hsn := sqrt_nonneg ((1 - w) / 2)
  generalize sqrt ((1 - w) / 2) = s at *
  have hc : cos (2 * arcsin s) = w := by
    rw [cos_two_mul, cos_arcsin, sq_sqrt (by nlinarith)]
    linarith
  rw [← hc, arccos_cos]
  · have := arcsin_nonneg.mpr hsn
    linarith
  · have := arcsin_le_pi_div_two s
    linarith

/-- Distances are symmetric, between zero and half the circumference, and fulfil the triangle inequality. -/
theorem C41_metric (lon1 lat1 lon2 lat2 lon3 lat3 R : ℝ) (hR : 0 ≤ R) :
    distance lon1 lat1 lon2 lat2 R = distance lon2 lat2 lon1 lat1 R ∧
    0 ≤ distance lon1 lat1 lon2 lat2 R ∧ distance lon1 lat1 lon2 lat2 R ≤ π * R ∧
    distance lon1 lat1 lon3 lat3 R ≤ distance lon1 lat1 lon2 lat2 R + distance lon2 lat2 lon3 lat3 R := by
  simp only [C41_great_circle]
  refine ⟨?_, ?_, ?_, ?_⟩
  · rw [InnerProductGeometry.angle_comm]
  · exact mul_nonneg hR (InnerProductGeometry.angle_nonneg _ _)
  · nlinarith [InnerProductGeometry.angle_le_pi (unit lon1 lat1) (unit lon2 lat2)]
  · rw [← mul_add]
    exact mul_le_mul_of_nonneg_left (InnerProductGeometry.angle_le_angle_add_angle _ _ _) hR

/-- The distance is zero exactly if both are the same point of the sphere, and full turns in longitude do not
matter. -/
theorem C41_points (lon1 lat1 lon2 lat2 R : ℝ) (hR : 0 < R) (j k : ℤ) :
    (distance lon1 lat1 lon2 lat2 R = 0 ↔ unit lon1 lat1 = unit lon2 lat2) ∧
    distance (lon1 + j * (2 * π)) lat1 (lon2 + k * (2 * π)) lat2 R = distance lon1 lat1 lon2 lat2 R := by
  constructor
  · rw [C41_great_circle, mul_eq_zero, or_iff_right hR.ne', InnerProductGeometry.angle_eq_zero_iff]
    constructor
    · rintro ⟨_, r, hr, h⟩
      have h1 := congrArg norm h
      rw [norm_smul, norm_unit, norm_unit, mul_one, Real.norm_of_nonneg hr.le] at h1
      rw [h, ← h1, one_smul]
    · intro h
      refine ⟨?_, 1, one_pos, ?_⟩
      · intro h0
        have := norm_unit lon1 lat1
        rw [h0, norm_zero] at this
        exact zero_ne_one this
      · rw [one_smul, h]
  · have hu : ∀ (lon lat : ℝ) (n : ℤ), unit (lon + n * (2 * π)) lat = unit lon lat := by
      intro lon lat n
      unfold unit
      rw [cos_add_int_mul_two_pi, sin_add_int_mul_two_pi]
    rw [C41_great_circle, C41_great_circle, hu, hu]

example : distance 0 0 (π / 2) 0 1 = π / 2 := by
  rw [C41_great_circle]
  unfold InnerProductGeometry.angle
  rw [inner_unit, norm_unit, norm_unit]
  simp

/-! ### C42 -/

theorem atan2_cos (x y : ℝ) : sqrt (x ^ 2 + y ^ 2) * cos (atan2 y x) = x ∧ sqrt (x ^ 2 + y ^ 2) * sin (atan2 y x) = y := by
  unfold atan2
  by_cases h : (⟨x, y⟩ : ℂ) = 0
  · have hx : x = 0 := congrArg Complex.re h
    have hy : y = 0 := congrArg Complex.im h
    subst hx hy
    simp
  · have hn : ‖(⟨x, y⟩ : ℂ)‖ = sqrt (x ^ 2 + y ^ 2) := by
      rw [Complex.norm_def, Complex.normSq_mk]
      congr 1
      ring
    have hne : sqrt (x ^ 2 + y ^ 2) ≠ 0 := by
      rw [← hn]
      exact norm_ne_zero_iff.mpr h
    rw [Complex.cos_arg h, Complex.sin_arg, hn]
    constructor
    · field_simp
    · field_simp

/-- What the destination formulas achieve, for a start latitude between the poles. -/
theorem destination_spec (lat1 t b : ℝ) (h1 : -(π / 2) ≤ lat1) (h2 : lat1 ≤ π / 2) :
    let s2 := sin lat1 * cos t + cos lat1 * sin t * cos b
    let lat2 := arcsin s2
    let dl := atan2 (sin b * sin t * cos lat1) (cos t - sin lat1 * sin lat2)
    sin lat2 = s2 ∧ cos lat1 * cos lat2 * cos dl = cos t - sin lat1 * s2 ∧
    cos lat1 * cos lat2 * sin dl = sin b * sin t * cos lat1 := by
  intro s2 lat2 dl
  have e1 := sin_sq_add_cos_sq lat1
  have e2 := sin_sq_add_cos_sq t
  have e3 := sin_sq_add_cos_sq b
  have hc1 : 0 ≤ cos lat1 := cos_nonneg_of_mem_Icc ⟨h1, h2⟩
  have hkey : (cos t - sin lat1 * s2) ^ 2 + (sin b * sin t * cos lat1) ^ 2 = cos lat1 ^ 2 * (1 - s2 ^ 2) := by
    simp only [s2]
    generalize sin lat1 = S at *
    generalize cos lat1 = C at *
    generalize sin t = U at *
    generalize cos t = V at *
    generalize sin b = P at *
    generalize cos b = Q at *
    linear_combination (S * V + C * U * Q) ^ 2 * e1 - V ^ 2 * e1 + C ^ 2 * U ^ 2 * e3 + C ^ 2 * e2
  have hs2 : s2 ^ 2 ≤ 1 := by
    rcases eq_or_lt_of_le hc1 with h0 | h0
    · simp only [s2]
      rw [← h0]
      have : sin lat1 ^ 2 = 1 := by rw [← e1, ← h0]; ring
      nlinarith [sq_nonneg (sin t)]
    · have : 0 ≤ cos lat1 ^ 2 * (1 - s2 ^ 2) := by rw [← hkey]; positivity
      have := nonneg_of_mul_nonneg_right this (by positivity)
      linarith
  have hs : sin lat2 = s2 := sin_arcsin (by nlinarith) (by nlinarith)
  have hcl : cos lat2 = sqrt (1 - s2 ^ 2) := cos_arcsin s2
  have hr : sqrt ((cos t - sin lat1 * s2) ^ 2 + (sin b * sin t * cos lat1) ^ 2) = cos lat1 * cos lat2 := by
    rw [hkey, sqrt_mul (sq_nonneg _), sqrt_sq hc1, hcl]
  have ha := atan2_cos (cos t - sin lat1 * s2) (sin b * sin t * cos lat1)
  rw [hr] at ha
  have hdl : dl = atan2 (sin b * sin t * cos lat1) (cos t - sin lat1 * s2) := by
    simp only [dl, hs]
  rw [hdl]
  exact ⟨hs, ha.1, ha.2⟩

theorem unit_location (lon1 lat1 dist b R : ℝ) :
    unit (location lon1 lat1 dist b R).1 (location lon1 lat1 dist b R).2 =
    unit (destination lon1 lat1 dist b R).1 (destination lon1 lat1 dist b R).2 := by
  unfold location unit
  simp only [cos_wrap, sin_wrap]

/-- Going a distance of at most half the circumference along any bearing ends at exactly that distance. -/
theorem C42_distance (lon1 lat1 dist b R : ℝ) (hR : 0 < R) (h1 : -(π / 2) ≤ lat1) (h2 : lat1 ≤ π / 2)
    (h3 : 0 ≤ dist) (h4 : dist ≤ π * R) :
    distance lon1 lat1 (location lon1 lat1 dist b R).1 (location lon1 lat1 dist b R).2 R = dist := by
  rw [C41_great_circle, unit_location]
  obtain ⟨hs, hc, _⟩ := destination_spec lat1 (dist / R) b h1 h2
  have hin : inner ℝ (unit lon1 lat1) (unit (destination lon1 lat1 dist b R).1 (destination lon1 lat1 dist b R).2) =
      cos (dist / R) := by
    rw [inner_unit]
    unfold destination
    simp only [add_sub_cancel_left]
    rw [hc, hs]
    ring
  unfold InnerProductGeometry.angle
  rw [hin, norm_unit, norm_unit, mul_one, div_one, arccos_cos]
  · field_simp
  · positivity
  · rw [div_le_iff₀ hR]; exact h4

/-- The returned longitude is in `[-π, π)` and the latitude in `[-π/2, π/2]`. -/
theorem C42_range (lon1 lat1 dist b R : ℝ) :
    -π ≤ (location lon1 lat1 dist b R).1 ∧ (location lon1 lat1 dist b R).1 < π ∧
    -(π / 2) ≤ (location lon1 lat1 dist b R).2 ∧ (location lon1 lat1 dist b R).2 ≤ π / 2 := by
  have hp := pi_pos
  unfold location
  simp only
  obtain ⟨a, c, _⟩ := positiveMod_spec ((destination lon1 lat1 dist b R).1 + π) (2 * π) (by positivity)
  have hl1 : -(π / 2) ≤ (destination lon1 lat1 dist b R).2 := neg_pi_div_two_le_arcsin _
  have hl2 : (destination lon1 lat1 dist b R).2 ≤ π / 2 := arcsin_le_pi_div_two _
  rw [positiveMod_of_mem ((destination lon1 lat1 dist b R).2 + π) (2 * π) (by positivity) (by linarith) (by linarith)]
  refine ⟨by linarith, by linarith, by linarith, by linarith⟩

/-- Bearings are in `[0, 2π)`, and the bearing of the destination is the bearing taken, unless the start is a
pole or the destination the start or its antipode, where there is no bearing. -/
theorem C42_bearing (lon1 lat1 dist b R : ℝ) (hR : 0 < R) (h1 : -(π / 2) < lat1) (h2 : lat1 < π / 2)
    (h3 : 0 < dist) (h4 : dist < π * R) (hb0 : 0 ≤ b) (hb : b < 2 * π) :
    bearing lon1 lat1 (location lon1 lat1 dist b R).1 (location lon1 lat1 dist b R).2 = b := by
  have hpp := pi_pos
  have hC : 0 < cos lat1 := cos_pos_of_mem_Ioo ⟨h1, h2⟩
  have hU : 0 < sin (dist / R) := by
    apply sin_pos_of_pos_of_lt_pi (by positivity)
    rw [div_lt_iff₀ hR]; exact h4
  obtain ⟨hs, hc, hsn⟩ := destination_spec lat1 (dist / R) b h1.le h2.le
  have e1 := sin_sq_add_cos_sq lat1
  -- the two components of the bearing vector
  have hx : sin (positiveMod ((location lon1 lat1 dist b R).1 - lon1 + π) (2 * π) - π) *
      cos (location lon1 lat1 dist b R).2 = sin (dist / R) * sin b := by
    rw [sin_wrap]
    unfold location
    simp only
    rw [cos_wrap, (wrap_sub _ _).1]
    unfold destination
    simp only [add_sub_cancel_left]
    have : cos lat1 ≠ 0 := hC.ne'
    apply mul_left_cancel₀ this
    linear_combination hsn
  have hy : cos lat1 * sin (location lon1 lat1 dist b R).2 - sin lat1 * cos (location lon1 lat1 dist b R).2 *
      cos (positiveMod ((location lon1 lat1 dist b R).1 - lon1 + π) (2 * π) - π) = sin (dist / R) * cos b := by
    rw [cos_wrap]
    unfold location
    simp only
    rw [cos_wrap, sin_wrap, (wrap_sub _ _).2]
    unfold destination
    simp only [add_sub_cancel_left]
    have : cos lat1 ≠ 0 := hC.ne'
    apply mul_left_cancel₀ this
    rw [hs] at hc ⊢
    linear_combination (-(sin lat1)) * hc + (sin lat1 * cos (dist / R) + cos lat1 * sin (dist / R) * cos b) * e1
  unfold bearing oneBearing
  simp only
  rw [hx, hy]
  have harg : atan2 (sin (dist / R) * sin b) (sin (dist / R) * cos b) = toIocMod two_pi_pos (-π) b := by
    unfold atan2
    generalize sin (dist / R) = u at hU ⊢
    have : (⟨u * cos b, u * sin b⟩ : ℂ) =
        (u : ℂ) * (Complex.cos b + Complex.sin b * Complex.I) := by
      apply Complex.ext <;> simp [Complex.cos_ofReal_re, Complex.sin_ofReal_re]
    rw [this, Complex.arg_mul_cos_add_sin_mul_I_eq_toIocMod hU]
  rw [harg]
  obtain ⟨p1, p2, k, hk⟩ := positiveMod_spec (toIocMod two_pi_pos (-π) b) (2 * π) (by positivity)
  have hm : toIocMod two_pi_pos (-π) b = b - toIocDiv two_pi_pos (-π) b • (2 * π) := rfl
  rw [hm] at hk
  simp only [zsmul_eq_mul] at hk
  have hk2 : positiveMod (toIocMod two_pi_pos (-π) b) (2 * π) = b + 2 * π * ((k - toIocDiv two_pi_pos (-π) b : ℤ) : ℝ) := by
    rw [hm]
    simp only [zsmul_eq_mul]
    rw [hk]
    push_cast
    ring
  generalize (k - toIocDiv two_pi_pos (-π) b : ℤ) = n at hk2
  have hn : n = 0 := by
    have h5 : -1 < (n : ℝ) := by
      by_contra hcon
      push Not at hcon
      nlinarith
    have h6 : (n : ℝ) < 1 := by
      by_contra hcon
      push Not at hcon
      nlinarith
    have h7 : -1 < n := by exact_mod_cast h5
    have h8 : n < 1 := by exact_mod_cast h6
    omega
  rw [hk2, hn]
  simp

/-- Computed bearings are in `[0, 2π)`. -/
theorem C42_bearing_range (lon1 lat1 lon2 lat2 : ℝ) :
    0 ≤ bearing lon1 lat1 lon2 lat2 ∧ bearing lon1 lat1 lon2 lat2 < 2 * π := by
  obtain ⟨a, b, _⟩ := positiveMod_spec (oneBearing lon1 lat1 lon2 lat2) (2 * π) (by positivity)
  exact ⟨a, b⟩

example : ∃ lat1 dist b R : ℝ, 0 < R ∧ -(π / 2) < lat1 ∧ lat1 < π / 2 ∧ 0 < dist ∧ dist < π * R ∧ 0 ≤ b ∧ b < 2 * π :=
  ⟨1, 1, 5, 1, by norm_num, by linarith [pi_gt_three], by linarith [pi_gt_three], by norm_num,
    by linarith [pi_gt_three], by norm_num, by linarith [pi_gt_three]⟩

end Verif.Sphere
