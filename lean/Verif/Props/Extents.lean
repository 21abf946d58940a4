import Verif.Props.Sphere
import Mathlib.Analysis.SpecialFunctions.Trigonometric.Bounds
import Mathlib.Analysis.Complex.Trigonometric

/-! Property C64: the extents of a region. -/

namespace Verif.Sphere

open Real

/-- A point, in degrees, is in the region of the given radius around the centre. -/
def InRegion (R lon0 lat0 radius lon lat : ℝ) : Prop :=
  distance (rad lon0) (rad lat0) (rad lon) (rad lat) R ≤ radius

/-- The point is within the extents; longitudes count up to full turns. -/
def Extents.Contains (e : Extents) (lon lat : ℝ) : Prop :=
  e.latMin ≤ lat ∧ lat ≤ e.latMax ∧ ∃ k : ℤ, e.lonMin ≤ lon + 360 * k ∧ lon + 360 * k ≤ e.lonMax

theorem rad_deg (x : ℝ) : rad (deg x) = x := by
  unfold rad deg
  have := pi_pos.ne'
  field_simp

theorem rad_lt {x y : ℝ} (h : x < y) : rad x < rad y := by
  unfold rad
  have := pi_pos
  apply mul_lt_mul_of_pos_right h
  positivity

theorem rad_sub (x y : ℝ) : rad (x - y) = rad x - rad y := by unfold rad; ring

/-- In the region, the scalar product of the unit vectors is at least the cosine of the angular radius. -/
theorem inRegion_cos {R lon0 lat0 radius lon lat : ℝ} (hR : 0 < R) (hr : radius ≤ π * R)
    (h : InRegion R lon0 lat0 radius lon lat) :
    cos (radius / R) ≤ sin (rad lat0) * sin (rad lat) + cos (rad lat0) * cos (rad lat) * cos (rad lon - rad lon0) := by
  unfold InRegion at h
  rw [C41_great_circle] at h
  rw [← inner_unit]
  have h1 : InnerProductGeometry.angle (unit (rad lon0) (rad lat0)) (unit (rad lon) (rad lat)) ≤ radius / R := by
    rw [le_div_iff₀ hR]; linarith
  have h2 : cos (InnerProductGeometry.angle (unit (rad lon0) (rad lat0)) (unit (rad lon) (rad lat))) =
      inner ℝ (unit (rad lon0) (rad lat0)) (unit (rad lon) (rad lat)) := by
    rw [InnerProductGeometry.cos_angle, norm_unit, norm_unit, mul_one, div_one]
  rw [← h2]
  apply cos_le_cos_of_nonneg_of_le_pi (InnerProductGeometry.angle_nonneg _ _) _ h1
  rw [div_le_iff₀ hR]; exact hr

theorem cos_rad_nonneg {x : ℝ} (h1 : -90 ≤ x) (h2 : x ≤ 90) : 0 ≤ cos (rad x) := by
  have := pi_pos
  apply cos_nonneg_of_mem_Icc
  unfold rad
  constructor <;> nlinarith

/-- Latitudes of the region are within the extents, and so are the longitudes if the region contains a pole or
is centred on the equator.  Missing: longitudes of other regions, see `C64_longitude_always_fails`. -/
theorem C64_extents_partial (R lon0 lat0 radius lon lat : ℝ) (hR : 0 < R) (hr0 : 0 ≤ radius) (hr : radius ≤ π * R)
    (hlat0 : -90 ≤ lat0 ∧ lat0 ≤ 90) (hlat : -90 ≤ lat ∧ lat ≤ 90) (hin : InRegion R lon0 lat0 radius lon lat) :
    ((extents R lon0 lat0 radius).latMin ≤ lat ∧ lat ≤ (extents R lon0 lat0 radius).latMax) ∧
    (90 ≤ |lat0| + deg (radius / R) ∨ lat0 = 0 → (extents R lon0 lat0 radius).Contains lon lat) := by
  have hpi := pi_pos
  have hcos := inRegion_cos hR hr hin
  have c0 := cos_rad_nonneg hlat0.1 hlat0.2
  have c1 := cos_rad_nonneg hlat.1 hlat.2
  have ha0 : 0 ≤ radius / R := by positivity
  have hapi : radius / R ≤ π := by rw [div_le_iff₀ hR]; exact hr
  -- the latitude difference
  have hdl : |lat - lat0| ≤ deg (radius / R) := by
    by_contra hc
    push Not at hc
    have h1 : radius / R < |rad lat - rad lat0| := by
      have := rad_lt hc
      rw [rad_deg] at this
      rw [← rad_sub]
      unfold rad at this ⊢
      rwa [abs_mul, abs_of_pos (by positivity : (0 : ℝ) < π / 180)]
    have h2 : |rad lat - rad lat0| ≤ π := by
      rw [← rad_sub]
      unfold rad
      rw [abs_mul, abs_of_pos (by positivity : (0 : ℝ) < π / 180)]
      have : |lat - lat0| ≤ 180 := abs_le.mpr ⟨by linarith [hlat.1, hlat0.2], by linarith [hlat.2, hlat0.1]⟩
      nlinarith
    have h3 := cos_lt_cos_of_nonneg_of_le_pi ha0 h2 h1
    rw [cos_abs, cos_sub] at h3
    have h4 : cos (rad lat0) * cos (rad lat) * cos (rad lon - rad lon0) ≤ cos (rad lat0) * cos (rad lat) := by
      have := cos_le_one (rad lon - rad lon0)
      nlinarith [mul_nonneg c0 c1]
    nlinarith
  have hlatc : (extents R lon0 lat0 radius).latMin ≤ lat ∧ lat ≤ (extents R lon0 lat0 radius).latMax := by
    obtain ⟨d1, d2⟩ := abs_le.mp hdl
    unfold extents
    simp only
    split_ifs
    · exact ⟨max_le hlat.1 (by linarith), le_min hlat.2 (by linarith)⟩
    · exact ⟨max_le hlat.1 (by linarith), le_min hlat.2 (by linarith)⟩
  refine ⟨hlatc, ?_⟩
  intro hcase
  refine ⟨hlatc.1, hlatc.2, ?_⟩
  by_cases hpole : 90 ≤ |lat0| + deg (radius / R)
  · unfold extents
    simp only
    rw [if_pos hpole]
    simp only
    refine ⟨-⌊(lon + 180) / 360⌋, ?_⟩
    have f1 := Int.floor_le ((lon + 180) / 360)
    have f2 := Int.lt_floor_add_one ((lon + 180) / 360)
    rw [le_div_iff₀ (by norm_num)] at f1
    rw [div_lt_iff₀ (by norm_num)] at f2
    push_cast
    constructor <;> linarith
  · have hl0 : lat0 = 0 := by tauto
    subst hl0
    have hrad0 : rad 0 = 0 := by unfold rad; ring
    rw [hrad0] at hcos
    simp only [sin_zero, zero_mul, cos_zero, one_mul, zero_add] at hcos
    rw [abs_zero, zero_add] at hpole
    push Not at hpole
    have hahalf : radius / R < π / 2 := by
      have := rad_lt hpole
      rw [rad_deg] at this
      unfold rad at this
      linarith
    -- bring the longitude difference into [-180, 180)
    set k : ℤ := -⌊(lon - lon0 + 180) / 360⌋ with hk
    have f1 := Int.floor_le ((lon - lon0 + 180) / 360)
    have f2 := Int.lt_floor_add_one ((lon - lon0 + 180) / 360)
    rw [le_div_iff₀ (by norm_num)] at f1
    rw [div_lt_iff₀ (by norm_num)] at f2
    have hkr : (k : ℝ) = -(⌊(lon - lon0 + 180) / 360⌋ : ℝ) := by rw [hk]; push_cast; ring
    set d : ℝ := lon - lon0 + 360 * k with hd
    have d1 : -180 ≤ d := by rw [hd, hkr]; linarith
    have d2 : d < 180 := by rw [hd, hkr]; linarith
    have hcd : cos (rad lon - rad lon0) = cos (rad d) := by
      rw [hd, ← rad_sub]
      have : rad (lon - lon0 + 360 * k) = rad (lon - lon0) + k * (2 * π) := by unfold rad; ring
      rw [this, cos_add_int_mul_two_pi]
    rw [hcd] at hcos
    have hca : 0 < cos (radius / R) := cos_pos_of_mem_Ioo ⟨by linarith, hahalf⟩
    have hcdpos : 0 < cos (rad d) := by
      by_contra hc
      push Not at hc
      nlinarith [mul_nonneg c1 (by linarith : (0 : ℝ) ≤ -cos (rad d))]
    have hle : cos (radius / R) ≤ cos (rad d) := by
      have := cos_le_one (rad lat)
      nlinarith
    have hdabs : |rad d| ≤ radius / R := by
      by_contra hc
      push Not at hc
      have h2 : |rad d| ≤ π := by
        unfold rad
        rw [abs_mul, abs_of_pos (by positivity : (0 : ℝ) < π / 180)]
        have : |d| ≤ 180 := abs_le.mpr ⟨d1, d2.le⟩
        nlinarith
      have := cos_lt_cos_of_nonneg_of_le_pi ha0 h2 hc
      rw [cos_abs] at this
      linarith
    have hdd : |d| ≤ deg (radius / R) := by
      by_contra hc
      push Not at hc
      have := rad_lt hc
      rw [rad_deg] at this
      unfold rad at hdabs this
      rw [abs_mul, abs_of_pos (by positivity : (0 : ℝ) < π / 180)] at hdabs
      linarith
    obtain ⟨g1, g2⟩ := abs_le.mp hdd
    unfold extents
    simp only
    rw [if_neg (by rw [abs_zero, zero_add]; linarith), hrad0, cos_zero, div_one]
    have hmin : min (deg (radius / R)) 180 = deg (radius / R) := min_eq_left (by linarith)
    rw [hmin]
    refine ⟨k, ?_, ?_⟩
    · simp only; linarith
    · simp only; linarith

/-- Away from the equator the longitude span is too small: a region of half a radian around 60° N, 0° E contains
the point 75° N, 60° E, but the extents only reach 57.3° E. -/
theorem C64_longitude_fails :
    InRegion 1 0 60 (1 / 2) 60 75 ∧ ¬ (extents 1 0 60 (1 / 2)).Contains 60 75 := by
  have hpi3 := pi_gt_d2
  have hpi4 := pi_lt_d2
  have e60 : rad 60 = π / 3 := by unfold rad; ring
  have e0 : rad 0 = 0 := by unfold rad; ring
  have e75 : rad 75 = π / 4 + π / 6 := by unfold rad; ring
  constructor
  · unfold InRegion
    rw [C41_great_circle, one_mul, e60, e0, e75]
    unfold InnerProductGeometry.angle
    rw [norm_unit, norm_unit, mul_one, div_one, inner_unit, sub_zero]
    rw [sin_add, cos_add, sin_pi_div_three, cos_pi_div_three, sin_pi_div_four, cos_pi_div_four, sin_pi_div_six,
      cos_pi_div_six]
    have hcb := cos_bound (show |(1 / 2 : ℝ)| ≤ 1 by norm_num)
    have hc : cos (1 / 2 : ℝ) ≤ 0.8785 := by
      have := (abs_le.mp hcb).2
      have e : |(1 / 2 : ℝ)| = 1 / 2 := by norm_num
      rw [e] at this
      norm_num at this ⊢
      linarith
    have h2 : (1.414 : ℝ) ≤ sqrt 2 := le_sqrt_of_sq_le (by norm_num)
    have h3 : (1.732 : ℝ) ≤ sqrt 3 := le_sqrt_of_sq_le (by norm_num)
    have h3' : sqrt 3 ≤ 1.7321 := sqrt_le_iff.mpr ⟨by norm_num, by norm_num⟩
    have hs3 : sqrt 3 * sqrt 3 = 3 := mul_self_sqrt (by norm_num)
    have harc : arccos (cos (1 / 2)) = 1 / 2 := arccos_cos (by norm_num) (by linarith)
    refine le_trans (arccos_le_arccos ?_) harc.le
    have key : 0.8785 ≤ sqrt 3 / 2 * (sqrt 2 / 2 * (sqrt 3 / 2) + sqrt 2 / 2 * (1 / 2)) +
        1 / 2 * (sqrt 2 / 2 * (sqrt 3 / 2) - sqrt 2 / 2 * (1 / 2)) * (1 / 2) := by
      have e : sqrt 3 / 2 * (sqrt 2 / 2 * (sqrt 3 / 2) + sqrt 2 / 2 * (1 / 2)) +
        1 / 2 * (sqrt 2 / 2 * (sqrt 3 / 2) - sqrt 2 / 2 * (1 / 2)) * (1 / 2) =
        sqrt 2 * (2 * (sqrt 3 * sqrt 3) + 3 * sqrt 3 - 1) / 16 := by ring
      rw [e, hs3]
      nlinarith
    linarith
  · rintro ⟨_, _, k, _, hk2⟩
    unfold extents at hk2
    simp only at hk2
    have hdeg : deg (1 / 2 / 1) < 28.7 := by
      unfold deg
      have : (1 / 2 / 1 : ℝ) * (180 / π) = 90 / π := by ring
      rw [this, div_lt_iff₀ pi_pos]
      nlinarith
    have hdeg0 : 0 < deg (1 / 2 / 1) := by unfold deg; positivity
    have hab : |(60 : ℝ)| = 60 := by norm_num
    rename_i _ _ hk1
    unfold extents at hk1
    simp only at hk1
    rw [if_neg (by rw [hab]; linarith)] at hk1 hk2
    simp only [e60, cos_pi_div_three] at hk1 hk2
    have hmin := min_le_left (deg (1 / 2 / 1) / (1 / 2)) (180 : ℝ)
    have hup : (60 : ℝ) + 360 * k < 60 := by linarith
    have hlo : (-60 : ℝ) < 60 + 360 * k := by linarith
    have hk0 : k < 0 := by
      have : (k : ℝ) < 0 := by linarith
      exact_mod_cast this
    have hk1' : -1 < k := by
      have : (-1 : ℝ) < k := by linarith
      exact_mod_cast this
    omega

/-- It is too small for every region that neither contains a pole nor is centred on the equator: some point of the region is always
outside the extents. -/
theorem C64_longitude_always_fails (R lon0 lat0 radius : ℝ) (hR : 0 < R) (hr0 : 0 < radius) (h0 : lat0 ≠ 0)
    (hp : |lat0| + deg (radius / R) < 90) :
    ∃ lon lat, -90 ≤ lat ∧ lat ≤ 90 ∧ InRegion R lon0 lat0 radius lon lat ∧ ¬ (extents R lon0 lat0 radius).Contains lon lat := by
  have hpi := pi_pos
  set ρ := radius / R with hρ
  have hρ0 : 0 < ρ := by positivity
  set φ0 := rad lat0 with hφ0
  have hφ0' : φ0 ≠ 0 := by
    rw [hφ0]; unfold rad
    exact mul_ne_zero h0 (by positivity)
  have hsum : |φ0| + ρ < π / 2 := by
    have h1 : rad (|lat0| + deg ρ) < rad 90 := rad_lt hp
    have h2 : rad (|lat0| + deg ρ) = |φ0| + ρ := by
      have : rad (|lat0| + deg ρ) = rad |lat0| + rad (deg ρ) := by unfold rad; ring
      rw [this, rad_deg, hφ0]
      unfold rad
      rw [abs_mul, abs_of_pos (by positivity : (0 : ℝ) < π / 180)]
    have h3 : rad 90 = π / 2 := by unfold rad; ring
    linarith
  have habs : 0 < |φ0| := abs_pos.mpr hφ0'
  set c := cos φ0 with hc
  have hc1 : c < 1 := by
    rw [hc, ← cos_abs, ← cos_zero]
    exact cos_lt_cos_of_nonneg_of_le_pi le_rfl (by linarith) habs
  have hcs : c = sin (π / 2 - |φ0|) := by rw [sin_pi_div_two_sub, cos_abs]
  have hsc : sin ρ < c := by
    rw [hcs]
    exact sin_lt_sin_of_lt_of_le_pi_div_two (by linarith) (by linarith) (by linarith)
  have hsρ : 0 < sin ρ := sin_pos_of_pos_of_lt_pi hρ0 (by linarith)
  have hc0 : 0 < c := hsρ.trans hsc
  have hcρ : 0 < cos ρ := cos_pos_of_mem_Ioo ⟨by linarith, by linarith⟩
  set q := cos ρ ^ 2 - sin φ0 ^ 2 with hq
  have hq' : q = c ^ 2 - sin ρ ^ 2 := by
    have h1 := sin_sq_add_cos_sq ρ
    have h2 := sin_sq_add_cos_sq φ0
    rw [hq, hc]; linarith
  have hq0 : 0 < q := by rw [hq']; nlinarith
  set Δ := arcsin (sin ρ / c) with hΔ
  set φ := arcsin (sin φ0 / cos ρ) with hφ
  have sΔ : sin Δ = sin ρ / c := sin_arcsin (by rw [le_div_iff₀ hc0]; linarith) (by rw [div_le_one hc0]; exact hsc.le)
  have hsφ : |sin φ0| ≤ cos ρ := abs_le_of_sq_le_sq (by nlinarith) hcρ.le
  have sφ : sin φ = sin φ0 / cos ρ := sin_arcsin
    (by rw [le_div_iff₀ hcρ]; linarith [(abs_le.mp hsφ).1]) (by rw [div_le_one hcρ]; exact (abs_le.mp hsφ).2)
  have cΔ : cos Δ = √q / c := by
    rw [hΔ, cos_arcsin, div_pow, ← sqrt_sq hc0.le, ← sqrt_div hq0.le, sqrt_sq hc0.le, hq']
    congr 1
    field_simp
  have cφ : cos φ = √q / cos ρ := by
    rw [hφ, cos_arcsin, div_pow, ← sqrt_sq hcρ.le, ← sqrt_div hq0.le, sqrt_sq hcρ.le, hq]
    congr 1
    field_simp
  have hΔle : Δ ≤ π / 2 := arcsin_le_pi_div_two _
  have hx0 : 0 < ρ / c := by positivity
  have hx : ρ / c < π / 2 := by
    have h1 := mul_le_sin (x := π / 2 - |φ0|) (by linarith) (by linarith)
    rw [← hcs] at h1
    rw [div_lt_iff₀ hc0]
    have h2 : 2 / π * (π / 2 - |φ0|) * (π / 2) = π / 2 - |φ0| := by field_simp
    nlinarith
  have hlt : ρ / c < Δ := by
    by_contra hcon
    push Not at hcon
    have h1 : sin Δ ≤ sin (ρ / c) :=
      sin_le_sin_of_le_of_le_pi_div_two (neg_pi_div_two_le_arcsin _) hx.le hcon
    have h2 := strictConcaveOn_sin_Icc.2 (x := ρ / c) (y := 0) ⟨hx0.le, by linarith⟩ ⟨le_rfl, hpi.le⟩ hx0.ne' hc0
      (sub_pos.mpr hc1) (by ring)
    simp only [smul_eq_mul, sin_zero, mul_zero, add_zero] at h2
    rw [mul_div_cancel₀ _ hc0.ne'] at h2
    rw [sΔ, div_le_iff₀ hc0] at h1
    linarith
  refine ⟨lon0 + deg Δ, deg φ, ?_, ?_, ?_, ?_⟩
  · have := neg_pi_div_two_le_arcsin (sin φ0 / cos ρ)
    rw [← hφ] at this
    unfold deg
    have h : (-90 : ℝ) = -(π / 2) * (180 / π) := by field_simp; norm_num
    rw [h]
    exact mul_le_mul_of_nonneg_right this (by positivity)
  · have := arcsin_le_pi_div_two (sin φ0 / cos ρ)
    rw [← hφ] at this
    unfold deg
    have h : (90 : ℝ) = (π / 2) * (180 / π) := by field_simp; norm_num
    rw [h]
    exact mul_le_mul_of_nonneg_right this (by positivity)
  · unfold InRegion
    have hlon : rad (lon0 + deg Δ) - rad lon0 = Δ := by
      have : rad (lon0 + deg Δ) = rad lon0 + rad (deg Δ) := by unfold rad; ring
      rw [this, rad_deg]; ring
    rw [C41_great_circle]
    unfold InnerProductGeometry.angle
    rw [norm_unit, norm_unit, mul_one, div_one, inner_unit, hlon, rad_deg, ← hφ0, ← hc, sφ, cφ, cΔ]
    have e : sin φ0 * (sin φ0 / cos ρ) + c * (√q / cos ρ) * (√q / c) = cos ρ := by
      have h1 : c * (√q / cos ρ) * (√q / c) = q / cos ρ := by
        have := mul_self_sqrt hq0.le
        field_simp
        nlinarith
      rw [h1, hq]
      field_simp
      ring
    rw [e, arccos_cos hρ0.le (by linarith), hρ]
    exact (mul_div_cancel₀ radius hR.ne').le
  · rintro ⟨_, _, k, hk1, hk2⟩
    unfold extents at hk1 hk2
    simp only at hk1 hk2
    rw [if_neg (by linarith)] at hk1 hk2
    simp only [← hρ, ← hφ0, ← hc] at hk1 hk2
    have hmin := min_le_left (deg ρ / c) (180 : ℝ)
    have hd : deg ρ / c < deg Δ := by
      have h1 : deg ρ / c = (ρ / c) * (180 / π) := by unfold deg; ring
      rw [h1]
      unfold deg
      exact mul_lt_mul_of_pos_right hlt (by positivity)
    have hd90 : deg Δ ≤ 90 := by
      have h : (90 : ℝ) = (π / 2) * (180 / π) := by field_simp; norm_num
      rw [h]
      unfold deg
      exact mul_le_mul_of_nonneg_right hΔle (by positivity)
    have hk0 : k < 0 := by
      have : (k : ℝ) < 0 := by linarith
      exact_mod_cast this
    have hk1' : -1 < k := by
      have : (-1 : ℝ) < k := by linarith
      exact_mod_cast this
    omega

example : |(60 : ℝ)| + deg (1 / 4 / 1) < 90 := by
  have h := pi_gt_three
  have : deg (1 / 4 / 1) < 30 := by
    unfold deg
    have : (1 / 4 / 1 : ℝ) * (180 / π) = 45 / π := by ring
    rw [this, div_lt_iff₀ pi_pos]
    linarith
  rw [abs_of_pos (by norm_num)]
  linarith

example : ∃ (R lon0 lat0 radius lon lat : ℝ), 0 < R ∧ 0 ≤ radius ∧ radius ≤ π * R ∧ (-90 ≤ lat0 ∧ lat0 ≤ 90) ∧
    (-90 ≤ lat ∧ lat ≤ 90) ∧ InRegion R lon0 lat0 radius lon lat ∧ lon ≠ lon0 :=
  ⟨1, 0, 60, 1 / 2, 60, 75, by norm_num, by norm_num, by linarith [pi_gt_three], by norm_num, by norm_num,
    C64_longitude_fails.1, by norm_num⟩

end Verif.Sphere
