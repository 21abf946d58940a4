import Verif.Model.DemWindow
import Verif.Props.Projection
import Mathlib.Analysis.SpecialFunctions.Trigonometric.Bounds

/-!
C197 The mesh of a local region with elevation data has the resolution of the data everywhere in the region.
-/

namespace Verif.DemWindow

open Verif.Sphere Verif.Projection Real

/-- Polar coordinates with the angle from the north. -/
theorem exists_angle (x y : ℝ) : ∃ b, x = √(x ^ 2 + y ^ 2) * sin b ∧ y = √(x ^ 2 + y ^ 2) * cos b := by
  refine ⟨Complex.arg ⟨y, x⟩, ?_, ?_⟩
  · have h := Complex.norm_mul_sin_arg ⟨y, x⟩
    rw [Complex.norm_def, Complex.normSq_mk] at h
    rw [show x ^ 2 + y ^ 2 = y * y + x * x by ring]
    exact h.symm
  · have h := Complex.norm_mul_cos_arg ⟨y, x⟩
    rw [Complex.norm_def, Complex.normSq_mk] at h
    rw [show x ^ 2 + y ^ 2 = y * y + x * x by ring]
    exact h.symm

/-- The distance from the centre of the place with given coordinates. -/
theorem distance_back (R lon0 lat0 x y : ℝ) (hR : 0 < R) (h1 : -(π / 2) < lat0) (h2 : lat0 < π / 2) :
    distance lon0 lat0 (toSurface R lon0 lat0 x y).1 (toSurface R lon0 lat0 x y).2 R = 2 * R * arcsin (√(x ^ 2 + y ^ 2) / (2 * R)) := by
  by_cases h0 : √(x ^ 2 + y ^ 2) = 0
  · have hs : x ^ 2 + y ^ 2 = 0 := by
      have := Real.sqrt_eq_zero (by positivity : 0 ≤ x ^ 2 + y ^ 2) |>.1 h0
      exact this
    have hx : x = 0 := by nlinarith [sq_nonneg x, sq_nonneg y]
    have hy : y = 0 := by nlinarith [sq_nonneg x, sq_nonneg y]
    subst hx; subst hy
    have harg : Complex.arg ⟨0, 0⟩ = 0 := Complex.arg_zero
    have hu : unit (toSurface R lon0 lat0 0 0).1 (toSurface R lon0 lat0 0 0).2 = unit lon0 lat0 := by
      unfold toSurface unit
      simp only [cos_wrap, sin_wrap]
      simp [arcsin_sin h1.le h2.le, atan2, harg]
    have hz : distance lon0 lat0 lon0 lat0 R = 0 := (C41_points lon0 lat0 lon0 lat0 R hR 0 0).1.2 rfl
    rw [C41_great_circle, hu, ← C41_great_circle, h0, hz]
    simp
  · have hpos : 0 < √(x ^ 2 + y ^ 2) := lt_of_le_of_ne (Real.sqrt_nonneg _) (Ne.symm h0)
    obtain ⟨b, hx, hy⟩ := exists_angle x y
    have hb := C192_back R lon0 lat0 (√(x ^ 2 + y ^ 2)) b hR h1 h2 hpos
    rw [← hx, ← hy] at hb
    rw [hb]
    have ha0 : 0 ≤ arcsin (√(x ^ 2 + y ^ 2) / (2 * R)) := arcsin_nonneg.2 (by positivity)
    apply C42_distance lon0 lat0 _ _ R hR h1.le h2.le (by positivity)
    have := arcsin_le_pi_div_two (√(x ^ 2 + y ^ 2) / (2 * R))
    nlinarith

/-- A pixel is a face of the local region exactly when it lies in the circle that is the image of the region, enlarged by a quarter of a pixel (on a body so
large that this is not all of it). -/
theorem C197_kept (R lon0 lat0 r pix : ℝ) (p : ℝ × ℝ) (hR : 0 < R) (h1 : -(π / 2) < lat0) (h2 : lat0 < π / 2)
    (hr : 0 ≤ r + pix / 4) (hbig : r + pix / 4 < π * R) :
    Kept R lon0 lat0 r pix p ↔ √(p.1 ^ 2 + p.2 ^ 2) ≤ 2 * R * sin ((r + pix / 4) / (2 * R)) := by
  unfold Kept
  rw [distance_back R lon0 lat0 p.1 p.2 hR h1 h2]
  have hu0 : 0 ≤ (r + pix / 4) / (2 * R) := by positivity
  have hu1 : (r + pix / 4) / (2 * R) < π / 2 := by rw [div_lt_iff₀ (by linarith)]; linarith
  have e : 2 * R * arcsin (√(p.1 ^ 2 + p.2 ^ 2) / (2 * R)) ≤ r + pix / 4 ↔ arcsin (√(p.1 ^ 2 + p.2 ^ 2) / (2 * R)) ≤ (r + pix / 4) / (2 * R) := by
    rw [le_div_iff₀ (by linarith), mul_comm]
  rw [e, arcsin_le_iff_le_sin' ⟨by linarith [pi_pos], hu1⟩, div_le_iff₀ (by linarith), mul_comm]

/-- A coordinate inside the square lies in one of its columns. -/
theorem exists_column (r res x : ℝ) (hr : 0 < r) (hres : 0 < res) (hx : |x| ≤ r) :
    ∃ k : ℕ, k < width r res ∧ |-halfBox r + (k + 1 / 2) * res - x| ≤ res / 2 := by
  have hs : (1 : ℝ) ≤ √2 := by rw [← Real.sqrt_one]; exact Real.sqrt_le_sqrt (by norm_num)
  have hh : r < halfBox r := by
    unfold halfBox
    nlinarith [mul_le_mul_of_nonneg_right hs hr.le]
  obtain ⟨ha, hb⟩ := abs_le.1 hx
  have h0 : 0 ≤ (x + halfBox r) / res := div_nonneg (by linarith) hres.le
  refine ⟨⌊(x + halfBox r) / res⌋₊, ?_, ?_⟩
  · unfold width
    rw [Nat.lt_ceil]
    refine lt_of_le_of_lt (Nat.floor_le h0) ?_
    exact div_lt_div_of_pos_right (by linarith) hres
  · have l1 := Nat.floor_le h0
    have l2 := Nat.lt_floor_add_one ((x + halfBox r) / res)
    rw [le_div_iff₀ hres] at l1
    rw [div_lt_iff₀ hres] at l2
    rw [abs_le]
    constructor <;> nlinarith

/-- The coordinates of a place, and its distance from the origin. -/
theorem radius_forward (R lon0 lat0 lon lat : ℝ) (hR : 0 < R) (ha : distance lon0 lat0 lon lat R < π * R) :
    √((fromSurface R lon0 lat0 lon lat).1 ^ 2 + (fromSurface R lon0 lat0 lon lat).2 ^ 2) = 2 * R * sin (distance lon0 lat0 lon lat R / (2 * R)) ∧
    2 * R * sin (distance lon0 lat0 lon lat R / (2 * R)) ≤ distance lon0 lat0 lon lat R := by
  have hd0 : 0 ≤ distance lon0 lat0 lon lat R := (C41_metric lon0 lat0 lon lat lon lat R hR.le).2.1
  have hu0 : 0 ≤ distance lon0 lat0 lon lat R / (2 * R) := by positivity
  have hu1 : distance lon0 lat0 lon lat R / (2 * R) < π / 2 := by rw [div_lt_iff₀ (by linarith)]; linarith
  have hs : 0 ≤ sin (distance lon0 lat0 lon lat R / (2 * R)) := sin_nonneg_of_nonneg_of_le_pi hu0 (by linarith [pi_pos])
  constructor
  · rw [C192_forward R lon0 lat0 lon lat hR ha]
    simp only
    rw [show (2 * R * sin (distance lon0 lat0 lon lat R / (2 * R)) * sin (bearing lon0 lat0 lon lat)) ^ 2 +
      (2 * R * sin (distance lon0 lat0 lon lat R / (2 * R)) * cos (bearing lon0 lat0 lon lat)) ^ 2 =
      (2 * R * sin (distance lon0 lat0 lon lat R / (2 * R))) ^ 2 * (sin (bearing lon0 lat0 lon lat) ^ 2 + cos (bearing lon0 lat0 lon lat) ^ 2) by ring,
      sin_sq_add_cos_sq, mul_one, Real.sqrt_sq (by positivity)]
  · have := sin_le hu0
    have := mul_le_mul_of_nonneg_left this (show 0 ≤ 2 * R by linarith)
    rwa [mul_div_cancel₀ _ (by positivity)] at this

theorem abs_le_radius (x y : ℝ) : |x| ≤ √(x ^ 2 + y ^ 2) ∧ |y| ≤ √(x ^ 2 + y ^ 2) :=
  ⟨Real.abs_le_sqrt (by nlinarith [sq_nonneg y]), Real.abs_le_sqrt (by nlinarith [sq_nonneg x])⟩

/-- Every place of the region lies in a pixel of the square that is read. -/
theorem C197_square (R lon0 lat0 r res lon lat : ℝ) (hR : 0 < R) (hr : 0 < r) (hres : 0 < res)
    (ha : distance lon0 lat0 lon lat R < π * R) (hd : distance lon0 lat0 lon lat R ≤ r) :
    ∃ row col, row < width r res ∧ col < width r res ∧
      |(pixel r res row col).1 - (fromSurface R lon0 lat0 lon lat).1| ≤ res / 2 ∧
      |(pixel r res row col).2 - (fromSurface R lon0 lat0 lon lat).2| ≤ res / 2 := by
  obtain ⟨e, hle⟩ := radius_forward R lon0 lat0 lon lat hR ha
  obtain ⟨hx, hy⟩ := abs_le_radius (fromSurface R lon0 lat0 lon lat).1 (fromSurface R lon0 lat0 lon lat).2
  rw [e] at hx hy
  obtain ⟨col, hc, hcx⟩ := exists_column r res _ hr hres (hx.trans (hle.trans hd))
  obtain ⟨row, hw, hwy⟩ := exists_column r res (-(fromSurface R lon0 lat0 lon lat).2) hr hres (by rw [abs_neg]; exact hy.trans (hle.trans hd))
  refine ⟨row, col, hw, hc, hcx, ?_⟩
  rw [← abs_neg]
  convert hwy using 2
  simp only [pixel]
  ring

/-- A point at most half of `res` away in either coordinate is at most half the diagonal farther out. -/
theorem farther (A B X Y res : ℝ) (hres : 0 < res) (hx : |A - X| ≤ res / 2) (hy : |B - Y| ≤ res / 2) :
    √(A ^ 2 + B ^ 2) ≤ √(X ^ 2 + Y ^ 2) + 0.71 * res := by
  have hrad := Real.sqrt_nonneg (X ^ 2 + Y ^ 2)
  rw [Real.sqrt_le_left (by positivity)]
  have hsq := Real.sq_sqrt (show 0 ≤ X ^ 2 + Y ^ 2 by positivity)
  generalize √(X ^ 2 + Y ^ 2) = ρ at *
  have u2 : (A - X) ^ 2 ≤ (res / 2) ^ 2 := sq_le_sq' (by linarith [(abs_le.1 hx).1]) (abs_le.1 hx).2
  have v2 : (B - Y) ^ 2 ≤ (res / 2) ^ 2 := sq_le_sq' (by linarith [(abs_le.1 hy).1]) (abs_le.1 hy).2
  have hs : (A - X) ^ 2 + (B - Y) ^ 2 ≤ (0.71 * res) ^ 2 := by nlinarith [sq_nonneg res]
  have cs : (X * (A - X) + Y * (B - Y)) ^ 2 ≤ (ρ * (0.71 * res)) ^ 2 := by
    have h2 : (X * (A - X) + Y * (B - Y)) ^ 2 ≤ (X ^ 2 + Y ^ 2) * ((A - X) ^ 2 + (B - Y) ^ 2) := by
      nlinarith [sq_nonneg (X * (B - Y) - Y * (A - X))]
    have h3 : (X ^ 2 + Y ^ 2) * ((A - X) ^ 2 + (B - Y) ^ 2) ≤ (X ^ 2 + Y ^ 2) * (0.71 * res) ^ 2 :=
      mul_le_mul_of_nonneg_left hs (by positivity)
    rw [mul_pow, hsq]
    linarith
  have cs' := (abs_le_of_sq_le_sq' cs (by positivity)).2
  have e : A ^ 2 + B ^ 2 = X ^ 2 + Y ^ 2 + 2 * (X * (A - X) + Y * (B - Y)) + ((A - X) ^ 2 + (B - Y) ^ 2) := by ring
  have e2 : (ρ + 0.71 * res) ^ 2 = ρ ^ 2 + 2 * (ρ * (0.71 * res)) + (0.71 * res) ^ 2 := by ring
  rw [e, e2, ← hsq]
  linarith

theorem sin_slope (a b : ℝ) (ha0 : 0 ≤ a) (hab : a ≤ b) (hb : b ≤ 0.6) : 0.8 * (b - a) ≤ sin b - sin a := by
  have hs : sin b - sin a = 2 * sin ((b - a) / 2) * cos ((b + a) / 2) := by rw [sin_sub_sin]
  have hc : 0.82 ≤ cos ((b + a) / 2) := by
    have h1 := one_sub_sq_div_two_le_cos (x := (b + a) / 2)
    have h2 : ((b + a) / 2) ^ 2 ≤ 0.6 ^ 2 := pow_le_pow_left₀ (by linarith) (by linarith) 2
    linarith
  have ht : 0.98 * ((b - a) / 2) ≤ sin ((b - a) / 2) := by
    rcases eq_or_lt_of_le hab with h | h
    · rw [h]; simp
    · have hpos : 0 < (b - a) / 2 := by linarith
      have h4 := sin_gt_sub_cube hpos
      have h5 : ((b - a) / 2) ^ 2 ≤ 0.3 ^ 2 := pow_le_pow_left₀ hpos.le (by linarith) 2
      have h6 : ((b - a) / 2) ^ 3 = ((b - a) / 2) ^ 2 * ((b - a) / 2) := by ring
      have h7 := mul_le_mul_of_nonneg_right h5 hpos.le
      rw [h6] at h4
      linarith
  rw [hs]
  have h0 : 0 ≤ (b - a) / 2 := by linarith
  have := mul_le_mul ht hc (by norm_num) (by linarith)
  linarith

/-- Every place of the region at least the resolution inside its edge (a quarter of a pixel outside the circle) has a face whose centre is at most half the
resolution away in either coordinate, for regions up to 1.2 radii of the body. -/
theorem C197_resolved (R lon0 lat0 r pix res lon lat : ℝ) (hR : 0 < R) (h1 : -(π / 2) < lat0) (h2 : lat0 < π / 2) (hr : 0 < r) (hpix : 0 ≤ pix)
    (hres : 0 < res) (hsize : r + pix / 4 ≤ 1.2 * R) (hd : distance lon0 lat0 lon lat R ≤ r) (hin : distance lon0 lat0 lon lat R + res ≤ r + pix / 4) :
    ∃ p ∈ facePoints R lon0 lat0 r pix res, |p.1 - (fromSurface R lon0 lat0 lon lat).1| ≤ res / 2 ∧
      |p.2 - (fromSurface R lon0 lat0 lon lat).2| ≤ res / 2 := by
  have hpi := pi_gt_three
  have ha : distance lon0 lat0 lon lat R < π * R := by nlinarith
  have hd0 : 0 ≤ distance lon0 lat0 lon lat R := (C41_metric lon0 lat0 lon lat lon lat R hR.le).2.1
  obtain ⟨row, col, hw, hc, hx, hy⟩ := C197_square R lon0 lat0 r res lon lat hR hr hres ha hd
  refine ⟨pixel r res row col, ⟨row, col, hw, hc, rfl, ?_⟩, hx, hy⟩
  rw [C197_kept R lon0 lat0 r pix _ hR h1 h2 (by linarith) (by nlinarith)]
  obtain ⟨e, hle⟩ := radius_forward R lon0 lat0 lon lat hR ha
  generalize hX : (fromSurface R lon0 lat0 lon lat).1 = X at *
  generalize hY : (fromSurface R lon0 lat0 lon lat).2 = Y at *
  generalize hA : (pixel r res row col).1 = A at *
  generalize hB : (pixel r res row col).2 = B at *
  generalize hD : distance lon0 lat0 lon lat R = D at *
  have tri := farther A B X Y res hres hx hy
  have hDa : D = 2 * R * (D / (2 * R)) := by field_simp
  have hDb : r + pix / 4 = 2 * R * ((r + pix / 4) / (2 * R)) := by field_simp
  have hab : D / (2 * R) ≤ (r + pix / 4) / (2 * R) := div_le_div_of_nonneg_right (by linarith) (by linarith)
  have hb : (r + pix / 4) / (2 * R) ≤ 0.6 := by
    rw [div_le_iff₀ (by linarith)]
    linarith
  have mono := mul_le_mul_of_nonneg_left (sin_slope _ _ (by positivity) hab hb) (show 0 ≤ 2 * R by linarith)
  rw [e] at tri
  have h8 : 2 * R * (0.8 * ((r + pix / 4) / (2 * R) - D / (2 * R))) = 0.8 * (r + pix / 4 - D) := by
    field_simp
  rw [h8, mul_sub] at mono
  linarith

/-- A region of 100 km on the Moon with 100 m pixels, and its centre. -/
example : (0 : ℝ) < 1737400 ∧ (100000 : ℝ) + 100 / 4 ≤ 1.2 * 1737400 ∧ distance 0 0 0 0 1737400 ≤ 100000 ∧
    distance 0 0 0 0 1737400 + 100 ≤ 100000 + 100 / 4 := by
  have hz : distance 0 0 0 0 1737400 = 0 := (C41_points 0 0 0 0 1737400 (by norm_num) 0 0).1.2 rfl
  rw [hz]
  norm_num

end Verif.DemWindow
