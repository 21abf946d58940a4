import Verif.Model.Outline
import Mathlib.Tactic.Linarith
import Mathlib.Tactic.FieldSimp
import Mathlib.Tactic.Positivity
import Mathlib.Tactic.Ring

/-! Properties C89 and C116: the outline of a crater. -/

namespace Verif.Outline

/-- The point at distance `ρ` and `θ` degrees from the first axis lies on the ellipse with semi-axes `a` and `b`. -/
def OnEllipse (a b ρ θ : ℝ) : Prop :=
  (ρ * Real.cos (θ * Real.pi / 180) / a) ^ 2 + (ρ * Real.sin (θ * Real.pi / 180) / b) ^ 2 = 1

theorem radicand_pos (a b θ : ℝ) (ha : 0 < a) (hb : 0 < b) :
    0 < (b * Real.cos (θ * Real.pi / 180)) ^ 2 + (a * Real.sin (θ * Real.pi / 180)) ^ 2 := by
  set x := θ * Real.pi / 180
  have h := Real.sin_sq_add_cos_sq x
  rcases eq_or_ne (Real.cos x) 0 with hc | hc
  · have hs : Real.sin x ≠ 0 := by
      intro hs
      rw [hc, hs] at h
      norm_num at h
    have : 0 < (a * Real.sin x) ^ 2 := by positivity
    nlinarith [sq_nonneg (b * Real.cos x)]
  · have : 0 < (b * Real.cos x) ^ 2 := by positivity
    nlinarith [sq_nonneg (a * Real.sin x)]

/-- **C89.**  Every vertex of the outline lies on the ellipse with the axes of the crater, and is the only point of it in its
direction; the distances lie between the axes; the first axis points along the orientation and the second at right angles. -/
theorem C89_ellipse (a b : ℝ) (ha : 0 < a) (hb : 0 < b) (n : ℕ) (φ : ℝ) (i : ℕ) :
    (∀ ρ, 0 < ρ → (OnEllipse a b ρ (theta n i) ↔ ρ = (vertex n a b φ i).1)) ∧
    0 < (vertex n a b φ i).1 ∧ min a b ≤ (vertex n a b φ i).1 ∧ (vertex n a b φ i).1 ≤ max a b ∧
    (∃ k : ℤ, (vertex n a b φ i).2 = φ + theta n i + 360 * k) ∧ dist a b 0 = a ∧ dist a b 90 = b := by
  set θ := theta n i with hθ
  have hv : (vertex n a b φ i).1 = dist a b θ := rfl
  rw [hv]
  have hr := radicand_pos a b θ ha hb
  set x := θ * Real.pi / 180 with hx
  set q := (b * Real.cos x) ^ 2 + (a * Real.sin x) ^ 2 with hq
  have hsq : 0 < Real.sqrt q := Real.sqrt_pos.mpr hr
  have hd : dist a b θ = a * b / Real.sqrt q := rfl
  have hpos : 0 < dist a b θ := by rw [hd]; positivity
  have hdsq : (dist a b θ) ^ 2 * q = (a * b) ^ 2 := by
    rw [hd, div_pow, Real.sq_sqrt hr.le]
    field_simp
  have hon : ∀ ρ, OnEllipse a b ρ θ ↔ ρ ^ 2 * q = (a * b) ^ 2 := by
    intro ρ
    unfold OnEllipse
    rw [← hx, div_pow, div_pow, div_add_div _ _ (by positivity) (by positivity), div_eq_one_iff_eq (by positivity), hq]
    constructor <;> intro h <;> nlinarith [h]
  have htrig := Real.sin_sq_add_cos_sq x
  refine ⟨?_, hpos, ?_, ?_, ?_, ?_, ?_⟩
  · intro ρ hρ
    rw [hon]
    constructor
    · intro h
      have h2 : ρ ^ 2 = (dist a b θ) ^ 2 := by
        have := h.trans hdsq.symm
        exact mul_right_cancel₀ hr.ne' this
      exact (pow_left_inj₀ hρ.le hpos.le two_ne_zero).mp h2
    · rintro rfl
      exact hdsq
  · rw [hd, le_div_iff₀ hsq]
    have hle : Real.sqrt q ≤ max a b := by
      rw [Real.sqrt_le_left (by positivity)]
      have h1 : b ^ 2 ≤ (max a b) ^ 2 := pow_le_pow_left₀ hb.le (le_max_right _ _) 2
      have h2 : a ^ 2 ≤ (max a b) ^ 2 := pow_le_pow_left₀ ha.le (le_max_left _ _) 2
      nlinarith [mul_le_mul_of_nonneg_right h1 (sq_nonneg (Real.cos x)), mul_le_mul_of_nonneg_right h2 (sq_nonneg (Real.sin x))]
    calc min a b * Real.sqrt q ≤ min a b * max a b := mul_le_mul_of_nonneg_left hle (le_min ha.le hb.le)
      _ = a * b := min_mul_max a b
  · rw [hd, div_le_iff₀ hsq]
    have hle : min a b ≤ Real.sqrt q := by
      apply Real.le_sqrt_of_sq_le
      have hm : 0 ≤ min a b := le_min ha.le hb.le
      have h1 : (min a b) ^ 2 ≤ b ^ 2 := pow_le_pow_left₀ hm (min_le_right _ _) 2
      have h2 : (min a b) ^ 2 ≤ a ^ 2 := pow_le_pow_left₀ hm (min_le_left _ _) 2
      nlinarith [mul_le_mul_of_nonneg_right h1 (sq_nonneg (Real.cos x)), mul_le_mul_of_nonneg_right h2 (sq_nonneg (Real.sin x))]
    calc a * b = max a b * min a b := by rw [mul_comm (max a b), min_mul_max]
      _ ≤ max a b * Real.sqrt q := mul_le_mul_of_nonneg_left hle (le_max_of_le_left ha.le)
  · refine ⟨-⌊φ / 360⌋, ?_⟩
    simp only [vertex, bearing, wrap, ← hθ]
    push_cast
    ring
  · unfold dist
    rw [show (0 : ℝ) * Real.pi / 180 = 0 by ring, Real.cos_zero, Real.sin_zero]
    have : Real.sqrt ((b * 1) ^ 2 + (a * 0) ^ 2) = b := by
      rw [show (b * 1) ^ 2 + (a * 0) ^ 2 = b ^ 2 by ring]
      exact Real.sqrt_sq hb.le
    rw [this]
    field_simp
  · unfold dist
    rw [show (90 : ℝ) * Real.pi / 180 = Real.pi / 2 by ring, Real.cos_pi_div_two, Real.sin_pi_div_two]
    have : Real.sqrt ((b * 0) ^ 2 + (a * 1) ^ 2) = a := by
      rw [show (b * 0) ^ 2 + (a * 1) ^ 2 = a ^ 2 by ring]
      exact Real.sqrt_sq ha.le
    rw [this]
    field_simp

/-- **C89.**  The outline is closed: the last vertex is the first one again, and the vertices go round once in equal steps of the
angle. -/
theorem C89_closed (a b φ : ℝ) (n : ℕ) (hn : 2 ≤ n) :
    (vertex n a b φ (n - 1)).1 = (vertex n a b φ 0).1 ∧ (vertex n a b φ (n - 1)).2 = (vertex n a b φ 0).2 + 360 ∧
    ∀ i, theta n (i + 1) - theta n i = 360 / (n - 1) := by
  have hn' : (n : ℝ) - 1 ≠ 0 := by
    have : (2 : ℝ) ≤ n := by exact_mod_cast hn
    linarith
  have hlast : theta n (n - 1) = 360 := by
    unfold theta
    rw [Nat.cast_sub (by omega)]
    push_cast
    field_simp
  have hfirst : theta n 0 = 0 := by unfold theta; simp
  refine ⟨?_, ?_, ?_⟩
  · simp only [vertex, hlast, hfirst]
    unfold dist
    rw [show (360 : ℝ) * Real.pi / 180 = 2 * Real.pi by ring, Real.cos_two_pi, Real.sin_two_pi]
    simp
  · simp only [vertex, bearing, hlast, hfirst]
    ring
  · intro i
    unfold theta
    push_cast
    field_simp
    ring

example : (0 : ℝ) < 3 ∧ (0 : ℝ) < 2 ∧ 2 ≤ 121 := by norm_num

/-! ### The antimeridian -/

theorem sgn_pos {x : ℝ} (h : 0 < x) : sgn x = 1 := by unfold sgn; rw [if_pos h]
theorem sgn_neg {x : ℝ} (h : x < 0) : sgn x = -1 := by unfold sgn; rw [if_neg (by linarith), if_pos h]
theorem sgn_zero : sgn 0 = 0 := by simp [sgn]

/-- **C116, part.**  A vertex whose longitude, counted continuously from the centre, keeps the sign of the centre's longitude
(that is, the outline does not also reach across the prime meridian) is moved from its representative in [-180, 180] to that
continuous longitude, so neighbouring vertices stay neighbours.  Missing: outlines around a pole, see `C116_pole_fails`. -/
theorem C116_shift_partial (centre y x : ℝ) (hy : |y| < 360) (hsame : 0 < centre ∧ 0 < y ∨ centre < 0 ∧ y < 0) (hx : |x| ≤ 180)
    (hxy : ∃ k : ℤ, x = y + 360 * k) : shift centre x = y := by
  obtain ⟨k, hk⟩ := hxy
  rw [abs_lt] at hy
  rw [abs_le] at hx
  rcases hsame with ⟨hc, hy0⟩ | ⟨hc, hy0⟩
  · have hk0 : k ≤ 0 := by
      by_contra h
      have : (1 : ℝ) ≤ k := by exact_mod_cast (by omega : (1 : ℤ) ≤ k)
      linarith
    have hk1 : -1 ≤ k := by
      by_contra h
      have : (k : ℝ) ≤ -2 := by exact_mod_cast (by omega : k ≤ (-2 : ℤ))
      linarith
    have hcases : k = 0 ∨ k = -1 := by omega
    unfold shift
    rw [sgn_pos hc]
    rcases hcases with rfl | rfl
    · have : x = y := by rw [hk]; simp
      rw [this, sgn_pos hy0]
      simp
    · have hx' : x = y - 360 := by rw [hk]; push_cast; ring
      rw [sgn_neg (by linarith [hy.2] : x < 0), if_pos (by norm_num)]
      linarith
  · have hk0 : 0 ≤ k := by
      by_contra h
      have : (k : ℝ) ≤ -1 := by exact_mod_cast (by omega : k ≤ (-1 : ℤ))
      linarith
    have hk1 : k ≤ 1 := by
      by_contra h
      have : (2 : ℝ) ≤ k := by exact_mod_cast (by omega : (2 : ℤ) ≤ k)
      linarith
    have hcases : k = 0 ∨ k = 1 := by omega
    unfold shift
    rw [sgn_neg hc]
    rcases hcases with rfl | rfl
    · have : x = y := by rw [hk]; simp
      rw [this, sgn_neg hy0]
      simp
    · have hx' : x = y + 360 := by rw [hk]; push_cast; ring
      rw [sgn_pos (by linarith [hy.1] : 0 < x), if_pos (by norm_num)]
      linarith

example : ∃ centre y x : ℝ, |y| < 360 ∧ 0 < centre ∧ 0 < y ∧ |x| ≤ 180 ∧ x = y + 360 * ((-1 : ℤ) : ℝ) ∧ 180 < y :=
  ⟨179, 181, -179, by norm_num [abs_lt], by norm_num, by norm_num, by norm_num [abs_le], by norm_num, by norm_num⟩

/-- **C116, part.**  The piece beyond the antimeridian is moved back to the same points with longitudes in [-180, 180]. -/
theorem C116_flip_partial (y : ℝ) (hy : |y| < 540) : |flip y| ≤ 180 ∧ ∃ k : ℤ, flip y = y + 360 * k := by
  unfold flip
  rw [abs_lt] at hy
  by_cases h : 180 ≤ |y|
  · rw [if_pos h]
    rcases le_abs'.mp h with h | h
    · rw [sgn_neg (by linarith)]
      exact ⟨by rw [abs_le]; constructor <;> linarith, 1, by push_cast; ring⟩
    · rw [sgn_pos (by linarith)]
      exact ⟨by rw [abs_le]; constructor <;> linarith, -1, by push_cast; ring⟩
  · rw [if_neg h]
    exact ⟨(not_le.mp h).le, 0, by simp⟩

/-- **C116 fails** for outlines around a pole.  For a centre on the prime meridian no vertex is moved, so vertices close to each other on both sides of the
antimeridian stay up to 360 degrees apart; and for any other centre vertices on both sides of the prime meridian, however close to each other, end up on the
other side of the globe from each other. -/
theorem C116_pole_fails (x y : ℝ) (hx : 0 < x) (hy : 0 < y) (hxy : x + y ≤ 360) :
    |shift 0 (180 - x) - shift 0 (-180 + y)| = 360 - x - y ∧
    ∀ centre : ℝ, centre ≠ 0 → |shift centre x - shift centre (-y)| = 360 - x - y := by
  constructor
  · unfold shift
    rw [sgn_zero]
    simp only [mul_zero, add_zero, ite_self]
    rw [abs_of_nonneg (by linarith)]
    ring
  · intro c hc
    unfold shift
    rw [sgn_pos hx, sgn_neg (by linarith : -y < 0)]
    rcases lt_or_gt_of_ne hc with h | h
    · rw [sgn_neg h, if_pos (by norm_num), if_neg (by norm_num), abs_of_nonpos (by linarith)]
      ring
    · rw [sgn_pos h, if_neg (by norm_num), if_pos (by norm_num), abs_of_nonpos (by linarith)]
      ring

/-- Vertices a degree apart. -/
example : (0 : ℝ) < 1 / 2 ∧ (1 / 2 : ℝ) + 1 / 2 ≤ 360 := by norm_num

end Verif.Outline
