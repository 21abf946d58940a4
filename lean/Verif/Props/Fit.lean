import Verif.Model.Fit
import Mathlib.Tactic.Linarith
import Mathlib.Tactic.FieldSimp
import Mathlib.Tactic.LinearCombination
import Mathlib.Analysis.Real.Pi.Bounds
import Mathlib.LinearAlgebra.Matrix.ToLinearEquiv

/-! Properties C54, C55, C109, C110: fits of crater rims. -/

namespace Verif.Fit

open Real

/-! ### C54, C109 -/

/-- The value of the quadratic form at a point. -/
def conic (a b c d f g x y : ℝ) : ℝ := a * x ^ 2 + b * x * y + c * y ^ 2 + d * x + f * y + g

/-- The coefficients describe an ellipse: the quadratic part is definite, and the curve has an inside, where the form has the
sign opposite to that of the quadratic part. -/
def IsEllipse (a b c d f g : ℝ) : Prop := b ^ 2 < 4 * a * c ∧ ∃ x y, a * conic a b c d f g x y < 0

/-- The left hand side of the equation of an ellipse with center, semi-axes and angle of the semi-major axis from the x-axis:
less than one inside, one on the curve. -/
noncomputable def form (x0 y0 ap bp θ x y : ℝ) : ℝ :=
  (((x - x0) * cos θ + (y - y0) * sin θ) / ap) ^ 2 + (((y - y0) * cos θ - (x - x0) * sin θ) / bp) ^ 2

/-- The conic is the ellipse with the given center and axes, turned by `θ`. -/
def SameCurve (a b c d f g : ℝ) (e : Ellipse) (θ : ℝ) : Prop :=
  ∀ x y, conic a b c d f g x y = 0 ↔ form e.x0 e.y0 e.ap e.bp θ x y = 1

theorem along_sq (u v θ : ℝ) : (u * cos θ + v * sin θ) ^ 2 =
    (u ^ 2 + v ^ 2) / 2 + (u ^ 2 - v ^ 2) / 2 * cos (2 * θ) + u * v * sin (2 * θ) := by
  rw [cos_two_mul, sin_two_mul]
  have := sin_sq_add_cos_sq θ
  linear_combination v ^ 2 * this

theorem across_sq (u v θ : ℝ) : (v * cos θ - u * sin θ) ^ 2 =
    (u ^ 2 + v ^ 2) / 2 - (u ^ 2 - v ^ 2) / 2 * cos (2 * θ) - u * v * sin (2 * θ) := by
  rw [cos_two_mul, sin_two_mul]
  have := sin_sq_add_cos_sq θ
  linear_combination u ^ 2 * this

theorem cos_sin_atan2 (y x ρ : ℝ) (hρ : ρ = √(x ^ 2 + y ^ 2)) (h : 0 < ρ) :
    cos (atan2 y x) = x / ρ ∧ sin (atan2 y x) = y / ρ := by
  have hn : ‖(⟨x, y⟩ : ℂ)‖ = ρ := by rw [Complex.norm_eq_sqrt_sq_add_sq, hρ]
  have hne : (⟨x, y⟩ : ℂ) ≠ 0 := by
    intro h0
    rw [h0, norm_zero] at hn
    linarith
  unfold atan2
  exact ⟨by rw [Complex.cos_arg hne, hn], by rw [Complex.sin_arg, hn]⟩

theorem rem_two (x : ℝ) : cos (2 * rem x π) = cos (2 * x) ∧ sin (2 * rem x π) = sin (2 * x) := by
  have : ∃ k : ℤ, 2 * rem x π = 2 * x - k * (2 * π) := by
    unfold rem
    split_ifs
    · exact ⟨⌊x / π⌋, by ring⟩
    · exact ⟨⌈x / π⌉, by ring⟩
  obtain ⟨k, hk⟩ := this
  rw [hk]
  exact ⟨Real.cos_sub_int_mul_two_pi _ _, Real.sin_sub_int_mul_two_pi _ _⟩

theorem cramer {a B c D F Δ x0 y0 : ℝ} (hd : Δ ≠ 0) (hΔ : Δ = B * B - a * c) (hx : x0 = (c * D - B * F) / Δ)
    (hy : y0 = (a * F - B * D) / Δ) : a * x0 + B * y0 = -D ∧ B * x0 + c * y0 = -F ∧ x0 * Δ = c * D - B * F ∧
    y0 * Δ = a * F - B * D := by
  have e1 : x0 * Δ = c * D - B * F := by rw [hx, div_mul_cancel₀ _ hd]
  have e2 : y0 * Δ = a * F - B * D := by rw [hy, div_mul_cancel₀ _ hd]
  refine ⟨?_, ?_, e1, e2⟩
  · apply mul_right_cancel₀ hd
    linear_combination a * e1 + B * e2 + D * hΔ
  · apply mul_right_cancel₀ hd
    linear_combination B * e1 + c * e2 + F * hΔ

/-- The quantities of the computation, after halving the mixed and linear coefficients. -/
structure Data (a B c D F g : ℝ) where
  den : B * B - a * c < 0
  x0 : ℝ
  y0 : ℝ
  F0 : ℝ
  hx0 : x0 = (c * D - B * F) / (B * B - a * c)
  hy0 : y0 = (a * F - B * D) / (B * B - a * c)
  hF0 : F0 = g + D * x0 + F * y0
  neg : a * F0 < 0

theorem centered {a B c D F g : ℝ} (h : Data a B c D F g) (x y : ℝ) :
    conic a (2 * B) c (2 * D) (2 * F) g x y =
      h.F0 + (a * (x - h.x0) ^ 2 + 2 * B * (x - h.x0) * (y - h.y0) + c * (y - h.y0) ^ 2) := by
  have hd := h.den.ne
  obtain ⟨e1, e2, _, _⟩ := cramer hd rfl h.hx0 h.hy0
  unfold conic
  rw [h.hF0]
  linear_combination (2 * x - h.x0) * e1 + (2 * y - h.y0) * e2

theorem data_of {a b c d f g : ℝ} (h : IsEllipse a b c d f g) : Nonempty (Data a (b / 2) c (d / 2) (f / 2) g) := by
  obtain ⟨h1, x, y, h2⟩ := h
  have hden : b / 2 * (b / 2) - a * c < 0 := by nlinarith
  have hd := hden.ne
  obtain ⟨x0, hx0⟩ : ∃ x0, x0 = (c * (d / 2) - b / 2 * (f / 2)) / (b / 2 * (b / 2) - a * c) := ⟨_, rfl⟩
  obtain ⟨y0, hy0⟩ : ∃ y0, y0 = (a * (f / 2) - b / 2 * (d / 2)) / (b / 2 * (b / 2) - a * c) := ⟨_, rfl⟩
  obtain ⟨e1, e2, _, _⟩ := cramer hd rfl hx0 hy0
  refine ⟨⟨hden, x0, y0, g + d / 2 * x0 + f / 2 * y0, hx0, hy0, rfl, ?_⟩⟩
  have e3 : a * conic a b c d f g x y = a * (g + d / 2 * x0 + f / 2 * y0) +
      ((a * (x - x0) + b / 2 * (y - y0)) ^ 2 + (a * c - b / 2 * (b / 2)) * (y - y0) ^ 2) := by
    unfold conic
    linear_combination a * (2 * x - x0) * e1 + a * (2 * y - y0) * e2
  have p1 := sq_nonneg (a * (x - x0) + b / 2 * (y - y0))
  have p2 : 0 ≤ (a * c - b / 2 * (b / 2)) * (y - y0) ^ 2 := mul_nonneg (by linarith) (sq_nonneg _)
  linarith

/-- The eigenvalues of the quadratic part have the sign of `a`, and the two numbers under the square roots are the squared
semi-axes. -/
theorem axes {a B c D F g : ℝ} (h : Data a B c D F g) (fac : ℝ) (hfac : fac = √((a - c) ^ 2 + 4 * B * B)) :
    0 ≤ fac ∧ fac ^ 2 = (a - c) ^ 2 + 4 * B * B ∧
    2 * (a * F * F + c * D * D + g * B * B - 2 * B * D * F - a * c * g) = 2 * (B * B - a * c) * h.F0 ∧
    (0 < a → fac < a + c ∧ h.F0 < 0) ∧ (a < 0 → fac < -(a + c) ∧ 0 < h.F0) ∧ (0 < a ∨ a < 0) := by
  have hnn : 0 ≤ (a - c) ^ 2 + 4 * B * B := by nlinarith [sq_nonneg (a - c), sq_nonneg B]
  have h0 : 0 ≤ fac := hfac ▸ Real.sqrt_nonneg _
  have hsq : fac ^ 2 = (a - c) ^ 2 + 4 * B * B := by rw [hfac, Real.sq_sqrt hnn]
  have hd := h.den.ne
  have hden := h.den
  have hac : 0 < a * c := by nlinarith [sq_nonneg B]
  refine ⟨h0, hsq, ?_, ?_, ?_, ?_⟩
  · obtain ⟨_, _, e3, e4⟩ := cramer hd rfl h.hx0 h.hy0
    rw [h.hF0]
    linear_combination -2 * D * e3 - 2 * F * e4
  · intro ha
    have hc : 0 < c := by
      by_contra hc
      nlinarith
    refine ⟨?_, by have := h.neg; by_contra hc'; nlinarith [mul_nonneg ha.le (not_lt.mp hc')]⟩
    apply lt_of_pow_lt_pow_left₀ 2 (by linarith)
    rw [hsq]; nlinarith
  · intro ha
    have hc : c < 0 := by
      by_contra hc
      nlinarith
    refine ⟨?_, by have := h.neg; by_contra hc'; nlinarith [mul_nonneg_of_nonpos_of_nonpos ha.le (not_lt.mp hc')]⟩
    apply lt_of_pow_lt_pow_left₀ 2 (by linarith)
    rw [hsq]; nlinarith
  · rcases lt_trichotomy a 0 with h1 | h1 | h1
    · exact .inr h1
    · rw [h1] at hac; simp at hac
    · exact .inl h1

/-- Which of the two square roots belongs to the semi-major axis depends on the overall sign of the coefficients. -/
noncomputable def sgn (a : ℝ) : ℝ := if 0 < a then -1 else 1

/-- The curve in terms of the two squared axes. -/
theorem curve {a b c d f g : ℝ} (D : Data a (b / 2) c (d / 2) (f / 2) g) (fac : ℝ)
    (fsq : fac ^ 2 = (a - c) ^ 2 + 4 * (b / 2) * (b / 2)) (A2 B2 : ℝ) (hA : A2 = 2 * D.F0 / (fac - (a + c)))
    (hB : B2 = 2 * D.F0 / (-fac - (a + c)))
    (n3 : D.F0 ≠ 0) (θ x y : ℝ) (hθ : fac = 0 ∨ (cos (2 * θ) = -(a - c) / fac ∧ sin (2 * θ) = -b / fac)) :
    (conic a b c d f g x y = 0 ↔
      ((x - D.x0) * cos θ + (y - D.y0) * sin θ) ^ 2 / A2 + ((y - D.y0) * cos θ - (x - D.x0) * sin θ) ^ 2 / B2 = 1) := by
  have hc := centered D x y
  rw [show 2 * (b / 2) = b by ring, show 2 * (d / 2) = d by ring, show 2 * (f / 2) = f by ring] at hc
  rw [hc, along_sq, across_sq]
  set u := x - D.x0
  set v := y - D.y0
  set C := cos (2 * θ)
  set S := sin (2 * θ)
  have hq : fac * ((u ^ 2 - v ^ 2) / 2 * C + u * v * S) = -((u ^ 2 - v ^ 2) / 2 * (a - c) + u * v * b) := by
    rcases hθ with h0 | ⟨h1, h2⟩
    · have : (a - c) ^ 2 + 4 * (b / 2) * (b / 2) = 0 := by rw [← fsq, h0]; ring
      have h1 : a - c = 0 := by nlinarith [sq_nonneg (a - c), sq_nonneg b]
      have h2 : b = 0 := by nlinarith [sq_nonneg (a - c), sq_nonneg b]
      rw [h0, h1, h2]; ring
    · by_cases hz : fac = 0
      · have : (a - c) ^ 2 + 4 * (b / 2) * (b / 2) = 0 := by rw [← fsq, hz]; ring
        have h1 : a - c = 0 := by nlinarith [sq_nonneg (a - c), sq_nonneg b]
        have h2 : b = 0 := by nlinarith [sq_nonneg (a - c), sq_nonneg b]
        rw [hz, h1, h2]; ring
      · rw [h1, h2]; field_simp; ring
  have key : ((u ^ 2 + v ^ 2) / 2 + (u ^ 2 - v ^ 2) / 2 * C + u * v * S) / A2 +
      ((u ^ 2 + v ^ 2) / 2 - (u ^ 2 - v ^ 2) / 2 * C - u * v * S) / B2 =
      -(a * u ^ 2 + b * u * v + c * v ^ 2) / D.F0 := by
    rw [hA, hB, div_div_eq_mul_div, div_div_eq_mul_div]
    field_simp
    linear_combination 4 * hq
  rw [key, div_eq_one_iff_eq n3]
  constructor <;> intro h <;> linarith

/-- The angle before the last correction. -/
noncomputable def phi0 (a b c : ℝ) : ℝ :=
  if |a| > |c| then (if |b / 2| < 1e-12 then (if a < c then 0 else π / 2) else 0.5 * atan2 (2 * (b / 2)) (a - c)) + π / 2
  else (if |b / 2| < 1e-12 then (if a < c then 0 else π / 2) else 0.5 * atan2 (2 * (b / 2)) (a - c))

/-- The result of the function, and the directions for which it describes the curve. -/
theorem shape {a b c d f g : ℝ} (h : IsEllipse a b c d f g) (fac : ℝ) (hfac : fac = √((a - c) ^ 2 + 4 * (b / 2) * (b / 2))) :
    ∃ e, ellipseParams a b c d f g = some e ∧ 0 < e.bp ∧ e.bp ≤ e.ap ∧ (0 < fac → e.bp < e.ap) ∧
      (∀ θ, fac = 0 ∨ (cos (2 * θ) = sgn a * (a - c) / fac ∧ sin (2 * θ) = sgn a * b / fac) → SameCurve a b c d f g e θ) ∧
      (1e-12 ≤ |b / 2| → e.orientation = rem ((if |a| > |c| then 0.5 * atan2 b (a - c) + π / 2 else 0.5 * atan2 b (a - c)) +
        (if 0 < a then π / 2 else 0)) π) ∧
      (0 < fac → e.orientation = rem (phi0 a b c + (if 0 < a then π / 2 else 0)) π) := by
  obtain ⟨D⟩ := data_of h
  obtain ⟨f0, fsq, hnum, hp, hn, hs⟩ := axes D fac hfac
  have hden := D.den
  have hdne := hden.ne
  have eA : 2 * (a * (f / 2) * (f / 2) + c * (d / 2) * (d / 2) + g * (b / 2) * (b / 2) - 2 * (b / 2) * (d / 2) * (f / 2) - a * c * g) /
      ((b / 2 * (b / 2) - a * c) * (fac - (a + c))) = 2 * D.F0 / (fac - (a + c)) := by
    rw [hnum, mul_assoc, mul_left_comm, mul_div_mul_left _ _ hdne]
  have eB : 2 * (a * (f / 2) * (f / 2) + c * (d / 2) * (d / 2) + g * (b / 2) * (b / 2) - 2 * (b / 2) * (d / 2) * (f / 2) - a * c * g) /
      ((b / 2 * (b / 2) - a * c) * (-fac - (a + c))) = 2 * D.F0 / (-fac - (a + c)) := by
    rw [hnum, mul_assoc, mul_left_comm, mul_div_mul_left _ _ hdne]
  have curve := curve D fac fsq
  rcases hs with ha | ha
  · obtain ⟨g1, g2⟩ := hp ha
    have pA : 0 < 2 * D.F0 / (fac - (a + c)) := div_pos_of_neg_of_neg (by linarith) (by linarith)
    have pB : 0 < 2 * D.F0 / (-fac - (a + c)) := div_pos_of_neg_of_neg (by linarith) (by linarith)
    have hle : 2 * D.F0 / (-fac - (a + c)) ≤ 2 * D.F0 / (fac - (a + c)) := by
      rw [← neg_div_neg_eq, ← neg_div_neg_eq (2 * D.F0) (fac - _)]
      apply div_le_div_of_nonneg_left <;> linarith
    have hlt : 0 < fac → 2 * D.F0 / (-fac - (a + c)) < 2 * D.F0 / (fac - (a + c)) := by
      intro hf
      rw [← neg_div_neg_eq, ← neg_div_neg_eq (2 * D.F0) (fac - _)]
      apply div_lt_div_of_pos_left <;> linarith
    have cv := curve _ _ rfl rfl g2.ne
    by_cases hz : √(2 * D.F0 / (-fac - (a + c))) ≥ √(2 * D.F0 / (fac - (a + c)))
    · have hfz : fac = 0 := by
        by_contra hne
        have := Real.sqrt_lt_sqrt pB.le (hlt (lt_of_le_of_ne f0 (Ne.symm hne)))
        linarith
      have hb : b = 0 ∧ a = c := by
        have : (a - c) ^ 2 + 4 * (b / 2) * (b / 2) = 0 := by rw [← fsq, hfz]; ring
        constructor
        · nlinarith [sq_nonneg (a - c), sq_nonneg b]
        · nlinarith [sq_nonneg (a - c), sq_nonneg b]
      refine ⟨⟨D.x0, D.y0, √(2 * D.F0 / (-fac - (a + c))), √(2 * D.F0 / (fac - (a + c))), rem (phi0 a b c) π⟩, ?_, ?_, hz, ?_, ?_, ?_, ?_⟩
      · unfold ellipseParams
        simp only [← hfac]
        rw [if_neg (by linarith), eA, eB, if_pos hz, ← D.hx0, ← D.hy0]
        rfl
      · exact Real.sqrt_pos.mpr pA
      · intro hf; linarith
      · intro θ _ x y
        have e : 2 * D.F0 / (-fac - (a + c)) = 2 * D.F0 / (fac - (a + c)) := by rw [hfz]; simp
        rw [cv θ x y (.inl hfz)]
        unfold form
        rw [div_pow, div_pow, Real.sq_sqrt pA.le, Real.sq_sqrt pB.le, e]
      · intro hb'
        rw [hb.1] at hb'
        norm_num at hb'
      · intro hf; linarith
    · refine ⟨⟨D.x0, D.y0, √(2 * D.F0 / (fac - (a + c))), √(2 * D.F0 / (-fac - (a + c))), rem (phi0 a b c + π / 2) π⟩, ?_, ?_, Real.sqrt_le_sqrt hle, ?_, ?_, ?_, ?_⟩
      · unfold ellipseParams
        simp only [← hfac]
        rw [if_neg (by linarith), eA, eB, if_neg hz, ← D.hx0, ← D.hy0]
        rfl
      · exact Real.sqrt_pos.mpr pB
      · intro hf; exact Real.sqrt_lt_sqrt pB.le (hlt hf)
      · intro θ hθ x y
        rw [cv θ x y (by
          unfold sgn at hθ
          rw [if_pos ha] at hθ
          rcases hθ with h | ⟨h1, h2⟩
          · exact .inl h
          · exact .inr ⟨by rw [h1]; ring, by rw [h2]; ring⟩)]
        unfold form
        rw [div_pow, div_pow, Real.sq_sqrt pA.le, Real.sq_sqrt pB.le]
      · intro hb
        simp only [phi0]
        rw [if_neg (not_lt.mpr hb), if_pos ha, show 2 * (b / 2) = b by ring]
      · intro _
        simp only [if_pos ha]
  · obtain ⟨g1, g2⟩ := hn ha
    have pA : 0 < 2 * D.F0 / (fac - (a + c)) := div_pos (by linarith) (by linarith)
    have pB : 0 < 2 * D.F0 / (-fac - (a + c)) := div_pos (by linarith) (by linarith)
    have hle : 2 * D.F0 / (fac - (a + c)) ≤ 2 * D.F0 / (-fac - (a + c)) := by
      apply div_le_div_of_nonneg_left <;> linarith
    have hlt : 0 < fac → 2 * D.F0 / (fac - (a + c)) < 2 * D.F0 / (-fac - (a + c)) := by
      intro hf
      apply div_lt_div_of_pos_left <;> linarith
    have cv := curve _ _ rfl rfl g2.ne'
    refine ⟨⟨D.x0, D.y0, √(2 * D.F0 / (-fac - (a + c))), √(2 * D.F0 / (fac - (a + c))), rem (phi0 a b c) π⟩, ?_, ?_, Real.sqrt_le_sqrt hle, ?_, ?_, ?_, ?_⟩
    · unfold ellipseParams
      simp only [← hfac]
      rw [if_neg (by linarith), eA, eB, if_pos (Real.sqrt_le_sqrt hle), ← D.hx0, ← D.hy0]
      rfl
    · exact Real.sqrt_pos.mpr pA
    · intro hf; exact Real.sqrt_lt_sqrt pA.le (hlt hf)
    · intro θ hθ x y
      have hcs : cos (2 * (θ + π / 2)) = -cos (2 * θ) ∧ sin (2 * (θ + π / 2)) = -sin (2 * θ) := by
        rw [show 2 * (θ + π / 2) = 2 * θ + π by ring]
        exact ⟨Real.cos_add_pi _, Real.sin_add_pi _⟩
      rw [cv (θ + π / 2) x y (by
        unfold sgn at hθ
        rw [if_neg (by linarith)] at hθ
        rcases hθ with h | ⟨h1, h2⟩
        · exact .inl h
        · exact .inr ⟨by rw [hcs.1, h1]; ring, by rw [hcs.2, h2]; ring⟩)]
      unfold form
      rw [div_pow, div_pow, Real.sq_sqrt pA.le, Real.sq_sqrt pB.le, along_sq, across_sq, along_sq, across_sq, hcs.1, hcs.2]
      have : ∀ p q r s : ℝ, p = s → q = r → (p + q = 1 ↔ r + s = 1) := by
        rintro p q r s rfl rfl; rw [add_comm]
      apply this <;> ring
    · intro hb
      simp only [phi0]
      rw [if_neg (not_lt.mpr hb), if_neg (by linarith : ¬ 0 < a), add_zero, show 2 * (b / 2) = b by ring]
    · intro _
      rw [if_neg (by linarith : ¬ 0 < a), add_zero]

/-- Center and semi-axes are right for every ellipse: with some orientation they describe the curve given by the
coefficients. -/
theorem C54_shape_partial (a b c d f g : ℝ) (h : IsEllipse a b c d f g) :
    ∃ e, ellipseParams a b c d f g = some e ∧ 0 < e.bp ∧ e.bp ≤ e.ap ∧ ∃ θ, SameCurve a b c d f g e θ := by
  obtain ⟨e, h1, h2, h3, _, h5, _, _⟩ := shape h _ rfl
  refine ⟨e, h1, h2, h3, ?_⟩
  set fac := √((a - c) ^ 2 + 4 * (b / 2) * (b / 2)) with hfac
  rcases (Real.sqrt_nonneg _ : 0 ≤ fac).eq_or_lt with h0 | h0
  · exact ⟨0, h5 0 (.inl h0.symm)⟩
  · obtain ⟨k1, k2⟩ := cos_sin_atan2 (sgn a * b) (sgn a * (a - c)) fac (by
      rw [hfac]; congr 1
      unfold sgn
      split_ifs <;> ring) h0
    refine ⟨atan2 (sgn a * b) (sgn a * (a - c)) / 2, h5 _ (.inr ?_)⟩
    rw [mul_div_cancel₀ _ (by norm_num : (2 : ℝ) ≠ 0)]
    exact ⟨k1, k2⟩

theorem fac_pos {a b c : ℝ} (hb : 1e-12 ≤ |b / 2|) : 0 < √((a - c) ^ 2 + 4 * (b / 2) * (b / 2)) := by
  apply Real.sqrt_pos.mpr
  have : b ≠ 0 := by
    rintro rfl
    norm_num at hb
  have := mul_self_pos.mpr this
  nlinarith [sq_nonneg (a - c)]

theorem orientation_angle {a b c : ℝ} (hb : 1e-12 ≤ |b / 2|) (σ : ℝ) (hσ : σ = if |a| > |c| then -sgn a else sgn a) :
    let o := rem ((if |a| > |c| then 0.5 * atan2 b (a - c) + π / 2 else 0.5 * atan2 b (a - c)) +
        (if 0 < a then π / 2 else 0)) π
    cos (2 * o) = σ * (a - c) / √((a - c) ^ 2 + 4 * (b / 2) * (b / 2)) ∧
    sin (2 * o) = σ * b / √((a - c) ^ 2 + 4 * (b / 2) * (b / 2)) := by
  intro o
  obtain ⟨k1, k2⟩ := cos_sin_atan2 b (a - c) (√((a - c) ^ 2 + 4 * (b / 2) * (b / 2))) (by congr 1; ring) (fac_pos hb)
  obtain ⟨r1, r2⟩ := rem_two ((if |a| > |c| then 0.5 * atan2 b (a - c) + π / 2 else 0.5 * atan2 b (a - c)) +
        (if 0 < a then π / 2 else 0))
  rw [r1, r2]
  unfold sgn at hσ
  split_ifs at hσ ⊢ with h1 h2 h2
  · rw [show 2 * (0.5 * atan2 b (a - c) + π / 2 + π / 2) = atan2 b (a - c) + 2 * π by ring, Real.cos_add_two_pi,
      Real.sin_add_two_pi, k1, k2, hσ]
    constructor <;> ring
  · rw [show 2 * (0.5 * atan2 b (a - c) + π / 2 + 0) = atan2 b (a - c) + π by ring, Real.cos_add_pi, Real.sin_add_pi, k1, k2, hσ]
    constructor <;> ring
  · rw [show 2 * (0.5 * atan2 b (a - c) + π / 2) = atan2 b (a - c) + π by ring, Real.cos_add_pi, Real.sin_add_pi, k1, k2, hσ]
    constructor <;> ring
  · rw [show 2 * (0.5 * atan2 b (a - c) + 0) = atan2 b (a - c) by ring, k1, k2, hσ]
    constructor <;> ring

/-- The orientation is that of the semi-major axis, from the x-axis, if the coefficient of x² is at most that of y², that is
if the ellipse is at least as long in the x-direction as in the y-direction, and it is not aligned with the axes. -/
theorem C54_orientation_partial (a b c d f g : ℝ) (h : IsEllipse a b c d f g) (hac : |a| ≤ |c|) (hb : 1e-12 ≤ |b / 2|) :
    ∃ e, ellipseParams a b c d f g = some e ∧ SameCurve a b c d f g e e.orientation := by
  obtain ⟨e, h1, _, _, _, h5, h6, _⟩ := shape h _ rfl
  refine ⟨e, h1, h5 _ (.inr ?_)⟩
  rw [h6 hb]
  have := orientation_angle (a := a) (c := c) hb (sgn a) (by rw [if_neg (not_lt.mpr hac)])
  exact this

theorem turned {a b c d f g : ℝ} {e : Ellipse} {θ : ℝ} (hbp : 0 < e.bp) (hlt : e.bp < e.ap) (h : SameCurve a b c d f g e (θ + π / 2)) :
    ¬ SameCurve a b c d f g e θ := by
  intro hc
  have key := (hc (e.x0 - e.ap * sin θ) (e.y0 + e.ap * cos θ)).symm.trans (h _ _)
  have ha : e.ap ≠ 0 := by linarith
  have sc := sin_sq_add_cos_sq θ
  have f1 : form e.x0 e.y0 e.ap e.bp (θ + π / 2) (e.x0 - e.ap * sin θ) (e.y0 + e.ap * cos θ) = 1 := by
    unfold form
    rw [Real.cos_add_pi_div_two, Real.sin_add_pi_div_two]
    have e1 : (e.x0 - e.ap * sin θ - e.x0) * -sin θ + (e.y0 + e.ap * cos θ - e.y0) * cos θ = e.ap := by
      linear_combination e.ap * sc
    have e2 : (e.y0 + e.ap * cos θ - e.y0) * -sin θ - (e.x0 - e.ap * sin θ - e.x0) * cos θ = 0 := by ring
    rw [e1, e2, div_self ha]; norm_num
  have f2 : form e.x0 e.y0 e.ap e.bp θ (e.x0 - e.ap * sin θ) (e.y0 + e.ap * cos θ) = (e.ap / e.bp) ^ 2 := by
    unfold form
    have e1 : (e.x0 - e.ap * sin θ - e.x0) * cos θ + (e.y0 + e.ap * cos θ - e.y0) * sin θ = 0 := by ring
    have e2 : (e.y0 + e.ap * cos θ - e.y0) * cos θ - (e.x0 - e.ap * sin θ - e.x0) * sin θ = e.ap := by
      linear_combination e.ap * sc
    rw [e1, e2]; norm_num
  have := key.mpr f1
  rw [f2] at this
  have h1 : 1 < e.ap / e.bp := (one_lt_div hbp).mpr hlt
  nlinarith

/-- In the other half of the cases the orientation is wrong by a right angle: it is that of the semi-minor axis. -/
theorem C54_orientation_fails (a b c d f g : ℝ) (h : IsEllipse a b c d f g) (hac : |c| < |a|) (hb : 1e-12 ≤ |b / 2|) :
    ∃ e, ellipseParams a b c d f g = some e ∧ SameCurve a b c d f g e (e.orientation + π / 2) ∧
      ¬ SameCurve a b c d f g e e.orientation := by
  obtain ⟨e, h1, h2, _, h4, h5, h6, _⟩ := shape h _ rfl
  have hsame : SameCurve a b c d f g e (e.orientation + π / 2) := by
    apply h5
    right
    rw [show 2 * (e.orientation + π / 2) = 2 * e.orientation + π by ring, Real.cos_add_pi, Real.sin_add_pi, h6 hb]
    obtain ⟨k1, k2⟩ := orientation_angle (a := a) (c := c) hb (-sgn a) (by rw [if_pos hac])
    rw [k1, k2]
    constructor <;> ring
  exact ⟨e, h1, hsame, turned h2 (h4 (fac_pos hb)) hsame⟩

/-- The orientation of an ellipse aligned with the axes is always computed as that of the y-axis. -/
theorem aligned_angle {a c : ℝ} (hne : a ≠ c) (hac : 0 < a * c) :
    let o := rem (phi0 a 0 c + (if 0 < a then π / 2 else 0)) π
    cos (2 * o) = -1 ∧ sin (2 * o) = 0 := by
  intro o
  obtain ⟨r1, r2⟩ := rem_two (phi0 a 0 c + (if 0 < a then π / 2 else 0))
  rw [r1, r2]
  have h0 : |(0 : ℝ) / 2| < 1e-12 := by norm_num
  have e : ∃ k : ℤ, 2 * (phi0 a 0 c + (if 0 < a then π / 2 else 0)) = π + k * (2 * π) := by
    unfold phi0
    simp only [if_pos h0]
    rcases lt_trichotomy a 0 with ha | ha | ha
    · have hc : c < 0 := by by_contra hc; nlinarith
      rw [abs_of_neg ha, abs_of_neg hc, if_neg ha.not_gt]
      rcases lt_or_gt_of_ne hne with h | h
      · rw [if_pos (by linarith), if_pos h]
        exact ⟨0, by push_cast; ring⟩
      · rw [if_neg (by linarith), if_neg h.not_gt]
        exact ⟨0, by push_cast; ring⟩
    · rw [ha] at hac; simp at hac
    · have hc : 0 < c := by by_contra hc; nlinarith
      rw [abs_of_pos ha, abs_of_pos hc, if_pos ha]
      rcases lt_or_gt_of_ne hne with h | h
      · rw [if_neg (by linarith), if_pos h]
        exact ⟨0, by push_cast; ring⟩
      · rw [if_pos h, if_neg h.not_gt]
        exact ⟨1, by push_cast; ring⟩
  obtain ⟨k, hk⟩ := e
  rw [hk, Real.cos_add_int_mul_two_pi, Real.sin_add_int_mul_two_pi]
  exact ⟨Real.cos_pi, Real.sin_pi⟩

/-- For ellipses aligned with the axes it is the other way round: the orientation is that of the semi-major axis if the ellipse is at least as long in the
y-direction as in the x-direction. -/
theorem C54_aligned_partial (a c d f g : ℝ) (h : IsEllipse a 0 c d f g) (hle : |c| ≤ |a|) :
    ∃ e, ellipseParams a 0 c d f g = some e ∧ SameCurve a 0 c d f g e e.orientation := by
  obtain ⟨e, h1, _, _, _, h5, _, h7⟩ := shape h _ rfl
  have hac : 0 < a * c := by have := h.1; nlinarith
  refine ⟨e, h1, h5 _ ?_⟩
  have hf : √((a - c) ^ 2 + 4 * ((0 : ℝ) / 2) * (0 / 2)) = |a - c| := by
    rw [← Real.sqrt_sq_eq_abs]; congr 1; ring
  rw [hf] at h7 ⊢
  by_cases hne : a = c
  · exact .inl (by rw [hne]; simp)
  right
  rw [h7 (abs_pos.mpr (sub_ne_zero.mpr hne))]
  obtain ⟨k1, k2⟩ := aligned_angle hne hac
  rw [k1, k2]
  refine ⟨?_, by simp⟩
  unfold sgn
  rcases lt_trichotomy a 0 with ha | ha | ha
  · have hc : c < 0 := by by_contra hc; nlinarith
    rw [abs_of_neg ha, abs_of_neg hc] at hle
    have hlt : a - c < 0 := by
      rcases lt_or_gt_of_ne hne with h | h <;> linarith
    rw [if_neg ha.not_gt, abs_of_neg hlt, one_mul, div_neg, div_self hlt.ne]
  · rw [ha] at hac; simp at hac
  · have hc : 0 < c := by by_contra hc; nlinarith
    rw [abs_of_pos ha, abs_of_pos hc] at hle
    have hlt : 0 < a - c := by
      rcases lt_or_gt_of_ne hne with h | h <;> linarith
    rw [if_pos ha, abs_of_pos hlt, neg_one_mul, neg_div, div_self hlt.ne']

/-- Every ellipse aligned with the axes that is longer in the x-direction gets an orientation that is wrong by a right angle. -/
theorem C54_aligned_fails (a c d f g : ℝ) (h : IsEllipse a 0 c d f g) (hlt : |a| < |c|) :
    ∃ e, ellipseParams a 0 c d f g = some e ∧ SameCurve a 0 c d f g e (e.orientation + π / 2) ∧
      ¬ SameCurve a 0 c d f g e e.orientation := by
  obtain ⟨e, h1, h2, _, h4, h5, _, h7⟩ := shape h _ rfl
  have hac : 0 < a * c := by have := h.1; nlinarith
  have hf : √((a - c) ^ 2 + 4 * ((0 : ℝ) / 2) * (0 / 2)) = |a - c| := by
    rw [← Real.sqrt_sq_eq_abs]; congr 1; ring
  rw [hf] at h4 h5 h7
  have hne : a ≠ c := by rintro rfl; exact lt_irrefl _ hlt
  have hpos := abs_pos.mpr (sub_ne_zero.mpr hne)
  have hsame : SameCurve a 0 c d f g e (e.orientation + π / 2) := by
    apply h5
    right
    rw [show 2 * (e.orientation + π / 2) = 2 * e.orientation + π by ring, Real.cos_add_pi, Real.sin_add_pi, h7 hpos]
    obtain ⟨k1, k2⟩ := aligned_angle hne hac
    rw [k1, k2]
    refine ⟨?_, by simp⟩
    unfold sgn
    rcases lt_trichotomy a 0 with ha | ha | ha
    · have hc : c < 0 := by by_contra hc; nlinarith
      rw [abs_of_neg ha, abs_of_neg hc] at hlt
      have hl : 0 < a - c := by linarith
      rw [if_neg ha.not_gt, abs_of_pos hl, one_mul, div_self hl.ne']
      norm_num
    · rw [ha] at hac; simp at hac
    · have hc : 0 < c := by by_contra hc; nlinarith
      rw [abs_of_pos ha, abs_of_pos hc] at hlt
      have hl : a - c < 0 := by linarith
      rw [if_pos ha, abs_of_neg hl, neg_one_mul, neg_div, div_neg, div_self hl.ne]
  exact ⟨e, h1, hsame, turned h2 (h4 hpos) hsame⟩

/-- Two ellipses aligned with the axes, one turned by a right angle against the other, get the same parameters. -/
example :
    IsEllipse (1 / 4) 0 1 0 0 (-1) ∧ IsEllipse 1 0 (1 / 4) 0 0 (-1) ∧
    ellipseParams (1 / 4) 0 1 0 0 (-1) = ellipseParams 1 0 (1 / 4) 0 0 (-1) ∧
    conic (1 / 4) 0 1 0 0 (-1) 2 0 = 0 ∧ conic 1 0 (1 / 4) 0 0 (-1) 2 0 ≠ 0 := by
  have e1 : √((1 / 4 - 1 : ℝ) ^ 2 + 4 * (0 / 2) * (0 / 2)) = 3 / 4 := by
    rw [show ((1 / 4 - 1 : ℝ) ^ 2 + 4 * (0 / 2) * (0 / 2)) = (3 / 4) ^ 2 by norm_num]
    exact Real.sqrt_sq (by norm_num)
  have e2 : √((1 - 1 / 4 : ℝ) ^ 2 + 4 * (0 / 2) * (0 / 2)) = 3 / 4 := by
    rw [show ((1 - 1 / 4 : ℝ) ^ 2 + 4 * (0 / 2) * (0 / 2)) = (3 / 4) ^ 2 by norm_num]
    exact Real.sqrt_sq (by norm_num)
  have e4 : √(4 : ℝ) = 2 := by
    rw [show (4 : ℝ) = 2 ^ 2 by norm_num]
    exact Real.sqrt_sq (by norm_num)
  refine ⟨⟨by norm_num, 0, 0, by norm_num [conic]⟩, ⟨by norm_num, 0, 0, by norm_num [conic]⟩, ?_, by norm_num [conic], by norm_num [conic]⟩
  unfold ellipseParams
  simp only [e1, e2]
  have pp := Real.pi_pos
  have r1 : rem (0 + π / 2) π = π / 2 := by
    unfold rem
    have hq : (0 + π / 2) / π = 1 / 2 := by field_simp; ring
    rw [hq, if_pos (by norm_num)]
    have : ⌊(1 / 2 : ℝ)⌋ = 0 := by rw [Int.floor_eq_iff]; norm_num
    rw [this]; simp
  have r2 : rem (π / 2 + π / 2 + π / 2) π = π / 2 := by
    unfold rem
    have hq : (π / 2 + π / 2 + π / 2) / π = 3 / 2 := by field_simp; ring
    rw [hq, if_pos (by norm_num)]
    have : ⌊(3 / 2 : ℝ)⌋ = 1 := by rw [Int.floor_eq_iff]; norm_num
    rw [this]; push_cast; ring
  norm_num [e4]
  rw [zero_add] at r1
  rw [show π / 2 + π / 2 + π / 2 = π + π / 2 by ring] at r2
  rw [r1, r2]

example : IsEllipse 1 1 2 0 0 (-1) ∧ |(1 : ℝ)| ≤ |2| ∧ 1e-12 ≤ |(1 : ℝ) / 2| := by
  refine ⟨⟨by norm_num, 0, 0, by norm_num [conic]⟩, by norm_num, ?_⟩
  rw [abs_of_pos] <;> norm_num

example : IsEllipse 2 1 1 0 0 (-1) ∧ |(1 : ℝ)| < |2| ∧ 1e-12 ≤ |(1 : ℝ) / 2| := by
  refine ⟨⟨by norm_num, 0, 0, by norm_num [conic]⟩, by norm_num, ?_⟩
  rw [abs_of_pos] <;> norm_num

/-! ### C109: reported orientation -/

theorem form_two {x0 y0 ap bp θ θ' : ℝ} (hc : cos (2 * θ) = cos (2 * θ')) (hs : sin (2 * θ) = sin (2 * θ')) (x y : ℝ) :
    form x0 y0 ap bp θ x y = form x0 y0 ap bp θ' x y := by
  unfold form
  rw [div_pow, div_pow, div_pow, div_pow, along_sq, across_sq, along_sq, across_sq, hc, hs]

/-- The angle used when scoring a rim is at right angles to the one the ellipse was fitted with. -/
theorem used_angle (o : ℝ) : cos (2 * usedAngle (reportedOrientation o)) = cos (2 * (o + π / 2)) ∧
    sin (2 * usedAngle (reportedOrientation o)) = sin (2 * (o + π / 2)) := by
  have : ∃ k : ℤ, 2 * usedAngle (reportedOrientation o) = 2 * (o + π / 2) + k * (2 * π) := by
    unfold usedAngle reportedOrientation rem
    split_ifs
    · exact ⟨-1 + 2 * ⌊(2 * π - o) / (2 * π)⌋, by push_cast; ring⟩
    · exact ⟨-1 + 2 * ⌈(2 * π - o) / (2 * π)⌉, by push_cast; ring⟩
  obtain ⟨k, hk⟩ := this
  rw [hk]
  exact ⟨Real.cos_add_int_mul_two_pi _ _, Real.sin_add_int_mul_two_pi _ _⟩

theorem same_used {a b c d f g : ℝ} {e : Ellipse} : SameCurve a b c d f g e (usedAngle (reportedOrientation e.orientation)) ↔
    SameCurve a b c d f g e (e.orientation + π / 2) := by
  unfold SameCurve
  obtain ⟨h1, h2⟩ := used_angle e.orientation
  simp only [form_two h1 h2]

/-- The orientation reported for a fitted rim is the bearing of its semi-major axis, clockwise from north, if the ellipse is
longer in the north-south direction than in the east-west direction and not aligned with these. -/
theorem C109_bearing_partial (a b c d f g : ℝ) (h : IsEllipse a b c d f g) (hac : |c| < |a|) (hb : 1e-12 ≤ |b / 2|) :
    ∃ e, ellipseParams a b c d f g = some e ∧
      SameCurve a b c d f g e (usedAngle (reportedOrientation e.orientation)) := by
  obtain ⟨e, h1, h2, _⟩ := C54_orientation_fails a b c d f g h hac hb
  exact ⟨e, h1, same_used.mpr h2⟩

example : IsEllipse 2 1 1 0 0 (-1) ∧ |(1 : ℝ)| < |2| ∧ 1e-12 ≤ |(1 : ℝ) / 2| := by
  refine ⟨⟨by norm_num, 0, 0, by norm_num [conic]⟩, by norm_num, ?_⟩
  rw [abs_of_pos (by norm_num)]
  norm_num

/-- In the other half of the cases it is wrong by a right angle. -/
theorem C109_bearing_fails (a b c d f g : ℝ) (h : IsEllipse a b c d f g) (hac : |a| ≤ |c|) (hb : 1e-12 ≤ |b / 2|) :
    ∃ e, ellipseParams a b c d f g = some e ∧
      ¬ SameCurve a b c d f g e (usedAngle (reportedOrientation e.orientation)) := by
  obtain ⟨e, h1, h2, _, h4, h5, h6, _⟩ := shape h _ rfl
  refine ⟨e, h1, ?_⟩
  rw [same_used]
  apply turned h2 (h4 (fac_pos hb))
  apply h5
  right
  rw [show 2 * (e.orientation + π / 2 + π / 2) = 2 * e.orientation + 2 * π by ring, Real.cos_add_two_pi, Real.sin_add_two_pi, h6 hb]
  exact orientation_angle (a := a) (c := c) hb (sgn a) (by rw [if_neg (not_lt.mpr hac)])

/-! ### C110: signed distance to a rim -/

/-- The signed distance is negative inside the ellipse, zero on it and positive outside. -/
theorem C110_sign (x y x0 y0 a b o : ℝ) (ha : 0 < a) (hb : 0 < b) :
    (radialDistance x y x0 y0 a b o < 0 ↔ form x0 y0 a b (usedAngle o) x y < 1) ∧
    (radialDistance x y x0 y0 a b o = 0 ↔ form x0 y0 a b (usedAngle o) x y = 1) ∧
    (0 < radialDistance x y x0 y0 a b o ↔ 1 < form x0 y0 a b (usedAngle o) x y) := by
  set φ := usedAngle o with hφ
  set u := x - x0 with hu
  set v := y - y0 with hv
  set r := √(u * u + v * v) with hr
  set α := atan2 v u - φ with hα
  have hr0 : 0 ≤ r := Real.sqrt_nonneg _
  -- the point in polar coordinates
  have polar : u * cos φ + v * sin φ = r * cos α ∧ v * cos φ - u * sin φ = r * sin α := by
    rcases hr0.eq_or_lt with h0 | h0
    · have hz : u * u + v * v = 0 := by
        have := Real.sqrt_eq_zero (by nlinarith [mul_self_nonneg u, mul_self_nonneg v] : 0 ≤ u * u + v * v)
        exact this.mp h0.symm
      have h1 : u = 0 := by nlinarith [mul_self_nonneg u, mul_self_nonneg v]
      have h2 : v = 0 := by nlinarith [mul_self_nonneg u, mul_self_nonneg v]
      rw [← h0, h1, h2]; simp
    · obtain ⟨k1, k2⟩ := cos_sin_atan2 v u r (by rw [hr]; congr 1; ring) h0
      rw [hα, Real.cos_sub, Real.sin_sub, k1, k2]
      constructor
      · field_simp
      · field_simp
  set q := √((b * cos α) ^ 2 + (a * sin α) ^ 2) with hq
  have hqpos : 0 < q := by
    apply Real.sqrt_pos.mpr
    have := sin_sq_add_cos_sq α
    by_cases hs : sin α = 0
    · have : cos α ^ 2 = 1 := by rw [hs] at this; linarith
      have hc : cos α ≠ 0 := by intro h; rw [h] at this; norm_num at this
      have := mul_self_pos.mpr (mul_ne_zero hb.ne' hc)
      nlinarith [sq_nonneg (a * sin α)]
    · have := mul_self_pos.mpr (mul_ne_zero ha.ne' hs)
      nlinarith [sq_nonneg (b * cos α)]
  have hq2 : q ^ 2 = (b * cos α) ^ 2 + (a * sin α) ^ 2 := Real.sq_sqrt (by positivity)
  set ρ := a * b / q with hρ
  have hρpos : 0 < ρ := by positivity
  have hform : form x0 y0 a b φ x y = (r / ρ) ^ 2 := by
    unfold form
    rw [← hu, ← hv, polar.1, polar.2, hρ]
    field_simp
    rw [hq2]; ring
  have hrad : radialDistance x y x0 y0 a b o = r - ρ := rfl
  rw [hform, hrad]
  have hrr : 0 ≤ r / ρ := by positivity
  refine ⟨?_, ?_, ?_⟩
  · rw [sub_neg, sq_lt_one_iff₀ hrr, div_lt_one hρpos]
  · rw [sub_eq_zero, pow_eq_one_iff_of_nonneg hrr two_ne_zero, div_eq_one_iff_eq hρpos.ne']
  · rw [sub_pos, one_lt_sq_iff₀ hrr, one_lt_div hρpos]

/-- The centre of an ellipse twice as long as wide is inside. -/
example : radialDistance 3 4 3 4 2 1 30 < 0 :=
  ((C110_sign 3 4 3 4 2 1 30 (by norm_num) (by norm_num)).1).mpr (by simp [form])

/-! ### C55: circle fits -/

/-- The weighted sum of squared differences between the distances from the center and a radius. -/
noncomputable def objective (ps : List Pt) (x0 y0 r : ℝ) : ℝ := (ps.map fun p => p.weight * (p.dist x0 y0 - r) ^ 2).sum

theorem weight_nonneg (p : Pt) : 0 ≤ p.weight := by
  unfold Pt.weight
  rcases p.w with _ | w
  · exact le_refl _
  · simp only; split_ifs with h
    · exact h.le
    · exact le_refl _

theorem wsum_nonneg (ps : List Pt) : 0 ≤ (ps.map Pt.weight).sum :=
  List.sum_nonneg (by intro x hx; obtain ⟨p, _, rfl⟩ := List.mem_map.mp hx; exact weight_nonneg p)

theorem objective_expand (ps : List Pt) (x0 y0 r : ℝ) : objective ps x0 y0 r =
    (ps.map fun p => p.weight * p.dist x0 y0 ^ 2).sum - 2 * r * (ps.map fun p => p.dist x0 y0 * p.weight).sum
      + r ^ 2 * (ps.map Pt.weight).sum := by
  unfold objective
  induction ps with
  | nil => simp
  | cons p ps ih =>
    simp only [List.map_cons, List.sum_cons] at ih ⊢
    rw [ih]; ring

/-- The fit with fixed center returns the one radius that minimises the weighted squared residuals, and the mean residual of
that radius; it fails only if no weight is positive. -/
theorem C55_fixed (ps : List Pt) (x0 y0 : ℝ) :
    (fitFixed ps x0 y0 = none ↔ ∀ p ∈ ps, p.weight = 0) ∧
    ∀ r w, fitFixed ps x0 y0 = some (r, w) →
      (∀ r', r' ≠ r → objective ps x0 y0 r < objective ps x0 y0 r') ∧
      w ^ 2 * (ps.map Pt.weight).sum = objective ps x0 y0 r ∧ 0 ≤ w := by
  constructor
  · unfold fitFixed
    simp only
    have : (ps.map Pt.weight).sum = 0 ↔ ∀ p ∈ ps, p.weight = 0 := by
      induction ps with
      | nil => simp
      | cons p ps ih =>
        simp only [List.map_cons, List.sum_cons, List.forall_mem_cons]
        rw [add_eq_zero_iff_of_nonneg (weight_nonneg p) (wsum_nonneg ps), ih]
    split_ifs with h
    · simp only [true_iff]; exact this.mp h
    · simp only [false_iff]; exact fun hc => h (this.mpr hc)
  · intro r w h
    unfold fitFixed at h
    simp only at h
    split_ifs at h with hz
    simp only [Option.some.injEq, Prod.mk.injEq] at h
    obtain ⟨hr, hw⟩ := h
    have hpos : 0 < (ps.map Pt.weight).sum := lt_of_le_of_ne (wsum_nonneg ps) (Ne.symm hz)
    have hr' : (ps.map fun p => p.dist x0 y0 * p.weight).sum = r * (ps.map Pt.weight).sum := by
      rw [← hr]; field_simp
    refine ⟨?_, ?_, ?_⟩
    · intro r' hne
      rw [objective_expand, objective_expand, hr']
      have : 0 < (r' - r) ^ 2 := by
        have := sub_ne_zero.mpr hne
        positivity
      nlinarith
    · have hobj : objective ps x0 y0 r = (ps.map fun p => (p.dist x0 y0 - r) ^ 2 * p.weight).sum := by
        unfold objective
        congr 1
        apply List.map_congr_left
        intro p _; ring
      have hnn : 0 ≤ (ps.map fun p => (p.dist x0 y0 - r) ^ 2 * p.weight).sum := by
        apply List.sum_nonneg
        intro x hx
        obtain ⟨p, _, rfl⟩ := List.mem_map.mp hx
        exact mul_nonneg (sq_nonneg _) (weight_nonneg p)
      rw [← hw, hr, Real.sq_sqrt (div_nonneg hnn hpos.le), hobj]
      field_simp
    · rw [← hw]; exact Real.sqrt_nonneg _

/-- The value `2 x0 x + 2 y0 y + c` minus `x² + y²`, squared, weighted and summed. -/
noncomputable def algebraic (ps : List Pt) (q : Fin 3 → ℝ) : ℝ :=
  (ps.map fun p => p.weight * (q 0 * p.row 0 + q 1 * p.row 1 + q 2 * p.row 2 - p.rhs) ^ 2).sum

theorem sum_ext3 (ps : List Pt) (q : Fin 3 → ℝ) (i : Fin 3) : (ata ps).mulVec q i =
    (ps.map fun p => p.weight * p.row i * (q 0 * p.row 0 + q 1 * p.row 1 + q 2 * p.row 2)).sum := by
  unfold Matrix.mulVec dotProduct ata
  rw [Fin.sum_univ_three]
  induction ps with
  | nil => simp
  | cons p ps ih =>
    simp only [List.map_cons, List.sum_cons] at ih ⊢
    linear_combination ih

/-- The normal equations. -/
theorem normal (ps : List Pt) (q : Fin 3 → ℝ) (h : (ata ps).mulVec q = atb ps) (i : Fin 3) :
    (ps.map fun p => p.weight * p.row i * (q 0 * p.row 0 + q 1 * p.row 1 + q 2 * p.row 2 - p.rhs)).sum = 0 := by
  have h1 := congrFun h i
  rw [sum_ext3] at h1
  unfold atb at h1
  rw [← sub_eq_zero] at h1
  rw [← h1]
  clear h h1
  induction ps with
  | nil => simp
  | cons p ps ih =>
    simp only [List.map_cons, List.sum_cons] at ih ⊢
    rw [ih]; ring

theorem algebraic_min (ps : List Pt) (q : Fin 3 → ℝ) (h : (ata ps).mulVec q = atb ps) (q' : Fin 3 → ℝ) :
    algebraic ps q ≤ algebraic ps q' := by
  have n0 := normal ps q h 0
  have n1 := normal ps q h 1
  have n2 := normal ps q h 2
  have hsum : algebraic ps q' - algebraic ps q =
      (ps.map fun p => p.weight * ((q' 0 - q 0) * p.row 0 + (q' 1 - q 1) * p.row 1 + (q' 2 - q 2) * p.row 2) ^ 2).sum
      + 2 * (q' 0 - q 0) * (ps.map fun p => p.weight * p.row 0 * (q 0 * p.row 0 + q 1 * p.row 1 + q 2 * p.row 2 - p.rhs)).sum
      + 2 * (q' 1 - q 1) * (ps.map fun p => p.weight * p.row 1 * (q 0 * p.row 0 + q 1 * p.row 1 + q 2 * p.row 2 - p.rhs)).sum
      + 2 * (q' 2 - q 2) * (ps.map fun p => p.weight * p.row 2 * (q 0 * p.row 0 + q 1 * p.row 1 + q 2 * p.row 2 - p.rhs)).sum := by
    clear n0 n1 n2 h
    unfold algebraic
    induction ps with
    | nil => simp
    | cons p ps ih =>
      simp only [List.map_cons, List.sum_cons] at ih ⊢
      linear_combination ih
  rw [n0, n1, n2] at hsum
  have : 0 ≤ (ps.map fun p => p.weight * ((q' 0 - q 0) * p.row 0 + (q' 1 - q 1) * p.row 1 + (q' 2 - q 2) * p.row 2) ^ 2).sum := by
    apply List.sum_nonneg
    intro x hx
    obtain ⟨p, _, rfl⟩ := List.mem_map.mp hx
    exact mul_nonneg (weight_nonneg p) (sq_nonneg _)
  linarith

theorem inv_solves (ps : List Pt) (hd : (ata ps).det ≠ 0) : (ata ps).mulVec ((ata ps)⁻¹.mulVec (atb ps)) = atb ps := by
  rw [Matrix.mulVec_mulVec, Matrix.mul_nonsing_inv _ (Ne.isUnit hd), Matrix.one_mulVec]

/-- The free fit minimises the algebraic residual over all circles: no center and no squared radius (as it enters the
equation of the circle) gives a smaller weighted sum of squares of `(x - x0)² + (y - y0)² - r²`. -/
theorem C55_free_minimises (ps : List Pt) (x0 y0 r : ℝ) (h : fitCircle ps = some (x0, y0, r)) :
    ∃ r2 : ℝ, (r = if 0 < r2 then √r2 else 0) ∧ ∀ x y s : ℝ,
      (ps.map fun p => p.weight * ((p.x - x0) ^ 2 + (p.y - y0) ^ 2 - r2) ^ 2).sum ≤
      (ps.map fun p => p.weight * ((p.x - x) ^ 2 + (p.y - y) ^ 2 - s) ^ 2).sum := by
  unfold fitCircle at h
  simp only at h
  split_ifs at h with h1 h2 <;> simp only [Option.some.injEq, Prod.mk.injEq] at h
  all_goals
    obtain ⟨e1, e2, e3⟩ := h
    set q := (ata ps)⁻¹.mulVec (atb ps) with hq
    have rewrite_ : ∀ (x y s : ℝ), (ps.map fun p => p.weight * ((p.x - x) ^ 2 + (p.y - y) ^ 2 - s) ^ 2).sum =
        algebraic ps ![x, y, s - x * x - y * y] := by
      intro x y s
      unfold algebraic
      congr 1
      apply List.map_congr_left
      intro p _
      simp only [Pt.row, Pt.rhs, Matrix.cons_val_zero, Matrix.cons_val_one, Matrix.cons_val]
      ring
    refine ⟨q 2 + q 0 * q 0 + q 1 * q 1, ?_, ?_⟩
    · rw [← e3]; simp_all
    · intro x y s
      rw [rewrite_, rewrite_]
      have hqe : (![x0, y0, q 2 + q 0 * q 0 + q 1 * q 1 - x0 * x0 - y0 * y0] : Fin 3 → ℝ) = q := by
        funext i
        fin_cases i
        · exact e1.symm
        · exact e2.symm
        · change q 2 + q 0 * q 0 + q 1 * q 1 - x0 * x0 - y0 * y0 = q 2
          rw [← e1, ← e2]; ring
      rw [hqe]
      exact algebraic_min ps q (inv_solves ps h2) _

/-- If all points that carry weight lie on one circle, the free fit returns that circle. -/
theorem C55_free_exact (ps : List Pt) (X Y R : ℝ) (hR : 0 ≤ R)
    (hon : ∀ p ∈ ps, p.weight ≠ 0 → (p.x - X) ^ 2 + (p.y - Y) ^ 2 = R ^ 2) (o : ℝ × ℝ × ℝ) (h : fitCircle ps = some o) :
    o = (X, Y, R) := by
  have hsol : (ata ps).mulVec ![X, Y, R ^ 2 - X * X - Y * Y] = atb ps := by
    funext i
    rw [sum_ext3]
    unfold atb
    congr 1
    apply List.map_congr_left
    intro p hp
    by_cases hw : p.weight = 0
    · rw [hw]; ring
    · have := hon p hp hw
      congr 1
      simp only [Pt.row, Pt.rhs, Matrix.cons_val_zero, Matrix.cons_val_one, Matrix.cons_val]
      linear_combination -this
  unfold fitCircle at h
  simp only at h
  split_ifs at h with h1 h2 h3
  all_goals
    have hq : (ata ps)⁻¹.mulVec (atb ps) = ![X, Y, R ^ 2 - X * X - Y * Y] := by
      rw [← hsol, Matrix.mulVec_mulVec, Matrix.nonsing_inv_mul _ (Ne.isUnit h2), Matrix.one_mulVec]
    rw [hq] at h h3
    simp only [Matrix.cons_val_zero, Matrix.cons_val_one, Matrix.cons_val] at h h3
    rw [← Option.some.inj h]
    have e : R ^ 2 - X * X - Y * Y + X * X + Y * Y = R ^ 2 := by ring
    rw [e] at h3
  · rw [e, Real.sqrt_sq hR]
  · have : R = 0 := by
      by_contra hne
      exact h3 (by positivity)
    rw [this]

/-- The free fit fails only if the weights add up to zero or the points that carry weight lie on one line. -/
theorem C55_free_error (ps : List Pt) (h : fitCircle ps = none) :
    ((∀ p ∈ ps, p.w ≠ none) ∧ (ps.map fun p => p.w.getD 0).sum = 0) ∨ ∃ l m n : ℝ, (l ≠ 0 ∨ m ≠ 0 ∨ n ≠ 0) ∧ ∀ p ∈ ps, p.weight ≠ 0 → l * p.x + m * p.y + n = 0 := by
  unfold fitCircle at h
  simp only at h
  split_ifs at h with h1 h2
  · exact .inl h1
  · right
    obtain ⟨v, hv, h0⟩ := Matrix.exists_mulVec_eq_zero_iff.mpr h2
    refine ⟨2 * v 0, 2 * v 1, v 2, ?_, ?_⟩
    · by_contra hc
      push Not at hc
      apply hv
      funext i
      fin_cases i
      · simpa using hc.1
      · simpa using hc.2.1
      · exact hc.2.2
    · have hz : (ps.map fun p => p.weight * (v 0 * p.row 0 + v 1 * p.row 1 + v 2 * p.row 2) ^ 2).sum = 0 := by
        have n0 := congrFun h0 0
        have n1 := congrFun h0 1
        have n2 := congrFun h0 2
        rw [sum_ext3] at n0 n1 n2
        have : (ps.map fun p => p.weight * (v 0 * p.row 0 + v 1 * p.row 1 + v 2 * p.row 2) ^ 2).sum =
          v 0 * (ps.map fun p => p.weight * p.row 0 * (v 0 * p.row 0 + v 1 * p.row 1 + v 2 * p.row 2)).sum +
          v 1 * (ps.map fun p => p.weight * p.row 1 * (v 0 * p.row 0 + v 1 * p.row 1 + v 2 * p.row 2)).sum +
          v 2 * (ps.map fun p => p.weight * p.row 2 * (v 0 * p.row 0 + v 1 * p.row 1 + v 2 * p.row 2)).sum := by
          clear n0 n1 n2 h0 hv h2 h1 h
          induction ps with
          | nil => simp
          | cons p ps ih =>
            simp only [List.map_cons, List.sum_cons] at ih ⊢
            linear_combination ih
        rw [this, n0, n1, n2]; simp
      have each : ∀ (L : List ℝ), (∀ x ∈ L, 0 ≤ x) → L.sum = 0 → ∀ x ∈ L, x = 0 := by
        intro L
        induction L with
        | nil => intro _ _ x hx; simp at hx
        | cons a L ih =>
          intro hn hs x hx
          rw [List.sum_cons] at hs
          have ha := hn a (by simp)
          have hL := List.sum_nonneg (fun x hx => hn x (by simp [hx]) : ∀ x ∈ L, 0 ≤ x)
          rcases List.mem_cons.mp hx with rfl | hx
          · linarith
          · exact ih (fun x hx => hn x (by simp [hx])) (by linarith) x hx
      intro p hp hw
      have := each _ (by
        intro x hx
        obtain ⟨p, _, rfl⟩ := List.mem_map.mp hx
        exact mul_nonneg (weight_nonneg p) (sq_nonneg _)) hz _ (List.mem_map.mpr ⟨p, hp, rfl⟩)
      rcases mul_eq_zero.mp this with h | h
      · exact absurd h hw
      · have := pow_eq_zero_iff (two_ne_zero) |>.mp h
        simp only [Pt.row, Matrix.cons_val_zero, Matrix.cons_val_one, Matrix.cons_val] at this
        linarith

/-- Three points on the unit circle and one with a NaN weight off it: the free fit is defined. -/
example : ∃ o, fitCircle [⟨1, 0, some 1⟩, ⟨0, 1, some 2⟩, ⟨-1, 0, some 1⟩, ⟨5, 5, none⟩] = some o := by
  apply Option.ne_none_iff_exists'.mp
  intro h
  rcases C55_free_error _ h with h | ⟨l, m, n, hne, h⟩
  · exact h.1 ⟨5, 5, none⟩ (by simp) rfl
  · have h1 := h ⟨1, 0, some 1⟩ (by simp) (by simp [Pt.weight])
    have h2 := h ⟨0, 1, some 2⟩ (by simp) (by simp [Pt.weight])
    have h3 := h ⟨-1, 0, some 1⟩ (by simp) (by simp [Pt.weight])
    simp only at h1 h2 h3
    have hl : l = 0 := by linarith
    have hn : n = 0 := by linarith
    have hm : m = 0 := by linarith
    simp [hl, hm, hn] at hne

example : (fitFixed [⟨1, 0, some 1⟩, ⟨0, 3, some 1⟩, ⟨7, 7, none⟩] 0 0).isSome := by
  have : fitFixed [⟨1, 0, some 1⟩, ⟨0, 3, some 1⟩, ⟨7, 7, none⟩] 0 0 ≠ none := by
    rw [Ne, (C55_fixed _ 0 0).1]
    intro h
    have := h ⟨1, 0, some 1⟩ (by simp)
    simp [Pt.weight] at this
  exact Option.isSome_iff_ne_none.mpr this

end Verif.Fit
