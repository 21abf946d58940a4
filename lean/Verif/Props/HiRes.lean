import Verif.Model.HiRes
import Mathlib.Analysis.Real.Pi.Bounds
import Mathlib.Algebra.Order.Archimedean.Real.Basic
import Mathlib.Tactic.Linarith
import Mathlib.Tactic.LinearCombination
import Mathlib.Tactic.Positivity
import Mathlib.Tactic.FieldSimp

/-! Properties C50, C51: layout of the high-resolution mesh. -/

namespace Verif.HiRes

open Real

/-! ### C50 -/

/-- With a local region smaller than a hemisphere, the face size is the pixel size inside the local region,
never decreases with distance, and is the requested multiple at the circle opposite to the border of the
local region.  At the antipode itself it is larger, see `C50_antipode_fails`. -/
theorem C50_size_partial (s : Setup) (h : s.accepted = true) (hl : 2 * s.localRadius < π * s.radius) :
    ∃ m, slope s = some m ∧ 0 ≤ m ∧
    (∀ r < s.localRadius, sizeAt s.pix s.localRadius m 1 r = s.pix) ∧
    (∀ a b, a ≤ b → sizeAt s.pix s.localRadius m 1 a ≤ sizeAt s.pix s.localRadius m 1 b) ∧
    sizeAt s.pix s.localRadius m 1 (π * s.radius - s.localRadius) = s.factor * s.pix := by
  simp only [Setup.accepted, decide_eq_true_eq] at h
  obtain ⟨hp, hl0, _, _, hf⟩ := h
  have hd : 0 < π * s.radius - s.localRadius - s.localRadius := by linarith
  refine ⟨_, by unfold slope; simp only; rw [if_neg hd.ne'], ?_, ?_, ?_, ?_⟩
  · apply div_nonneg _ hd.le
    nlinarith
  · intro r hr
    unfold sizeAt
    rw [if_pos hr]
  · intro a b hab
    have hm : 0 ≤ (s.pix * s.factor - s.pix) / (π * s.radius - s.localRadius - s.localRadius) := by
      apply div_nonneg _ hd.le
      nlinarith
    unfold sizeAt
    simp only [rpow_one]
    split_ifs with h1 h2 h2
    · exact le_refl _
    · nlinarith [mul_nonneg hm (by linarith : 0 ≤ b - s.localRadius)]
    · linarith
    · nlinarith [mul_nonneg hm (by linarith : 0 ≤ b - a)]
  · unfold sizeAt
    rw [if_neg (by linarith), rpow_one]
    field_simp
    ring

/-- At the antipode of the local region the faces are larger than the requested factor times the pixel size. -/
theorem C50_antipode_fails (s : Setup) (h : s.accepted = true) (hl : 2 * s.localRadius < π * s.radius)
    (hf : 1 < s.factor) (m : ℝ) (hm : slope s = some m) :
    s.factor * s.pix < sizeAt s.pix s.localRadius m 1 (π * s.radius) := by
  simp only [Setup.accepted, decide_eq_true_eq] at h
  obtain ⟨hp, hl0, _, _, _⟩ := h
  have hd : 0 < π * s.radius - s.localRadius - s.localRadius := by linarith
  unfold slope at hm
  simp only at hm
  rw [if_neg hd.ne', Option.some.injEq] at hm
  have h1 : 0 < m := by
    rw [← hm]
    apply div_pos _ hd
    nlinarith
  have h2 : m * (π * s.radius - s.localRadius - s.localRadius) = s.pix * s.factor - s.pix := by
    rw [← hm]
    exact div_mul_cancel₀ _ hd.ne'
  unfold sizeAt
  rw [if_neg (by linarith), rpow_one]
  nlinarith

/-- The slope is a division by zero exactly when the local region is a hemisphere, which is accepted. -/
theorem C50_hemisphere_fails (s : Setup) : slope s = none ↔ 2 * s.localRadius = π * s.radius := by
  unfold slope
  dsimp only
  split_ifs with h
  · simp only [true_iff]; linarith
  · simp only [false_iff]
    intro h'
    exact h (by linarith)

example : (⟨1, 1 / 10, π / 2, 2⟩ : Setup).accepted = true ∧ slope ⟨1, 1 / 10, π / 2, 2⟩ = none := by
  refine ⟨?_, (C50_hemisphere_fails _).mpr (by simp only; ring)⟩
  simp only [Setup.accepted, decide_eq_true_eq]
  have := pi_gt_three
  refine ⟨by norm_num, by linarith, by linarith, by linarith, by norm_num⟩

theorem runLoop_stop (cond : ℝ → Prop) (step : ℝ → ℝ) (n : ℕ) (x : ℝ) (h : ¬ cond x) :
    runLoop cond step n x = x := by
  cases n with
  | zero => rfl
  | succ n => unfold runLoop; rw [if_neg h]

/-- A loop whose variable grows by at least `d` each time, or leaves at once, ends. -/
theorem loop_ends (bound d : ℝ) (cond : ℝ → Prop) (hc : ∀ x, cond x → x ≤ bound) (step : ℝ → ℝ)
    (hs : ∀ x, cond x → x + d ≤ step x ∨ ¬ cond (step x)) (n : ℕ) (x : ℝ) (hn : bound < x + n * d) :
    ¬ cond (runLoop cond step n x) := by
  induction n generalizing x with
  | zero =>
    intro h
    have := hc _ h
    simp only [runLoop, Nat.cast_zero, zero_mul, add_zero] at *
    linarith
  | succ n ih =>
    by_cases h : cond x
    · unfold runLoop
      rw [if_pos h]
      rcases hs x h with h1 | h1
      · apply ih
        push_cast at hn
        linarith
      · rw [runLoop_stop _ _ _ _ h1]
        exact h1
    · rw [runLoop_stop _ _ _ _ h]
      exact h

/-- The ring loops end: the inner one if the local region is not the whole sphere, the outer one if the face
size is bounded below by a positive number, as it is when it does not decrease. -/
theorem C50_terminates_partial (s : Setup) (h : s.accepted = true) (hR : 0 < s.radius)
    (hl : s.localRadius < π * s.radius) (size : ℝ → ℝ) (hsize : ∀ r, s.pix ≤ size r) (theta : ℝ) :
    (∃ n, ¬ runLoop (fun t => t ≤ s.localRadius / s.radius) (interiorStep s) n theta ≤ s.localRadius / s.radius) ∧
    (∃ n, ¬ runLoop (fun t => t < π) (exteriorStep s.radius size) n theta < π) := by
  simp only [Setup.accepted, decide_eq_true_eq] at h
  obtain ⟨hp, hl0, _, _, hf⟩ := h
  have hd : 0 < s.pix / s.radius := div_pos hp hR
  have arch : ∀ bound : ℝ, ∃ n : ℕ, bound < theta + n * (s.pix / s.radius) := by
    intro bound
    obtain ⟨n, hn⟩ := exists_nat_gt ((bound - theta) / (s.pix / s.radius))
    rw [div_lt_iff₀ hd] at hn
    exact ⟨n, by linarith⟩
  constructor
  · obtain ⟨n, hn⟩ := arch (s.localRadius / s.radius)
    refine ⟨n, loop_ends (s.localRadius / s.radius) (s.pix / s.radius) (fun t => t ≤ s.localRadius / s.radius) (fun x hx => hx)
      _ ?_ n theta hn⟩
    intro x _
    unfold interiorStep
    split_ifs
    · left; exact le_refl _
    · right
      rw [not_le, div_lt_iff₀ hR]
      exact hl
    · left; exact le_refl _
  · obtain ⟨n, hn⟩ := arch π
    refine ⟨n, loop_ends π (s.pix / s.radius) (fun t => t < π) (fun x hx => le_of_lt hx) _ ?_ n theta hn⟩
    intro x _
    unfold exteriorStep
    split_ifs
    · right; exact lt_irrefl _
    · left
      have := div_le_div_of_nonneg_right (hsize (s.radius * x)) hR.le
      linarith

/-- With a local region that is the whole sphere, which the setter accepts, the inner loop never ends. -/
theorem C50_full_sphere_fails (s : Setup) (hR : 0 < s.radius) (hp : 2 * s.pix ≤ π * s.radius)
    (hl : s.localRadius = π * s.radius) (n : ℕ) :
    runLoop (fun t => t ≤ s.localRadius / s.radius) (interiorStep s) n 0 ≤ s.localRadius / s.radius := by
  have hlr : s.localRadius / s.radius = π := by rw [hl]; field_simp
  rw [hlr]
  have key : ∀ theta ≤ π, runLoop (fun t => t ≤ π) (interiorStep s) n theta ≤ π := by
    induction n with
    | zero => intro theta ht; exact ht
    | succ n ih =>
      intro theta ht
      unfold runLoop
      rw [if_pos ht]
      apply ih
      have h3 : (theta + s.pix / s.radius) * s.radius = s.radius * theta + s.pix := by field_simp
      unfold interiorStep
      split_ifs with h1 h2
      · apply le_of_mul_le_mul_right _ hR
        linarith
      · exact le_refl _
      · apply le_of_mul_le_mul_right _ hR
        linarith
  exact key 0 pi_pos.le

example : ∃ s : Setup, s.accepted = true ∧ 0 < s.radius ∧ 2 * s.pix ≤ π * s.radius ∧ s.localRadius = π * s.radius := by
  have := pi_gt_three
  refine ⟨⟨1, 1, π, 1⟩, ?_, by norm_num, by simp only; linarith, by simp⟩
  simp only [Setup.accepted, decide_eq_true_eq]
  exact ⟨by norm_num, by linarith, by linarith, by linarith, by norm_num⟩

/-- With a local region larger than a hemisphere the face size decreases with distance; when it reaches zero
before the antipode the outer loop never ends. -/
theorem C50_large_region_fails (s : Setup) (hR : 0 < s.radius) (hl : π * s.radius < 2 * s.localRadius) (m : ℝ)
    (hm : slope s = some m) (hf : 1 < s.factor) (hp : 0 < s.pix) (h1 : -1 ≤ m)
    (hz : s.localRadius + s.pix / (-m) < π * s.radius) (n : ℕ) :
    m < 0 ∧ runLoop (fun t => t < π) (exteriorStep s.radius (sizeAt s.pix s.localRadius m 1)) n
      (s.localRadius / s.radius) < π := by
  have hd : π * s.radius - s.localRadius - s.localRadius < 0 := by linarith
  have hm0 : m < 0 := by
    unfold slope at hm
    simp only at hm
    rw [if_neg hd.ne, Option.some.injEq] at hm
    rw [← hm]
    apply div_neg_of_pos_of_neg _ hd
    nlinarith
  refine ⟨hm0, ?_⟩
  set z := s.localRadius + s.pix / (-m) with hzdef
  have hzm : -m * (z - s.localRadius) = s.pix := by
    rw [hzdef]
    have : -m ≠ 0 := by linarith
    rw [add_sub_cancel_left, mul_div_cancel₀ _ this]
  have hzl : s.localRadius ≤ z := by
    rw [hzdef]
    have : 0 < s.pix / (-m) := div_pos hp (by linarith)
    linarith
  have key : ∀ theta, s.localRadius ≤ s.radius * theta → s.radius * theta ≤ z →
      runLoop (fun t => t < π) (exteriorStep s.radius (sizeAt s.pix s.localRadius m 1)) n theta < π := by
    induction n with
    | zero =>
      intro theta ha hb
      have : s.radius * theta < s.radius * π := by linarith
      exact lt_of_mul_lt_mul_left this hR.le
    | succ n ih =>
      intro theta ha hb
      have hlt : theta < π := lt_of_mul_lt_mul_left (by linarith : s.radius * theta < s.radius * π) hR.le
      unfold runLoop
      rw [if_pos hlt]
      have hsz : sizeAt s.pix s.localRadius m 1 (s.radius * theta) = -m * (z - s.radius * theta) := by
        unfold sizeAt
        rw [if_neg (by linarith), rpow_one]
        linarith
      have h2 : 0 ≤ -m * (z - s.radius * theta) := mul_nonneg (by linarith) (by linarith)
      have h3 : -m * (z - s.radius * theta) ≤ z - s.radius * theta := by nlinarith
      have hstep : s.radius * exteriorStep s.radius (sizeAt s.pix s.localRadius m 1) theta =
          s.radius * theta + -m * (z - s.radius * theta) := by
        unfold exteriorStep
        rw [hsz, if_neg (by linarith)]
        field_simp
      apply ih
      · rw [hstep]; linarith
      · rw [hstep]; linarith
  apply key
  · rw [mul_div_cancel₀ _ hR.ne']
  · rw [mul_div_cancel₀ _ hR.ne']; exact hzl

example : ∃ (s : Setup) (m : ℝ), s.accepted = true ∧ 0 < s.radius ∧ π * s.radius < 2 * s.localRadius ∧
    slope s = some m ∧ 1 < s.factor ∧ -1 ≤ m ∧ s.localRadius + s.pix / (-m) < π * s.radius := by
  have h3 := pi_gt_three
  have h4 := pi_lt_d2
  have hne : π * 1 - 2 - 2 ≠ 0 := by intro h; linarith
  refine ⟨⟨1, 1 / 100, 2, 3⟩, (1 / 100 * 3 - 1 / 100) / (π * 1 - 2 - 2), ?_, by norm_num, by simp only; linarith, ?_,
    by norm_num, ?_, ?_⟩
  · simp only [Setup.accepted, decide_eq_true_eq]
    exact ⟨by norm_num, by norm_num, by linarith, by norm_num, by norm_num⟩
  · unfold slope
    simp only
    rw [if_neg hne]
  · rw [le_div_iff_of_neg (by linarith)]
    linarith
  · simp only
    have e : (1 / 100 : ℝ) / (-((1 / 100 * 3 - 1 / 100) / (π * 1 - 2 - 2))) = (4 - π) / 2 := by
      have : π - 2 - 2 ≠ 0 := by intro h; linarith
      field_simp
      ring
    rw [e]
    linarith

example : ∃ s : Setup, s.accepted = true ∧ 0 < s.radius ∧ 2 * s.localRadius < π * s.radius ∧ 1 < s.factor := by
  have h3 := pi_gt_three
  refine ⟨⟨1, 1 / 100, 1 / 10, 5⟩, ?_, by norm_num, by simp only; linarith, by norm_num⟩
  simp only [Setup.accepted, decide_eq_true_eq]
  exact ⟨by norm_num, by norm_num, by linarith, by norm_num, by norm_num⟩

/-! ### C51 -/

theorem target_unit (lon lat : ℝ) : (targetVector lon lat).dot (targetVector lon lat) = 1 := by
  unfold targetVector V3.dot
  simp only
  have h1 := sin_sq_add_cos_sq lon
  have h2 := sin_sq_add_cos_sq lat
  linear_combination cos lat ^ 2 * h1 + h2

/-- Rodrigues' formula with a unit axis preserves scalar products, hence lengths and angles. -/
theorem rotate_dot (k : V3) (hk : k.dot k = 1) (t : ℝ) (p q : V3) :
    (rotate k t p).dot (rotate k t q) = p.dot q := by
  have h1 := sin_sq_add_cos_sq t
  unfold rotate V3.dot V3.add V3.scale V3.cross at *
  simp only at *
  generalize sin t = S at *
  generalize cos t = C at *
  obtain ⟨kx, ky, kz⟩ := k
  obtain ⟨a, b, c⟩ := p
  obtain ⟨d, e, f⟩ := q
  simp only at *
  have hC : C ^ 2 = 1 - S ^ 2 := by linarith
  have hk' : kz ^ 2 = 1 - kx ^ 2 - ky ^ 2 := by linarith
  linear_combination (a * d + b * e + c * f - (kx * a + ky * b + kz * c) * (kx * d + ky * e + kz * f)) * h1 +
    (S ^ 2 * (a * d + b * e + c * f) + (kx * a + ky * b + kz * c) * (kx * d + ky * e + kz * f) * (1 - C) ^ 2) * hk

/-- Where the axis is not tiny (that is, away from the poles) the rotation takes the pole, where the local
region is laid out, to the requested location, and it preserves all distances and angles everywhere.
Missing: the south pole, see `C51_south_pole_fails`. -/
theorem C51_rotation_partial (lon lat : ℝ) :
    (1e-10 ≤ |cos lat| → rotateCloud lon lat pole = targetVector lon lat) ∧
    ∀ p q, (rotateCloud lon lat p).dot (rotateCloud lon lat q) = p.dot q := by
  have hax : pole.cross (targetVector lon lat) = ⟨-(cos lat * sin lon), cos lat * cos lon, 0⟩ := by
    unfold pole targetVector V3.cross
    ext <;> simp
  have hdd : (pole.cross (targetVector lon lat)).dot (pole.cross (targetVector lon lat)) = cos lat ^ 2 := by
    rw [hax]
    unfold V3.dot
    simp only
    have h1 := sin_sq_add_cos_sq lon
    linear_combination cos lat ^ 2 * h1
  have hn : (pole.cross (targetVector lon lat)).norm = |cos lat| := by
    unfold V3.norm
    rw [hdd, sqrt_sq_eq_abs]
  have hpd : pole.dot (targetVector lon lat) = sin lat := by
    unfold pole targetVector V3.dot
    simp
  have hclip : min (max (sin lat) (-1)) 1 = sin lat := by
    rw [max_eq_left (neg_one_le_sin lat), min_eq_left (sin_le_one lat)]
  have hcos : cos (arccos (sin lat)) = sin lat := cos_arccos (neg_one_le_sin lat) (sin_le_one lat)
  have hsin : sin (arccos (sin lat)) = |cos lat| := by
    rw [sin_arccos, ← sqrt_sq_eq_abs]
    congr 1
    linarith [sin_sq_add_cos_sq lat]
  constructor
  · intro hc
    unfold rotateCloud
    simp only
    rw [hn, if_neg (by linarith), hpd, hclip, hax]
    have hc0 : |cos lat| ≠ 0 := by
      have : (0 : ℝ) < 1e-10 := by norm_num
      linarith
    unfold rotate
    rw [hcos, hsin]
    unfold pole targetVector V3.dot V3.add V3.scale V3.cross
    simp only
    ext
    · simp only; field_simp; ring
    · simp only; field_simp; ring
    · simp only; ring
  · intro p q
    unfold rotateCloud
    simp only
    by_cases hc : (pole.cross (targetVector lon lat)).norm < 1e-10
    · rw [if_pos hc, if_pos hc]
    · rw [if_neg hc, if_neg hc]
      apply rotate_dot
      rw [hn] at hc ⊢
      have hc0 : |cos lat| ≠ 0 := by
        intro h0
        rw [h0] at hc
        norm_num at hc
      have : (V3.scale (1 / |cos lat|) (pole.cross (targetVector lon lat))).dot
          (V3.scale (1 / |cos lat|) (pole.cross (targetVector lon lat))) =
          (1 / |cos lat|) ^ 2 * (pole.cross (targetVector lon lat)).dot (pole.cross (targetVector lon lat)) := by
        unfold V3.dot V3.scale
        ring
      rw [this, hdd, ← sq_abs (cos lat)]
      field_simp

/-- For a local region at the south pole nothing is rotated: the region is laid out at the north pole. -/
theorem C51_south_pole_fails (lon : ℝ) : rotateCloud lon (-(π / 2)) pole = pole ∧
    targetVector lon (-(π / 2)) = ⟨0, 0, -1⟩ := by
  have hc : cos (-(π / 2)) = 0 := by rw [cos_neg, cos_pi_div_two]
  have hs : sin (-(π / 2)) = -1 := by rw [sin_neg, sin_pi_div_two]
  have ht : targetVector lon (-(π / 2)) = ⟨0, 0, -1⟩ := by
    unfold targetVector
    rw [hc, hs]
    simp
  refine ⟨?_, ht⟩
  unfold rotateCloud
  simp only
  rw [ht, if_pos]
  unfold V3.norm V3.dot V3.cross pole
  norm_num

example : (1e-10 : ℝ) ≤ |cos 0| := by rw [cos_zero]; norm_num

end Verif.HiRes
