import Verif.Model.Degradation
import Mathlib.Analysis.SpecialFunctions.Log.Deriv
import Mathlib.Analysis.Complex.ExponentialBounds
import Mathlib.Analysis.SpecialFunctions.Pow.Continuity

/-! Properties C28 and C91: degradation state and visibility. -/

namespace Verif.Degradation

theorem log_dtr_lt : Real.log dtr < 9.32 := by
  have h : dtr = (2 : ℝ) ^ 12 * ((5 / 4) ^ 4) := by norm_num [dtr]
  rw [h, Real.log_mul (by norm_num) (by norm_num), Real.log_pow, Real.log_pow]
  have h1 := Real.log_two_lt_d9
  have h2 : Real.log (5 / 4) ≤ 5 / 4 - 1 := Real.log_le_sub_one_of_pos (by norm_num)
  push_cast
  linarith

theorem aOf_ge {d : ℝ} (hd : 1 ≤ d) : 0.115 ≤ aOf d := by
  unfold aOf
  split_ifs with h
  · have := Real.log_nonneg hd
    linarith
  · have : Real.exp ((dtr * 1e-3 - d * 1e-3) / 178.40182304735092) ≤ 1 := by
      rw [Real.exp_le_one_iff]
      apply div_nonpos_of_nonpos_of_nonneg _ (by norm_num)
      linarith
    nlinarith

theorem pOf_bounds {d : ℝ} (hd : 1 ≤ d) : 2 ≤ pOf d ∧ pOf d ≤ 3 := by
  unfold pOf
  have hm1 : 1 ≤ (if d > dtr then dtr else d) := by
    split_ifs
    · norm_num [dtr]
    · exact hd
  have hm2 : (if d > dtr then dtr else d) ≤ dtr := by
    split_ifs with h
    · exact le_rfl
    · exact not_lt.mp h
  have h1 := Real.log_nonneg hm1
  have h2 := Real.log_le_log (by linarith) hm2
  have h3 := log_dtr_lt
  constructor <;> linarith

theorem vsmall_pos : 0 < vsmall := by unfold vsmall; positivity

theorem vsmall_lt : vsmall < 1 / 64 := by
  unfold vsmall
  rw [div_lt_div_iff₀ (by positivity) (by norm_num)]
  generalize hn : 1022 = n
  have : (2 : ℝ) ^ 10 ≤ 2 ^ n := pow_le_pow_right₀ (by norm_num) (by omega)
  norm_num at this
  linarith

theorem clip_pos (x : ℝ) : 0 < clip x := by
  unfold clip
  split_ifs with h
  · exact vsmall_pos
  · exact lt_of_lt_of_le vsmall_pos (not_lt.mp h)

/-- An unaltered crater has degradation state zero. -/
theorem C28_fresh (r : ℝ) : state r (some 1) = 0 := by
  have : clip 1 = 1 := by
    unfold clip
    rw [if_neg]
    have := vsmall_lt
    linarith
  simp [state, this]

/-- For craters of at least 1 m, the shallower the crater the larger the degradation state. -/
theorem C28_monotone (r x y : ℝ) (hr : 1 ≤ 2 * r) (hx : vsmall ≤ x) (hxy : x < y) :
    state r (some y) < state r (some x) := by
  have ha := aOf_ge hr
  have hp := (pOf_bounds hr).1
  have hx0 : 0 < x := lt_of_lt_of_le vsmall_pos hx
  have e1 : clip x = x := by simp [clip, not_lt.mpr hx]
  have e2 : clip y = y := by simp [clip, not_lt.mpr (hx.trans hxy.le)]
  simp only [state, e1, e2]
  have hneg : -1 / pOf (2 * r) < 0 := div_neg_of_neg_of_pos (by norm_num) (by linarith)
  have := Real.rpow_lt_rpow_of_neg hx0 hxy hneg
  have hr2 : 0 < r ^ 2 := by apply pow_pos; linarith
  have hapos : 0 < aOf (2 * r) := by linarith
  apply mul_lt_mul_of_pos_right _ hr2
  apply mul_lt_mul_of_pos_left _ hapos
  linarith

/-- The smallest depth ratio at which a crater of diameter `d` is visible. -/
noncomputable def threshold (kv1 d : ℝ) : ℝ := (1 + kv1 / aOf d) ^ (-pOf d)

/-- With the default limit, a crater of at least 1 m is visible exactly when its depth ratio is above
a threshold which depends on its diameter only and lies between 1/64 and 1. -/
theorem C28_threshold (r x : ℝ) (hr : 1 ≤ 2 * r) :
    (Visible 0.30 r (some x) ↔ threshold 0.30 (2 * r) < x) ∧
    1 / 64 ≤ threshold 0.30 (2 * r) ∧ threshold 0.30 (2 * r) < 1 := by
  have ha := aOf_ge hr
  obtain ⟨hp1, hp2⟩ := pOf_bounds hr
  set a := aOf (2 * r) with hadef
  set p := pOf (2 * r) with hpdef
  have hapos : 0 < a := by linarith
  have hppos : 0 < p := by linarith
  have hr2 : 0 < r ^ 2 := by apply pow_pos; linarith
  have hb1 : 1 < 1 + 0.30 / a := by
    have : 0 < 0.30 / a := by positivity
    linarith
  have hb4 : 1 + 0.30 / a ≤ 4 := by
    have : 0.30 / a ≤ 3 := by
      rw [div_le_iff₀ hapos]; linarith
    linarith
  have hb0 : 0 < 1 + 0.30 / a := by linarith
  have ht : threshold 0.30 (2 * r) = (1 + 0.30 / a) ^ (-p) := rfl
  have hlow : 1 / 64 ≤ threshold 0.30 (2 * r) := by
    rw [ht]
    have h1 : (4 : ℝ) ^ (-(3 : ℝ)) ≤ (4 : ℝ) ^ (-p) :=
      Real.rpow_le_rpow_of_exponent_le (by norm_num) (by linarith)
    have h2 : (4 : ℝ) ^ (-p) ≤ (1 + 0.30 / a) ^ (-p) :=
      Real.rpow_le_rpow_of_nonpos hb0 hb4 (by linarith)
    have h3 : (4 : ℝ) ^ (-(3 : ℝ)) = 1 / 64 := by
      rw [Real.rpow_neg (by norm_num)]
      norm_num
    rw [h3] at h1
    exact h1.trans h2
  have hup : threshold 0.30 (2 * r) < 1 := by
    rw [ht]
    exact Real.rpow_lt_one_of_one_lt_of_neg hb1 (by linarith)
  refine ⟨?_, hlow, hup⟩
  have hc : 0 < clip x := clip_pos x
  have hcx : threshold 0.30 (2 * r) < clip x ↔ threshold 0.30 (2 * r) < x := by
    unfold clip
    split_ifs with h
    · have := vsmall_lt
      constructor <;> intro h' <;> linarith
    · rfl
  rw [← hcx, ht]
  unfold Visible limit
  simp only [state, not_le]
  rw [mul_lt_mul_iff_left₀ hr2]
  have e1 : a * (clip x ^ (-1 / p) - 1) < 0.30 ↔ clip x ^ (-1 / p) < 1 + 0.30 / a := by
    rw [← lt_div_iff₀' hapos]
    constructor <;> intro h <;> linarith
  rw [e1]
  have hyp : 0 < clip x ^ (-1 / p) := Real.rpow_pos_of_pos hc _
  have e2 : (clip x ^ (-1 / p)) ^ (-p) = clip x := by
    rw [← Real.rpow_mul hc.le]
    have : -1 / p * -p = 1 := by field_simp
    rw [this, Real.rpow_one]
  constructor
  · intro h
    have := Real.rpow_lt_rpow_of_neg hyp h (show -p < 0 by linarith)
    rwa [e2] at this
  · intro h
    by_contra hn
    have := Real.rpow_le_rpow_of_nonpos hb0 (not_lt.mp hn) (show -p ≤ 0 by linarith)
    rw [e2] at this
    linarith

/-- A crater whose depth was never measured is never removed, however shallow it is. -/
theorem C28_unmeasured (r kv1 : ℝ) (hr : 0 < r) (hk : 0 < kv1) : Visible kv1 r none := by
  simp only [Visible, state, limit, not_le]
  positivity

example : (1 : ℝ) ≤ 2 * 500 ∧ vsmall ≤ 1 / 64 ∧ (1 / 64 : ℝ) < 1 := by
  refine ⟨by norm_num, vsmall_lt.le, by norm_num⟩

/-! ### C91 -/

/-- The degradation state of a crater of given depth ratio jumps at a diameter of 10 km. -/
theorem C91_jump_fails (x : ℝ) (hx : vsmall ≤ x) (hx1 : x < 1) :
    ¬ ContinuousAt (fun d => state (d / 2) (some x)) dtr := by
  intro h
  have hx0 : 0 < x := lt_of_lt_of_le vsmall_pos hx
  have hcl : clip x = x := by simp [clip, not_lt.mpr hx]
  have hd0 : (0 : ℝ) < dtr := by norm_num [dtr]
  -- the other factor is continuous and not zero
  have hmin : ∀ d, (if d > dtr then dtr else d) = min d dtr := by
    intro d
    split_ifs with h
    · exact (min_eq_right h.le).symm
    · exact (min_eq_left (not_lt.mp h)).symm
  have hpc : ContinuousAt pOf dtr := by
    unfold pOf
    simp only [hmin]
    apply ContinuousAt.add continuousAt_const
    apply ContinuousAt.mul continuousAt_const
    apply ContinuousAt.log
    · exact (continuous_id.min continuous_const).continuousAt
    · simp [hd0.ne']
  have hp2 : 2 ≤ pOf dtr := (pOf_bounds (by norm_num [dtr])).1
  have hqc : ContinuousAt (fun d => (x ^ (-1 / pOf d) - 1) * (d / 2) ^ 2) dtr := by
    apply ContinuousAt.mul
    · apply ContinuousAt.sub _ continuousAt_const
      apply ContinuousAt.rpow continuousAt_const
      · exact ContinuousAt.div continuousAt_const hpc (by linarith)
      · exact Or.inl hx0.ne'
    · exact ((continuous_id.div_const 2).pow 2).continuousAt
  have hq0 : (x ^ (-1 / pOf dtr) - 1) * (dtr / 2) ^ 2 ≠ 0 := by
    have : 1 < x ^ (-1 / pOf dtr) :=
      Real.one_lt_rpow_of_pos_of_lt_one_of_neg hx0 hx1
        (div_neg_of_neg_of_pos (by norm_num) (by linarith))
    apply mul_ne_zero
    · linarith
    · norm_num [dtr]
  have hac : ContinuousAt (fun d => state (d / 2) (some x) / ((x ^ (-1 / pOf d) - 1) * (d / 2) ^ 2))
      dtr := h.div hqc hq0
  have hev : (fun d => state (d / 2) (some x) / ((x ^ (-1 / pOf d) - 1) * (d / 2) ^ 2)) =ᶠ[nhds dtr]
      aOf := by
    filter_upwards [hqc.eventually_ne hq0] with d hd
    have e : 2 * (d / 2) = d := by ring
    simp only [state, hcl, e]
    rw [mul_assoc, mul_div_assoc, div_self hd, mul_one]
  have hac' : ContinuousAt aOf dtr := hac.congr hev
  -- but `aOf` is below 0.2745 to the left and 0.277 at the point
  have hat : aOf dtr = 0.2771649498066961 := by
    unfold aOf
    rw [if_neg (lt_irrefl _)]
    norm_num
  have hlt : (0.276 : ℝ) < aOf dtr := by rw [hat]; norm_num
  have hnear := hac'.eventually (lt_mem_nhds hlt)
  obtain ⟨ε, hε, hball⟩ := Metric.eventually_nhds_iff.mp hnear
  set d := dtr - min (ε / 2) 1 with hddef
  have hmpos : 0 < min (ε / 2) 1 := lt_min (by linarith) (by norm_num)
  have hd1 : d < dtr := by linarith
  have hd2 : 0 < d := by
    have : min (ε / 2) 1 ≤ 1 := min_le_right _ _
    have : dtr = 10000 := rfl
    linarith
  have h1 : (0.276 : ℝ) < aOf d := by
    apply hball
    rw [Real.dist_eq, hddef]
    have : min (ε / 2) 1 ≤ ε / 2 := min_le_left _ _
    rw [show dtr - min (ε / 2) 1 - dtr = -(min (ε / 2) 1) by ring, abs_neg, abs_of_pos hmpos]
    linarith
  unfold aOf at h1
  rw [if_pos hd1] at h1
  have h2 := Real.log_lt_log hd2 hd1
  have h3 := log_dtr_lt
  linarith

/-- Away from 10 km it is continuous in the diameter. -/
theorem C91_continuous_partial (x d : ℝ) (hd : 1 < d) (hne : d ≠ dtr) :
    ContinuousAt (fun d => state (d / 2) (some x)) d := by
  have hd0 : (0 : ℝ) < dtr := by norm_num [dtr]
  have hmin : ∀ d, (if d > dtr then dtr else d) = min d dtr := by
    intro d
    split_ifs with h
    · exact (min_eq_right h.le).symm
    · exact (min_eq_left (not_lt.mp h)).symm
  have hpc : ContinuousAt pOf d := by
    unfold pOf
    simp only [hmin]
    apply ContinuousAt.add continuousAt_const
    apply ContinuousAt.mul continuousAt_const
    apply ContinuousAt.log
    · exact (continuous_id.min continuous_const).continuousAt
    · exact (lt_min (by linarith) hd0).ne'
  have hp2 : 2 ≤ pOf d := (pOf_bounds hd.le).1
  have hac : ContinuousAt aOf d := by
    rcases lt_or_gt_of_ne hne with h | h
    · have hev : aOf =ᶠ[nhds d]
          fun d => 0.11511000581387373 + 0.017078961587273955 * Real.log d := by
        filter_upwards [Iio_mem_nhds h] with y hy
        simp only [aOf]
        exact if_pos hy
      refine ContinuousAt.congr ?_ hev.symm
      exact continuousAt_const.add (continuousAt_const.mul (Real.continuousAt_log (by linarith)))
    · have hev : aOf =ᶠ[nhds d] fun d => 0.2771649498066961 +
          0.1032775007149389 * (1 - Real.exp ((dtr * 1e-3 - d * 1e-3) / 178.40182304735092)) := by
        filter_upwards [Ioi_mem_nhds h] with y hy
        simp only [aOf]
        exact if_neg (not_lt.mpr (le_of_lt hy))
      refine ContinuousAt.congr ?_ hev.symm
      fun_prop
  have hc : 0 < clip x := clip_pos x
  have e : (fun d : ℝ => state (d / 2) (some x)) =
      fun d => aOf d * (clip x ^ (-1 / pOf d) - 1) * (d / 2) ^ 2 := by
    funext d
    have e : 2 * (d / 2) = d := by ring
    simp only [state, e]
  rw [e]
  apply ContinuousAt.mul
  · apply hac.mul
    apply ContinuousAt.sub _ continuousAt_const
    apply ContinuousAt.rpow continuousAt_const
    · exact ContinuousAt.div continuousAt_const hpc (by linarith)
    · exact Or.inl hc.ne'
  · exact ((continuous_id.div_const 2).pow 2).continuousAt

example : vsmall ≤ (1 / 2 : ℝ) ∧ (1 / 2 : ℝ) < 1 ∧ (1 : ℝ) < 500 ∧ (500 : ℝ) ≠ dtr := by
  have := vsmall_lt
  refine ⟨by linarith, by norm_num, by norm_num, by norm_num [dtr]⟩

end Verif.Degradation
