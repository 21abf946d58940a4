import Verif.Props.Profile
import Mathlib.Tactic.IntervalCases

/-! Property C173: the number, the lengths and the widths of rays. -/

namespace Verif.Profile

/-- The exponent of the length of ray `i`. -/
theorem rayLength_eq {mr rm : ℝ} (i : ℕ) :
    rayLength mr rm i = mr * Real.exp (Real.log (rm / mr) * (((7 - (i : ℝ)) ^ 4 - 1) / 624)) := by
  unfold rayLength
  have h : ∀ x : ℝ, x ^ (4 : ℝ) = x ^ 4 := fun x => by rw [← Real.rpow_natCast]; norm_num
  rw [h, h, show (5 : ℝ) - i + 2 = 7 - i by ring, show (5 : ℝ) ^ 4 - 1 = 624 by norm_num]

theorem log_pos' {mr rm : ℝ} (hm : 0 < mr) (h : mr < rm) : 0 < Real.log (rm / mr) := Real.log_pos ((one_lt_div hm).mpr h)

/-- Rays have different lengths, the first being the longest; all are longer than the shortest possible ray, and the third ends where
the ejecta are cut off.  Missing: the first two go on beyond, see `C173_longest_fails`. -/
theorem C173_lengths_partial (mr rm : ℝ) (hm : 0 < mr) (h : mr < rm) :
    (∀ i j, i < j → j < 5 → rayLength mr rm j < rayLength mr rm i) ∧ (∀ i < 5, mr < rayLength mr rm i) ∧ rayLength mr rm 2 = rm := by
  have hl := log_pos' hm h
  refine ⟨?_, ?_, ?_⟩
  · intro i j hij hj
    rw [rayLength_eq, rayLength_eq]
    apply mul_lt_mul_of_pos_left _ hm
    apply Real.exp_lt_exp.mpr
    apply mul_lt_mul_of_pos_left _ hl
    have h1 : (i : ℝ) + 1 ≤ j := by exact_mod_cast hij
    have h2 : (j : ℝ) + 1 ≤ 5 := by exact_mod_cast hj
    have h3 : (7 - (j : ℝ)) ^ 4 < (7 - (i : ℝ)) ^ 4 := pow_lt_pow_left₀ (by linarith) (by linarith) (by norm_num)
    linarith
  · intro i hi
    rw [rayLength_eq]
    have h1 : (i : ℝ) + 1 ≤ 5 := by exact_mod_cast hi
    have h3 : (1 : ℝ) ^ 4 < (7 - (i : ℝ)) ^ 4 := pow_lt_pow_left₀ (by linarith) (by norm_num) (by norm_num)
    have : 1 < Real.exp (Real.log (rm / mr) * (((7 - (i : ℝ)) ^ 4 - 1) / 624)) := by
      rw [Real.one_lt_exp_iff]
      apply mul_pos hl
      linarith
    nlinarith
  · rw [rayLength_eq]
    have : ((7 - ((2 : ℕ) : ℝ)) ^ 4 - 1) / 624 = 1 := by norm_num
    rw [this, mul_one, Real.exp_log (div_pos (hm.trans h) hm)]
    field_simp

/-- The first two rays are longer than the greatest extent of the rays. -/
theorem C173_longest_fails (mr rm : ℝ) (hm : 0 < mr) (h : mr < rm) : rm < rayLength mr rm 0 ∧ rm < rayLength mr rm 1 := by
  obtain ⟨h1, _, h3⟩ := C173_lengths_partial mr rm hm h
  rw [← h3]
  have e := h3
  constructor
  · have := h1 0 2 (by norm_num) (by norm_num)
    rw [e] at this ⊢
    exact this
  · have := h1 1 2 (by norm_num) (by norm_num)
    rw [e] at this ⊢
    exact this

/-- The five rays fill half of the circle at the rim, whatever their lengths, and those that do not go beyond the greatest extent
become narrower all the way out. -/
theorem C173_width (rm len : ℝ) (hl : 0 < len) (h : len ≤ rm) :
    5 * rayWidth rm len 1 = Real.pi ∧ ∀ r s, 1 ≤ r → r < s → rayWidth rm len s < rayWidth rm len r := by
  have hw : 1 ≤ rm / len := (one_le_div hl).mpr h
  unfold rayWidth
  generalize rm / len = w at *
  have hpi := Real.pi_pos
  have hw0 : 0 < w := by linarith
  constructor
  · rw [Real.one_rpow, sub_self, Real.exp_zero]
    field_simp
    ring
  · intro r s hr hrs
    have hr0 : 0 < r := by linarith
    have hs0 : 0 < s := by linarith
    have hpow : r ^ (1.25 : ℝ) < s ^ (1.25 : ℝ) := Real.rpow_lt_rpow hr0.le hrs (by norm_num)
    have he : Real.exp (1 - s ^ (1.25 : ℝ)) < Real.exp (1 - r ^ (1.25 : ℝ)) := Real.exp_lt_exp.mpr (by linarith)
    have he0 := Real.exp_pos (1 - s ^ (1.25 : ℝ))
    have hinv : 1 / s < 1 / r := one_div_lt_one_div_of_lt hr0 hrs
    have hs1 : 0 < 1 / s := by positivity
    have hA : 0 < Real.pi / (w * 5) := by positivity
    have hB : 1 - (1 - w) * Real.exp (1 - s ^ (1.25 : ℝ)) ≤ 1 - (1 - w) * Real.exp (1 - r ^ (1.25 : ℝ)) := by nlinarith
    have hB0 : 0 < 1 - (1 - w) * Real.exp (1 - s ^ (1.25 : ℝ)) := by nlinarith
    rw [mul_assoc, mul_assoc]
    apply mul_lt_mul_of_pos_left _ hA
    exact mul_lt_mul hinv hB hB0 (by positivity)

/-- The quantity whose fourth root is the number of rays. -/
noncomputable def level (mr rm r : ℝ) : ℝ := 625 - 624 * Real.log (r / mr) / Real.log (rm / mr)

theorem rayCount_eq (mr rm r : ℝ) :
    rayCount mr rm r = if level mr rm r < 0 then 5 else max 1 (min 5 (Nat.floor ((level mr rm r) ^ (1 / 4 : ℝ)))) := by
  unfold rayCount level
  have h : (5 : ℝ) ^ (4 : ℝ) = 625 := by
    rw [show (4 : ℝ) = ((4 : ℕ) : ℝ) by norm_num, Real.rpow_natCast]; norm_num
  rw [h]
  norm_num

/-- There are five rays at the distance of the shortest, one at the greatest extent, and never more farther out. -/
theorem C173_count (mr rm : ℝ) (hm : 0 < mr) (h : mr < rm) :
    rayCount mr rm mr = 5 ∧ rayCount mr rm rm = 1 ∧
    ∀ r s, mr ≤ r → r ≤ s → s ≤ rm → rayCount mr rm s ≤ rayCount mr rm r := by
  have hl := log_pos' hm h
  refine ⟨?_, ?_, ?_⟩
  · rw [rayCount_eq]
    have : level mr rm mr = 5 ^ (4 : ℝ) := by
      unfold level
      rw [div_self hm.ne', Real.log_one, show (4 : ℝ) = ((4 : ℕ) : ℝ) by norm_num, Real.rpow_natCast]
      norm_num
    rw [this, if_neg (not_lt.mpr (by positivity)), ← Real.rpow_mul (by norm_num)]
    norm_num
  · rw [rayCount_eq]
    have : level mr rm rm = 1 := by
      unfold level
      field_simp
      norm_num
    rw [this]
    norm_num
  · intro r s hr hrs hs
    have hr0 : 0 < r := by linarith
    have hs0 : 0 < s := by linarith
    have h1 : Real.log (r / mr) ≤ Real.log (s / mr) := Real.log_le_log (by positivity) (by gcongr)
    have h2 : Real.log (s / mr) ≤ Real.log (rm / mr) := Real.log_le_log (by positivity) (by gcongr)
    have h3 : Real.log (s / mr) / Real.log (rm / mr) ≤ 1 := (div_le_one hl).mpr h2
    have h4 : Real.log (r / mr) / Real.log (rm / mr) ≤ Real.log (s / mr) / Real.log (rm / mr) := by gcongr
    have e : ∀ x, level mr rm x = 625 - 624 * (Real.log (x / mr) / Real.log (rm / mr)) := fun x => by
      unfold level; ring
    have l1 : 0 ≤ level mr rm s := by rw [e]; linarith
    have l2 : level mr rm s ≤ level mr rm r := by rw [e, e]; linarith
    rw [rayCount_eq, rayCount_eq, if_neg (not_lt.mpr l1), if_neg (not_lt.mpr (l1.trans l2))]
    have : Nat.floor ((level mr rm s) ^ (1 / 4 : ℝ)) ≤ Nat.floor ((level mr rm r) ^ (1 / 4 : ℝ)) :=
      Nat.floor_mono (Real.rpow_le_rpow l1 l2 (by norm_num))
    omega

/-- The number of rays that the intensity is divided by is not the number of rays that reach the distance: three rays reach the
greatest extent, where the number is one. -/
theorem C173_count_fails (mr rm : ℝ) (hm : 0 < mr) (h : mr < rm) :
    rayCount mr rm rm = 1 ∧ ∀ i < 3, rm ≤ rayLength mr rm i := by
  refine ⟨(C173_count mr rm hm h).2.1, ?_⟩
  obtain ⟨h0, h1⟩ := C173_longest_fails mr rm hm h
  intro i hi
  interval_cases i
  · exact h0.le
  · exact h1.le
  · exact (C173_lengths_partial mr rm hm h).2.2.ge

/-- The rays of a crater with a diameter of 20 km. -/
example : (0 : ℝ) < 2.348 ∧ (2.348 : ℝ) < 100 ∧ (0 : ℝ) < 50 ∧ (50 : ℝ) ≤ 100 := by norm_num

end Verif.Profile
