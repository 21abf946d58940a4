import Verif.Model.Display
import Mathlib.Algebra.Order.Round
import Mathlib.Tactic.LinearCombination
import Mathlib.Tactic.Positivity

/-! Properties C60 and C66: interval navigation and human-readable sizes. -/

namespace Verif.Display

/-- The interval of the plot is one of the simulation's. -/
def InRange (p : Plot) : Prop := 0 ≤ p.interval ∧ p.interval ≤ p.maxInterval ∧ 0 ≤ p.shown ∧ p.shown ≤ p.maxInterval

theorem press_inRange (p : Plot) (k : Bool) (h : InRange p) : InRange (press p k) ∧ (press p k).maxInterval = p.maxInterval := by
  obtain ⟨h1, h2, h3, h4⟩ := h
  unfold press update
  cases k
  · simp only [Bool.false_eq_true, if_false]
    split_ifs with hc
    · exact ⟨⟨h1, h2, le_trans h1 h2, le_refl _⟩, rfl⟩
    · refine ⟨⟨?_, ?_, ?_, ?_⟩, rfl⟩ <;> simp only <;> omega
  · simp only [if_true]
    split_ifs with hc
    · exact ⟨⟨h1, h2, le_trans h1 h2, le_refl _⟩, rfl⟩
    · refine ⟨⟨?_, ?_, ?_, ?_⟩, rfl⟩ <;> simp only <;> omega

/-- Whatever keys are pressed, a plot opened on one of the simulation's intervals stays on them. -/
theorem C60_in_range (interval : Option ℤ) (n : ℤ) (hn : 0 ≤ n) (hi : ∀ i ∈ interval, 0 ≤ i ∧ i ≤ n) (keys : List Bool) :
    0 ≤ (presses (opened interval n) keys).interval ∧ (presses (opened interval n) keys).interval ≤ n ∧
    0 ≤ (presses (opened interval n) keys).shown ∧ (presses (opened interval n) keys).shown ≤ n := by
  have h0 : InRange (opened interval n) ∧ (opened interval n).maxInterval = n := by
    cases interval with
    | none => exact ⟨⟨hn, le_refl _, hn, le_refl _⟩, rfl⟩
    | some i => obtain ⟨a, b⟩ := hi i rfl; exact ⟨⟨a, b, a, b⟩, rfl⟩
  have gen : ∀ (keys : List Bool) (p : Plot), InRange p → p.maxInterval = n →
      InRange (presses p keys) ∧ (presses p keys).maxInterval = n := by
    intro keys
    induction keys with
    | nil => intro p h hm; exact ⟨h, hm⟩
    | cons k ks ih =>
      intro p h hm
      obtain ⟨a, b⟩ := press_inRange p k h
      exact ih (press p k) a (b.trans hm)
  obtain ⟨⟨a, b, c, e⟩, hm⟩ := gen keys _ h0.1 h0.2
  rw [hm] at b e
  exact ⟨a, b, c, e⟩

/-- One step in either direction and one back show the interval again, if the first step did not hit the end. -/
theorem C60_back (p : Plot) (h : InRange p) (k : Bool) (hend : if k then p.interval < p.maxInterval else 0 < p.interval) :
    (press (press p k) (!k)).interval = p.interval ∧ (press (press p k) (!k)).shown = p.interval ∧
    (press p k).shown = (if k then p.interval + 1 else p.interval - 1) := by
  obtain ⟨h1, h2, _, _⟩ := h
  cases k
  · simp only [Bool.false_eq_true, if_false] at hend
    have e1 : press p false = { p with interval := p.interval - 1, shown := p.interval - 1 } := by
      unfold press update
      simp only [Bool.false_eq_true, if_false]
      rw [if_neg (by omega)]
    rw [e1]
    unfold press update
    simp only [Bool.not_false, if_true]
    rw [if_neg (by omega)]
    simp
  · simp only [if_true] at hend
    have e1 : press p true = { p with interval := p.interval + 1, shown := p.interval + 1 } := by
      unfold press update
      simp only [if_true]
      rw [if_neg (by omega)]
    rw [e1]
    unfold press update
    simp only [Bool.not_true, Bool.false_eq_true, if_false]
    rw [if_neg (by omega)]
    simp

/-- At the first interval, stepping back shows the last one (and leaves the position at the first). -/
theorem C60_first_fails (n : ℤ) (hn : 0 < n) :
    (press (opened (some 0) n) false).shown ≠ (opened (some 0) n).shown ∧
    (press (opened (some 0) n) false).shown = n ∧ (press (opened (some 0) n) false).interval = 0 := by
  unfold press update opened
  simp
  omega

/-- A plot opened on interval -1, which elsewhere denotes the last one, steps forward to the first interval. -/
theorem C60_negative_fails (n : ℤ) (hn : 0 < n) : (press (opened (some (-1)) n) true).shown = 0 := by
  unfold press update opened
  simp only [if_true]
  rw [if_neg (by omega)]
  simp

example : InRange (opened (some 3) 7) := by simp [InRange, opened]

/-! ### Sizes -/

/-- The size of each unit in the unit the value is given in. -/
noncomputable def unitSize (u : String) : ℝ :=
  if u = "km" then 1000
  else if u = "km²" then 1000 ^ 2
  else if u = "km³" then 1000 ^ 3
  else if u = "km/s" then 1000
  else if u = "Gy" then 1000
  else if u = "kPa" then 1000
  else if u = "MPa" then 1000 ^ 2
  else if u = "GPa" then 1000 ^ 3
  else 1

theorem shift_spec (thr : ℝ) (ht : 1 < thr) (left : ℕ) (v : ℝ) (i : ℕ) :
    let r := shift thr left v i
    r.1 * thr ^ r.2 = v * thr ^ i ∧ i ≤ r.2 ∧ r.2 ≤ i + left ∧ (r.2 < i + left → |r.1| < thr) ∧ (i < r.2 → 1 ≤ |r.1|) := by
  induction left generalizing v i with
  | zero => simp [shift]
  | succ n ih =>
    intro r
    by_cases h : thr ≤ |v|
    · have hr : r = shift thr n (v / thr) (i + 1) := by simp [r, shift, h]
      obtain ⟨a, b, c, d, e⟩ := ih (v / thr) (i + 1)
      rw [← hr] at a b c d e
      refine ⟨?_, by omega, by omega, fun h' => d (by omega), ?_⟩
      · rw [a, pow_succ]; field_simp
      · intro _
        rcases Nat.lt_or_ge (i + 1) r.2 with hlt | hge
        · exact e hlt
        · have h2 : r.2 = i + 1 := by omega
          rw [h2] at a
          have hp : 0 < thr ^ (i + 1) := by positivity
          have : r.1 = v / thr := mul_right_cancel₀ hp.ne' a
          rw [this, abs_div, abs_of_pos (by linarith : 0 < thr), le_div_iff₀ (by linarith)]
          linarith
    · have hr : r = (v, i) := by simp [r, shift, h]
      rw [hr]
      exact ⟨rfl, le_refl _, by omega, fun _ => not_le.mp h, fun h' => absurd h' (lt_irrefl _)⟩

theorem roundTo_err (n : ℤ) (v : ℝ) : |roundTo n v - v| ≤ 1 / 2 * (10 : ℝ) ^ (-n) := by
  have hp : (0 : ℝ) < (10 : ℝ) ^ n := by positivity
  have h := abs_sub_round (v * (10 : ℝ) ^ n)
  have e : roundTo n v - v = -((v * (10 : ℝ) ^ n - round (v * (10 : ℝ) ^ n)) / (10 : ℝ) ^ n) := by
    unfold roundTo; field_simp; ring
  rw [e, abs_neg, abs_div, abs_of_pos hp, zpow_neg, div_eq_mul_inv]
  exact mul_le_mul_of_nonneg_right h (by positivity)

/-- The printed number is within half a per mille of the value. -/
theorem printed_err (v : ℝ) : |printed v - v| ≤ 1 / 2000 * |v| := by
  unfold printed
  split_ifs with h1 h2 h3 h4
  · have := roundTo_err 1 v; norm_num at this ⊢; linarith
  · have := roundTo_err 2 v; norm_num at this ⊢; linarith
  · have := roundTo_err 3 v; norm_num at this ⊢; linarith
  · rw [h4]; simp
  · have := roundTo_err (3 - ⌊Real.logb 10 |v|⌋) v
    have hv : 0 < |v| := abs_pos.mpr h4
    have hle : (10 : ℝ) ^ (⌊Real.logb 10 |v|⌋) ≤ |v| := by
      rw [← Real.rpow_intCast]
      have : (10 : ℝ) ^ ((⌊Real.logb 10 |v|⌋ : ℤ) : ℝ) ≤ (10 : ℝ) ^ Real.logb 10 |v| :=
        Real.rpow_le_rpow_of_exponent_le (by norm_num) (Int.floor_le _)
      rwa [Real.rpow_logb (by norm_num) (by norm_num) hv] at this
    have e : (10 : ℝ) ^ (-(3 - ⌊Real.logb 10 |v|⌋)) = (10 : ℝ) ^ (⌊Real.logb 10 |v|⌋) / 1000 := by
      rw [neg_sub, zpow_sub₀ (by norm_num)]; norm_num
    rw [e] at this
    linarith

/-- The printed number times the size of the printed unit is the value up to half a per mille, and the unit is the
largest in which the value is at least one, or the smallest unit. -/
theorem C66_same_quantity (q : Quantity) (v : ℝ) :
    |(formatLarge q v).1 * unitSize (formatLarge q v).2 - v| ≤ 1 / 2000 * |v| ∧
    (formatLarge q v).2 ∈ units q ∧
    (unitSize (formatLarge q v).2 ≤ |v| ∨ (formatLarge q v).2 = (units q).headD "") ∧
    (∀ u ∈ units q, unitSize u ≤ |v| → unitSize u ≤ unitSize (formatLarge q v).2) := by
  have ht : 1 < threshold q := by cases q <;> norm_num [threshold]
  obtain ⟨a, _, c, d, e⟩ := shift_spec (threshold q) ht ((units q).length - 1) v 0
  set r := shift (threshold q) ((units q).length - 1) v 0 with hr
  have hsize : ∀ i, i ≤ (units q).length - 1 → unitSize ((units q).getD i "") = threshold q ^ i := by
    intro i hi
    cases q <;> simp only [units, List.length] at hi
    all_goals
      first
        | (have : i = 0 ∨ i = 1 := by omega
           rcases this with rfl | rfl <;> simp [units, unitSize, threshold] <;> norm_num)
        | (have : i = 0 ∨ i = 1 ∨ i = 2 ∨ i = 3 := by omega
           rcases this with rfl | rfl | rfl | rfl <;> simp [units, unitSize, threshold])
  have hgd : ∀ (i : ℕ) (h : i < (units q).length), (units q).getD i "" = (units q)[i] := by
    intro i h
    simp [List.getD_eq_getElem?_getD, h]
  have hlen : 1 ≤ (units q).length := by cases q <;> simp [units]
  have hr2 : r.2 ≤ (units q).length - 1 := by omega
  have hu : (formatLarge q v).2 = (units q).getD r.2 "" := rfl
  have hp : (formatLarge q v).1 = printed r.1 := rfl
  have hpow : 0 < threshold q ^ r.2 := by positivity
  have hv : v = r.1 * threshold q ^ r.2 := by rw [a]; simp
  have habs : |v| = |r.1| * threshold q ^ r.2 := by
    conv_lhs => rw [hv]
    rw [abs_mul, abs_of_pos hpow]
  refine ⟨?_, ?_, ?_, ?_⟩
  · rw [hu, hp, hsize r.2 hr2]
    have h1 : printed r.1 * threshold q ^ r.2 - v = (printed r.1 - r.1) * threshold q ^ r.2 := by
      conv_lhs => rw [hv]
      ring
    rw [h1, abs_mul, abs_of_pos hpow, habs, ← mul_assoc]
    exact mul_le_mul_of_nonneg_right (printed_err r.1) hpow.le
  · rw [hu, hgd r.2 (by omega)]
    exact List.getElem_mem _
  · rcases Nat.eq_zero_or_pos r.2 with h0 | h0
    · right
      rw [hu, h0]
      cases q <;> rfl
    · left
      rw [hu, hsize r.2 hr2, habs]
      have := e h0
      nlinarith
  · intro u hu' hle
    obtain ⟨i, hi, rfl⟩ := List.getElem_of_mem hu'
    have hi' : i ≤ (units q).length - 1 := by omega
    have hgi : (units q)[i] = (units q).getD i "" := (hgd i hi).symm
    rw [hgi, hsize i hi'] at hle ⊢
    rw [hu, hsize r.2 hr2]
    apply pow_le_pow_right₀ ht.le
    by_contra hc
    push Not at hc
    have hlt := d (by omega)
    have h1 : |v| < threshold q ^ (r.2 + 1) := by
      rw [habs, pow_succ, mul_comm]
      exact mul_lt_mul_of_pos_left hlt hpow
    have h2 : threshold q ^ (r.2 + 1) ≤ threshold q ^ i := pow_le_pow_right₀ ht.le hc
    linarith

example : ∃ v : ℝ, (formatLarge .pressure v).2 = "MPa" := by
  refine ⟨2500000, ?_⟩
  unfold formatLarge
  simp only [units, threshold]
  simp [shift]
  norm_num [abs_of_pos]

end Verif.Display
