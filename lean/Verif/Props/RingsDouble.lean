import Verif.Model.RingsDouble
import Verif.Props.DiffusionDouble
import Mathlib.Data.List.ProdSigma
import Mathlib.Algebra.BigOperators.Group.List.Basic
import Mathlib.Algebra.Group.Int.Even

/-!
C229: the grid of points of a local region in double precision.
-/

namespace Verif.RingsDouble

open Verif.Parallel Verif.DiffusionDouble

/-! ### Specification -/

/-- The point lies at the place `(i, j)` of the grid: `i` and `j` pixels from the centre, up to a quarter of a pixel. -/
def At (radius pix : ℚ) (i j : ℤ) (p : ℚ × ℚ) : Prop := |radius * p.1 / pix - i| < 1 / 4 ∧ |radius * p.2 / pix - j| < 1 / 4

instance (radius pix : ℚ) (i j : ℤ) (p : ℚ × ℚ) : Decidable (At radius pix i j p) := by unfold At; infer_instance

/-! ### Rounding errors -/

theorem near_scale {s x y ε B : ℚ} (hs : 0 ≤ s) (h : |x - s * y| ≤ s * ε) (hy : |y| ≤ B) : |double x - s * y| ≤ s * (ε + unit * (B + ε)) := by
  have h1 := double_rel x
  have h2 : |x| ≤ s * (B + ε) := by
    have : x = s * y + (x - s * y) := by ring
    rw [this]
    refine (abs_add_le _ _).trans ?_
    rw [abs_mul, abs_of_nonneg hs]
    nlinarith [mul_le_mul_of_nonneg_left hy hs]
  have h3 : |double x - s * y| ≤ |double x - x| + |x - s * y| := abs_sub_le _ _ _
  have h4 := mul_le_mul_of_nonneg_left h2 unit_pos.le
  nlinarith

theorem unit_small : unit ≤ 1 / 2 ^ 53 := by unfold unit; norm_num

/-- One more rounding of a number that is known up to `c1 n² u`. -/
theorem near_step {s x y n c1 c2 B : ℚ} (hn : 1 ≤ n) (hs : 0 ≤ s) (hc : 0 ≤ c1) (hB : 0 ≤ B) (h : |x - s * y| ≤ s * (c1 * (n ^ 2 * unit))) (hy : |y| ≤ B * n)
    (h2 : c1 + B + c1 / 1000 ≤ c2) : |double x - s * y| ≤ s * (c2 * (n ^ 2 * unit)) := by
  refine (near_scale hs h hy).trans (mul_le_mul_of_nonneg_left ?_ hs)
  have hu := unit_pos
  have hu' := unit_small
  have h3 : n * unit ≤ n ^ 2 * unit := by nlinarith [mul_nonneg (by linarith : 0 ≤ n) hu.le, mul_nonneg (sub_nonneg.2 hn) (mul_nonneg (by linarith : 0 ≤ n) hu.le)]
  have h4 : unit * (n ^ 2 * unit) ≤ n ^ 2 * unit / 1000 := by
    have : 0 ≤ n ^ 2 * unit := by positivity
    nlinarith
  calc c1 * (n ^ 2 * unit) + unit * (B * n + c1 * (n ^ 2 * unit))
      = c1 * (n ^ 2 * unit) + B * (n * unit) + c1 * (unit * (n ^ 2 * unit)) := by ring
    _ ≤ c1 * (n ^ 2 * unit) + B * (n ^ 2 * unit) + c1 * (n ^ 2 * unit / 1000) := by gcongr
    _ = (c1 + B + c1 / 1000) * (n ^ 2 * unit) := by ring
    _ ≤ _ := by gcongr

/-- The angle of the `n`-th round. -/
def angle (radius pix : ℚ) (n : ℕ) : ℚ := (fun t => double (t + double (pix / radius)))^[n] 0

theorem delta_pos {radius pix : ℚ} (hr : 0 < radius) (hp : 0 < pix) : 0 < double (pix / radius) := by
  have h := double_rel (pix / radius)
  have h0 : 0 < pix / radius := by positivity
  rw [abs_of_pos h0] at h
  have := unit_small
  have := (abs_le.1 h).1
  nlinarith

theorem delta_near {radius pix : ℚ} (hr : 0 < radius) (hp : 0 < pix) : |radius * double (pix / radius) / pix - 1| ≤ unit := by
  have h := double_rel (pix / radius)
  have h0 : 0 < pix / radius := by positivity
  rw [abs_of_pos h0] at h
  have e : radius * double (pix / radius) / pix - 1 = (double (pix / radius) - pix / radius) / (pix / radius) := by field_simp
  rw [e, abs_div, abs_of_pos h0, div_le_iff₀ h0]
  exact h

theorem angle_near {radius pix : ℚ} (hr : 0 < radius) (hp : 0 < pix) (n : ℕ) (hn : n ≤ 2 ^ 20) :
    |angle radius pix n - double (pix / radius) * n| ≤ double (pix / radius) * (n ^ 2 * unit) := by
  have hd := delta_pos hr hp
  induction n with
  | zero => simp [angle]
  | succ n ih =>
    have ih := ih (by omega)
    have e : angle radius pix (n + 1) = double (angle radius pix n + double (pix / radius)) := by
      unfold angle; rw [Function.iterate_succ_apply']
    rw [e]
    generalize double (pix / radius) = δ at *
    have hq : (n : ℚ) ≤ 2 ^ 20 := by exact_mod_cast (by omega : n ≤ 2 ^ 20)
    have h1 : |angle radius pix n + δ - δ * ((n : ℚ) + 1)| ≤ δ * (n ^ 2 * unit) := by
      have : angle radius pix n + δ - δ * ((n : ℚ) + 1) = angle radius pix n - δ * n := by ring
      rw [this]; exact ih
    have h2 := near_scale (B := n + 1) hd.le h1 (by rw [abs_of_nonneg (by positivity)])
    push_cast
    refine h2.trans (mul_le_mul_of_nonneg_left ?_ hd.le)
    have hu := unit_pos
    have hu' := unit_small
    have hn0 : (0 : ℚ) ≤ n := by positivity
    have h3 : unit * (n ^ 2 * unit) ≤ n * unit := by
      have : (n : ℚ) ^ 2 * unit ≤ n := by
        have : (n : ℚ) * unit ≤ 1 := by nlinarith
        nlinarith
      nlinarith
    nlinarith

/-- What the rounded quantities of one round are near to. -/
structure Round (radius pix δ theta n : ℚ) : Prop where
  quotient : |double (double (radius * theta) / pix) - n| ≤ 7 * (n ^ 2 * unit)
  extent : |double (double (radius * theta) / radius) - δ * n| ≤ δ * (5 * (n ^ 2 * unit))
  scale : |radius * δ / pix - 1| ≤ unit
  arc : |double (radius * theta) / pix - n| ≤ 6 * (n ^ 2 * unit)

theorem round_near {radius pix theta n : ℚ} (hr : 0 < radius) (hp : 0 < pix) (hn : 1 ≤ n)
    (ht : |theta - double (pix / radius) * n| ≤ double (pix / radius) * (n ^ 2 * unit)) : Round radius pix (double (pix / radius)) theta n := by
  have hd := delta_pos hr hp
  have hs := delta_near hr hp
  have hu := unit_pos
  have hu' := unit_small
  generalize double (pix / radius) = δ at *
  have hn0 : 0 ≤ n := by linarith
  have hw : 0 ≤ n ^ 2 * unit := by positivity
  have hnw : n * unit ≤ n ^ 2 * unit := by nlinarith
  have h1 : |radius * theta - (radius * δ) * n| ≤ (radius * δ) * (1 * (n ^ 2 * unit)) := by
    have : radius * theta - (radius * δ) * n = radius * (theta - δ * n) := by ring
    rw [this, abs_mul, abs_of_pos hr]
    nlinarith
  have h2 : |double (radius * theta) - (radius * δ) * n| ≤ (radius * δ) * (3 * (n ^ 2 * unit)) :=
    near_step (B := 1) hn (by positivity) (by norm_num) (by norm_num) h1 (by rw [abs_of_nonneg hn0]; linarith) (by norm_num)
  have h3 : |double (radius * theta) / pix - (radius * δ / pix) * n| ≤ (radius * δ / pix) * (3 * (n ^ 2 * unit)) := by
    have e1 : double (radius * theta) / pix - (radius * δ / pix) * n = (double (radius * theta) - (radius * δ) * n) / pix := by ring
    have e2 : (radius * δ / pix) * (3 * (n ^ 2 * unit)) = (radius * δ) * (3 * (n ^ 2 * unit)) / pix := by ring
    rw [e1, e2, abs_div, abs_of_pos hp]
    gcongr
  have h4 : |double (radius * theta) / radius - δ * n| ≤ δ * (3 * (n ^ 2 * unit)) := by
    have e1 : double (radius * theta) / radius - δ * n = (double (radius * theta) - (radius * δ) * n) / radius := by field_simp
    have e2 : δ * (3 * (n ^ 2 * unit)) = (radius * δ) * (3 * (n ^ 2 * unit)) / radius := by field_simp
    rw [e1, e2, abs_div, abs_of_pos hr]
    gcongr
  have hs0 : 0 ≤ radius * δ / pix := by positivity
  have hs1 := abs_le.1 hs
  have back : ∀ x c : ℚ, 0 ≤ c → c ≤ 1000 → |x - (radius * δ / pix) * n| ≤ (radius * δ / pix) * (c * (n ^ 2 * unit)) → |x - n| ≤ (c + 2) * (n ^ 2 * unit) := by
    intro x c hc hc2 h
    have e : x - n = (x - (radius * δ / pix) * n) + (radius * δ / pix - 1) * n := by ring
    rw [e]
    refine (abs_add_le _ _).trans ?_
    rw [abs_mul (radius * δ / pix - 1), abs_of_nonneg hn0]
    have a1 : |radius * δ / pix - 1| * n ≤ unit * n := by gcongr
    have a2 : (radius * δ / pix) * (c * (n ^ 2 * unit)) ≤ (1 + unit) * (c * (n ^ 2 * unit)) := by gcongr; linarith [hs1.2]
    have a3 : unit * (c * (n ^ 2 * unit)) ≤ 1 * (n ^ 2 * unit) := by
      have : unit * c ≤ 1 := by nlinarith
      nlinarith
    nlinarith
  refine ⟨?_, ?_, hs, ?_⟩
  · have h5 := near_step (B := 1) (c2 := 5) hn hs0 (by norm_num) (by norm_num) h3 (by rw [abs_of_nonneg hn0]; linarith) (by norm_num)
    have := back _ 5 (by norm_num) (by norm_num) h5
    norm_num at this
    exact this
  · exact near_step (B := 1) hn hd.le (by norm_num) (by norm_num) h4 (by rw [abs_of_nonneg hn0]; linarith) (by norm_num)
  · have := back _ 3 (by norm_num) (by norm_num) h3
    linarith

/-- The elements of the grid of the `n`-th round lie at whole numbers of pixels. -/
theorem arange_near {δ e n : ℚ} (hd : 0 < δ) (hn : 1 ≤ n) (hsm : n ^ 2 * unit ≤ 1 / 2 ^ 20) (he : |e - δ * n| ≤ δ * (5 * (n ^ 2 * unit)))
    (k : ℕ) (hk : (k : ℚ) ≤ 2 * n + 1) : |arangeAt (-e) δ k - δ * (k - n)| ≤ δ * (21 * (n ^ 2 * unit)) := by
  have hu := unit_pos
  have hu' := unit_small
  have hn0 : 0 ≤ n := by linarith
  have hw : 0 ≤ n ^ 2 * unit := by positivity
  have hnw : n * unit ≤ n ^ 2 * unit := by nlinarith
  have hk0 : (0 : ℚ) ≤ k := by positivity
  have hm : |-e - δ * (-n)| ≤ δ * (5 * (n ^ 2 * unit)) := by
    have : -e - δ * (-n) = -(e - δ * n) := by ring
    rw [this, abs_neg]; exact he
  have h1 : |(-e + δ) - δ * (1 - n)| ≤ δ * (5 * (n ^ 2 * unit)) := by
    have : (-e + δ) - δ * (1 - n) = -e - δ * (-n) := by ring
    rw [this]; exact hm
  unfold arangeAt
  by_cases hk1 : k = 0
  · subst hk1
    rw [if_pos rfl]
    have : -e - δ * (((0 : ℕ) : ℚ) - n) = -e - δ * (-n) := by push_cast; ring
    rw [this]
    refine hm.trans ?_
    gcongr; norm_num
  rw [if_neg hk1]
  by_cases hk2 : k = 1
  · subst hk2
    rw [if_pos rfl]
    have : |(1 : ℚ) - n| ≤ 1 * n := by rw [abs_le]; constructor <;> linarith
    have h2 := near_step (c2 := 7) hn hd.le (by norm_num) (by norm_num) h1 this (by norm_num)
    push_cast
    refine h2.trans ?_
    gcongr; norm_num
  rw [if_neg hk2]
  have h2 : |double (-e + δ) - (-e) - δ| ≤ δ * (n * unit) := by
    have h3 := double_rel (-e + δ)
    have h4 : |-e + δ| ≤ δ * n := by
      have e1 : -e + δ = δ * (1 - n) + ((-e + δ) - δ * (1 - n)) := by ring
      rw [e1]
      refine (abs_add_le _ _).trans ?_
      rw [abs_mul, abs_of_pos hd]
      have e2 : |(1 : ℚ) - n| = n - 1 := by rw [abs_of_nonpos (by linarith)]; ring
      rw [e2]
      have : δ * (5 * (n ^ 2 * unit)) ≤ δ * 1 := by gcongr; linarith
      nlinarith
    have e3 : double (-e + δ) - (-e) - δ = double (-e + δ) - (-e + δ) := by ring
    rw [e3]
    nlinarith [mul_le_mul_of_nonneg_left h4 hu.le]
  have h3 : |double (double (-e + δ) - -e) - δ| ≤ δ * (3 * (n * unit)) := by
    have h4 : |double (-e + δ) - -e - δ * 1| ≤ δ * (n * unit) := by rw [mul_one]; exact h2
    have h5 := near_scale (B := 1) hd.le h4 (by norm_num)
    rw [mul_one] at h5
    refine h5.trans (mul_le_mul_of_nonneg_left ?_ hd.le)
    have : unit * (n * unit) ≤ n * unit := by nlinarith [mul_nonneg hn0 hu.le]
    nlinarith
  have h4 : |(k : ℚ) * double (double (-e + δ) - -e) - δ * k| ≤ δ * (9 * (n ^ 2 * unit)) := by
    have e1 : (k : ℚ) * double (double (-e + δ) - -e) - δ * k = k * (double (double (-e + δ) - -e) - δ) := by ring
    rw [e1, abs_mul, abs_of_nonneg hk0]
    have e2 : (k : ℚ) ≤ 3 * n := by linarith
    calc (k : ℚ) * |double (double (-e + δ) - -e) - δ| ≤ (3 * n) * (δ * (3 * (n * unit))) := by gcongr
      _ = _ := by ring
  have h5 := near_step (B := 3) (c2 := 13) hn hd.le (by norm_num) (by norm_num) h4 (by rw [abs_of_nonneg hk0]; linarith) (by norm_num)
  have h6 : |(-e + double ((k : ℚ) * double (double (-e + δ) - -e))) - δ * (k - n)| ≤ δ * (18 * (n ^ 2 * unit)) := by
    have e1 : (-e + double ((k : ℚ) * double (double (-e + δ) - -e))) - δ * (k - n)
        = (-e - δ * (-n)) + (double ((k : ℚ) * double (double (-e + δ) - -e)) - δ * k) := by ring
    rw [e1]
    refine (abs_add_le _ _).trans ?_
    linarith
  exact near_step (B := 2) hn hd.le (by norm_num) (by norm_num) h6 (by rw [abs_le]; constructor <;> linarith) (by norm_num)

/-- The number of elements of the grid in one direction. -/
theorem arange_length {δ e n : ℚ} (hd : 0 < δ) (hn : 1 ≤ n) (hsm : n ^ 2 * unit ≤ 1 / 2 ^ 20) (he : |e - δ * n| ≤ δ * (5 * (n ^ 2 * unit))) :
    |double (double (double (e + δ) - -e) / δ) - (2 * n + 1)| < 1 / 2 := by
  have hw : 0 ≤ n ^ 2 * unit := by have := unit_pos; positivity
  have h1 : |(e + δ) - δ * (n + 1)| ≤ δ * (5 * (n ^ 2 * unit)) := by
    have : (e + δ) - δ * (n + 1) = e - δ * n := by ring
    rw [this]; exact he
  have h2 := near_step (B := 2) (c2 := 8) hn hd.le (by norm_num) (by norm_num) h1 (by rw [abs_le]; constructor <;> linarith) (by norm_num)
  have h3 : |(double (e + δ) - -e) - δ * (2 * n + 1)| ≤ δ * (13 * (n ^ 2 * unit)) := by
    have : (double (e + δ) - -e) - δ * (2 * n + 1) = (double (e + δ) - δ * (n + 1)) + (e - δ * n) := by ring
    rw [this]
    refine (abs_add_le _ _).trans ?_
    linarith
  have h4 := near_step (B := 3) (c2 := 17) hn hd.le (by norm_num) (by norm_num) h3 (by rw [abs_le]; constructor <;> linarith) (by norm_num)
  have h5 : |double (double (e + δ) - -e) / δ - 1 * (2 * n + 1)| ≤ 1 * (17 * (n ^ 2 * unit)) := by
    have : double (double (e + δ) - -e) / δ - 1 * (2 * n + 1) = (double (double (e + δ) - -e) - δ * (2 * n + 1)) / δ := by field_simp
    rw [this, abs_div, abs_of_pos hd, div_le_iff₀ hd]
    linarith
  have h6 := near_step (B := 3) (c2 := 21) hn (by norm_num) (by norm_num) (by norm_num) h5 (by rw [abs_le]; constructor <;> linarith) (by norm_num)
  rw [one_mul, one_mul] at h6
  refine h6.trans_lt ?_
  linarith

/-- A rounded square. -/
theorem sq_near {x m n c c2 B : ℚ} (hn : 1 ≤ n) (hc : 0 ≤ c) (hB : 0 ≤ B) (hsm : c * (n ^ 2 * unit) ≤ 1) (hm : |m| ≤ B * n) (h : |x - m| ≤ c * (n ^ 2 * unit))
    (hc2 : c * (2 * B + 1) * (1 + 1 / 1000) + B ^ 2 ≤ c2) : |sq x - m ^ 2| ≤ c2 * (n * (n ^ 2 * unit)) := by
  have hu := unit_pos
  have hu' := unit_small
  have hw : 0 ≤ n ^ 2 * unit := by positivity
  have hn0 : 0 ≤ n := by linarith
  have h1 : |x * x - 1 * m ^ 2| ≤ 1 * (c * (2 * B + 1) * (n * (n ^ 2 * unit))) := by
    have e : x * x - 1 * m ^ 2 = (x - m) * ((x - m) + 2 * m) := by ring
    rw [e, abs_mul]
    have h2 : |(x - m) + 2 * m| ≤ (2 * B + 1) * n := by
      refine (abs_add_le _ _).trans ?_
      rw [abs_mul, abs_two]
      nlinarith
    calc |x - m| * |(x - m) + 2 * m| ≤ (c * (n ^ 2 * unit)) * ((2 * B + 1) * n) := by gcongr
      _ = _ := by ring
  have h2 := near_scale (B := B ^ 2 * n ^ 2) (by norm_num) h1 (by
    rw [abs_pow]
    calc |m| ^ 2 ≤ (B * n) ^ 2 := by gcongr
      _ = _ := by ring)
  rw [one_mul, one_mul] at h2
  unfold sq
  refine h2.trans ?_
  have h3 : unit * (n * (n ^ 2 * unit)) ≤ (n * (n ^ 2 * unit)) / 1000 := by
    have : 0 ≤ n * (n ^ 2 * unit) := by positivity
    nlinarith
  have h4 : unit * n ^ 2 ≤ n * (n ^ 2 * unit) := by nlinarith
  have h5 : 0 ≤ c * (2 * B + 1) := by positivity
  calc c * (2 * B + 1) * (n * (n ^ 2 * unit)) + unit * (B ^ 2 * n ^ 2 + c * (2 * B + 1) * (n * (n ^ 2 * unit)))
      = c * (2 * B + 1) * (n * (n ^ 2 * unit)) + B ^ 2 * (unit * n ^ 2) + c * (2 * B + 1) * (unit * (n * (n ^ 2 * unit))) := by ring
    _ ≤ c * (2 * B + 1) * (n * (n ^ 2 * unit)) + B ^ 2 * (n * (n ^ 2 * unit)) + c * (2 * B + 1) * ((n * (n ^ 2 * unit)) / 1000) := by gcongr
    _ = (c * (2 * B + 1) * (1 + 1 / 1000) + B ^ 2) * (n * (n ^ 2 * unit)) := by ring
    _ ≤ _ := by gcongr

/-- Which elements of the grid the mask takes. -/
theorem mask {radius pix δ theta : ℚ} {n : ℕ} (hd : 0 < δ) (hn : 1 ≤ n) (hn2 : n ≤ 2 ^ 14) (h : Round radius pix δ theta n)
    (k l : ℕ) (hk : k ≤ 2 * n + 1) (hl : l ≤ 2 * n + 1) :
    let c := fun k => arangeAt (-double (double (radius * theta) / radius)) δ k
    let M : ℤ := ((k : ℤ) - n) ^ 2 + ((l : ℤ) - n) ^ 2
    (inRing pix δ (double (radius * theta)) (c k, c l) = true → ((n : ℤ) - 1) ^ 2 ≤ M ∧ M ≤ (n : ℤ) ^ 2) ∧
    (((n : ℤ) - 1) ^ 2 < M → M < (n : ℤ) ^ 2 → inRing pix δ (double (radius * theta)) (c k, c l) = true) := by
  intro c M
  have hu := unit_pos
  have hu' := unit_small
  have hq : (1 : ℚ) ≤ n := by exact_mod_cast hn
  have hq2 : (n : ℚ) ≤ 2 ^ 14 := by exact_mod_cast hn2
  have hw : (n : ℚ) ^ 2 * unit ≤ 1 / 2 ^ 25 := by
    calc (n : ℚ) ^ 2 * unit ≤ (2 ^ 14) ^ 2 * (1 / 2 ^ 53) := by gcongr
      _ = _ := by norm_num
  have hw0 : 0 ≤ (n : ℚ) ^ 2 * unit := by positivity
  have hW : (n : ℚ) * ((n : ℚ) ^ 2 * unit) ≤ 1 / 2 ^ 11 := by
    calc (n : ℚ) * ((n : ℚ) ^ 2 * unit) ≤ 2 ^ 14 * (1 / 2 ^ 25) := by gcongr
      _ = _ := by norm_num
  have hW0 : 0 ≤ (n : ℚ) * ((n : ℚ) ^ 2 * unit) := by positivity
  have coord : ∀ k : ℕ, k ≤ 2 * n + 1 → |sq (double (c k / δ)) - ((k : ℚ) - n) ^ 2| ≤ 130 * ((n : ℚ) * ((n : ℚ) ^ 2 * unit)) := by
    intro k hk
    have hkq : (k : ℚ) ≤ 2 * n + 1 := by exact_mod_cast hk
    have hk0 : (0 : ℚ) ≤ k := by positivity
    have h1 := arange_near hd hq (hw.trans (by norm_num)) h.extent k hkq
    have hm : |(k : ℚ) - n| ≤ 2 * n := by rw [abs_le]; constructor <;> linarith
    have h2 : |c k / δ - 1 * ((k : ℚ) - n)| ≤ 1 * (21 * ((n : ℚ) ^ 2 * unit)) := by
      have e : c k / δ - 1 * ((k : ℚ) - n) = (c k - δ * ((k : ℚ) - n)) / δ := by field_simp
      rw [e, abs_div, abs_of_pos hd, div_le_iff₀ hd]
      linarith
    have h3 := near_step (c2 := 24) hq (by norm_num) (by norm_num) (by norm_num) h2 hm (by norm_num)
    rw [one_mul, one_mul] at h3
    exact sq_near hq (by norm_num) (by norm_num) (by linarith) hm h3 (by norm_num)
  have hMq : ((M : ℤ) : ℚ) = ((k : ℚ) - n) ^ 2 + ((l : ℚ) - n) ^ 2 := by simp [M]
  have dist : |double (sq (double (c k / δ)) + sq (double (c l / δ))) - (M : ℚ)| ≤ 270 * ((n : ℚ) * ((n : ℚ) ^ 2 * unit)) := by
    have h1 := coord k hk
    have h2 := coord l hl
    have hkq : (k : ℚ) ≤ 2 * n + 1 := by exact_mod_cast hk
    have hlq : (l : ℚ) ≤ 2 * n + 1 := by exact_mod_cast hl
    have hk0 : (0 : ℚ) ≤ k := by positivity
    have hl0 : (0 : ℚ) ≤ l := by positivity
    rw [hMq]
    have h3 : |sq (double (c k / δ)) + sq (double (c l / δ)) - 1 * (((k : ℚ) - n) ^ 2 + ((l : ℚ) - n) ^ 2)| ≤ 1 * (260 * ((n : ℚ) * ((n : ℚ) ^ 2 * unit))) := by
      have e : sq (double (c k / δ)) + sq (double (c l / δ)) - 1 * (((k : ℚ) - n) ^ 2 + ((l : ℚ) - n) ^ 2)
          = (sq (double (c k / δ)) - ((k : ℚ) - n) ^ 2) + (sq (double (c l / δ)) - ((l : ℚ) - n) ^ 2) := by ring
      rw [e]
      refine (abs_add_le _ _).trans ?_
      linarith
    have h4 := near_scale (B := 8 * n ^ 2) (by norm_num) h3 (by
      rw [abs_of_nonneg (by positivity)]
      have a1 : ((k : ℚ) - n) ^ 2 ≤ (2 * n) ^ 2 := sq_le_sq' (by linarith) (by linarith)
      have a2 : ((l : ℚ) - n) ^ 2 ≤ (2 * n) ^ 2 := sq_le_sq' (by linarith) (by linarith)
      nlinarith)
    rw [one_mul, one_mul] at h4
    refine h4.trans ?_
    have h5 : unit * ((n : ℚ) * ((n : ℚ) ^ 2 * unit)) ≤ ((n : ℚ) * ((n : ℚ) ^ 2 * unit)) / 1000 := by nlinarith
    have h6 : unit * (n : ℚ) ^ 2 ≤ (n : ℚ) * ((n : ℚ) ^ 2 * unit) := by nlinarith
    nlinarith
  have hn0 : (0 : ℚ) ≤ n := by positivity
  have outer : |sq (double (double (radius * theta) / pix)) - (n : ℚ) ^ 2| ≤ 30 * ((n : ℚ) * ((n : ℚ) ^ 2 * unit)) :=
    sq_near (c := 7) (B := 1) hq (by norm_num) (by norm_num) (by linarith) (by rw [abs_of_nonneg hn0]; linarith) h.quotient (by norm_num)
  have inner : |sq (double (double (double (radius * theta) / pix) - 1)) - ((n : ℚ) - 1) ^ 2| ≤ 30 * ((n : ℚ) * ((n : ℚ) ^ 2 * unit)) := by
    have h1 : |double (double (radius * theta) / pix) - 1 - 1 * ((n : ℚ) - 1)| ≤ 1 * (7 * ((n : ℚ) ^ 2 * unit)) := by
      have e : double (double (radius * theta) / pix) - 1 - 1 * ((n : ℚ) - 1) = double (double (radius * theta) / pix) - n := by ring
      rw [e, one_mul]; exact h.quotient
    have hm : |(n : ℚ) - 1| ≤ 1 * n := by rw [abs_le]; constructor <;> linarith
    have h2 := near_step (c2 := 9) hq (by norm_num) (by norm_num) (by norm_num) h1 hm (by norm_num)
    rw [one_mul, one_mul] at h2
    exact sq_near hq (by norm_num) (by norm_num) (by linarith) hm h2 (by norm_num)
  have d := abs_le.1 dist
  have o := abs_le.1 outer
  have i := abs_le.1 inner
  unfold inRing
  simp only [decide_eq_true_eq]
  constructor
  · rintro ⟨g1, g2⟩
    constructor
    · by_contra hc
      have : M + 1 ≤ ((n : ℤ) - 1) ^ 2 := by omega
      have : ((M : ℤ) : ℚ) + 1 ≤ ((n : ℚ) - 1) ^ 2 := by exact_mod_cast this
      linarith
    · by_contra hc
      have : (n : ℤ) ^ 2 + 1 ≤ M := by omega
      have : (n : ℚ) ^ 2 + 1 ≤ ((M : ℤ) : ℚ) := by exact_mod_cast this
      linarith
  · intro g1 g2
    have g1 : ((n : ℤ) - 1) ^ 2 + 1 ≤ M := by omega
    have g2 : M + 1 ≤ (n : ℤ) ^ 2 := by omega
    have g1 : ((n : ℚ) - 1) ^ 2 + 1 ≤ ((M : ℤ) : ℚ) := by exact_mod_cast g1
    have g2 : ((M : ℤ) : ℚ) + 1 ≤ (n : ℚ) ^ 2 := by exact_mod_cast g2
    constructor <;> linarith

/-- The element `k` of the grid lies `k - n` pixels from the centre. -/
theorem place_near {radius pix δ theta : ℚ} {n : ℕ} (hr : 0 < radius) (hp : 0 < pix) (hd : 0 < δ) (hn : 1 ≤ n) (hn2 : n ≤ 2 ^ 14) (h : Round radius pix δ theta n)
    (k : ℕ) (hk : k ≤ 2 * n + 1) :
    |radius * arangeAt (-double (double (radius * theta) / radius)) δ k / pix - (((k : ℤ) - n : ℤ) : ℚ)| < 1 / 4 := by
  have hu := unit_pos
  have hu' := unit_small
  have hq : (1 : ℚ) ≤ n := by exact_mod_cast hn
  have hq2 : (n : ℚ) ≤ 2 ^ 14 := by exact_mod_cast hn2
  have hw : (n : ℚ) ^ 2 * unit ≤ 1 / 2 ^ 25 := by
    calc (n : ℚ) ^ 2 * unit ≤ (2 ^ 14) ^ 2 * (1 / 2 ^ 53) := by gcongr
      _ = _ := by norm_num
  have hw0 : 0 ≤ (n : ℚ) ^ 2 * unit := by positivity
  have hkq : (k : ℚ) ≤ 2 * n + 1 := by exact_mod_cast hk
  have hk0 : (0 : ℚ) ≤ k := by positivity
  have h1 := arange_near hd hq (hw.trans (by norm_num)) h.extent k hkq
  have hm : |(k : ℚ) - n| ≤ 2 * n := by rw [abs_le]; constructor <;> linarith
  generalize arangeAt (-double (double (radius * theta) / radius)) δ k = x at *
  have e : radius * x / pix - (((k : ℤ) - n : ℤ) : ℚ)
      = radius / pix * (x - δ * ((k : ℚ) - n)) + (radius * δ / pix - 1) * ((k : ℚ) - n) := by
    push_cast; field_simp; ring
  rw [e]
  refine (abs_add_le _ _).trans_lt ?_
  rw [abs_mul, abs_mul, abs_of_pos (by positivity : 0 < radius / pix)]
  have a1 : radius / pix * |x - δ * ((k : ℚ) - n)| ≤ radius / pix * (δ * (21 * ((n : ℚ) ^ 2 * unit))) := by gcongr
  have a2 : radius / pix * (δ * (21 * ((n : ℚ) ^ 2 * unit))) = (radius * δ / pix) * (21 * ((n : ℚ) ^ 2 * unit)) := by ring
  have a3 : radius * δ / pix ≤ 2 := by linarith [(abs_le.1 h.scale).2]
  have a4 : (radius * δ / pix) * (21 * ((n : ℚ) ^ 2 * unit)) ≤ 2 * (21 * ((n : ℚ) ^ 2 * unit)) := by gcongr
  have a5 : |radius * δ / pix - 1| * |(k : ℚ) - n| ≤ unit * (2 * n) := by
    have := h.scale
    gcongr
  have a6 : unit * (2 * (n : ℚ)) ≤ 1 / 2 ^ 38 := by
    calc unit * (2 * (n : ℚ)) ≤ (1 / 2 ^ 53) * (2 * 2 ^ 14) := by gcongr
      _ = _ := by norm_num
  linarith

/-! ### The loop -/

theorem angle_succ (radius pix : ℚ) (n : ℕ) : angle radius pix (n + 1) = double (angle radius pix n + double (pix / radius)) := by
  unfold angle; rw [Function.iterate_succ_apply']

theorem small_n {n : ℕ} (h : n ≤ 2 ^ 14) : (n : ℚ) ^ 2 * unit ≤ 1 / 2 ^ 25 := by
  have hq2 : (n : ℚ) ≤ 2 ^ 14 := by exact_mod_cast h
  have hu' := unit_small
  have hu := unit_pos
  calc (n : ℚ) ^ 2 * unit ≤ (2 ^ 14) ^ 2 * (1 / 2 ^ 53) := by gcongr
    _ = _ := by norm_num

/-- The rounds that are made are those within the local radius. -/
theorem made_le {radius pix L : ℚ} (hr : 0 < radius) (hp : 0 < pix) (h0 : 0 ≤ L) (hL : L ≤ 16000 * pix) {n : ℕ} (hn : n ≤ 2 ^ 14)
    (h : angle radius pix n ≤ double (L / radius)) : (n : ℚ) ≤ L / pix + 1 / 1000 := by
  have ht := (abs_le.1 (angle_near hr hp n (hn.trans (by norm_num)))).1
  have hs := abs_le.1 (delta_near hr hp)
  have hd := delta_pos hr hp
  have hl := (abs_le.1 (double_rel (L / radius))).2
  have hw := small_n hn
  have hu' := unit_small
  have hu := unit_pos
  have hlr : 0 ≤ L / radius := by positivity
  rw [abs_of_nonneg hlr] at hl
  generalize double (pix / radius) = δ at *
  have h1 : δ * (n - n ^ 2 * unit) ≤ L / radius * (1 + unit) := by nlinarith
  have h2 : radius * δ / pix * (n - n ^ 2 * unit) ≤ L / pix * (1 + unit) := by
    have e1 : radius * δ / pix * (n - n ^ 2 * unit) = radius / pix * (δ * (n - n ^ 2 * unit)) := by ring
    have e2 : L / pix * (1 + unit) = radius / pix * (L / radius * (1 + unit)) := by field_simp
    rw [e1, e2]
    gcongr
  have hQ : L / pix ≤ 16000 := by rw [div_le_iff₀ hp]; exact hL
  have hQ0 : 0 ≤ L / pix := by positivity
  have hq2 : (n : ℚ) ≤ 2 ^ 14 := by exact_mod_cast hn
  by_contra hc
  push Not at hc
  have h3 : 0 ≤ (n : ℚ) - n ^ 2 * unit := by
    have : (0 : ℚ) ≤ L / pix := hQ0
    have : (1 : ℚ) / 2 ^ 25 ≤ 1 / 1000 := by norm_num
    linarith
  have h4 : (1 - unit) * ((n : ℚ) - n ^ 2 * unit) ≤ radius * δ / pix * (n - n ^ 2 * unit) := by
    gcongr; linarith
  have h5 : L / pix * unit ≤ 16000 * (1 / 2 ^ 53) := by gcongr
  have h6 : unit * ((n : ℚ) - n ^ 2 * unit) ≤ (1 / 2 ^ 53) * 2 ^ 14 := by
    gcongr
    have : 0 ≤ (n : ℚ) ^ 2 * unit := by positivity
    linarith
  norm_num at h5 h6 hw
  nlinarith

theorem made_le' {radius pix L : ℚ} (hr : 0 < radius) (hp : 0 < pix) (h0 : 0 ≤ L) (hL : L ≤ 16000 * pix) {n : ℕ} (hn : n ≤ 2 ^ 14)
    (h : angle radius pix n ≤ double (L / radius)) : n ≤ 16000 := by
  have h1 := made_le hr hp h0 hL hn h
  have hQ : L / pix ≤ 16000 := by rw [div_le_iff₀ hp]; exact hL
  have h2 : (n : ℚ) < 16001 := by linarith
  have : n < 16001 := by exact_mod_cast h2
  omega

theorem le_made {radius pix L : ℚ} (hr : 0 < radius) (hp : 0 < pix) (h0 : 0 ≤ L) (hL : L ≤ 16000 * pix) {n : ℕ}
    (h : (n : ℚ) + 1 / 1000 ≤ L / pix) : angle radius pix n ≤ double (L / radius) := by
  have hQ : L / pix ≤ 16000 := by rw [div_le_iff₀ hp]; exact hL
  have hQ0 : 0 ≤ L / pix := by positivity
  have hn : n ≤ 2 ^ 14 := by
    have h2 : (n : ℚ) < 16001 := by linarith
    have : n < 16001 := by exact_mod_cast h2
    omega
  have ht := (abs_le.1 (angle_near hr hp n (hn.trans (by norm_num)))).2
  have hs := abs_le.1 (delta_near hr hp)
  have hd := delta_pos hr hp
  have hl := (abs_le.1 (double_rel (L / radius))).1
  have hw := small_n hn
  have hu' := unit_small
  have hu := unit_pos
  have hlr : 0 ≤ L / radius := by positivity
  rw [abs_of_nonneg hlr] at hl
  generalize double (pix / radius) = δ at *
  have hq2 : (n : ℚ) ≤ 2 ^ 14 := by exact_mod_cast hn
  have hq0 : (0 : ℚ) ≤ n := by positivity
  have hw0 : 0 ≤ (n : ℚ) ^ 2 * unit := by positivity
  have h2 : radius * δ / pix * (n + n ^ 2 * unit) ≤ L / pix * (1 - unit) := by
    have h4 : radius * δ / pix * (n + n ^ 2 * unit) ≤ (1 + unit) * ((n : ℚ) + n ^ 2 * unit) := by
      gcongr; linarith
    have h5 : L / pix * unit ≤ 16000 * (1 / 2 ^ 53) := by gcongr
    have h6 : unit * ((n : ℚ) + n ^ 2 * unit) ≤ (1 / 2 ^ 53) * (2 ^ 14 + 1 / 2 ^ 25) := by gcongr
    norm_num at h5 h6 hw
    nlinarith
  have h3 : δ * (n + n ^ 2 * unit) ≤ L / radius * (1 - unit) := by
    have e1 : δ * (n + n ^ 2 * unit) = pix / radius * (radius * δ / pix * (n + n ^ 2 * unit)) := by field_simp
    have e2 : L / radius * (1 - unit) = pix / radius * (L / pix * (1 - unit)) := by field_simp
    rw [e1, e2]
    gcongr
  nlinarith

/-- The antipode is not reached. -/
theorem far {radius pix L : ℚ} (hr : 0 < radius) (hp : 0 < pix) (h0 : 0 ≤ L) (hA : L + 2 * pix ≤ 3 * radius) {t : ℚ} (ht0 : 0 ≤ t)
    (h : t ≤ double (L / radius)) : ¬ double (double (piDouble * radius) - double (radius * t)) < pix := by
  have hu' := unit_small
  have hu := unit_pos
  have hl := (abs_le.1 (double_rel (L / radius))).2
  have hlr : 0 ≤ L / radius := by positivity
  rw [abs_of_nonneg hlr] at hl
  have ha := (abs_le.1 (double_rel (radius * t))).2
  rw [abs_of_nonneg (by positivity)] at ha
  have hpi := (abs_le.1 (double_rel (piDouble * radius))).1
  have hpi0 : (31 / 10 : ℚ) < piDouble := by unfold piDouble; norm_num
  have hpi1 : piDouble < (32 / 10 : ℚ) := by unfold piDouble; norm_num
  rw [abs_of_nonneg (by positivity)] at hpi
  have h1 : t ≤ L / radius * (1 + unit) := by linarith
  have h2 : radius * t ≤ L * (1 + unit) := by
    calc radius * t ≤ radius * (L / radius * (1 + unit)) := by gcongr
      _ = _ := by field_simp
  have hu3 : unit ≤ 1 / 1000 := hu'.trans (by norm_num)
  have h3 : double (radius * t) ≤ L * (101 / 100) := by
    have : unit * (radius * t) ≤ 1 / 1000 * (L * (1 + unit)) := by gcongr
    have : L * unit ≤ L * (1 / 1000) := by gcongr
    nlinarith
  have h4 : 31 / 10 * radius ≤ double (piDouble * radius) := by
    have a1 : 313 / 100 < piDouble := by unfold piDouble; norm_num
    have a2 : piDouble * radius * (1 - 1 / 1000) ≤ piDouble * radius * (1 - unit) := by gcongr
    nlinarith
  have h5 : 2 * pix ≤ double (piDouble * radius) - double (radius * t) := by nlinarith
  have h6 := (abs_le.1 (double_rel (double (piDouble * radius) - double (radius * t)))).1
  rw [abs_of_nonneg (by linarith)] at h6
  nlinarith

theorem interior_next {radius pix L : ℚ} (hr : 0 < radius) (hp : 0 < pix) (h0 : 0 ≤ L) (hA : L + 2 * pix ≤ 3 * radius) {t : ℚ} (ht0 : 0 ≤ t)
    (h : t ≤ double (L / radius)) : (interior radius pix t).2 = double (t + double (pix / radius)) := by
  have hf := far hr hp h0 hA ht0 h
  unfold interior
  simp only
  split_ifs <;> rfl

theorem angle_nonneg {radius pix : ℚ} (hr : 0 < radius) (hp : 0 < pix) (n : ℕ) : 0 ≤ angle radius pix n := by
  induction n with
  | zero => simp [angle]
  | succ n ih =>
    rw [angle_succ]
    exact Verif.Steps.double_nonneg (by linarith [delta_pos hr hp])

theorem loop_spec {radius pix L : ℚ} (hr : 0 < radius) (hp : 0 < pix) (h0 : 0 ≤ L) (hL : L ≤ 16000 * pix) (hA : L + 2 * pix ≤ 3 * radius)
    (fuel n : ℕ) (hn : n ≤ 16001) (ps : List (ℚ × ℚ)) (e : ℚ) (h : loop radius pix L fuel (angle radius pix n) = some (ps, e)) :
    ∃ N, n ≤ N ∧ double (L / radius) < angle radius pix N ∧ (∀ m, n ≤ m → m < N → angle radius pix m ≤ double (L / radius) ∧ m ≤ 16000) ∧
      ps = (List.range' n (N - n)).flatMap fun m => (interior radius pix (angle radius pix m)).1 := by
  induction fuel generalizing n ps with
  | zero => simp [loop] at h
  | succ fuel ih =>
    unfold loop at h
    split_ifs at h with hc
    · have hm := made_le' hr hp h0 hL (by omega) hc
      rw [interior_next hr hp h0 hA (angle_nonneg hr hp n) hc, ← angle_succ] at h
      obtain ⟨⟨ps', e'⟩, h1, h2⟩ := Option.map_eq_some_iff.1 h
      simp only [Prod.mk.injEq] at h2
      obtain ⟨rfl, rfl⟩ := h2
      obtain ⟨N, a1, a2, a3, a4⟩ := ih (n + 1) (by omega) ps' h1
      refine ⟨N, by omega, a2, ?_, ?_⟩
      · intro m m1 m2
        by_cases hmn : m = n
        · subst hmn; exact ⟨hc, hm⟩
        · exact a3 m (by omega) m2
      · rw [show N - n = (N - (n + 1)) + 1 by omega, List.range'_succ, List.flatMap_cons, a4]
    · simp only [Option.some.injEq, Prod.mk.injEq] at h
      obtain ⟨rfl, rfl⟩ := h
      exact ⟨n, le_rfl, not_le.1 hc, fun m m1 m2 => by omega, by simp⟩

theorem loop_ends {radius pix L : ℚ} (hr : 0 < radius) (hp : 0 < pix) (h0 : 0 ≤ L) (hL : L ≤ 16000 * pix) (hA : L + 2 * pix ≤ 3 * radius)
    (k n : ℕ) (hn : n + k = 16001) : (loop radius pix L (k + 1) (angle radius pix n)).isSome := by
  induction k generalizing n with
  | zero =>
    unfold loop
    split_ifs with hc
    · have := made_le' hr hp h0 hL (by omega) hc
      omega
    · rfl
  | succ k ih =>
    unfold loop
    split_ifs with hc
    · rw [interior_next hr hp h0 hA (angle_nonneg hr hp n) hc, ← angle_succ]
      simpa using ih (n + 1) (by omega)
    · rfl

/-! ### The points of a round -/

theorem grid_eq (len : ℕ) (c : ℕ → ℚ) :
    (((List.range len).map c).flatMap fun lat => ((List.range len).map c).map fun lon => (lon, lat))
      = (List.range len ×ˢ List.range len).map fun x => (c x.2, c x.1) := by
  simp [SProd.sprod, List.product, List.map_flatMap, List.flatMap_map, Function.comp_def]

theorem mem_pair (a b : ℕ) (l m : List ℕ) : (a, b) ∈ l ×ˢ m ↔ a ∈ l ∧ b ∈ m := List.mem_product

theorem int_eq {x : ℚ} {a b : ℤ} (ha : |x - a| < 1 / 4) (hb : |x - b| < 1 / 4) : a = b := by
  have h1 := abs_lt.1 ha
  have h2 := abs_lt.1 hb
  have h3 : (a : ℚ) - b < 1 := by linarith
  have h4 : (b : ℚ) - a < 1 := by linarith
  have h5 : a - b < 1 := by exact_mod_cast h3
  have h6 : b - a < 1 := by exact_mod_cast h4
  omega

/-- The points of the round `n`, as elements of a square grid. -/
theorem round_list {radius pix L : ℚ} (hr : 0 < radius) (hp : 0 < pix) (h0 : 0 ≤ L) (hA : L + 2 * pix ≤ 3 * radius) {n : ℕ} (hn : n ≤ 16000)
    (h : angle radius pix n ≤ double (L / radius)) :
    ((interior radius pix (angle radius pix n)).1 = [] ∧ n ≤ 1) ∨
    (1 ≤ n ∧ ∃ (len : ℕ) (c : ℕ → ℚ) (q : ℚ × ℚ → Bool), 2 * n + 1 ≤ len ∧ len ≤ 2 * n + 2 ∧
      (interior radius pix (angle radius pix n)).1 = ((List.range len ×ˢ List.range len).map fun x => (c x.2, c x.1)).filter q ∧
      (∀ k, k ≤ 2 * n + 1 → |radius * c k / pix - (((k : ℤ) - n : ℤ) : ℚ)| < 1 / 4) ∧
      ∀ k l, k ≤ 2 * n + 1 → l ≤ 2 * n + 1 →
        (q (c k, c l) = true → ((n : ℤ) - 1) ^ 2 ≤ ((k : ℤ) - n) ^ 2 + ((l : ℤ) - n) ^ 2 ∧ ((k : ℤ) - n) ^ 2 + ((l : ℤ) - n) ^ 2 ≤ (n : ℤ) ^ 2) ∧
        (((n : ℤ) - 1) ^ 2 < ((k : ℤ) - n) ^ 2 + ((l : ℤ) - n) ^ 2 → ((k : ℤ) - n) ^ 2 + ((l : ℤ) - n) ^ 2 < (n : ℤ) ^ 2 → q (c k, c l) = true)) := by
  have hf := far hr hp h0 hA (angle_nonneg hr hp n) h
  rcases Nat.eq_zero_or_pos n with hz | hpos
  · left
    subst hz
    refine ⟨?_, by omega⟩
    unfold interior
    simp only [angle, Function.iterate_zero, id_eq, mul_zero, double_zero, if_pos hp]
  have hR := round_near (n := n) hr hp (by exact_mod_cast hpos) (angle_near hr hp n (by omega))
  have hd := delta_pos hr hp
  have hw := small_n (n := n) (by omega)
  by_cases hc : double (radius * angle radius pix n) < pix
  · left
    refine ⟨by unfold interior; simp only [if_pos hc], ?_⟩
    by_contra h2
    have h3 : (2 : ℚ) ≤ n := by exact_mod_cast (by omega : 2 ≤ n)
    have h4 := (abs_le.1 hR.arc).1
    have h5 : double (radius * angle radius pix n) / pix < 1 := by rw [div_lt_one hp]; exact hc
    norm_num at hw
    linarith
  · right
    refine ⟨hpos, ?_⟩
    have hq : (1 : ℚ) ≤ n := by exact_mod_cast hpos
    have hlen := abs_lt.1 (arange_length hd hq (hw.trans (by norm_num)) hR.extent)
    refine ⟨⌈double (double (double (double (double (radius * angle radius pix n) / radius) + double (pix / radius)) - -double (double (radius * angle radius pix n) / radius)) / double (pix / radius))⌉.toNat,
      arangeAt (-double (double (radius * angle radius pix n) / radius)) (double (pix / radius)), inRing pix (double (pix / radius)) (double (radius * angle radius pix n)), ?_, ?_, ?_, ?_, ?_⟩
    · have : (2 * (n : ℤ) + 1) ≤ ⌈double (double (double (double (double (radius * angle radius pix n) / radius) + double (pix / radius)) - -double (double (radius * angle radius pix n) / radius)) / double (pix / radius))⌉ := by
        rw [Int.le_ceil_iff]
        push_cast
        linarith
      omega
    · have : ⌈double (double (double (double (double (radius * angle radius pix n) / radius) + double (pix / radius)) - -double (double (radius * angle radius pix n) / radius)) / double (pix / radius))⌉ ≤ 2 * (n : ℤ) + 2 := by
        rw [Int.ceil_le]
        push_cast
        linarith
      omega
    · rw [← grid_eq]
      unfold interior
      simp only [if_neg hc, if_neg hf, arange]
    · intro k hk
      exact place_near hr hp hd hpos (by omega) hR k hk
    · intro k l hk hl
      exact mask hd hpos (by omega) hR k l hk hl

/-- How often a place is met in the round `n`, if its distance from the centre is not a whole number of pixels. -/
theorem round_count {radius pix L : ℚ} (hr : 0 < radius) (hp : 0 < pix) (h0 : 0 ≤ L) (hA : L + 2 * pix ≤ 3 * radius) {n : ℕ} (hn : n ≤ 16000)
    (h : angle radius pix n ≤ double (L / radius)) (i j : ℤ) (hs : ¬ IsSquare (i ^ 2 + j ^ 2)) :
    (interior radius pix (angle radius pix n)).1.countP (fun p => decide (At radius pix i j p))
      = if ((n : ℤ) - 1) ^ 2 < i ^ 2 + j ^ 2 ∧ i ^ 2 + j ^ 2 < (n : ℤ) ^ 2 then 1 else 0 := by
  have hne : ∀ m : ℤ, i ^ 2 + j ^ 2 ≠ m ^ 2 := fun m hm => hs ⟨m, by rw [hm]; ring⟩
  have hpos : 0 ≤ i ^ 2 + j ^ 2 := by positivity
  rcases round_list hr hp h0 hA hn h with ⟨he, hn1⟩ | ⟨hn1, len, c, q, l1, l2, he, hc, hq⟩
  · rw [he, List.countP_nil]
    split_ifs with hm
    · exfalso
      have : n = 0 ∨ n = 1 := by omega
      rcases this with rfl | rfl
      · have := hm.2; norm_num at this; omega
      · have h1 := hm.1; have h2 := hm.2; norm_num at h1 h2; omega
    · rfl
  · rw [he, List.countP_filter, List.countP_map]
    split_ifs with hm
    · have hi : i ^ 2 < (n : ℤ) ^ 2 := by nlinarith [sq_nonneg j]
      have hj : j ^ 2 < (n : ℤ) ^ 2 := by nlinarith [sq_nonneg i]
      have hi' := abs_lt.1 (abs_lt_of_sq_lt_sq hi (by positivity))
      have hj' := abs_lt.1 (abs_lt_of_sq_lt_sq hj (by positivity))
      obtain ⟨k, hk⟩ : ∃ k : ℕ, (k : ℤ) = i + n := ⟨(i + n).toNat, by omega⟩
      obtain ⟨l, hl⟩ : ∃ l : ℕ, (l : ℤ) = j + n := ⟨(j + n).toNat, by omega⟩
      have : ∀ x ∈ List.range len ×ˢ List.range len,
          (((fun a => decide (At radius pix i j a) && q a) ∘ fun x : ℕ × ℕ => ((c x.2 : ℚ), (c x.1 : ℚ))) x = true ↔ (x == (l, k)) = true) := by
        rintro ⟨b, a⟩ hx
        rw [mem_pair, List.mem_range, List.mem_range] at hx
        simp only [Function.comp, Bool.and_eq_true, decide_eq_true_eq, beq_iff_eq, Prod.mk.injEq]
        constructor
        · rintro ⟨⟨g1, g2⟩, _⟩
          have e1 := int_eq g1 (hc a (by omega))
          have e2 := int_eq g2 (hc b (by omega))
          omega
        · rintro ⟨rfl, rfl⟩
          have e1 := hc a (by omega)
          have e2 := hc b (by omega)
          have f1 : (a : ℤ) - n = i := by omega
          have f2 : (b : ℤ) - n = j := by omega
          rw [f1] at e1
          rw [f2] at e2
          refine ⟨⟨e1, e2⟩, (hq a b (by omega) (by omega)).2 ?_ ?_⟩
          · rw [f1, f2]; exact hm.1
          · rw [f1, f2]; exact hm.2
      rw [List.countP_congr this]
      exact List.count_eq_one_of_mem (List.Nodup.product List.nodup_range List.nodup_range) (by
        rw [mem_pair, List.mem_range, List.mem_range]; omega)
    · rw [List.countP_eq_zero]
      rintro ⟨b, a⟩ hx
      rw [mem_pair, List.mem_range, List.mem_range] at hx
      simp only [Function.comp, Bool.and_eq_true, decide_eq_true_eq]
      rintro ⟨⟨g1, g2⟩, g3⟩
      have e1 := int_eq g1 (hc a (by omega))
      have e2 := int_eq g2 (hc b (by omega))
      have g4 := (hq a b (by omega) (by omega)).1 g3
      rw [← e1, ← e2] at g4
      have n1 := hne ((n : ℤ) - 1)
      have n2 := hne (n : ℤ)
      omega

theorem count_flatMap {α : Type} (P : α → Bool) (f : ℕ → List α) (a : ℕ) (l : List ℕ) (h : ∀ m ∈ l, (f m).countP P = if m = a then 1 else 0) :
    (l.flatMap f).countP P = l.count a := by
  induction l with
  | nil => rfl
  | cons m l ih =>
    rw [List.flatMap_cons, List.countP_append, ih fun m hm => h m (List.mem_cons_of_mem _ hm), h m List.mem_cons_self, List.count_cons]
    by_cases hm : m = a <;> simp [hm, Nat.add_comm]

/-- Every point of a round lies at a place of the grid. -/
theorem round_place {radius pix L : ℚ} (hr : 0 < radius) (hp : 0 < pix) (h0 : 0 ≤ L) (hA : L + 2 * pix ≤ 3 * radius) {n : ℕ} (hn : n ≤ 16000)
    (h : angle radius pix n ≤ double (L / radius)) (p : ℚ × ℚ) (hm : p ∈ (interior radius pix (angle radius pix n)).1) :
    ∃ i j : ℤ, At radius pix i j p ∧ i ^ 2 + j ^ 2 ≤ (n : ℤ) ^ 2 := by
  rcases round_list hr hp h0 hA hn h with ⟨he, hn1⟩ | ⟨hn1, len, c, q, l1, l2, he, hc, hq⟩
  · rw [he] at hm; simp at hm
  · rw [he, List.mem_filter, List.mem_map] at hm
    obtain ⟨⟨⟨b, a⟩, hx, rfl⟩, hm⟩ := hm
    rw [mem_pair, List.mem_range, List.mem_range] at hx
    exact ⟨(a : ℤ) - n, (b : ℤ) - n, ⟨hc a (by omega), hc b (by omega)⟩, ((hq a b (by omega) (by omega)).1 hm).2⟩

/-! ### C229 -/

/-- In double precision, every point made for the local region lies at a whole number of pixels from the centre in both directions, within the local radius; a place
whose distance from the centre is not a whole number of pixels gets at most one point, and exactly one if it lies within the local radius in whole pixels.
What is missing: places at a whole number of pixels from the centre - the centre itself, the axes, and places such as (3, 4) - fall on the limit of two rings,
and either ring may leave them to the other, see `C229_centre_fails` and `C229_axis_fails`. -/
theorem C229_grid_partial (radius pix localRadius : ℚ) (hr : 0 < radius) (hp : 0 < pix) (h0 : 0 ≤ localRadius) (hL : localRadius ≤ 16000 * pix)
    (hA : localRadius + 2 * pix ≤ 3 * radius) (fuel : ℕ) (ps : List (ℚ × ℚ)) (h : points radius pix localRadius fuel = some ps) :
    (∀ p ∈ ps, ∃ i j : ℤ, At radius pix i j p ∧ (i : ℚ) ^ 2 + (j : ℚ) ^ 2 ≤ (localRadius / pix + 1 / 1000) ^ 2) ∧
    ∀ i j : ℤ, ¬ IsSquare (i ^ 2 + j ^ 2) →
      ps.countP (fun p => decide (At radius pix i j p)) ≤ 1 ∧
      ∀ K : ℕ, (K : ℚ) + 1 / 1000 ≤ localRadius / pix → i ^ 2 + j ^ 2 < (K : ℤ) ^ 2 → ps.countP (fun p => decide (At radius pix i j p)) = 1 := by
  unfold points at h
  obtain ⟨⟨ps', e⟩, h1, rfl⟩ := Option.map_eq_some_iff.1 h
  have hz : angle radius pix 0 = 0 := rfl
  rw [← hz] at h1
  obtain ⟨N, -, hN, hm, rfl⟩ := loop_spec hr hp h0 hL hA fuel 0 (by omega) ps' e h1
  rw [Nat.sub_zero, ← List.range_eq_range'] at *
  constructor
  · intro p hpm
    rw [List.mem_flatMap] at hpm
    obtain ⟨n, hn, hpm⟩ := hpm
    rw [List.mem_range] at hn
    obtain ⟨a1, a2⟩ := hm n (by omega) hn
    obtain ⟨i, j, b1, b2⟩ := round_place hr hp h0 hA a2 a1 p hpm
    refine ⟨i, j, b1, ?_⟩
    have b3 : (i : ℚ) ^ 2 + (j : ℚ) ^ 2 ≤ (n : ℚ) ^ 2 := by exact_mod_cast b2
    have b4 := made_le hr hp h0 hL (by omega) a1
    refine b3.trans ?_
    gcongr
  · intro i j hs
    have hpos : 0 ≤ i ^ 2 + j ^ 2 := by positivity
    obtain ⟨M, hM⟩ := Int.eq_ofNat_of_zero_le hpos
    have hroot : ∀ n : ℕ, (((n : ℤ) - 1) ^ 2 < i ^ 2 + j ^ 2 ∧ i ^ 2 + j ^ 2 < (n : ℤ) ^ 2) ↔ n = Nat.sqrt M + 1 := by
      have s1 : Nat.sqrt M * Nat.sqrt M ≤ M := Nat.sqrt_le M
      have s2 : M < (Nat.sqrt M + 1) * (Nat.sqrt M + 1) := Nat.lt_succ_sqrt M
      have s3 : Nat.sqrt M * Nat.sqrt M ≠ M := fun hc => hs ⟨(Nat.sqrt M : ℤ), by rw [hM]; exact_mod_cast hc.symm⟩
      intro n
      rw [hM]
      constructor
      · rintro ⟨g1, g2⟩
        have g2' : M < n * n := by have : (M : ℤ) < (n : ℤ) * n := by nlinarith
                                   exact_mod_cast this
        have hn0 : 0 < n := by rcases Nat.eq_zero_or_pos n with rfl | h; · simp at g2'
                               · exact h
        obtain ⟨m, rfl⟩ : ∃ m, n = m + 1 := ⟨n - 1, by omega⟩
        have g1' : m * m < M := by
          have : (m : ℤ) * m < M := by push_cast at g1; nlinarith
          exact_mod_cast this
        have t1 : m < Nat.sqrt M + 1 := by by_contra hc; push Not at hc; nlinarith [Nat.mul_le_mul hc hc]
        have t2 : Nat.sqrt M < m + 1 := by by_contra hc; push Not at hc; nlinarith [Nat.mul_le_mul hc hc]
        omega
      · rintro rfl
        push_cast
        constructor
        · have : Nat.sqrt M * Nat.sqrt M < M := lt_of_le_of_ne s1 s3
          have : (Nat.sqrt M : ℤ) * Nat.sqrt M < M := by exact_mod_cast this
          nlinarith
        · have : (M : ℤ) < (Nat.sqrt M + 1) * (Nat.sqrt M + 1) := by exact_mod_cast s2
          nlinarith
    have count : ((List.range N).flatMap fun m => (interior radius pix (angle radius pix m)).1).countP (fun p => decide (At radius pix i j p))
        = (List.range N).count (Nat.sqrt M + 1) := by
      refine count_flatMap _ _ _ _ fun n hn => ?_
      rw [List.mem_range] at hn
      obtain ⟨a1, a2⟩ := hm n (by omega) hn
      rw [round_count hr hp h0 hA a2 a1 i j hs]
      simp only [hroot]
    rw [count]
    refine ⟨List.nodup_iff_count_le_one.1 List.nodup_range _, ?_⟩
    intro K hK hlt
    refine List.count_eq_one_of_mem List.nodup_range (List.mem_range.2 ?_)
    have hKN : K < N := by
      by_contra hc
      push Not at hc
      have hNK : (N : ℚ) ≤ K := by exact_mod_cast hc
      have := le_made hr hp h0 hL (n := N) (by linarith)
      linarith
    have h1 := ((hroot (Nat.sqrt M + 1)).2 rfl).1
    push_cast at h1
    have h2 : (Nat.sqrt M : ℤ) ^ 2 < (K : ℤ) ^ 2 := by
      have : ((Nat.sqrt M : ℤ) + 1 - 1) ^ 2 = (Nat.sqrt M : ℤ) ^ 2 := by ring
      linarith
    have h3 := lt_of_pow_lt_pow_left₀ 2 (by positivity) h2
    have h4 : Nat.sqrt M < K := by exact_mod_cast h3
    omega

example : ¬ IsSquare ((1 : ℤ) ^ 2 + 1 ^ 2) ∧ ((1 : ℤ) ^ 2 + 1 ^ 2 < ((3 : ℕ) : ℤ) ^ 2) ∧ ((3 : ℕ) : ℚ) + 1 / 1000 ≤ 3500 / 1000 ∧ (points 1737400 1000 3500 10).isSome = true := by
  decide +kernel

/-- Making the points ends. -/
theorem C229_ends (radius pix localRadius : ℚ) (hr : 0 < radius) (hp : 0 < pix) (h0 : 0 ≤ localRadius) (hL : localRadius ≤ 16000 * pix)
    (hA : localRadius + 2 * pix ≤ 3 * radius) : ∃ fuel ps, points radius pix localRadius fuel = some ps := by
  have h := loop_ends hr hp h0 hL hA 16001 0 (by omega)
  have hz : angle radius pix 0 = 0 := rfl
  rw [hz] at h
  obtain ⟨s, hs⟩ := Option.isSome_iff_exists.1 h
  exact ⟨16002, s.1, by unfold points; rw [hs]; rfl⟩

/-- On the Moon (1737.4 km) with pixels of 1 km and a local radius of 3.5 km, the local region has no point at its centre: the first ring, which would hold it, is
left out because 1737400 · (1000 / 1737400) is rounded to a number below 1000. -/
theorem C229_centre_fails : ∃ ps, points 1737400 1000 3500 10 = some ps ∧ ps.countP (fun p => decide (At 1737400 1000 0 0 p)) = 0 := by
  have h : ((points 1737400 1000 3500 10).map fun ps => ps.countP fun p => decide (At 1737400 1000 0 0 p)) = some 0 := by decide +kernel
  obtain ⟨ps, h1, h2⟩ := Option.map_eq_some_iff.1 h
  exact ⟨ps, h1, h2⟩

/-- On a body of 100 m radius with pixels of 3 m and a local radius of 20 m, the place five pixels north of the centre has no point, while the one five pixels south has. -/
theorem C229_axis_fails : ∃ ps, points 100 3 20 10 = some ps ∧ ps.countP (fun p => decide (At 100 3 0 5 p)) = 0 ∧
    ps.countP (fun p => decide (At 100 3 0 (-5) p)) = 1 := by
  have h : ((points 100 3 20 10).map fun ps => (ps.countP fun p => decide (At 100 3 0 5 p), ps.countP fun p => decide (At 100 3 0 (-5) p))) = some (0, 1) := by
    decide +kernel
  obtain ⟨ps, h1, h2⟩ := Option.map_eq_some_iff.1 h
  exact ⟨ps, h1, (Prod.mk.inj h2).1, (Prod.mk.inj h2).2⟩

/-! ### Sizes for which nothing is rounded -/

theorem exact_at (z : ℤ) (k : ℕ) (h : |z| ≤ 2 ^ 53) : double ((z : ℚ) / 2 ^ k) = z / 2 ^ k := by
  have := Verif.Steps.double_exact z (-(k : ℤ)) h
  rw [zpow_neg, zpow_natCast, ← div_eq_mul_inv] at this
  exact this

theorem exact_int (z : ℤ) (h : |z| ≤ 2 ^ 53) : double (z : ℚ) = z := by
  have := exact_at z 0 h
  simpa using this

theorem count_grid {radius pix : ℚ} {n len : ℕ} {c : ℕ → ℚ} {q : ℚ × ℚ → Bool} (l1 : 2 * n + 1 ≤ len) (l2 : len ≤ 2 * n + 2)
    (hc : ∀ k, k ≤ 2 * n + 1 → |radius * c k / pix - (((k : ℤ) - n : ℤ) : ℚ)| < 1 / 4) (i j : ℤ)
    (hq : ∀ k l : ℕ, k ≤ 2 * n + 1 → l ≤ 2 * n + 1 → (k : ℤ) - n = i → (l : ℤ) - n = j →
      (q (c k, c l) = true ↔ ((n : ℤ) - 1) ^ 2 ≤ i ^ 2 + j ^ 2 ∧ i ^ 2 + j ^ 2 < (n : ℤ) ^ 2)) :
    (((List.range len ×ˢ List.range len).map fun x => (c x.2, c x.1)).filter q).countP (fun p => decide (At radius pix i j p))
      = if ((n : ℤ) - 1) ^ 2 ≤ i ^ 2 + j ^ 2 ∧ i ^ 2 + j ^ 2 < (n : ℤ) ^ 2 then 1 else 0 := by
  rw [List.countP_filter, List.countP_map]
  split_ifs with hm
  · have hi : i ^ 2 < (n : ℤ) ^ 2 := by nlinarith [sq_nonneg j]
    have hj : j ^ 2 < (n : ℤ) ^ 2 := by nlinarith [sq_nonneg i]
    have hi' := abs_lt.1 (abs_lt_of_sq_lt_sq hi (by positivity))
    have hj' := abs_lt.1 (abs_lt_of_sq_lt_sq hj (by positivity))
    obtain ⟨k, hk⟩ : ∃ k : ℕ, (k : ℤ) = i + n := ⟨(i + n).toNat, by omega⟩
    obtain ⟨l, hl⟩ : ∃ l : ℕ, (l : ℤ) = j + n := ⟨(j + n).toNat, by omega⟩
    have : ∀ x ∈ List.range len ×ˢ List.range len,
        (((fun a => decide (At radius pix i j a) && q a) ∘ fun x : ℕ × ℕ => ((c x.2 : ℚ), (c x.1 : ℚ))) x = true ↔ (x == (l, k)) = true) := by
      rintro ⟨b, a⟩ hx
      rw [mem_pair, List.mem_range, List.mem_range] at hx
      simp only [Function.comp, Bool.and_eq_true, decide_eq_true_eq, beq_iff_eq, Prod.mk.injEq]
      constructor
      · rintro ⟨⟨g1, g2⟩, _⟩
        have e1 := int_eq g1 (hc a (by omega))
        have e2 := int_eq g2 (hc b (by omega))
        omega
      · rintro ⟨rfl, rfl⟩
        have e1 := hc a (by omega)
        have e2 := hc b (by omega)
        have f1 : (a : ℤ) - n = i := by omega
        have f2 : (b : ℤ) - n = j := by omega
        rw [f1] at e1
        rw [f2] at e2
        exact ⟨⟨e1, e2⟩, (hq a b (by omega) (by omega) f1 f2).2 hm⟩
    rw [List.countP_congr this]
    exact List.count_eq_one_of_mem (List.Nodup.product List.nodup_range List.nodup_range) (by
      rw [mem_pair, List.mem_range, List.mem_range]; omega)
  · rw [List.countP_eq_zero]
    rintro ⟨b, a⟩ hx
    rw [mem_pair, List.mem_range, List.mem_range] at hx
    simp only [Function.comp, Bool.and_eq_true, decide_eq_true_eq]
    rintro ⟨⟨g1, g2⟩, g3⟩
    have e1 := int_eq g1 (hc a (by omega))
    have e2 := int_eq g2 (hc b (by omega))
    exact hm ((hq a b (by omega) (by omega) e1.symm e2.symm).1 g3)

theorem exact_round (a k : ℕ) (ha : 1 ≤ a) (ha2 : a ≤ 2 ^ 30) {L : ℚ} (h0 : 0 ≤ L) (hA : L + 2 * (a : ℚ) ≤ 3 * (a * 2 ^ k)) {n : ℕ} (hn : n ≤ 16000)
    (h : angle (a * 2 ^ k) a n ≤ double (L / (a * 2 ^ k))) (i j : ℤ) :
    (interior (a * 2 ^ k) a (angle (a * 2 ^ k) a n)).1.countP (fun p => decide (At (a * 2 ^ k) a i j p))
      = if 1 ≤ n ∧ ((n : ℤ) - 1) ^ 2 ≤ i ^ 2 + j ^ 2 ∧ i ^ 2 + j ^ 2 < (n : ℤ) ^ 2 then 1 else 0 := by
  have ha0 : (0 : ℚ) < a := by exact_mod_cast ha
  have hk0 : (0 : ℚ) < 2 ^ k := by positivity
  have hr : (0 : ℚ) < a * 2 ^ k := by positivity
  have hδ : double ((a : ℚ) / (a * 2 ^ k)) = 1 / 2 ^ k := by
    have e : (a : ℚ) / (a * 2 ^ k) = ((1 : ℤ) : ℚ) / 2 ^ k := by push_cast; field_simp
    rw [e, exact_at 1 k (by norm_num)]; norm_num
  have hang : ∀ m : ℕ, m ≤ 2 ^ 20 → angle (a * 2 ^ k) a m = m / 2 ^ k := by
    intro m
    induction m with
    | zero => intro _; simp [angle]
    | succ m ih =>
      intro hm
      rw [angle_succ, ih (by omega), hδ]
      have e : (m : ℚ) / 2 ^ k + 1 / 2 ^ k = ((m + 1 : ℤ) : ℚ) / 2 ^ k := by push_cast; ring
      rw [e, exact_at _ k (by rw [abs_of_nonneg (by positivity)]; norm_num at hm ⊢; omega)]
      push_cast; rfl
  have hf := far hr ha0 h0 hA (angle_nonneg hr ha0 n) h
  rw [hang n (by omega)] at hf ⊢
  rcases Nat.eq_zero_or_pos n with hz | hpos
  · subst hz
    have : (interior (a * 2 ^ k) a (((0 : ℕ) : ℚ) / 2 ^ k)).1 = [] := by
      unfold interior
      simp only [Nat.cast_zero, zero_div, mul_zero, double_zero, if_pos ha0]
    rw [this]
    simp
  have harc : double (a * 2 ^ k * ((n : ℚ) / 2 ^ k)) = n * a := by
    have e : (a : ℚ) * 2 ^ k * ((n : ℚ) / 2 ^ k) = ((n * a : ℤ) : ℚ) := by push_cast; field_simp
    rw [e, exact_int _ ?_]
    · push_cast; rfl
    · rw [abs_of_nonneg (by positivity)]
      have : n * a ≤ 16000 * 2 ^ 30 := Nat.mul_le_mul hn ha2
      norm_num at this ⊢
      omega
  have hge : ¬ (n : ℚ) * a < a := by
    have : (1 : ℚ) ≤ n := by exact_mod_cast hpos
    nlinarith
  have hext : double ((n : ℚ) * a / (a * 2 ^ k)) = n / 2 ^ k := by
    have e : (n : ℚ) * a / (a * 2 ^ k) = ((n : ℤ) : ℚ) / 2 ^ k := by push_cast; field_simp
    rw [e, exact_at _ k (by rw [abs_of_nonneg (by positivity)]; norm_num; omega)]
    push_cast; rfl
  have hstop : double ((n : ℚ) / 2 ^ k + 1 / 2 ^ k) = (n + 1) / 2 ^ k := by
    have e : (n : ℚ) / 2 ^ k + 1 / 2 ^ k = ((n + 1 : ℤ) : ℚ) / 2 ^ k := by push_cast; ring
    rw [e, exact_at _ k (by rw [abs_of_nonneg (by positivity)]; norm_num; omega)]
    push_cast; rfl
  have hlen : ⌈double (double (((n : ℚ) + 1) / 2 ^ k - -((n : ℚ) / 2 ^ k)) / (1 / 2 ^ k))⌉.toNat = 2 * n + 1 := by
    have e : ((n : ℚ) + 1) / 2 ^ k - -((n : ℚ) / 2 ^ k) = ((2 * n + 1 : ℤ) : ℚ) / 2 ^ k := by push_cast; ring
    have b : |(2 * (n : ℤ) + 1)| ≤ 2 ^ 53 := by rw [abs_of_nonneg (by positivity)]; norm_num; omega
    rw [e, exact_at _ k b]
    have e2 : ((2 * n + 1 : ℤ) : ℚ) / 2 ^ k / (1 / 2 ^ k) = ((2 * n + 1 : ℤ) : ℚ) := by field_simp
    rw [e2, exact_int _ b, Int.ceil_intCast]
    omega
  have hcoord : ∀ m : ℕ, m ≤ 2 * n + 1 → arangeAt (-((n : ℚ) / 2 ^ k)) (1 / 2 ^ k) m = (((m : ℤ) - n : ℤ) : ℚ) / 2 ^ k := by
    intro m hm
    have e1 : double (-((n : ℚ) / 2 ^ k) + 1 / 2 ^ k) = ((1 - n : ℤ) : ℚ) / 2 ^ k := by
      have e : -((n : ℚ) / 2 ^ k) + 1 / 2 ^ k = ((1 - n : ℤ) : ℚ) / 2 ^ k := by push_cast; ring
      rw [e, exact_at _ k (by rw [abs_le]; constructor <;> norm_num <;> omega)]
    unfold arangeAt
    split_ifs with m0 m1
    · subst m0; push_cast; ring
    · subst m1; rw [e1]; push_cast; rfl
    · rw [e1]
      have e2 : ((1 - n : ℤ) : ℚ) / 2 ^ k - -((n : ℚ) / 2 ^ k) = ((1 : ℤ) : ℚ) / 2 ^ k := by push_cast; ring
      rw [e2, exact_at 1 k (by norm_num)]
      have e3 : (m : ℚ) * (((1 : ℤ) : ℚ) / 2 ^ k) = ((m : ℤ) : ℚ) / 2 ^ k := by push_cast; ring
      rw [e3, exact_at _ k (by rw [abs_of_nonneg (by positivity)]; norm_num; omega)]
      have e4 : -((n : ℚ) / 2 ^ k) + ((m : ℤ) : ℚ) / 2 ^ k = (((m : ℤ) - n : ℤ) : ℚ) / 2 ^ k := by push_cast; ring
      rw [e4, exact_at _ k (by rw [abs_le]; constructor <;> norm_num <;> omega)]
  have hlist : (interior (a * 2 ^ k) a ((n : ℚ) / 2 ^ k)).1
      = ((List.range (2 * n + 1) ×ˢ List.range (2 * n + 1)).map fun x =>
          (arangeAt (-((n : ℚ) / 2 ^ k)) (1 / 2 ^ k) x.2, arangeAt (-((n : ℚ) / 2 ^ k)) (1 / 2 ^ k) x.1)).filter (inRing a (1 / 2 ^ k) (n * a)) := by
    rw [← grid_eq]
    unfold interior
    rw [harc] at hf
    simp only [harc, hδ, if_neg hge, if_neg hf, arange, hext, hstop, hlen]
  rw [hlist, count_grid (n := n) (by omega) (by omega) ?_ i j ?_]
  · simp only [show 1 ≤ n from hpos, true_and]
  · intro m hm
    rw [hcoord m hm]
    have e : (a : ℚ) * 2 ^ k * ((((m : ℤ) - n : ℤ) : ℚ) / 2 ^ k) / a - (((m : ℤ) - n : ℤ) : ℚ) = 0 := by field_simp; ring
    rw [e]; norm_num
  · intro p q hp hq e1 e2
    rw [hcoord p hp, hcoord q hq, e1, e2]
    have sqe : ∀ z : ℤ, |z| ≤ 2 ^ 20 → sq (z : ℚ) = ((z ^ 2 : ℤ) : ℚ) := by
      intro z hz
      unfold sq
      have e : (z : ℚ) * z = ((z ^ 2 : ℤ) : ℚ) := by push_cast; ring
      rw [e, exact_int]
      rw [abs_pow]
      calc |z| ^ 2 ≤ (2 ^ 20) ^ 2 := by gcongr
        _ ≤ 2 ^ 53 := by norm_num
    have bi : |i| ≤ 2 ^ 20 := by rw [abs_le]; constructor <;> norm_num <;> omega
    have bj : |j| ≤ 2 ^ 20 := by rw [abs_le]; constructor <;> norm_num <;> omega
    have quot : ∀ z : ℤ, |z| ≤ 2 ^ 20 → double ((z : ℚ) / 2 ^ k / (1 / 2 ^ k)) = z := by
      intro z hz
      have e : (z : ℚ) / 2 ^ k / (1 / 2 ^ k) = z := by field_simp
      rw [e, exact_int _ (hz.trans (by norm_num))]
    have hq1 : double ((n : ℚ) * a / a) = ((n : ℤ) : ℚ) := by
      have e : (n : ℚ) * a / a = ((n : ℤ) : ℚ) := by push_cast; field_simp
      rw [e, exact_int _ (by rw [abs_of_nonneg (by positivity)]; norm_num; omega)]
    have hq2 : double (((n : ℤ) : ℚ) - 1) = (((n : ℤ) - 1 : ℤ) : ℚ) := by
      have e : ((n : ℤ) : ℚ) - 1 = (((n : ℤ) - 1 : ℤ) : ℚ) := by push_cast; ring
      rw [e, exact_int _ (by rw [abs_le]; constructor <;> norm_num <;> omega)]
    unfold inRing
    simp only [decide_eq_true_eq, quot i bi, quot j bj, hq1, hq2]
    rw [sqe i bi, sqe j bj, sqe n (by rw [abs_of_nonneg (by positivity)]; norm_num; omega), sqe _ (by rw [abs_le]; constructor <;> norm_num <;> omega)]
    have e : ((i ^ 2 : ℤ) : ℚ) + ((j ^ 2 : ℤ) : ℚ) = ((i ^ 2 + j ^ 2 : ℤ) : ℚ) := by push_cast; rfl
    rw [e, exact_int _ ?_]
    · rw [Int.cast_le, Int.cast_lt]
    · rw [abs_of_nonneg (by positivity)]
      have a1 : i ^ 2 ≤ (2 ^ 20) ^ 2 := sq_le_sq' (by linarith [(abs_le.1 bi).1]) (abs_le.1 bi).2
      have a2 : j ^ 2 ≤ (2 ^ 20) ^ 2 := sq_le_sq' (by linarith [(abs_le.1 bj).1]) (abs_le.1 bj).2
      norm_num at a1 a2 ⊢
      linarith

/-- If the pixel size is a whole number and divides the body radius by a power of two, nothing is rounded and the grid is complete: every place below the local
radius in whole pixels gets exactly one point, also the centre and the axes. -/
theorem C229_exact (a k : ℕ) (ha : 1 ≤ a) (ha2 : a ≤ 2 ^ 30) (localRadius : ℚ) (h0 : 0 ≤ localRadius) (hL : localRadius ≤ 16000 * (a : ℚ))
    (hA : localRadius + 2 * (a : ℚ) ≤ 3 * (a * 2 ^ k)) (fuel : ℕ) (ps : List (ℚ × ℚ)) (h : points (a * 2 ^ k) a localRadius fuel = some ps) (i j : ℤ) :
    ps.countP (fun p => decide (At (a * 2 ^ k) a i j p)) ≤ 1 ∧
    ∀ K : ℕ, (K : ℚ) + 1 / 1000 ≤ localRadius / a → i ^ 2 + j ^ 2 < (K : ℤ) ^ 2 → ps.countP (fun p => decide (At (a * 2 ^ k) a i j p)) = 1 := by
  have hp : (0 : ℚ) < a := by exact_mod_cast ha
  have hr : (0 : ℚ) < a * 2 ^ k := by positivity
  unfold points at h
  obtain ⟨⟨ps', e⟩, h1, rfl⟩ := Option.map_eq_some_iff.1 h
  have hz : angle (a * 2 ^ k) a 0 = 0 := rfl
  rw [← hz] at h1
  obtain ⟨N, -, hN, hm, rfl⟩ := loop_spec hr hp h0 hL hA fuel 0 (by omega) ps' e h1
  rw [Nat.sub_zero, ← List.range_eq_range'] at *
  have hpos : 0 ≤ i ^ 2 + j ^ 2 := by positivity
  obtain ⟨M, hM⟩ := Int.eq_ofNat_of_zero_le hpos
  have s1 : Nat.sqrt M * Nat.sqrt M ≤ M := Nat.sqrt_le M
  have s2 : M < (Nat.sqrt M + 1) * (Nat.sqrt M + 1) := Nat.lt_succ_sqrt M
  have hroot : ∀ n : ℕ, (1 ≤ n ∧ ((n : ℤ) - 1) ^ 2 ≤ i ^ 2 + j ^ 2 ∧ i ^ 2 + j ^ 2 < (n : ℤ) ^ 2) ↔ n = Nat.sqrt M + 1 := by
    intro n
    rw [hM]
    constructor
    · rintro ⟨g0, g1, g2⟩
      obtain ⟨m, rfl⟩ : ∃ m, n = m + 1 := ⟨n - 1, by omega⟩
      push_cast at g1 g2
      have g2' : M < (m + 1) * (m + 1) := by
        have : (M : ℤ) < ((m : ℤ) + 1) * (m + 1) := by nlinarith
        exact_mod_cast this
      have g1' : m * m ≤ M := by
        have : (m : ℤ) * m ≤ M := by nlinarith
        exact_mod_cast this
      have t1 : m < Nat.sqrt M + 1 := by by_contra hc; push Not at hc; nlinarith [Nat.mul_le_mul hc hc]
      have t2 : Nat.sqrt M < m + 1 := by by_contra hc; push Not at hc; nlinarith [Nat.mul_le_mul hc hc]
      omega
    · rintro rfl
      refine ⟨Nat.le_add_left _ _, ?_, ?_⟩ <;> push_cast
      · have : (Nat.sqrt M : ℤ) * Nat.sqrt M ≤ M := by exact_mod_cast s1
        nlinarith
      · have : (M : ℤ) < (Nat.sqrt M + 1) * (Nat.sqrt M + 1) := by exact_mod_cast s2
        nlinarith
  have count : ((List.range N).flatMap fun m => (interior (a * 2 ^ k) a (angle (a * 2 ^ k) a m)).1).countP (fun p => decide (At (a * 2 ^ k) a i j p))
      = (List.range N).count (Nat.sqrt M + 1) := by
    refine count_flatMap _ _ _ _ fun n hn => ?_
    rw [List.mem_range] at hn
    obtain ⟨a1, a2⟩ := hm n (by omega) hn
    rw [exact_round a k ha ha2 h0 hA a2 a1 i j]
    simp only [hroot]
  rw [count]
  refine ⟨List.nodup_iff_count_le_one.1 List.nodup_range _, ?_⟩
  intro K hK hlt
  refine List.count_eq_one_of_mem List.nodup_range (List.mem_range.2 ?_)
  have hKN : K < N := by
    by_contra hc
    push Not at hc
    have hNK : (N : ℚ) ≤ K := by exact_mod_cast hc
    have := le_made hr hp h0 hL (n := N) (by linarith)
    linarith
  have h2 : (Nat.sqrt M : ℤ) ^ 2 < (K : ℤ) ^ 2 := by
    have : (Nat.sqrt M : ℤ) * Nat.sqrt M ≤ M := by exact_mod_cast s1
    have hM' : (M : ℤ) = i ^ 2 + j ^ 2 := hM.symm
    nlinarith
  have h3 := lt_of_pow_lt_pow_left₀ 2 (by positivity) h2
  have h4 : Nat.sqrt M < K := by exact_mod_cast h3
  omega

example : ∃ ps, points (100 * 2 ^ 5) 100 350 10 = some ps ∧ ps.countP (fun p => decide (At (100 * 2 ^ 5) 100 0 0 p)) = 1 := by
  have h : ((points (100 * 2 ^ 5) 100 350 10).map fun ps => ps.countP fun p => decide (At (100 * 2 ^ 5) 100 0 0 p)) = some 1 := by decide +kernel
  obtain ⟨ps, h1, h2⟩ := Option.map_eq_some_iff.1 h
  exact ⟨ps, h1, h2⟩

end Verif.RingsDouble
