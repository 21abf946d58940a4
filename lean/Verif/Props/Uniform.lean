import Verif.Model.Uniform
import Mathlib.Analysis.SpecialFunctions.Trigonometric.Bounds
import Mathlib.Analysis.Real.Pi.Bounds
import Mathlib.Tactic.Linarith
import Mathlib.Tactic.FieldSimp
import Mathlib.Tactic.Positivity
import Mathlib.Tactic.Ring

/-! Property C132: the points of a mesh of uniform resolution. -/

namespace Verif.Uniform

/-- Rounding to a nearest integer, ties either way. -/
def Nearest (rnd : ℝ → ℤ) : Prop := ∀ x, |(rnd x : ℝ) - x| ≤ 1 / 2

/-! ### How many points -/

theorem sum_sin (x : ℝ) (m : ℕ) : (∑ k ∈ Finset.range m, Real.sin ((2 * k + 1) * x)) * Real.sin x = Real.sin (m * x) ^ 2 := by
  induction m with
  | zero => simp
  | succ m ih =>
    rw [Finset.sum_range_succ, add_mul, ih]
    have e1 : ((m + 1 : ℕ) : ℝ) * x = m * x + x := by push_cast; ring
    have e2 : (2 * (m : ℝ) + 1) * x = (m * x + x) + m * x := by ring
    rw [e1, e2, Real.sin_add (m * x + x) (m * x), Real.sin_add, Real.cos_add]
    have h1 := Real.sin_sq_add_cos_sq (m * x)
    have h2 := Real.sin_sq_add_cos_sq x
    set s := Real.sin (m * x)
    set c := Real.cos (m * x)
    set u := Real.sin x
    set v := Real.cos x
    have hc : c ^ 2 = 1 - s ^ 2 := by linarith
    have hv : v ^ 2 = 1 - u ^ 2 := by linarith
    linear_combination (-(s ^ 2)) * h2

theorem rows_bounds (rnd : ℝ → ℤ) (hr : Nearest rnd) (n : ℕ) (hn : 1 ≤ n) :
    1 ≤ rows rnd n ∧ |(rows rnd n : ℝ) - Real.sqrt (Real.pi * n) / 2| ≤ 1 / 2 := by
  have hn' : (1 : ℝ) ≤ n := by exact_mod_cast hn
  have hpi := Real.pi_gt_three
  have harg : Real.pi / Real.sqrt (cellArea n) = Real.sqrt (Real.pi * n) / 2 := by
    unfold cellArea
    have h4 : 4 * Real.pi / (n : ℝ) = (2 * Real.pi) ^ 2 / (Real.pi * n) := by field_simp; ring
    rw [h4, Real.sqrt_div (by positivity), Real.sqrt_sq (by positivity)]
    have : Real.sqrt (Real.pi * n) ≠ 0 := by positivity
    field_simp
  have h := hr (Real.pi / Real.sqrt (cellArea n))
  rw [harg] at h
  have hs : 1.7 < Real.sqrt (Real.pi * n) := Real.lt_sqrt_of_sq_lt (by nlinarith)
  have hpos : 1 ≤ rnd (Real.sqrt (Real.pi * n) / 2) := by
    have h2 := (abs_le.mp h).1
    have : (0.3 : ℝ) < (rnd (Real.sqrt (Real.pi * n) / 2) : ℝ) := by linarith
    by_contra hneg
    have : (rnd (Real.sqrt (Real.pi * n) / 2) : ℝ) ≤ 0 := by exact_mod_cast (by omega : rnd (Real.sqrt (Real.pi * n) / 2) ≤ 0)
    linarith
  have hrows : ((rows rnd n : ℕ) : ℝ) = (rnd (Real.sqrt (Real.pi * n) / 2) : ℝ) := by
    unfold rows
    rw [harg]
    have : (((rnd (Real.sqrt (Real.pi * n) / 2)).toNat : ℕ) : ℤ) = rnd (Real.sqrt (Real.pi * n) / 2) := Int.toNat_of_nonneg (by omega)
    exact_mod_cast this
  refine ⟨?_, by rw [hrows]; exact h⟩
  have : (1 : ℝ) ≤ (rows rnd n : ℝ) := by rw [hrows]; exact_mod_cast hpos
  exact_mod_cast this

/-- The half step between rows. -/
noncomputable def half (rnd : ℝ → ℤ) (n : ℕ) : ℝ := Real.pi / (2 * rows rnd n)

theorem half_bounds (rnd : ℝ → ℤ) (hr : Nearest rnd) (n : ℕ) (hn : 1 ≤ n) :
    0 < half rnd n ∧ half rnd n ≤ Real.pi / 2 := by
  obtain ⟨h1, _⟩ := rows_bounds rnd hr n hn
  have h1' : (1 : ℝ) ≤ rows rnd n := by exact_mod_cast h1
  have := Real.pi_pos
  unfold half
  refine ⟨by positivity, ?_⟩
  rw [div_le_div_iff₀ (by positivity) (by norm_num)]
  nlinarith

theorem rowAngle_eq (rnd : ℝ → ℤ) (n k : ℕ) : rowAngle rnd n k = (2 * k + 1) * half rnd n := by
  unfold rowAngle half
  by_cases h : (rows rnd n : ℝ) = 0
  · simp [h]
  · field_simp

theorem rowAngle_bounds (rnd : ℝ → ℤ) (hr : Nearest rnd) (n : ℕ) (hn : 1 ≤ n) (k : ℕ) (hk : k < rows rnd n) :
    half rnd n ≤ rowAngle rnd n k ∧ rowAngle rnd n k ≤ Real.pi - half rnd n := by
  obtain ⟨hx, _⟩ := half_bounds rnd hr n hn
  rw [rowAngle_eq]
  constructor
  · nlinarith [(Nat.cast_nonneg k : (0 : ℝ) ≤ k)]
  · have hk' : (k : ℝ) + 1 ≤ rows rnd n := by exact_mod_cast hk
    have hm : Real.pi = 2 * rows rnd n * half rnd n := by
      unfold half
      have : (rows rnd n : ℝ) ≠ 0 := by
        have : (0 : ℝ) ≤ k := Nat.cast_nonneg k
        linarith
      field_simp
    nlinarith

theorem sin_row (rnd : ℝ → ℤ) (hr : Nearest rnd) (n : ℕ) (hn : 1 ≤ n) (k : ℕ) (hk : k < rows rnd n) :
    Real.sin (half rnd n) ≤ Real.sin (rowAngle rnd n k) := by
  obtain ⟨hx, hx2⟩ := half_bounds rnd hr n hn
  obtain ⟨h1, h2⟩ := rowAngle_bounds rnd hr n hn k hk
  rcases le_total (rowAngle rnd n k) (Real.pi / 2) with h | h
  · exact Real.sin_le_sin_of_le_of_le_pi_div_two (by linarith) h h1
  · rw [← Real.sin_pi_sub (rowAngle rnd n k)]
    exact Real.sin_le_sin_of_le_of_le_pi_div_two (by linarith) (by linarith) (by linarith)

theorem ideal_eq (rnd : ℝ → ℤ) (hr : Nearest rnd) (n : ℕ) (hn : 1 ≤ n) (k : ℕ) :
    2 * Real.pi * Real.sin (rowAngle rnd n k) / dphi rnd n = n * half rnd n * Real.sin (rowAngle rnd n k) := by
  obtain ⟨h1, _⟩ := rows_bounds rnd hr n hn
  have h1' : (rows rnd n : ℝ) ≠ 0 := by
    have : (1 : ℝ) ≤ rows rnd n := by exact_mod_cast h1
    linarith
  have hn' : (n : ℝ) ≠ 0 := by
    have : (1 : ℝ) ≤ n := by exact_mod_cast hn
    linarith
  have := Real.pi_ne_zero
  unfold dphi cellArea half
  field_simp
  ring

/-- Size of `n x²` in terms of the number of rows. -/
theorem nx_bounds (rnd : ℝ → ℤ) (hr : Nearest rnd) (n : ℕ) (hn : 1 ≤ n) :
    Real.pi * (rows rnd n - 1 / 2) ^ 2 ≤ n * half rnd n ^ 2 * (rows rnd n) ^ 2 ∧
    n * half rnd n ^ 2 * (rows rnd n) ^ 2 ≤ Real.pi * (rows rnd n + 1 / 2) ^ 2 := by
  obtain ⟨h1, h2⟩ := rows_bounds rnd hr n hn
  have h1' : (1 : ℝ) ≤ rows rnd n := by exact_mod_cast h1
  have hn' : (1 : ℝ) ≤ n := by exact_mod_cast hn
  have hpi := Real.pi_pos
  set m : ℝ := ((rows rnd n : ℕ) : ℝ)
  have hx : (n : ℝ) * half rnd n ^ 2 * m ^ 2 = Real.pi * (Real.sqrt (Real.pi * n) / 2) ^ 2 := by
    rw [div_pow, Real.sq_sqrt (by positivity)]
    have hm : m ≠ 0 := by linarith
    unfold half
    field_simp
    ring
  set q := Real.sqrt (Real.pi * n) / 2
  have hq : 0 ≤ q := by positivity
  rw [abs_le] at h2
  rw [hx]
  constructor
  · apply mul_le_mul_of_nonneg_left _ hpi.le
    nlinarith
  · apply mul_le_mul_of_nonneg_left _ hpi.le
    nlinarith

theorem ideal_ge (rnd : ℝ → ℤ) (hr : Nearest rnd) (n : ℕ) (hn : 1 ≤ n) (k : ℕ) (hk : k < rows rnd n) :
    1 / 2 < n * half rnd n * Real.sin (rowAngle rnd n k) := by
  obtain ⟨hx, hx2⟩ := half_bounds rnd hr n hn
  obtain ⟨h1, _⟩ := rows_bounds rnd hr n hn
  have h1' : (1 : ℝ) ≤ rows rnd n := by exact_mod_cast h1
  have hn' : (1 : ℝ) ≤ n := by exact_mod_cast hn
  obtain ⟨b1, _⟩ := nx_bounds rnd hr n hn
  have hj := Real.mul_le_sin hx.le hx2
  have hs := sin_row rnd hr n hn k hk
  have hpi := Real.pi_gt_three
  set m : ℝ := ((rows rnd n : ℕ) : ℝ)
  set x := half rnd n
  have h3 : (n : ℝ) * x * (2 / Real.pi * x) ≤ n * x * Real.sin (rowAngle rnd n k) :=
    mul_le_mul_of_nonneg_left (by linarith) (by positivity)
  have h4 : (n : ℝ) * x * (2 / Real.pi * x) * (m ^ 2) = 2 / Real.pi * (n * x ^ 2 * m ^ 2) := by ring
  have h5 : 2 * (m - 1 / 2) ^ 2 ≤ (n : ℝ) * x * (2 / Real.pi * x) * (m ^ 2) := by
    rw [h4]
    calc 2 * (m - 1 / 2) ^ 2 = 2 / Real.pi * (Real.pi * (m - 1 / 2) ^ 2) := by field_simp
      _ ≤ 2 / Real.pi * (n * x ^ 2 * m ^ 2) := mul_le_mul_of_nonneg_left b1 (by positivity)
  rcases eq_or_lt_of_le h1' with hm | hm
  · -- a single row: the angle is a right one
    have hx' : x = Real.pi / 2 := by
      show half rnd n = _
      unfold half
      rw [show (rows rnd n : ℝ) = 1 from hm.symm]
      ring
    have hsin : 1 ≤ Real.sin (rowAngle rnd n k) := by
      have : Real.sin x = 1 := by rw [hx', Real.sin_pi_div_two]
      linarith
    rw [hx']
    have : Real.pi / 2 ≤ n * (Real.pi / 2) := by nlinarith
    nlinarith
  · have hm2 : (2 : ℝ) ≤ m := by
      have : 1 < rows rnd n := by
        have : (1 : ℝ) < ((rows rnd n : ℕ) : ℝ) := hm
        exact_mod_cast this
      show (2 : ℝ) ≤ (rows rnd n : ℝ)
      exact_mod_cast this
    have h6 : m ^ 2 < 2 * (2 * (m - 1 / 2) ^ 2) := by nlinarith
    by_contra hcon
    have h7 : (n : ℝ) * x * (2 / Real.pi * x) ≤ 1 / 2 := by linarith
    have h8 : (n : ℝ) * x * (2 / Real.pi * x) * m ^ 2 ≤ 1 / 2 * m ^ 2 := mul_le_mul_of_nonneg_right h7 (by positivity)
    linarith

theorem perRow_near (rnd : ℝ → ℤ) (hr : Nearest rnd) (n : ℕ) (hn : 1 ≤ n) (k : ℕ) (hk : k < rows rnd n) :
    |(perRow rnd n k : ℝ) - n * half rnd n * Real.sin (rowAngle rnd n k)| ≤ 1 / 2 := by
  have hv := ideal_ge rnd hr n hn k hk
  have he := ideal_eq rnd hr n hn k
  set v := n * half rnd n * Real.sin (rowAngle rnd n k)
  have h := hr v
  have hpos : 1 ≤ rnd v := by
    have h2 := (abs_le.mp h).1
    have : (0 : ℝ) < (rnd v : ℝ) := by linarith
    exact_mod_cast this
  have : ((perRow rnd n k : ℕ) : ℝ) = (rnd v : ℝ) := by
    unfold perRow
    rw [he]
    have h1 : (((rnd v).toNat : ℕ) : ℤ) = rnd v := Int.toNat_of_nonneg (by omega)
    have h2 : max 1 (rnd v).toNat = (rnd v).toNat := by omega
    rw [h2]
    exact_mod_cast h1
  rw [this]
  exact h

theorem points_length (rnd : ℝ → ℤ) (n : ℕ) : (points rnd n).length = ∑ k ∈ Finset.range (rows rnd n), perRow rnd n k := by
  unfold points
  rw [List.length_flatMap]
  simp only [List.length_map, List.length_range]
  rw [Finset.sum_range]
  induction rows rnd n with
  | zero => simp
  | succ m ih =>
    rw [List.range_succ, List.map_append, List.sum_append, ih, Fin.sum_univ_castSucc]
    simp

theorem total (rnd : ℝ → ℤ) (hr : Nearest rnd) (n : ℕ) (hn : 1 ≤ n) :
    |((points rnd n).length : ℝ) - n * (half rnd n / Real.sin (half rnd n))| ≤ rows rnd n / 2 := by
  obtain ⟨hx, hx2⟩ := half_bounds rnd hr n hn
  have hsin : 0 < Real.sin (half rnd n) := Real.sin_pos_of_pos_of_lt_pi hx (by linarith [Real.pi_pos])
  have hsum : ∑ k ∈ Finset.range (rows rnd n), n * half rnd n * Real.sin (rowAngle rnd n k) =
      n * (half rnd n / Real.sin (half rnd n)) := by
    rw [← Finset.mul_sum]
    have h := sum_sin (half rnd n) (rows rnd n)
    have hm : (rows rnd n : ℝ) * half rnd n = Real.pi / 2 := by
      obtain ⟨h1, _⟩ := rows_bounds rnd hr n hn
      have : (rows rnd n : ℝ) ≠ 0 := by
        have : (1 : ℝ) ≤ rows rnd n := by exact_mod_cast h1
        linarith
      unfold half
      field_simp
    rw [hm, Real.sin_pi_div_two] at h
    have h' : (∑ k ∈ Finset.range (rows rnd n), Real.sin (rowAngle rnd n k)) = 1 / Real.sin (half rnd n) := by
      rw [eq_div_iff hsin.ne']
      simp only [rowAngle_eq]
      rw [h]
      norm_num
    rw [h']
    ring
  rw [← hsum, points_length]
  push_cast
  rw [← Finset.sum_sub_distrib]
  calc |∑ k ∈ Finset.range (rows rnd n), ((perRow rnd n k : ℝ) - n * half rnd n * Real.sin (rowAngle rnd n k))|
      ≤ ∑ k ∈ Finset.range (rows rnd n), |(perRow rnd n k : ℝ) - n * half rnd n * Real.sin (rowAngle rnd n k)| :=
        Finset.abs_sum_le_sum_abs _ _
    _ ≤ ∑ _k ∈ Finset.range (rows rnd n), (1 / 2 : ℝ) :=
        Finset.sum_le_sum (fun k hk => perRow_near rnd hr n hn k (Finset.mem_range.mp hk))
    _ = rows rnd n / 2 := by
        rw [Finset.sum_const, Finset.card_range, nsmul_eq_mul]
        ring

theorem excess (rnd : ℝ → ℤ) (hr : Nearest rnd) (n : ℕ) (hn : 1 ≤ n) :
    (n : ℝ) ≤ n * (half rnd n / Real.sin (half rnd n)) ∧ n * (half rnd n / Real.sin (half rnd n)) ≤ n + 3 / 2 := by
  obtain ⟨hx, hx2⟩ := half_bounds rnd hr n hn
  obtain ⟨h1, h2⟩ := rows_bounds rnd hr n hn
  have h1' : (1 : ℝ) ≤ rows rnd n := by exact_mod_cast h1
  have hn' : (1 : ℝ) ≤ n := by exact_mod_cast hn
  obtain ⟨_, b2⟩ := nx_bounds rnd hr n hn
  have hpi3 := Real.pi_gt_three
  have hpi4 := Real.pi_lt_d2
  have hsin : 0 < Real.sin (half rnd n) := Real.sin_pos_of_pos_of_lt_pi hx (by linarith [Real.pi_pos])
  set m : ℝ := ((rows rnd n : ℕ) : ℝ) with hmdef
  set x := half rnd n with hxdef
  constructor
  · have : 1 ≤ x / Real.sin x := by
      rw [le_div_iff₀ hsin]
      linarith [Real.sin_le hx.le]
    nlinarith
  · rcases eq_or_lt_of_le h1' with hm | hm
    · have hx' : x = Real.pi / 2 := by
        rw [hxdef]
        unfold half
        rw [← hmdef, ← hm]
        ring
      rw [hx', Real.sin_pi_div_two, div_one]
      have hnx : (n : ℝ) * (Real.pi / 2) ^ 2 ≤ Real.pi * (9 / 4) := by
        rw [hx', ← hm] at b2
        nlinarith
      have hn3 : (n : ℝ) < 3 := by
        by_contra hcon
        have : (3 : ℝ) ≤ n := not_lt.mp hcon
        have : 3 * (Real.pi / 2) ^ 2 ≤ Real.pi * (9 / 4) := le_trans (mul_le_mul_of_nonneg_right this (by positivity)) hnx
        have : 3 * Real.pi * Real.pi ≤ 9 * Real.pi := by nlinarith
        nlinarith
      have hn2 : (n : ℝ) ≤ 2 := by
        have : n < 3 := by exact_mod_cast hn3
        exact_mod_cast (by omega : n ≤ 2)
      nlinarith
    · have hm2 : (2 : ℝ) ≤ m := by
        have : 1 < rows rnd n := by
          have : (1 : ℝ) < ((rows rnd n : ℕ) : ℝ) := hm
          exact_mod_cast this
        rw [hmdef]
        exact_mod_cast this
      have hx4 : x ≤ Real.pi / 4 := by
        rw [hxdef]
        unfold half
        rw [← hmdef, div_le_div_iff₀ (by positivity) (by norm_num)]
        nlinarith
      have hx1 : x ≤ 0.8 := by linarith
      have hs : x - x ^ 3 / 6 < Real.sin x := Real.sin_gt_sub_cube hx
      have hs' : x * (1 - x ^ 2 / 4) < Real.sin x := by nlinarith [pow_pos hx 3]
      have hq : 0 < 1 - x ^ 2 / 4 := by nlinarith
      have hnx2 : (n : ℝ) * x ^ 2 ≤ 5 := by
        have h5 : Real.pi * (m + 1 / 2) ^ 2 ≤ 5 * m ^ 2 := by nlinarith
        have : (n : ℝ) * x ^ 2 * m ^ 2 ≤ 5 * m ^ 2 := le_trans b2 h5
        exact le_of_mul_le_mul_right this (by positivity)
      have hr1 : x / Real.sin x ≤ 1 / (1 - x ^ 2 / 4) := by
        rw [div_le_div_iff₀ hsin hq]
        linarith
      have hr2 : (n : ℝ) * (1 / (1 - x ^ 2 / 4)) ≤ n + 3 / 2 := by
        rw [mul_one_div, div_le_iff₀ hq]
        have : x ^ 2 ≤ 0.64 := by nlinarith
        nlinarith
      calc (n : ℝ) * (x / Real.sin x) ≤ n * (1 / (1 - x ^ 2 / 4)) := mul_le_mul_of_nonneg_left hr1 (by linarith)
        _ ≤ n + 3 / 2 := hr2

/-! ### Distinct points of the sphere -/

/-- A point of the unit sphere. -/
def OnSphere (p : ℝ × ℝ × ℝ) : Prop := p.1 ^ 2 + p.2.1 ^ 2 + p.2.2 ^ 2 = 1

theorem cart_onSphere (θ φ : ℝ) : OnSphere (cart θ φ) := by
  unfold OnSphere cart
  have h1 := Real.sin_sq_add_cos_sq θ
  have h2 := Real.sin_sq_add_cos_sq φ
  simp only
  nlinarith [h1, h2]

theorem cart_inj {θ θ' φ φ' : ℝ} (h0 : 0 < θ) (h1 : θ < Real.pi) (h0' : 0 < θ') (h1' : θ' < Real.pi) (hφ0 : 0 ≤ φ)
    (hφ1 : φ < 2 * Real.pi) (hφ0' : 0 ≤ φ') (hφ1' : φ' < 2 * Real.pi) (h : cart θ φ = cart θ' φ') : θ = θ' ∧ φ = φ' := by
  simp only [cart, Prod.mk.injEq] at h
  obtain ⟨hx, hy, hz⟩ := h
  have hθ : θ = θ' := Real.injOn_cos ⟨h0.le, h1.le⟩ ⟨h0'.le, h1'.le⟩ hz
  refine ⟨hθ, ?_⟩
  have hs : 0 < Real.sin θ := Real.sin_pos_of_pos_of_lt_pi h0 h1
  rw [← hθ] at hx hy
  have hc : Real.cos φ = Real.cos φ' := mul_left_cancel₀ hs.ne' hx
  have hsn : Real.sin φ = Real.sin φ' := mul_left_cancel₀ hs.ne' hy
  have hone : Real.cos (φ - φ') = 1 := by
    rw [Real.cos_sub, hc, hsn]
    have := Real.sin_sq_add_cos_sq φ'
    nlinarith
  have := (Real.cos_eq_one_iff_of_lt_of_lt (by linarith) (by linarith)).mp hone
  linarith

theorem longitude_bounds (rnd : ℝ → ℤ) (n k j : ℕ) (hj : j < perRow rnd n k) :
    0 ≤ longitude rnd n k j ∧ longitude rnd n k j < 2 * Real.pi := by
  have hp : (0 : ℝ) < perRow rnd n k := by exact_mod_cast (by omega : 0 < perRow rnd n k)
  have hj' : (j : ℝ) < perRow rnd n k := by exact_mod_cast hj
  have := Real.pi_pos
  unfold longitude
  refine ⟨by positivity, ?_⟩
  rw [div_lt_iff₀ hp]
  nlinarith

theorem mem_points {rnd : ℝ → ℤ} {n : ℕ} {p : ℝ × ℝ × ℝ} (h : p ∈ points rnd n) :
    ∃ k j, k < rows rnd n ∧ j < perRow rnd n k ∧ p = cart (rowAngle rnd n k) (longitude rnd n k j) := by
  simp only [points, List.mem_flatMap, List.mem_range, List.mem_map] at h
  obtain ⟨k, hk, j, hj, rfl⟩ := h
  exact ⟨k, j, hk, hj, rfl⟩

theorem points_nodup (rnd : ℝ → ℤ) (hr : Nearest rnd) (n : ℕ) (hn : 1 ≤ n) : (points rnd n).Nodup := by
  have hθ : ∀ k, k < rows rnd n → 0 < rowAngle rnd n k ∧ rowAngle rnd n k < Real.pi := by
    intro k hk
    obtain ⟨hx, _⟩ := half_bounds rnd hr n hn
    obtain ⟨h1, h2⟩ := rowAngle_bounds rnd hr n hn k hk
    exact ⟨by linarith, by linarith⟩
  have hx := (half_bounds rnd hr n hn).1
  unfold points
  rw [List.nodup_flatMap]
  constructor
  · intro k hk
    rw [List.mem_range] at hk
    refine List.Nodup.map_on ?_ List.nodup_range
    intro i hi j hj h
    rw [List.mem_range] at hi hj
    obtain ⟨l1, l2⟩ := longitude_bounds rnd n k i hi
    obtain ⟨l3, l4⟩ := longitude_bounds rnd n k j hj
    have := (cart_inj (hθ k hk).1 (hθ k hk).2 (hθ k hk).1 (hθ k hk).2 l1 l2 l3 l4 h).2
    unfold longitude at this
    have hp : (0 : ℝ) < perRow rnd n k := by exact_mod_cast (by omega : 0 < perRow rnd n k)
    have hpi := Real.pi_pos
    rw [div_left_inj' hp.ne'] at this
    have h3 : (i : ℝ) = j := mul_left_cancel₀ (by positivity) this
    exact_mod_cast h3
  · refine List.Pairwise.imp_of_mem ?_ List.nodup_range
    intro k l hk hl hkl p hp hq
    simp only [List.mem_range] at hk hl
    simp only [List.mem_map, List.mem_range] at hp hq
    obtain ⟨i, hi, rfl⟩ := hp
    obtain ⟨j, hj, h⟩ := hq
    obtain ⟨l1, l2⟩ := longitude_bounds rnd n l j hj
    obtain ⟨l3, l4⟩ := longitude_bounds rnd n k i hi
    have := (cart_inj (hθ l hl).1 (hθ l hl).2 (hθ k hk).1 (hθ k hk).2 l1 l2 l3 l4 h).1
    rw [rowAngle_eq, rowAngle_eq] at this
    have h2 := mul_right_cancel₀ hx.ne' this
    have h3 : (l : ℝ) = k := by linarith
    exact hkl (by exact_mod_cast h3.symm)

/-! ### The mesh -/

theorem points_ne_nil (rnd : ℝ → ℤ) (hr : Nearest rnd) (n : ℕ) (hn : 1 ≤ n) : 2 ≤ (points rnd n).length := by
  have h := total rnd hr n hn
  have he := (excess rnd hr n hn).1
  obtain ⟨h1, h2⟩ := rows_bounds rnd hr n hn
  rcases Nat.lt_or_ge (rows rnd n) 2 with hm | hm
  · have hm1 : rows rnd n = 1 := by omega
    have hx : half rnd n = Real.pi / 2 := by unfold half; rw [hm1]; norm_num
    rw [hx, Real.sin_pi_div_two, hm1, div_one, abs_le] at h
    have hn' : (1 : ℝ) ≤ n := by exact_mod_cast hn
    have hpi := Real.pi_gt_three
    have : (1 : ℝ) < (points rnd n).length := by
      have := h.1
      push_cast at this
      nlinarith
    exact_mod_cast this
  · rw [points_length]
    have : ∀ k ∈ Finset.range (rows rnd n), 1 ≤ perRow rnd n k := fun k _ => le_max_left _ _
    have h3 := Finset.card_nsmul_le_sum (Finset.range (rows rnd n)) (fun k => perRow rnd n k) 1 this
    rw [Finset.card_range, smul_eq_mul, mul_one] at h3
    omega

/-- The first two points of the mesh and one of its last row, when there are two points in the first row. -/
theorem row_mem (rnd : ℝ → ℤ) (n k j : ℕ) (hk : k < rows rnd n) (hj : j < perRow rnd n k) :
    cart (rowAngle rnd n k) (longitude rnd n k j) ∈ points rnd n := by
  simp only [points, List.mem_flatMap, List.mem_range, List.mem_map]
  exact ⟨k, hk, j, hj, rfl⟩

theorem differ {α : Type} {f g : α → ℝ} {l : List α} {a : α} (ha : a ∈ l) (h : f a ≠ g a) : l.map f ≠ l.map g := by
  intro he
  exact h (List.map_inj_left.mp he a ha)

theorem threeRows_of (rnd : ℝ → ℤ) (hr : Nearest rnd) (n : ℕ) (hn : 2 ≤ n) : threeRows (points rnd n) = true := by
  have hn1 : 1 ≤ n := by omega
  obtain ⟨h1, h2⟩ := rows_bounds rnd hr n hn1
  obtain ⟨hx, hx2⟩ := half_bounds rnd hr n hn1
  have hpi := Real.pi_gt_three
  have h00 := row_mem rnd n 0 0 (by omega) (lt_of_lt_of_le Nat.one_pos (le_max_left _ _))
  have hl0 : longitude rnd n 0 0 = 0 := by simp [longitude]
  have ha0 : rowAngle rnd n 0 = half rnd n := by rw [rowAngle_eq]; push_cast; ring
  rw [hl0, ha0] at h00
  have hsin : 0 < Real.sin (half rnd n) := Real.sin_pos_of_pos_of_lt_pi hx (by linarith)
  unfold threeRows
  rw [decide_eq_true_iff]
  refine ⟨differ h00 ?_, ?_, ?_⟩
  · simp only [cart, Real.cos_zero, Real.sin_zero, mul_one, mul_zero]
    exact hsin.ne'
  · -- the last row has a point of positive first and non-positive third coordinate
    have hlast := row_mem rnd n (rows rnd n - 1) 0 (by omega) (lt_of_lt_of_le Nat.one_pos (le_max_left _ _))
    have hll : longitude rnd n (rows rnd n - 1) 0 = 0 := by simp [longitude]
    have hal : rowAngle rnd n (rows rnd n - 1) = Real.pi - half rnd n := by
      rw [rowAngle_eq]
      have : (((rows rnd n - 1 : ℕ)) : ℝ) = rows rnd n - 1 := by push_cast [Nat.cast_sub h1]; ring
      rw [this]
      unfold half
      have : (rows rnd n : ℝ) ≠ 0 := by
        have : (1 : ℝ) ≤ rows rnd n := by exact_mod_cast h1
        linarith
      field_simp
      ring
    rw [hll, hal] at hlast
    refine differ hlast ?_
    simp only [cart, Real.cos_zero, mul_one, Real.sin_pi_sub, Real.cos_pi_sub]
    have : 0 ≤ Real.cos (half rnd n) := Real.cos_nonneg_of_neg_pi_div_two_le_of_le (by linarith) hx2
    linarith
  · rcases Nat.lt_or_ge (rows rnd n) 2 with hm | hm
    · have hm1 : rows rnd n = 1 := by omega
      have hxe : half rnd n = Real.pi / 2 := by unfold half; rw [hm1]; norm_num
      have hp : 3 ≤ perRow rnd n 0 := by
        have h := perRow_near rnd hr n hn1 0 (by omega)
        rw [ha0, hxe, Real.sin_pi_div_two, abs_le] at h
        have hn' : (2 : ℝ) ≤ n := by exact_mod_cast hn
        have : (2 : ℝ) < perRow rnd n 0 := by nlinarith [h.1]
        exact_mod_cast this
      have h01 := row_mem rnd n 0 1 (by omega) (by omega)
      refine differ h01 ?_
      rw [ha0, hxe]
      simp only [cart, Real.sin_pi_div_two, Real.cos_pi_div_two, one_mul]
      have hp' : (3 : ℝ) ≤ perRow rnd n 0 := by exact_mod_cast hp
      refine (Real.sin_pos_of_pos_of_lt_pi ?_ ?_).ne'
      · unfold longitude
        positivity
      · unfold longitude
        rw [div_lt_iff₀ (by linarith)]
        push_cast
        nlinarith
    · refine differ h00 ?_
      simp only [cart, Real.sin_zero, mul_zero]
      have hx4 : half rnd n < Real.pi / 2 := by
        unfold half
        have : (2 : ℝ) ≤ rows rnd n := by exact_mod_cast hm
        rw [div_lt_div_iff₀ (by positivity) (by norm_num)]
        nlinarith
      exact (Real.cos_pos_of_mem_Ioo ⟨by linarith, hx4⟩).ne

theorem threeRows_one (rnd : ℝ → ℤ) (hr : Nearest rnd) : threeRows (points rnd 1) = false := by
  obtain ⟨h1, h2⟩ := rows_bounds rnd hr 1 le_rfl
  have hpi := Real.pi_gt_three
  have hpi4 := Real.pi_lt_d2
  have hm1 : rows rnd 1 = 1 := by
    have hs : Real.sqrt (Real.pi * ((1 : ℕ) : ℝ)) < 2 := by
      rw [Real.sqrt_lt' (by norm_num)]
      push_cast
      linarith
    have h2' := (abs_le.mp h2).2
    rw [Nat.cast_one, mul_one] at hs h2'
    have : (rows rnd 1 : ℝ) < 2 := by linarith
    have : rows rnd 1 < 2 := by exact_mod_cast this
    omega
  have hx : half rnd 1 = Real.pi / 2 := by unfold half; rw [hm1]; norm_num
  have ha0 : rowAngle rnd 1 0 = Real.pi / 2 := by rw [rowAngle_eq, hx]; push_cast; ring
  have hp : perRow rnd 1 0 = 2 := by
    have h := perRow_near rnd hr 1 le_rfl 0 (by omega)
    rw [ha0, hx, Real.sin_pi_div_two, abs_le] at h
    push_cast at h
    have h3 : (1 : ℝ) < perRow rnd 1 0 := by linarith [h.1]
    have h4 : (perRow rnd 1 0 : ℝ) < 3 := by linarith [h.2]
    have h5 : 1 < perRow rnd 1 0 := by exact_mod_cast h3
    have h6 : perRow rnd 1 0 < 3 := by exact_mod_cast h4
    omega
  unfold threeRows
  rw [decide_eq_false_iff_not]
  rintro ⟨_, _, h⟩
  apply h
  apply List.map_inj_left.mpr
  intro p hpm
  obtain ⟨k, j, hk, hj, rfl⟩ := mem_points hpm
  have hk0 : k = 0 := by omega
  subst hk0
  rw [hp] at hj
  simp only [cart, ha0, Real.sin_pi_div_two, Real.cos_pi_div_two, one_mul, longitude, hp]
  have : j = 0 ∨ j = 1 := by omega
  rcases this with rfl | rfl
  · simp
  · have : 2 * Real.pi * ((1 : ℕ) : ℝ) / ((2 : ℕ) : ℝ) = Real.pi := by push_cast; ring
    rw [this, Real.sin_pi]

theorem nPoints_ge {pix radius : ℝ} (hp : 0 < pix) (hr : 0 < radius) (k : ℕ) (hk : 0 < k) :
    k ≤ nPoints (pix / radius) ↔ k * pix ^ 2 ≤ 4 * Real.pi * radius ^ 2 := by
  unfold nPoints
  rw [Nat.le_floor_iff' (by omega), div_pow, div_div_eq_mul_div, le_div_iff₀ (by positivity)]

theorem mesh_eq {rnd : ℝ → ℤ} (hr : Nearest rnd) {pix radius : ℝ} {ps : List (ℝ × ℝ × ℝ)} (h : mesh rnd pix radius = some ps) :
    2 ≤ nPoints (pix / radius) ∧
    ps = ((points rnd (nPoints (pix / radius))).set 0 (0, 0, 1)).set ((points rnd (nPoints (pix / radius))).length - 1) (0, 0, -1) := by
  unfold mesh distribute at h
  by_cases hn : nPoints (pix / radius) < 1
  · simp [hn] at h
  · simp only [hn, if_false] at h
    by_cases h1 : nPoints (pix / radius) = 1
    · rw [h1, threeRows_one rnd hr] at h
      simp at h
    · by_cases h3 : threeRows (points rnd (nPoints (pix / radius))) = true
      · simp only [h3, if_true, Option.some.injEq] at h
        exact ⟨by omega, h.symm⟩
      · simp [h3] at h

/-- C132 (how many faces): a mesh of uniform resolution has as many points as squares of side `pix` fill the surface of the body, up to
half the square root of that number and three. -/
theorem C132_count (rnd : ℝ → ℤ) (hr : Nearest rnd) (pix radius : ℝ) (hp : 0 < pix) (hR : 0 < radius) (ps : List (ℝ × ℝ × ℝ))
    (h : mesh rnd pix radius = some ps) :
    |(ps.length : ℝ) - 4 * Real.pi * radius ^ 2 / pix ^ 2| ≤ Real.sqrt (4 * Real.pi * radius ^ 2 / pix ^ 2) / 2 + 3 := by
  obtain ⟨hn, rfl⟩ := mesh_eq hr h
  rw [List.length_set, List.length_set]
  have hn1 : 1 ≤ nPoints (pix / radius) := by omega
  have ht := total rnd hr _ hn1
  obtain ⟨he1, he2⟩ := excess rnd hr _ hn1
  obtain ⟨hm1, hm2⟩ := rows_bounds rnd hr _ hn1
  have hA : 4 * Real.pi / (pix / radius) ^ 2 = 4 * Real.pi * radius ^ 2 / pix ^ 2 := by
    rw [div_pow, div_div_eq_mul_div]
  have hf1 : (nPoints (pix / radius) : ℝ) ≤ 4 * Real.pi * radius ^ 2 / pix ^ 2 := by
    rw [← hA]
    exact Nat.floor_le (by have := Real.pi_pos; positivity)
  have hf2 : 4 * Real.pi * radius ^ 2 / pix ^ 2 < nPoints (pix / radius) + 1 := by
    rw [← hA]
    exact Nat.lt_floor_add_one _
  set A := 4 * Real.pi * radius ^ 2 / pix ^ 2
  set n := nPoints (pix / radius)
  have hpi4 := Real.pi_lt_d2
  have hA0 : 0 ≤ A := le_trans (Nat.cast_nonneg n) hf1
  have hq : Real.sqrt (Real.pi * n) ≤ 2 * Real.sqrt A := by
    rw [show (2 : ℝ) * Real.sqrt A = Real.sqrt (2 ^ 2 * A) by rw [Real.sqrt_mul (by norm_num), Real.sqrt_sq (by norm_num)]]
    apply Real.sqrt_le_sqrt
    nlinarith [Real.pi_pos, (Nat.cast_nonneg n : (0 : ℝ) ≤ n)]
  rw [abs_le] at ht hm2 ⊢
  constructor <;> linarith [ht.1, ht.2, hm2.1, hm2.2]

/-- C132 (where they are): the points are distinct points of the unit sphere, and both poles are among them. -/
theorem C132_sphere (rnd : ℝ → ℤ) (hr : Nearest rnd) (pix radius : ℝ) (ps : List (ℝ × ℝ × ℝ))
    (h : mesh rnd pix radius = some ps) :
    (∀ p ∈ ps, OnSphere p) ∧ ps.Nodup ∧ (0, 0, 1) ∈ ps ∧ (0, 0, -1) ∈ ps := by
  obtain ⟨hn, rfl⟩ := mesh_eq hr h
  have hn1 : 1 ≤ nPoints (pix / radius) := by omega
  set n := nPoints (pix / radius)
  have hlen := points_ne_nil rnd hr n hn1
  have hnd := points_nodup rnd hr n hn1
  have hall : ∀ p ∈ points rnd n, OnSphere p ∧ p.2.2 ≠ 1 ∧ p.2.2 ≠ -1 := by
    intro p hp
    obtain ⟨k, j, hk, hj, rfl⟩ := mem_points hp
    refine ⟨cart_onSphere _ _, ?_⟩
    obtain ⟨hx, _⟩ := half_bounds rnd hr n hn1
    obtain ⟨h1, h2⟩ := rowAngle_bounds rnd hr n hn1 k hk
    have hs : 0 < Real.sin (rowAngle rnd n k) := Real.sin_pos_of_pos_of_lt_pi (by linarith) (by linarith)
    have hsc := Real.sin_sq_add_cos_sq (rowAngle rnd n k)
    constructor <;> intro hc <;> simp only [cart] at hc <;> rw [hc] at hsc <;> nlinarith
  have hN : ((0, 0, 1) : ℝ × ℝ × ℝ) ∉ points rnd n := fun hm => (hall _ hm).2.1 rfl
  have hS : ((0, 0, -1) : ℝ × ℝ × ℝ) ∉ points rnd n := fun hm => (hall _ hm).2.2 rfl
  have hNS : ((0, 0, -1) : ℝ × ℝ × ℝ) ≠ (0, 0, 1) := by
    intro he
    simp only [Prod.mk.injEq] at he
    linarith [he.2.2]
  generalize points rnd n = qs at *
  obtain ⟨a, rest, rfl⟩ : ∃ a rest, qs = a :: rest := by
    cases qs with
    | nil => simp at hlen
    | cons a rest => exact ⟨a, rest, rfl⟩
  have hrest : rest ≠ [] := by
    intro he
    rw [he] at hlen
    simp at hlen
  obtain ⟨mid, b, rfl⟩ : ∃ mid b, rest = mid ++ [b] := ⟨rest.dropLast, rest.getLast hrest, (List.dropLast_append_getLast hrest).symm⟩
  have hset : ((a :: (mid ++ [b])).set 0 (0, 0, 1)).set ((a :: (mid ++ [b])).length - 1) (0, 0, -1) =
      (0, 0, 1) :: (mid ++ [((0, 0, -1) : ℝ × ℝ × ℝ)]) := by
    simp
  rw [hset]
  have hmid : ∀ p ∈ mid, OnSphere p ∧ p ≠ (0, 0, 1) ∧ p ≠ (0, 0, -1) := by
    intro p hp
    have hpm : p ∈ a :: (mid ++ [b]) := by simp [hp]
    exact ⟨(hall p hpm).1, fun he => hN (he ▸ hpm), fun he => hS (he ▸ hpm)⟩
  have hmidnd : mid.Nodup := by
    have := (List.nodup_cons.mp hnd).2
    exact (List.nodup_append.mp this).1
  refine ⟨?_, ?_, by simp, by simp⟩
  · intro p hp
    simp only [List.mem_cons, List.mem_append, List.not_mem_nil, or_false] at hp
    rcases hp with rfl | hp | rfl
    · simp [OnSphere]
    · exact (hmid p hp).1
    · simp [OnSphere]
  · rw [List.nodup_cons, List.nodup_append]
    refine ⟨?_, hmidnd, by simp, ?_⟩
    · intro hm
      rcases List.mem_append.mp hm with hm | hm
      · exact (hmid _ hm).2.1 rfl
      · exact hNS (List.mem_singleton.mp hm).symm
    · intro p hp q hq he
      rw [List.mem_singleton] at hq
      exact (hmid p hp).2.2 (he.trans hq)

/-- C132 (which sizes give a mesh): exactly those for which at least two squares of side `pix` fit on the surface. -/
theorem C132_fits_partial (rnd : ℝ → ℤ) (hr : Nearest rnd) (pix radius : ℝ) (hp : 0 < pix) (hR : 0 < radius) :
    (∃ ps, mesh rnd pix radius = some ps) ↔ 2 * pix ^ 2 ≤ 4 * Real.pi * radius ^ 2 := by
  have hk := nPoints_ge hp hR 2 (by norm_num)
  push_cast at hk
  rw [← hk]
  constructor
  · rintro ⟨ps, h⟩
    exact (mesh_eq hr h).1
  · intro h
    refine ⟨((points rnd (nPoints (pix / radius))).set 0 (0, 0, 1)).set
      ((points rnd (nPoints (pix / radius))).length - 1) (0, 0, -1), ?_⟩
    have h1 : ¬ nPoints (pix / radius) < 1 := by omega
    unfold mesh distribute
    simp only [h1, if_false, threeRows_of rnd hr _ h, if_true]

/-- C132 (no bound is checked): the size of a face may be set to any positive number, but a surface whose faces are wider than about
two and a half radii of the body cannot be made: either not one point fits and None is indexed, or two coordinates of the points agree
and one of them is dropped, so that the poles no longer fit. -/
theorem C132_coarse_fails (rnd : ℝ → ℤ) (hr : Nearest rnd) (radius : ℝ) (hR : 0 < radius) :
    ∃ pix, 0 < pix ∧ mesh rnd pix radius = none := by
  refine ⟨3 * radius, by positivity, ?_⟩
  cases h : mesh rnd (3 * radius) radius with
  | none => rfl
  | some ps =>
    have := (C132_fits_partial rnd hr (3 * radius) radius (by positivity) hR).mp ⟨ps, h⟩
    nlinarith [Real.pi_lt_d2, pow_pos hR 2]

/-- There is a rounding to the nearest integer. -/
example : Nearest (fun x => round x) := fun x => by rw [abs_sub_comm]; exact abs_sub_round x

/-- A mesh of faces of one tenth of the radius exists, with about 1256 faces. -/
example : ∃ ps, mesh (fun x => round x) 1 10 = some ps ∧ 1200 < ps.length ∧ ps.length < 1300 := by
  have hr : Nearest (fun x => round x) := fun x => by rw [abs_sub_comm]; exact abs_sub_round x
  obtain ⟨ps, h⟩ := (C132_fits_partial _ hr 1 10 (by norm_num) (by norm_num)).mpr (by nlinarith [Real.pi_gt_three])
  have hc := C132_count _ hr 1 10 (by norm_num) (by norm_num) ps h
  have h1 := Real.pi_gt_d2
  have h2 := Real.pi_lt_d2
  have hs : Real.sqrt (4 * Real.pi * 10 ^ 2 / 1 ^ 2) ≤ 36 := by
    rw [Real.sqrt_le_left (by norm_num)]
    nlinarith
  rw [abs_le] at hc
  refine ⟨ps, h, ?_, ?_⟩
  · have : (1200 : ℝ) < ps.length := by linarith [hc.1]
    exact_mod_cast this
  · have : (ps.length : ℝ) < 1300 := by linarith [hc.2]
    exact_mod_cast this

end Verif.Uniform
