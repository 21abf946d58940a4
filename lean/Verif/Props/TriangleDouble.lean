import Verif.Model.TriangleDouble
import Verif.Model.Sampling
import Verif.Props.DiffusionDouble

/-!
C227: the choice of a triangle of a face in double precision.
-/

namespace Verif.TriangleDouble

open Verif.Parallel Verif.DiffusionDouble

theorem sumOf_near {ι : Type} (q x : ι → ℚ) (l : List ι) (hx : ∀ i ∈ l, 0 ≤ x i) (hq : ∀ i ∈ l, |q i - x i| ≤ unit * |x i|) :
    |sumOf double (l.map q) - (l.map x).sum| ≤ ((1 + unit) ^ (l.length + 1) - 1) * (l.map x).sum ∧ 0 ≤ (l.map x).sum := by
  induction l using List.reverseRecOn with
  | nil => simp [sumOf]
  | append_singleton l i ih =>
    obtain ⟨i1, i2⟩ := ih (fun j hj => hx j (by simp [hj])) fun j hj => hq j (by simp [hj])
    have hxi := hx i (by simp)
    have e : sumOf double ((l ++ [i]).map q) = double (sumOf double (l.map q) + q i) := by
      unfold sumOf; rw [List.map_append, List.foldl_append]; rfl
    rw [e]
    simp only [List.map_append, List.map_cons, List.map_nil, List.sum_append, List.sum_cons, List.sum_nil, add_zero, List.length_append,
      List.length_cons, List.length_nil, zero_add]
    have b := bump (sumOf double (l.map q)) (q i) 1 (l.map x).sum (x i) (l.map x).sum l.length one_pos (le_of_eq (abs_of_nonneg i2))
      (by rw [mul_one]; exact i1) (by rw [mul_one]; exact hq i (by simp))
    rw [mul_one, abs_of_nonneg hxi] at b
    exact ⟨b.1, by linarith⟩

/-- The share of the first triangles in the area of the face. -/
def share (areas : List ℚ) (k : ℕ) : ℚ := (areas.take (k + 1)).sum / areas.sum

theorem sum_div (l : List ℚ) (s : ℚ) : (l.map fun a => a / s).sum = l.sum / s := by
  induction l with
  | nil => simp
  | cons a l ih => simp [ih, add_div]

theorem takeWhile_true {α : Type} (p : α → Bool) (l : List α) (a : α) (h : a ∈ l.takeWhile p) : p a = true := by
  induction l with
  | nil => cases h
  | cons b l ih =>
    rw [List.takeWhile_cons] at h
    split_ifs at h with hb
    · rcases List.mem_cons.1 h with rfl | h
      · exact hb
      · exact ih h
    · cases h

theorem take_sum_le (l : List ℚ) (h : ∀ a ∈ l, 0 < a) (k : ℕ) : (l.take k).sum ≤ l.sum := by
  have e : (l.take k).sum + (l.drop k).sum = l.sum := by rw [← List.sum_append, List.take_append_drop]
  have : 0 ≤ (l.drop k).sum := List.sum_nonneg fun a ha => (h a (List.mem_of_mem_drop ha)).le
  linarith

theorem cumulative_near (areas : List ℚ) (hpos : ∀ a ∈ areas, 0 < a) (hlen : areas.length < 2 ^ 50) (k : ℕ) (hk : k < areas.length) :
    |sumOf double ((weights double areas).take (k + 1)) - share areas k| ≤ 3 * (areas.length + 1) * unit := by
  have hne : areas ≠ [] := by rintro rfl; simp at hk
  have hu := unit_pos
  obtain ⟨s1, s2⟩ := sumOf_near id id areas (fun a ha => (hpos a ha).le) (fun a _ => by simp; positivity)
  simp only [List.map_id] at s1 s2
  have hA : 0 < areas.sum := List.sum_pos _ hpos hne
  set g := (1 + unit) ^ (areas.length + 1) - 1 with hgdef
  have hg := growth (areas.length + 1) (by omega)
  rw [← hgdef] at hg
  have hg0 : 0 ≤ g := by
    have := one_le_pow₀ (show (1 : ℚ) ≤ 1 + unit by linarith) (n := areas.length + 1)
    linarith
  have hcu : ((areas.length + 1 : ℕ) : ℚ) * unit ≤ 1 / 8 := by
    have h1 : ((areas.length + 1 : ℕ) : ℚ) ≤ 2 ^ 50 := by exact_mod_cast (by omega : areas.length + 1 ≤ 2 ^ 50)
    calc ((areas.length + 1 : ℕ) : ℚ) * unit ≤ 2 ^ 50 * unit := mul_le_mul_of_nonneg_right h1 hu.le
      _ = 1 / 8 := by unfold unit; norm_num
  have hg17 : g ≤ 1 / 7 := by linarith
  set s := sumOf double areas with hs
  set A := areas.sum with hAdef
  have h3 := abs_le.1 s1
  have hsA : 6 / 7 * A ≤ s := by nlinarith [h3.1]
  have hs0 : 0 < s := by linarith
  have ew : (weights double areas).take (k + 1) = (areas.take (k + 1)).map fun a => double (a / s) := by
    unfold weights; rw [List.map_take]
  obtain ⟨c1, c2⟩ := sumOf_near (fun a => double (a / s)) (fun a => a / s) (areas.take (k + 1))
    (fun a ha => div_nonneg (hpos a (List.mem_of_mem_take ha)).le hs0.le) fun a _ => double_rel _
  have esum : ((areas.take (k + 1)).map fun a => a / s).sum = (areas.take (k + 1)).sum / s := sum_div _ _
  rw [ew]
  rw [esum] at c1 c2
  have hlen' : (areas.take (k + 1)).length + 1 ≤ areas.length + 1 := by rw [List.length_take]; omega
  have hpow := pow_le_pow_right₀ (show (1 : ℚ) ≤ 1 + unit by linarith) hlen'
  have hPA := take_sum_le areas hpos (k + 1)
  have hP0 : 0 ≤ (areas.take (k + 1)).sum := List.sum_nonneg fun a ha => (hpos a (List.mem_of_mem_take ha)).le
  unfold share
  set P := (areas.take (k + 1)).sum
  rw [← hAdef] at hPA ⊢
  set c := sumOf double ((areas.take (k + 1)).map fun a => double (a / s))
  have c3 : |c - P / s| ≤ g * (P / s) := c1.trans (mul_le_mul_of_nonneg_right (by linarith) c2)
  have c4 : |P / s - P / A| ≤ g * (P / s) := by
    have e : P / s - P / A = P / s * ((A - s) / A) := by field_simp
    rw [e, abs_mul, abs_of_nonneg c2, mul_comm]
    refine mul_le_mul_of_nonneg_right ?_ c2
    rw [abs_div, abs_of_pos hA, div_le_iff₀ hA, abs_sub_comm]
    exact s1
  have c5 : P / s ≤ 7 / 6 := by
    rw [div_le_iff₀ hs0]; linarith
  have c6 := abs_add_le (c - P / s) (P / s - P / A)
  rw [sub_add_sub_cancel] at c6
  have c7 : g * (P / s) ≤ g * (7 / 6) := mul_le_mul_of_nonneg_left c5 hg0
  have hL0 : 0 ≤ ((areas.length : ℚ) + 1) * unit := by positivity
  push_cast at hg
  nlinarith

theorem takeWhile_congr {α : Type} (p q : α → Bool) (l : List α) (h : ∀ a ∈ l, p a = q a) : l.takeWhile p = l.takeWhile q := by
  induction l with
  | nil => rfl
  | cons a l ih =>
    rw [List.takeWhile_cons, List.takeWhile_cons, h a (by simp), ih fun b hb => h b (by simp [hb])]

/-- The choice is the exact one unless the number that is drawn is within a few rounding errors of a border between two triangles: with `n` triangles,
`3 (n + 1)` times `2 ^ -53`.  Missing: a triangle should be found for every number, see `C227_found_fails`. -/
theorem C227_choice_partial (areas : List ℚ) (hpos : ∀ a ∈ areas, 0 < a) (hlen : areas.length < 2 ^ 50) (u : ℚ)
    (hu : ∀ k, k < areas.length → 3 * (areas.length + 1) * 2⁻¹ ^ 53 < |u - (areas.take (k + 1)).sum / areas.sum|) :
    index double areas u = Verif.Sampling.searchLeft (Verif.Sampling.cumAreas (areas.map fun a : ℚ => (a : ℝ))) u := by
  unfold index Verif.Sampling.searchLeft cumulative Verif.Sampling.cumAreas
  rw [List.length_map, List.takeWhile_map, List.takeWhile_map, List.length_map, List.length_map]
  congr 1
  apply takeWhile_congr
  intro k hk
  rw [List.mem_range] at hk
  have h1 := cumulative_near areas hpos hlen k hk
  have h2 := hu k hk
  have cast_list : ∀ l : List ℚ, (l.map fun a : ℚ => (a : ℝ)).sum = ((l.sum : ℚ) : ℝ) := by
    intro l
    induction l with
    | nil => simp
    | cons a l ih => rw [List.map_cons, List.sum_cons, List.sum_cons, ih, Rat.cast_add]
  have e : (((areas.map fun a : ℚ => (a : ℝ)).take (k + 1)).map (· / (areas.map fun a : ℚ => (a : ℝ)).sum)).sum = ((share areas k : ℚ) : ℝ) := by
    rw [cast_list, ← List.map_take, List.map_map]
    have e1 : ((fun x : ℝ => x / ((areas.sum : ℚ) : ℝ)) ∘ fun a : ℚ => (a : ℝ)) = fun a : ℚ => ((a / areas.sum : ℚ) : ℝ) := by
      funext a; exact (Rat.cast_div _ _).symm
    rw [e1]
    have := cast_list ((areas.take (k + 1)).map fun a => a / areas.sum)
    rw [List.map_map] at this
    refine Eq.trans this ?_
    congr 1
    exact sum_div _ _
  simp only [Function.comp]
  rw [decide_eq_decide, e]
  rw [show ((share areas k : ℚ) : ℝ) < (u : ℝ) ↔ share areas k < u from Rat.cast_lt]
  change _ < |u - share areas k| at h2
  rw [show (2⁻¹ : ℚ) ^ 53 = unit from rfl] at h2
  have h3 := abs_le.1 h1
  rcases le_total 0 (u - share areas k) with h4 | h4
  · rw [abs_of_nonneg h4] at h2
    constructor <;> intro _ <;> linarith [h3.1, h3.2]
  · rw [abs_of_nonpos h4] at h2
    constructor <;> intro _ <;> linarith [h3.1, h3.2]

/-- A triangle is found for every number below 1 by a few rounding errors. -/
theorem C227_found_partial (areas : List ℚ) (hne : areas ≠ []) (hpos : ∀ a ∈ areas, 0 < a) (hlen : areas.length < 2 ^ 50) (u : ℚ)
    (hu : u ≤ 1 - 3 * (areas.length + 1) * 2⁻¹ ^ 53) : index double areas u < areas.length := by
  have hn : 0 < areas.length := List.length_pos_iff.2 hne
  have h1 := cumulative_near areas hpos hlen (areas.length - 1) (by omega)
  have hA : 0 < areas.sum := List.sum_pos _ hpos hne
  have e : share areas (areas.length - 1) = 1 := by
    unfold share
    rw [show areas.length - 1 + 1 = areas.length by omega, List.take_length, div_self hA.ne']
  rw [e] at h1
  rw [show (2⁻¹ : ℚ) ^ 53 = unit from rfl] at hu
  have h2 := (abs_le.1 h1).1
  have hlast : sumOf double ((weights double areas).take (areas.length - 1 + 1)) ∈ cumulative double areas :=
    List.mem_map.2 ⟨areas.length - 1, List.mem_range.2 (by omega), rfl⟩
  unfold index
  by_contra hcon
  have hl : (cumulative double areas).length = areas.length := by unfold cumulative; simp
  have hpre := List.takeWhile_prefix (fun c => decide (c < u)) (l := cumulative double areas)
  have heq := hpre.eq_of_length (by have := hpre.length_le; omega)
  rw [← heq] at hlast
  have := takeWhile_true _ _ _ hlast
  simp only [decide_eq_true_eq] at this
  linarith

/-- A face of one triangle: it is found for every number that can be drawn. -/
theorem C227_one (a u : ℚ) (ha : 0 < a) (hd : double a = a) (hu : u < 1) : index double [a] u = 0 := by
  have h1 : sumOf double [a] = a := by simp [sumOf, hd]
  have h2 : double 1 = 1 := by decide +kernel
  have h3 : cumulative double [a] = [1] := by
    unfold cumulative weights
    rw [h1]
    simp [sumOf, div_self ha.ne', h2]
  unfold index
  rw [h3, List.takeWhile_cons]
  simp [hu.le]

/-- A face of four triangles with areas 1, 4, 1 and 1, and the largest number that a generator can draw, `1 - 2 ^ -53`: the cumulative areas end below it, so
that no triangle is found and the code reads past the end of its table. -/
theorem C227_found_fails : index double [1, 4, 1, 1] (1 - 2⁻¹ ^ 53) = 4 ∧
    (cumulative double [1, 4, 1, 1]).getLast? = some (1 - 2⁻¹ ^ 52) := by
  decide +kernel

/-- Numbers of a grid of step `2 ^ -53` up to 1 in absolute value are not rounded. -/
theorem double_grid (z : ℤ) (h : |z| ≤ 2 ^ 53) : double (z / 2 ^ 53) = z / 2 ^ 53 := by
  have := Verif.Steps.double_exact z (-53) h
  rw [show (2 : ℚ) ^ (-53 : ℤ) = 1 / 2 ^ 53 by norm_num [zpow_neg], mul_one_div] at this
  exact this

/-- The weights of the corners add up to one exactly, and the weights of the second and third corners are in [0, 1], for all numbers that a generator draws
(multiples of `2 ^ -53` below 1).  The weight of the first corner is in [0, 1] except for draws whose sum is `1 + 2 ^ -53`, where it is `- 2 ^ -53`.
Missing: it should not be negative, see `C227_inside_fails`. -/
theorem C227_inside_partial (i j : ℕ) (hi : i < 2 ^ 53) (hj : j < 2 ^ 53) :
    let w := corners double (i / 2 ^ 53) (j / 2 ^ 53)
    w.1 + w.2.1 + w.2.2 = 1 ∧ (0 ≤ w.2.1 ∧ w.2.1 ≤ 1) ∧ (0 ≤ w.2.2 ∧ w.2.2 ≤ 1) ∧ w.1 ≤ 1 ∧
      (if i + j = 2 ^ 53 + 1 then w.1 = -2⁻¹ ^ 53 else 0 ≤ w.1) := by
  intro w
  have hi' : (i : ℚ) < 2 ^ 53 := by exact_mod_cast hi
  have hj' : (j : ℚ) < 2 ^ 53 := by exact_mod_cast hj
  have hi0 : (0 : ℚ) ≤ i := Nat.cast_nonneg i
  have hj0 : (0 : ℚ) ≤ j := Nat.cast_nonneg j
  have one_sub : ∀ z : ℕ, z < 2 ^ 53 → double (1 - (z : ℚ) / 2 ^ 53) = 1 - (z : ℚ) / 2 ^ 53 := by
    intro z hz
    have h := double_grid (2 ^ 53 - z) (by rw [abs_le]; constructor <;> omega)
    have e : (((2 ^ 53 - (z : ℤ) : ℤ)) : ℚ) / 2 ^ 53 = 1 - (z : ℚ) / 2 ^ 53 := by push_cast; ring
    rwa [e] at h
  by_cases hbig : 2 ^ 53 + 2 ≤ i + j
  · have hfold : double ((i : ℚ) / 2 ^ 53 + (j : ℚ) / 2 ^ 53) > 1 := by
      have hb : ((2 ^ 53 + 2 : ℕ) : ℚ) ≤ (i : ℚ) + j := by exact_mod_cast hbig
      have h1 : (1 + 2⁻¹ ^ 52 : ℚ) ≤ (i : ℚ) / 2 ^ 53 + (j : ℚ) / 2 ^ 53 := by
        rw [← add_div, le_div_iff₀ (by positivity)]
        push_cast at hb
        norm_num at hb ⊢
        linarith
      have h2 := double_monotone h1
      have h3 : double (1 + 2⁻¹ ^ 52) = 1 + 2⁻¹ ^ 52 := by decide +kernel
      rw [h3] at h2
      exact lt_of_lt_of_le (by norm_num) h2
    have ew : w = ((i : ℚ) / 2 ^ 53 + (j : ℚ) / 2 ^ 53 - 1, 1 - (i : ℚ) / 2 ^ 53, 1 - (j : ℚ) / 2 ^ 53) := by
      simp only [w, corners]
      rw [if_pos hfold, one_sub i hi, one_sub j hj]
      have e1 : double (1 - (1 - (i : ℚ) / 2 ^ 53)) = (i : ℚ) / 2 ^ 53 := by
        have h := double_grid i (by rw [abs_le]; constructor <;> omega)
        rw [sub_sub_cancel]
        rwa [Int.cast_natCast] at h
      have e2 : double ((i : ℚ) / 2 ^ 53 - (1 - (j : ℚ) / 2 ^ 53)) = (i : ℚ) / 2 ^ 53 + (j : ℚ) / 2 ^ 53 - 1 := by
        have h := double_grid ((i : ℤ) + j - 2 ^ 53) (by rw [abs_le]; constructor <;> omega)
        have e : (((i : ℤ) + j - 2 ^ 53 : ℤ) : ℚ) / 2 ^ 53 = (i : ℚ) / 2 ^ 53 - (1 - (j : ℚ) / 2 ^ 53) := by push_cast; ring
        rw [e] at h
        rw [h]; ring
      rw [e1, e2]
    rw [ew]
    have d1 : (i : ℚ) / 2 ^ 53 ≤ 1 := by rw [div_le_one (by positivity)]; linarith
    have d2 : (j : ℚ) / 2 ^ 53 ≤ 1 := by rw [div_le_one (by positivity)]; linarith
    have d3 : 0 ≤ (i : ℚ) / 2 ^ 53 := by positivity
    have d4 : 0 ≤ (j : ℚ) / 2 ^ 53 := by positivity
    have d5 : 1 ≤ (i : ℚ) / 2 ^ 53 + (j : ℚ) / 2 ^ 53 := by
      rw [← add_div, le_div_iff₀ (by positivity)]
      have hb : ((2 ^ 53 + 2 : ℕ) : ℚ) ≤ (i : ℚ) + j := by exact_mod_cast hbig
      push_cast at hb
      linarith
    dsimp only
    rw [if_neg (by omega)]
    refine ⟨by ring, ⟨?_, ?_⟩, ⟨?_, ?_⟩, ?_, ?_⟩ <;> linarith
  · have hfold : ¬ double ((i : ℚ) / 2 ^ 53 + (j : ℚ) / 2 ^ 53) > 1 := by
      have hb : (i : ℚ) + j ≤ ((2 ^ 53 + 1 : ℕ) : ℚ) := by exact_mod_cast (by omega : i + j ≤ 2 ^ 53 + 1)
      have h1 : (i : ℚ) / 2 ^ 53 + (j : ℚ) / 2 ^ 53 ≤ 1 + 2⁻¹ ^ 53 := by
        rw [← add_div, div_le_iff₀ (by positivity)]
        push_cast at hb
        norm_num at hb ⊢
        linarith
      have h2 := double_monotone h1
      rw [double_tie] at h2
      exact not_lt.2 h2
    have ew : w = (1 - (i : ℚ) / 2 ^ 53 - (j : ℚ) / 2 ^ 53, (i : ℚ) / 2 ^ 53, (j : ℚ) / 2 ^ 53) := by
      simp only [w, corners]
      rw [if_neg hfold]
      dsimp only
      rw [one_sub i hi]
      have h := double_grid (2 ^ 53 - (i : ℤ) - j) (by rw [abs_le]; constructor <;> omega)
      have e : ((2 ^ 53 - (i : ℤ) - j : ℤ) : ℚ) / 2 ^ 53 = 1 - (i : ℚ) / 2 ^ 53 - (j : ℚ) / 2 ^ 53 := by push_cast; ring
      rw [e] at h
      rw [h]
    rw [ew]
    have d1 : (i : ℚ) / 2 ^ 53 ≤ 1 := by rw [div_le_one (by positivity)]; linarith
    have d2 : (j : ℚ) / 2 ^ 53 ≤ 1 := by rw [div_le_one (by positivity)]; linarith
    have d3 : 0 ≤ (i : ℚ) / 2 ^ 53 := by positivity
    have d4 : 0 ≤ (j : ℚ) / 2 ^ 53 := by positivity
    dsimp only
    refine ⟨by ring, ⟨d3, d1⟩, ⟨d4, d2⟩, by linarith, ?_⟩
    split_ifs with hc
    · have hc' : (i : ℚ) + j = 2 ^ 53 + 1 := by exact_mod_cast hc
      have e : 1 - (i : ℚ) / 2 ^ 53 - (j : ℚ) / 2 ^ 53 = 1 - ((i : ℚ) + j) / 2 ^ 53 := by ring
      rw [e, hc']
      norm_num
    · have hb : (i : ℚ) + j ≤ 2 ^ 53 := by exact_mod_cast (by omega : i + j ≤ 2 ^ 53)
      have e : (i : ℚ) / 2 ^ 53 + (j : ℚ) / 2 ^ 53 = ((i : ℚ) + j) / 2 ^ 53 := by ring
      have : ((i : ℚ) + j) / 2 ^ 53 ≤ 1 := by rw [div_le_one (by positivity)]; exact hb
      linarith

/-- Draws of `1/2 + 2 ^ -53` and `1/2`: their sum is rounded to 1, so that they are not folded, and the weight of the first corner is negative; the point
lies outside the triangle. -/
theorem C227_inside_fails : (corners double (1 / 2 + 2⁻¹ ^ 53) (1 / 2)).1 < 0 := by decide +kernel

/-- Non-vacuity: a number in the middle of the third of four triangles. -/
example : index double [1, 4, 1, 1] (11 / 14) = 2 ∧
    ∀ k, k < 4 → 3 * (4 + 1) * (2⁻¹ : ℚ) ^ 53 < |11 / 14 - (([1, 4, 1, 1] : List ℚ).take (k + 1)).sum / ([1, 4, 1, 1] : List ℚ).sum| := by
  decide +kernel

end Verif.TriangleDouble
