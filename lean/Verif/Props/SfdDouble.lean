import Verif.Model.SfdDouble
import Verif.Props.TriangleDouble

/-!
C228: drawing from a table of numbers in double precision.
-/

namespace Verif.SfdDouble

open Verif.Parallel Verif.DiffusionDouble Verif.TriangleDouble

/-- A draw is not below the lower limit, and below the upper limit 1 unless the range or the distance of `r` from 1 is of the order of the rounding error. -/
theorem uniform_range (low r : ℚ) (hlow : double low = low) (h0 : 0 ≤ low) (h1 : low ≤ 1) (hr0 : 0 ≤ r) (_hr1 : r ≤ 1) :
    low ≤ uniform double low 1 r ∧ ((2⁻¹ : ℚ) ^ 51 ≤ (1 - low) * (1 - r) → uniform double low 1 r < 1) := by
  have hu := unit_pos
  have hd0 : 0 ≤ double (1 - low) := Verif.Steps.double_nonneg (by linarith)
  have hp0 : 0 ≤ double (double (1 - low) * r) := Verif.Steps.double_nonneg (mul_nonneg hd0 hr0)
  constructor
  · unfold uniform
    conv_lhs => rw [← hlow]
    exact double_monotone (by linarith)
  · intro hgap
    have e1 : double (1 - low) ≤ (1 + unit) * (1 - low) := by
      have := (abs_le.1 (double_rel (1 - low))).2
      rw [abs_of_nonneg (by linarith : (0 : ℚ) ≤ 1 - low)] at this
      linarith
    have e2 : double (double (1 - low) * r) ≤ (1 + unit) * ((1 + unit) * (1 - low) * r) := by
      have h2 := (abs_le.1 (double_rel (double (1 - low) * r))).2
      rw [abs_of_nonneg (mul_nonneg hd0 hr0)] at h2
      have h3 : double (1 - low) * r ≤ (1 + unit) * (1 - low) * r := mul_le_mul_of_nonneg_right e1 hr0
      nlinarith
    have hg : 0 ≤ (1 - low) * r := mul_nonneg (by linarith) hr0
    have hg1 : (1 - low) * r ≤ 1 := by nlinarith
    have hunit : unit = 1 / 2 ^ 53 := by unfold unit; norm_num
    have e3 : low + double (double (1 - low) * r) ≤ 1 - 2⁻¹ ^ 53 := by
      have h4 : (1 + unit) * ((1 + unit) * (1 - low) * r) ≤ (1 - low) * r + 3 * unit := by
        have h5 : (1 + unit) * ((1 + unit) * (1 - low) * r) = (1 - low) * r + (2 * unit + unit * unit) * ((1 - low) * r) := by ring
        have h6 : (2 * unit + unit * unit) * ((1 - low) * r) ≤ (2 * unit + unit * unit) * 1 := mul_le_mul_of_nonneg_left hg1 (by positivity)
        have h7 : unit * unit ≤ unit := by rw [hunit]; norm_num
        linarith
      have h8 : (2⁻¹ : ℚ) ^ 51 = 4 * unit := by rw [hunit]; norm_num
      have h9 : (2⁻¹ : ℚ) ^ 53 = unit := rfl
      rw [h9]
      rw [h8] at hgap
      nlinarith
    have e4 : double (1 - 2⁻¹ ^ 53) = 1 - 2⁻¹ ^ 53 := by decide +kernel
    unfold uniform
    refine lt_of_le_of_lt (double_monotone e3) ?_
    rw [e4]
    norm_num

theorem place_spec (lg : ℚ → ℚ) (table : List ℚ) (u : ℚ) :
    (∀ i, i < place lg table u → ∃ a, table[i]? = some a ∧ lg a ≤ lg u) ∧
    (∀ a, table[place lg table u]? = some a → lg u < lg a) ∧ place lg table u ≤ table.length := by
  unfold place
  induction table with
  | nil => simp
  | cons c t ih =>
    rw [List.map_cons, List.takeWhile_cons]
    by_cases hc : lg c ≤ lg u
    · rw [if_pos (by simpa using hc), List.length_cons]
      obtain ⟨i1, i2, i3⟩ := ih
      refine ⟨?_, ?_, by rw [List.length_cons]; omega⟩
      · intro i hi
        cases i with
        | zero => exact ⟨c, rfl, hc⟩
        | succ i => exact i1 i (by omega)
      · intro a ha
        rw [List.getElem?_cons_succ] at ha
        exact i2 a ha
    · rw [if_neg (by simpa using hc)]
      refine ⟨by simp, ?_, by simp⟩
      intro a ha
      simp only [List.length_nil, List.getElem?_cons_zero, Option.some.injEq] at ha
      subst ha
      exact not_le.1 hc

/-- Two entries of the table are found around the draw, different ones, with the draw between them, so that nothing is divided by zero; for every sorted
table that ends with 1 and every draw whose distance from 1 and whose range are not of the order of the rounding error.  The logarithm need only keep the
order and be negative below 1.  Missing: all other draws, see `C228_found_fails`. -/
theorem C228_found_partial (lg : ℚ → ℚ) (hlg : Monotone lg) (hone : ∀ x, x < 1 → lg x < lg 1) (low : ℚ) (rest : List ℚ) (r : ℚ)
    (hlast : (low :: rest).getLast? = some 1) (hlow : double low = low) (h0 : 0 ≤ low) (h1 : low ≤ 1)
    (hr0 : 0 ≤ r) (hr1 : r ≤ 1) (hgap : (2⁻¹ : ℚ) ^ 51 ≤ (1 - low) * (1 - r)) :
    ∃ a b, around lg (low :: rest) (uniform double low 1 r) = some (a, b) ∧
      a ≤ lg (uniform double low 1 r) ∧ lg (uniform double low 1 r) < b := by
  obtain ⟨u1, u2⟩ := uniform_range low r hlow h0 h1 hr0 hr1
  have u3 := hone _ (u2 hgap)
  set u := uniform double low 1 r
  obtain ⟨p1, p2, p3⟩ := place_spec lg (low :: rest) u
  have hpos : 0 < place lg (low :: rest) u := by
    unfold place
    rw [List.map_cons, List.takeWhile_cons, if_pos (by simpa using hlg u1)]
    simp
  have hlt : place lg (low :: rest) u < (low :: rest).length := by
    rcases p3.lt_or_eq with h | h
    · exact h
    · exfalso
      obtain ⟨a, ha, hle⟩ := p1 ((low :: rest).length - 1) (by rw [h]; simp)
      rw [List.getLast?_eq_getElem?, ha] at hlast
      injection hlast with hlast
      subst hlast
      exact absurd u3 (not_lt.2 hle)
  obtain ⟨a, ha, hau⟩ := p1 (place lg (low :: rest) u - 1) (by omega)
  have hb := List.getElem?_eq_getElem hlt
  have hbu := p2 _ hb
  refine ⟨lg a, lg ((low :: rest)[place lg (low :: rest) u]), ?_, hau, hbu⟩
  unfold around
  simp only [if_neg (by omega : ¬ place lg (low :: rest) u = 0), ha, hb]

/-- A table that begins with 1/2 and the largest number that a generator can draw, `1 - 2 ^ -53`: the draw is rounded to 1, which is not below the last entry, and
the code raises an IndexError; this for every logarithm that keeps the order. -/
theorem C228_found_fails (lg : ℚ → ℚ) (hlg : Monotone lg) : uniform double (1 / 2) 1 (1 - 2⁻¹ ^ 53) = 1 ∧
    around lg [1 / 2, 3 / 4, 1] (uniform double (1 / 2) 1 (1 - 2⁻¹ ^ 53)) = none := by
  have e : uniform double (1 / 2) 1 (1 - 2⁻¹ ^ 53) = 1 := by decide +kernel
  refine ⟨e, ?_⟩
  rw [e]
  have h1 : lg (1 / 2) ≤ lg 1 := hlg (by norm_num)
  have h2 : lg (3 / 4) ≤ lg 1 := hlg (by norm_num)
  have hp : place lg [1 / 2, 3 / 4, 1] 1 = 3 := by
    unfold place
    simp only [List.map_cons, List.map_nil]
    rw [List.takeWhile_cons, if_pos (by simpa using h1), List.takeWhile_cons, if_pos (by simpa using h2), List.takeWhile_cons,
      if_pos (by simp), List.takeWhile_nil]
    rfl
  unfold around
  simp only [hp]
  rfl

/-- The table as it is normalised ends with 1 exactly and begins with a number of double precision in [0, 1], whatever the counts, as the partial theorem needs. -/
theorem C228_normalised (cdf : List ℚ) (last : ℚ) (hlast : cdf.getLast? = some last) (hpos : 0 < last) (hle : ∀ c ∈ cdf, 0 < c ∧ c ≤ last) :
    (normalised double cdf last).getLast? = some 1 ∧ ∀ c ∈ normalised double cdf last, double c = c ∧ 0 ≤ c ∧ c ≤ 1 := by
  have hone : double 1 = 1 := by decide +kernel
  unfold normalised
  constructor
  · rw [List.getLast?_map, hlast, Option.map_some, div_self hpos.ne', hone]
  · intro c hc
    obtain ⟨x, hx, rfl⟩ := List.mem_map.1 hc
    obtain ⟨hx0, hx1⟩ := hle x hx
    refine ⟨Verif.LocationDouble.double_idem _, Verif.Steps.double_nonneg (div_nonneg hx0.le hpos.le), ?_⟩
    have := double_monotone (show x / last ≤ 1 by rw [div_le_one hpos]; exact hx1)
    rwa [hone] at this

/-- Non-vacuity: the table above and a draw of 1/2, with the identity in place of the logarithm. -/
example : Monotone (id : ℚ → ℚ) ∧ (∀ x : ℚ, x < 1 → id x < id 1) ∧ (2⁻¹ : ℚ) ^ 51 ≤ (1 - 1 / 2) * (1 - 1 / 2) ∧
    around id [1 / 2, 3 / 4, 1] (uniform double (1 / 2) 1 (1 / 2)) = some (3 / 4, 1) :=
  ⟨monotone_id, fun _ h => h, by norm_num, by decide +kernel⟩

end Verif.SfdDouble
