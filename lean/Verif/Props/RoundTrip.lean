import Verif.Props.Sphere

/-! Property C42, converse: the distance and the bearing from one point to another lead back to the other. -/

namespace Verif.Sphere

open Real

/-- The bearing, scaled with the sine of the arc, has the components of the direction. -/
theorem bearing_components (lon1 lat1 lon2 lat2 R : ℝ) (hR : 0 < R) :
    cos (distance lon1 lat1 lon2 lat2 R / R) = sin lat1 * sin lat2 + cos lat1 * cos lat2 * cos (lon2 - lon1) ∧
    sin (distance lon1 lat1 lon2 lat2 R / R) * cos (bearing lon1 lat1 lon2 lat2) =
      cos lat1 * sin lat2 - sin lat1 * cos lat2 * cos (lon2 - lon1) ∧
    sin (distance lon1 lat1 lon2 lat2 R / R) * sin (bearing lon1 lat1 lon2 lat2) = sin (lon2 - lon1) * cos lat2 := by
  have hw : |inner ℝ (unit lon1 lat1) (unit lon2 lat2)| ≤ 1 := by
    have := abs_real_inner_le_norm (unit lon1 lat1) (unit lon2 lat2)
    rwa [norm_unit, norm_unit, one_mul] at this
  obtain ⟨h1, h2⟩ := abs_le.mp hw
  have ht : distance lon1 lat1 lon2 lat2 R / R = arccos (inner ℝ (unit lon1 lat1) (unit lon2 lat2)) := by
    rw [C41_great_circle, mul_div_cancel_left₀ _ hR.ne']
    unfold InnerProductGeometry.angle
    rw [norm_unit, norm_unit, mul_one, div_one]
  rw [ht, cos_arccos h1 h2, sin_arccos, inner_unit]
  have hb : sin (bearing lon1 lat1 lon2 lat2) = sin (oneBearing lon1 lat1 lon2 lat2) ∧
      cos (bearing lon1 lat1 lon2 lat2) = cos (oneBearing lon1 lat1 lon2 lat2) := by
    obtain ⟨_, _, k, hk⟩ := positiveMod_spec (oneBearing lon1 lat1 lon2 lat2) (2 * π) (by positivity)
    unfold bearing
    rw [hk, show oneBearing lon1 lat1 lon2 lat2 + 2 * π * k = oneBearing lon1 lat1 lon2 lat2 + k * (2 * π) by ring]
    exact ⟨sin_add_int_mul_two_pi _ k, cos_add_int_mul_two_pi _ k⟩
  rw [hb.1, hb.2]
  unfold oneBearing
  simp only [cos_wrap, sin_wrap]
  have e1 := sin_sq_add_cos_sq lat1
  have e2 := sin_sq_add_cos_sq lat2
  have e3 := sin_sq_add_cos_sq (lon2 - lon1)
  have hn : 1 - (sin lat1 * sin lat2 + cos lat1 * cos lat2 * cos (lon2 - lon1)) ^ 2 =
      (cos lat1 * sin lat2 - sin lat1 * cos lat2 * cos (lon2 - lon1)) ^ 2 + (sin (lon2 - lon1) * cos lat2) ^ 2 := by
    generalize sin lat1 = S1 at *
    generalize cos lat1 = C1 at *
    generalize sin lat2 = S2 at *
    generalize cos lat2 = C2 at *
    generalize sin (lon2 - lon1) = s at *
    generalize cos (lon2 - lon1) = c at *
    linear_combination (-(S2 ^ 2 + C2 ^ 2 * c ^ 2)) * e1 - e2 - C2 ^ 2 * e3
  have ha := atan2_cos (cos lat1 * sin lat2 - sin lat1 * cos lat2 * cos (lon2 - lon1)) (sin (lon2 - lon1) * cos lat2)
  rw [hn]
  exact ⟨trivial, ha.1, ha.2⟩

/-- Going the distance to a point along the bearing to it ends at that point, from every start that is not a
pole: the latitude is returned as given, and the longitude up to whole turns wherever it matters. -/
theorem C42_round_trip (lon1 lat1 lon2 lat2 R : ℝ) (hR : 0 < R) (h1 : -(π / 2) < lat1) (h2 : lat1 < π / 2)
    (h3 : -(π / 2) ≤ lat2) (h4 : lat2 ≤ π / 2) :
    let p := location lon1 lat1 (distance lon1 lat1 lon2 lat2 R) (bearing lon1 lat1 lon2 lat2) R
    p.2 = lat2 ∧ unit p.1 p.2 = unit lon2 lat2 ∧ distance p.1 p.2 lon2 lat2 R = 0 := by
  have hC : 0 < cos lat1 := cos_pos_of_mem_Ioo ⟨h1, h2⟩
  obtain ⟨ht, hc, hs⟩ := bearing_components lon1 lat1 lon2 lat2 R hR
  obtain ⟨d1, d2, d3⟩ := destination_spec lat1 (distance lon1 lat1 lon2 lat2 R / R) (bearing lon1 lat1 lon2 lat2)
    h1.le h2.le
  have e1 := sin_sq_add_cos_sq lat1
  have hpp := pi_pos
  intro p
  have hs2 : sin lat1 * cos (distance lon1 lat1 lon2 lat2 R / R) +
      cos lat1 * sin (distance lon1 lat1 lon2 lat2 R / R) * cos (bearing lon1 lat1 lon2 lat2) = sin lat2 := by
    rw [mul_assoc, hc, ht]
    linear_combination (sin lat2) * e1
  have hl : (destination lon1 lat1 (distance lon1 lat1 lon2 lat2 R) (bearing lon1 lat1 lon2 lat2) R).2 = lat2 := by
    unfold destination
    simp only
    rw [hs2, arcsin_sin h3 h4]
  have hp2 : p.2 = lat2 := by
    show positiveMod (_ + π) (2 * π) - π = lat2
    rw [hl, positiveMod_of_mem _ _ (by positivity) (by linarith) (by linarith)]
    ring
  have hu : unit p.1 p.2 = unit lon2 lat2 := by
    show unit (location _ _ _ _ _).1 (location _ _ _ _ _).2 = _
    rw [unit_location, hl]
    unfold destination
    simp only
    rw [hs2, arcsin_sin h3 h4] at d2 d3 ⊢
    generalize hdl : atan2 (sin (bearing lon1 lat1 lon2 lat2) * sin (distance lon1 lat1 lon2 lat2 R / R) * cos lat1)
      (cos (distance lon1 lat1 lon2 lat2 R / R) - sin lat1 * sin lat2) = dl at *
    have k1 : cos lat2 * cos dl = cos lat2 * cos (lon2 - lon1) := by
      apply mul_left_cancel₀ hC.ne'
      rw [ht] at d2
      linear_combination d2
    have k2 : cos lat2 * sin dl = cos lat2 * sin (lon2 - lon1) := by
      apply mul_left_cancel₀ hC.ne'
      linear_combination d3 + cos lat1 * hs
    have e : lon2 = lon1 + (lon2 - lon1) := by ring
    unfold unit
    congr 1
    have g1 : cos lat2 * cos (lon1 + dl) = cos lat2 * cos lon2 := by
      conv_rhs => rw [e]
      rw [cos_add, cos_add]
      linear_combination cos lon1 * k1 - sin lon1 * k2
    have g2 : cos lat2 * sin (lon1 + dl) = cos lat2 * sin lon2 := by
      conv_rhs => rw [e]
      rw [sin_add, sin_add]
      linear_combination sin lon1 * k1 + cos lon1 * k2
    rw [g1, g2]
  refine ⟨hp2, hu, ?_⟩
  rw [C41_great_circle, hu]
  rw [InnerProductGeometry.angle_self, mul_zero]
  intro h0
  have := norm_unit lon2 lat2
  rw [h0, norm_zero] at this
  exact zero_ne_one this

example : ∃ lat1 lat2 R : ℝ, 0 < R ∧ -(π / 2) < lat1 ∧ lat1 < π / 2 ∧ -(π / 2) ≤ lat2 ∧ lat2 ≤ π / 2 ∧ lat1 ≠ lat2 :=
  ⟨1, 0, 1, by norm_num, by linarith [pi_gt_three], by linarith [pi_gt_three], by linarith [pi_gt_three],
    by linarith [pi_gt_three], by norm_num⟩

end Verif.Sphere
