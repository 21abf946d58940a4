import Verif.Model.Radial
import Verif.Props.Slope
import Verif.Props.Sphere

/-! C158: the radial gradient of a variable. -/

namespace Verif.Radial

open Verif.Diffusion Verif.Slope Real

/-- The gradient is the vector whose length is the slope. -/
theorem gradient_sq (m : Mesh) (h : ℕ → ℝ) (f : ℕ) :
    (gradient m h f).1 ^ 2 + (gradient m h f).2 ^ 2 = slopeSq m h f := by
  unfold gradient slopeSq
  dsimp only
  split_ifs <;> ring

theorem gradient_plane (m : Mesh) (h : ℕ → ℝ) (f : ℕ) (gx gy : ℝ) (hp : IsPlane m h f gx gy)
    (hn : 2 ≤ (neighbors m f).length) :
    gradient m h f = ((gx * momSS m f + gy * momSC m f) / weight m f,
      (gx * momSC m f + gy * momCC m f) / weight m f) := by
  have hw := weight_pos m f hn
  have hz : ((neighbors m f).map fun x => (h x.1 - h f) * x.2.2 / x.2.1 * Real.sin (m.bearing f x.1)).sum =
      gx * momSS m f + gy * momSC m f := by
    unfold momSS momSC
    rw [← sum_lin]
    congr 1
    apply List.map_congr_left
    intro x hx
    have h1 := (neighbors_pos m f x hx).1
    rw [hp x hx]
    field_simp
  have hm : ((neighbors m f).map fun x => (h x.1 - h f) * x.2.2 / x.2.1 * Real.cos (m.bearing f x.1)).sum =
      gx * momSC m f + gy * momCC m f := by
    unfold momCC momSC
    rw [← sum_lin]
    congr 1
    apply List.map_congr_left
    intro x hx
    have h1 := (neighbors_pos m f x hx).1
    rw [hp x hx]
    field_simp
  unfold gradient
  simp only [hz, hm]
  rw [if_neg (by omega)]
  have hw' : ((neighbors m f).map fun x => x.2.2).sum = weight m f := rfl
  rw [hw', if_pos hw]

/-- The rate of change of a plane with the gradient `(gx, gy)` in the direction of the bearing `b`. -/
noncomputable def alongBearing (gx gy b : ℝ) : ℝ := gx * sin b + gy * cos b

/-- The radial gradient is a component of the gradient: it is nowhere steeper than the slope reported for
the same face, and adding a constant to the variable or scaling it acts as it should. -/
theorem C158_component (m : Mesh) (h : ℕ → ℝ) (b : ℕ → ℝ) (f : ℕ) :
    |radialGradient m h b f| ≤ √(slopeSq m h f) ∧
    (∀ c, radialGradient m (fun g => h g + c) b f = radialGradient m h b f) ∧
    (∀ c, radialGradient m (fun g => c * h g) b f = c * radialGradient m h b f) ∧
    (∀ h', radialGradient m (fun g => h g + h' g) b f = radialGradient m h b f + radialGradient m h' b f) := by
  refine ⟨?_, ?_, ?_, ?_⟩
  · apply abs_le_of_sq_le_sq' _ (Real.sqrt_nonneg _) |> abs_le.mpr
    rw [Real.sq_sqrt (by rw [← gradient_sq]; positivity), ← gradient_sq]
    unfold radialGradient
    nlinarith [sq_nonneg ((gradient m h f).2 * sin (b f) - (gradient m h f).1 * cos (b f)),
      sin_sq_add_cos_sq (b f)]
  · intro c
    unfold radialGradient gradient
    simp only [add_sub_add_right_eq_sub]
  · intro c
    have e : ∀ t : ℕ → ℝ, ((neighbors m f).map fun x => (c * h x.1 - c * h f) * x.2.2 / x.2.1 * t x.1).sum =
        c * ((neighbors m f).map fun x => (h x.1 - h f) * x.2.2 / x.2.1 * t x.1).sum := by
      intro t
      rw [← List.sum_map_mul_left]
      congr 1
      apply List.map_congr_left
      intro x _
      ring
    unfold radialGradient gradient
    simp only [e fun g => sin (m.bearing f g), e fun g => cos (m.bearing f g)]
    split_ifs <;> ring
  · intro h'
    have e : ∀ t : ℕ → ℝ, ((neighbors m f).map fun x =>
          (h x.1 + h' x.1 - (h f + h' f)) * x.2.2 / x.2.1 * t x.1).sum =
        ((neighbors m f).map fun x => (h x.1 - h f) * x.2.2 / x.2.1 * t x.1).sum +
        ((neighbors m f).map fun x => (h' x.1 - h' f) * x.2.2 / x.2.1 * t x.1).sum := by
      intro t
      rw [← List.sum_map_add]
      congr 1
      apply List.map_congr_left
      intro x _
      ring
    unfold radialGradient gradient
    simp only [e fun g => sin (m.bearing f g), e fun g => cos (m.bearing f g)]
    split_ifs <;> ring

/-- Where the neighbours have no preferred axis, the radial gradient of a plane is half its rate of change
along the bearing that the region stores for the face. -/
theorem C158_half_partial (m : Mesh) (h : ℕ → ℝ) (b : ℕ → ℝ) (f : ℕ) (gx gy : ℝ)
    (hp : IsPlane m h f gx gy) (hn : 2 ≤ (neighbors m f).length) (hi : Isotropic m f) :
    radialGradient m h b f = alongBearing gx gy (b f) / 2 := by
  have hw := weight_pos m f hn
  have hadd := mom_add m f
  have h1 : momSS m f = momCC m f := hi.1
  have h2 : momSC m f = 0 := hi.2
  have h3 : momSS m f = weight m f / 2 := by linarith
  unfold radialGradient alongBearing
  rw [gradient_plane m h f gx gy hp hn, h2, ← h1, h3]
  field_simp
  ring

/-- So the radial gradient is not the rate of change: on a face with `n ≥ 3` equal neighbours all around,
every plane that is not level along the bearing gets another value (half of it). -/
theorem C158_half_fails (n : ℕ) (hn : 3 ≤ n) (d l θ : ℝ) (hd : 0 < d) (hl : 0 < l) (h : ℕ → ℝ) (b : ℕ → ℝ)
    (gx gy : ℝ) (hp : IsPlane (star n d l θ) h 0 gx gy) (hne : alongBearing gx gy (b 0) ≠ 0) :
    radialGradient (star n d l θ) h b 0 ≠ alongBearing gx gy (b 0) := by
  rw [C158_half_partial _ h b 0 gx gy hp (by rw [star_neighbors n d l θ hd hl]; simp; omega)
    (star_isotropic n hn d l θ hd hl)]
  intro h
  apply hne
  linarith

/-- Non-vacuity: a plane rising to the north, seen along the bearing zero. -/
example : ∃ h : ℕ → ℝ, IsPlane (star 6 1 1 0) h 0 0 1 ∧ alongBearing 0 1 0 ≠ 0 := by
  refine ⟨fun g => if g = 0 then 0 else cos ((star 6 1 1 0).bearing 0 g), ?_, by unfold alongBearing; norm_num⟩
  intro x hx
  rw [star_neighbors 6 1 1 0 one_pos one_pos, List.mem_map] at hx
  obtain ⟨k, _, rfl⟩ := hx
  simp

/-- The bearing at a face of the direction away from the centre of the region: opposite to the initial
bearing from the face to the centre. -/
noncomputable def outward (lon0 lat0 lon lat : ℝ) : ℝ := Sphere.bearing lon lat lon0 lat0 + π

theorem positiveMod_two_pi : Sphere.positiveMod (2 * π) (2 * π) = 0 := by
  obtain ⟨a, b, k, hk⟩ := Sphere.positiveMod_spec (2 * π) (2 * π) (by positivity)
  have hp := Real.pi_pos
  have u : -1 ≤ (k : ℝ) := by
    by_contra hc
    push Not at hc
    nlinarith
  have v : (k : ℝ) < 0 := by
    by_contra hc
    push Not at hc
    nlinarith
  have u' : -1 ≤ k := by exact_mod_cast u
  have v' : k < 0 := by exact_mod_cast v
  have : k = -1 := by omega
  rw [hk, this]
  push_cast
  ring

theorem positiveMod_zero : Sphere.positiveMod 0 (2 * π) = 0 :=
  Sphere.positiveMod_of_mem 0 (2 * π) (by positivity) le_rfl (by positivity)

theorem cos_sin_pos (lat lat' : ℝ) (h0 : 0 < lat) (h1 : lat < π / 2) (h0' : 0 < lat') (h1' : lat' < π / 2) :
    0 < cos lat * sin lat' + sin lat * cos lat' := by
  have a : 0 < cos lat := cos_pos_of_mem_Ioo ⟨by linarith, h1⟩
  have b : 0 < sin lat := sin_pos_of_pos_of_lt_pi h0 (by linarith)
  have a' : 0 < cos lat' := cos_pos_of_mem_Ioo ⟨by linarith, h1'⟩
  have b' : 0 < sin lat' := sin_pos_of_pos_of_lt_pi h0' (by linarith)
  positivity

/-- Across the north pole the way is due north, in both directions. -/
theorem bearing_over_pole (lon lat lat' : ℝ) (h0 : 0 < lat) (h1 : lat < π / 2) (h0' : 0 < lat') (h1' : lat' < π / 2) :
    Sphere.bearing lon lat (lon + π) lat' = 0 ∧ Sphere.bearing (lon + π) lat' lon lat = 0 := by
  have arg0 : ∀ x : ℝ, 0 < x → Sphere.atan2 0 x = 0 := fun x hx => Complex.arg_ofReal_of_nonneg hx.le
  constructor
  · unfold Sphere.bearing Sphere.oneBearing
    dsimp only
    rw [show lon + π - lon + π = 2 * π by ring, positiveMod_two_pi]
    simp only [zero_sub, sin_neg, sin_pi, neg_zero, zero_mul, cos_neg, cos_pi]
    rw [arg0 _ (by have := cos_sin_pos lat lat' h0 h1 h0' h1'; linarith), positiveMod_zero]
  · unfold Sphere.bearing Sphere.oneBearing
    dsimp only
    rw [show lon - (lon + π) + π = 0 by ring, positiveMod_zero]
    simp only [zero_sub, sin_neg, sin_pi, neg_zero, zero_mul, cos_neg, cos_pi]
    rw [arg0 _ (by have := cos_sin_pos lat' lat h0' h1' h0 h1; linarith), positiveMod_zero]

/-- Near a pole the radial gradient can have the wrong sign.  The stored bearing of a face is the one at the
centre of the region, but it is used at the face, where north is another direction.  For a region centred
near the north pole and a face beyond the pole, a surface that rises away from the centre (with slope
`s > 0`) gets the negative value `-s / 2`. -/
theorem C158_pole_fails (m : Mesh) (h : ℕ → ℝ) (lon lat : ℕ → ℝ) (f : ℕ) (lon0 lat0 s : ℝ) (hs : 0 < s)
    (hlat0 : 0 < lat0 ∧ lat0 < π / 2) (hlat : 0 < lat f ∧ lat f < π / 2) (hlon : lon f = lon0 + π)
    (hn : 2 ≤ (neighbors m f).length) (hi : Isotropic m f)
    (hp : IsPlane m h f (s * sin (outward lon0 lat0 (lon f) (lat f)))
      (s * cos (outward lon0 lat0 (lon f) (lat f)))) :
    radialGradient m h (faceBearing lon0 lat0 lon lat) f = -s / 2 ∧
    radialGradient m h (faceBearing lon0 lat0 lon lat) f < 0 := by
  obtain ⟨e1, e2⟩ := bearing_over_pole lon0 lat0 (lat f) hlat0.1 hlat0.2 hlat.1 hlat.2
  have key : radialGradient m h (faceBearing lon0 lat0 lon lat) f = -s / 2 := by
    rw [C158_half_partial m h _ f _ _ hp hn hi]
    unfold alongBearing faceBearing outward
    rw [hlon, e1, e2]
    simp
  exact ⟨key, by rw [key]; linarith⟩

/-- Non-vacuity: a region centred at latitude 1.5 rad and a face with six equal neighbours beyond the pole, on a
surface that falls to the north. -/
example : ∃ h : ℕ → ℝ, IsPlane (star 6 1 1 0) h 0 (1 * sin (outward 0 1.5 π 1.5)) (1 * cos (outward 0 1.5 π 1.5)) ∧
    Isotropic (star 6 1 1 0) 0 ∧ 2 ≤ (neighbors (star 6 1 1 0) 0).length ∧ (1.5 : ℝ) < π / 2 := by
  have h3 := Real.pi_gt_d2
  have e := (bearing_over_pole 0 1.5 1.5 (by norm_num) (by linarith) (by norm_num) (by linarith)).2
  refine ⟨fun g => if g = 0 then 0 else - cos ((star 6 1 1 0).bearing 0 g), ?_,
    star_isotropic 6 (by norm_num) 1 1 0 one_pos one_pos,
    by rw [star_neighbors 6 1 1 0 one_pos one_pos]; simp, by linarith⟩
  intro x hx
  rw [star_neighbors 6 1 1 0 one_pos one_pos, List.mem_map] at hx
  obtain ⟨k, _, rfl⟩ := hx
  rw [zero_add] at e
  unfold outward
  rw [e]
  simp

end Verif.Radial
