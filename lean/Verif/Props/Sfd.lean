import Verif.Model.Sfd
import Mathlib.Tactic.Linarith
import Mathlib.Tactic.FieldSimp
import Mathlib.Tactic.Positivity
import Mathlib.Tactic.Ring

/-! Properties C125 and C126: cumulative counts from R values, and the saturation curves. -/

namespace Verif.Sfd

theorem sqrt2_bounds : 1.4142 < Real.sqrt 2 ∧ Real.sqrt 2 < 1.4143 := by
  constructor
  · exact Real.lt_sqrt_of_sq_lt (by norm_num)
  · rw [Real.sqrt_lt' (by norm_num)]; norm_num

theorem next_pos {D : ℝ} (h : 0 < D) : D < next D ∧ 0 < next D ∧ next D < 1.4143 * D := by
  have := sqrt2_bounds
  unfold next
  refine ⟨?_, by positivity, ?_⟩ <;> nlinarith

/-- The number of craters per area between diameters `A` and `B` when R is the constant `c`: the integral of `c / D³`. -/
noncomputable def exact (c A B : ℝ) : ℝ := c / 2 * (1 / A ^ 2 - 1 / B ^ 2)

/-- One bin of constant R, relative to the integral. -/
noncomputable def ratio : ℝ := 32 * (Real.sqrt 2 - 1) ^ 4

theorem ratio_bounds : 0.94 < ratio ∧ ratio < 0.95 := by
  have h : Real.sqrt 2 ^ 2 = 2 := Real.sq_sqrt (by norm_num)
  have e : ratio = 32 * (17 - 12 * Real.sqrt 2) := by
    unfold ratio
    have h4 : Real.sqrt 2 ^ 4 = 4 := by
      calc Real.sqrt 2 ^ 4 = (Real.sqrt 2 ^ 2) ^ 2 := by ring
        _ = 4 := by rw [h]; norm_num
    have h3 : Real.sqrt 2 ^ 3 = 2 * Real.sqrt 2 := by
      calc Real.sqrt 2 ^ 3 = Real.sqrt 2 ^ 2 * Real.sqrt 2 := by ring
        _ = 2 * Real.sqrt 2 := by rw [h]
    calc 32 * (Real.sqrt 2 - 1) ^ 4 = 32 * (Real.sqrt 2 ^ 4 - 4 * Real.sqrt 2 ^ 3 + 6 * Real.sqrt 2 ^ 2 - 4 * Real.sqrt 2 + 1) := by ring
      _ = _ := by rw [h4, h3, h]; ring
  rw [e]
  constructor
  · have : Real.sqrt 2 < 1.41421357 := by
      rw [Real.sqrt_lt' (by norm_num)]; norm_num
    linarith
  · have : 1.414213 < Real.sqrt 2 := Real.lt_sqrt_of_sq_lt (by norm_num)
    linarith

theorem bin_eq (R : ℝ → ℝ) (D : ℝ) (hD : 0 < D) : bin R D = ratio * exact (R ((D + next D) / 2)) D (next D) := by
  have h : Real.sqrt 2 ^ 2 = 2 := Real.sq_sqrt (by norm_num)
  have hs := sqrt2_bounds
  have hp : (0 : ℝ) < 1 + Real.sqrt 2 := by linarith
  have hinv : 1 / (1 + Real.sqrt 2) = Real.sqrt 2 - 1 := by
    rw [div_eq_iff hp.ne']
    nlinarith
  unfold bin integrand exact ratio next
  set r := R ((D + D * Real.sqrt 2) / 2)
  set s := Real.sqrt 2
  have h1 : (1 : ℝ) / (D * s) ^ 2 = 1 / (2 * D ^ 2) := by rw [mul_pow, h]; ring
  have h2 : r / ((D + D * s) / 2) ^ 3 = 8 * r / D ^ 3 * (1 / (1 + s)) ^ 3 := by
    rw [show (D + D * s) / 2 = D * (1 + s) / 2 by ring]
    field_simp
    ring
  rw [h1, h2, hinv]
  field_simp
  ring

/-- **C125, part.**  (Missing: diameters that are not positive, see `C125_fails`.)  For every positive diameter the conversion ends with exactly one number of craters; it covers the diameters from
`D` up to some `E` that lies between the limit and the limit times the square root of two (for `D` at or above the limit it
is zero); and if R lies between `m` and `M` over these diameters, the number is at least 94% of the integral of `m / D³` and at
most 95% of the integral of `M / D³` from `D` to `E`. -/
theorem C125_positive_partial (R : ℝ → ℝ) (D Dlim : ℝ) (hD : 0 < D) :
    (∃ N E, Returns R D Dlim N E) ∧
    (∀ N E N' E', Returns R D Dlim N E → Returns R D Dlim N' E' → N = N' ∧ E = E') ∧
    (∀ N E, Returns R D Dlim N E → (Dlim ≤ D → N = 0 ∧ E = D) ∧ (D < Dlim → Dlim ≤ E ∧ E < 1.4143 * Dlim)) ∧
    (∀ N E m M, Returns R D Dlim N E → 0 ≤ m → (∀ x, D < x → x < 1.4143 * Dlim → m ≤ R x ∧ R x ≤ M) →
      0.94 * exact m D E ≤ N ∧ N ≤ 0.95 * exact M D E) := by
  have hdet : ∀ (R : ℝ → ℝ) (Dlim D N : ℝ) (o o' : ℝ × ℝ), Loop R Dlim D N o → Loop R Dlim D N o' → o = o' := by
    intro R Dlim D N o o' h
    induction h with
    | stop D N hn =>
      intro h'
      cases h' with
      | stop _ _ _ => rfl
      | turn _ _ _ hlt _ => exact absurd hlt hn
    | turn D N out hlt _ ih =>
      intro h'
      cases h' with
      | stop _ _ hn => exact absurd hlt hn
      | turn _ _ _ _ hl => exact ih hl
  have hterm : ∀ n : ℕ, ∀ D N, 0 < D → Dlim ≤ D * 1.4 ^ n → ∃ o, Loop R Dlim D N o := by
    intro n
    induction n with
    | zero => intro D N _ h; exact ⟨(N, D), .stop D N (by simp at h; linarith)⟩
    | succ n ih =>
      intro D N hD h
      by_cases hlt : D < Dlim
      · have hnx : D * 1.4 ≤ next D := by
          unfold next
          have := sqrt2_bounds
          nlinarith
        obtain ⟨o, ho⟩ := ih (next D) (N + bin R D) (next_pos hD).2.1 (by
          have : (0 : ℝ) ≤ 1.4 ^ n := by positivity
          calc Dlim ≤ D * 1.4 ^ (n + 1) := h
            _ = D * 1.4 * 1.4 ^ n := by ring
            _ ≤ next D * 1.4 ^ n := mul_le_mul_of_nonneg_right hnx this)
        exact ⟨o, .turn D N o hlt ho⟩
      · exact ⟨(N, D), .stop D N hlt⟩
  have hend : ∀ (D N : ℝ) (o : ℝ × ℝ), Loop R Dlim D N o → 0 < D → (D < 1.4143 * Dlim) →
      Dlim ≤ o.2 ∧ o.2 < 1.4143 * Dlim ∧ D ≤ o.2 := by
    intro D N o h
    induction h with
    | stop D N hn => intro _ h2; exact ⟨not_lt.mp hn, h2, le_rfl⟩
    | turn D N out hlt _ ih =>
      intro hD _
      obtain ⟨n1, n2, n3⟩ := next_pos hD
      obtain ⟨i1, i2, i3⟩ := ih n2 (by linarith)
      exact ⟨i1, i2, by linarith⟩
  refine ⟨?_, ?_, ?_, ?_⟩
  · obtain ⟨n, hn⟩ := pow_unbounded_of_one_lt (Dlim / D) (by norm_num : (1 : ℝ) < 1.4)
    obtain ⟨⟨N, E⟩, ho⟩ := hterm n D 0 hD (by
      rw [div_lt_iff₀ hD] at hn
      linarith)
    exact ⟨N, E, ho⟩
  · intro N E N' E' h h'
    have := hdet R Dlim D 0 _ _ h h'
    simpa using this
  · intro N E h
    constructor
    · intro hle
      unfold Returns at h
      cases h with
      | stop _ _ _ => exact ⟨rfl, rfl⟩
      | turn _ _ _ hlt _ => exact absurd hlt (not_lt.mpr hle)
    · intro hlt
      obtain ⟨h1, h2, _⟩ := hend D 0 (N, E) h hD (by linarith)
      exact ⟨h1, h2⟩
  · intro N E m M h hm hR
    have key : ∀ (D' N' : ℝ) (o : ℝ × ℝ), Loop R Dlim D' N' o → 0 < D' → D ≤ D' →
        N' + 0.94 * exact m D' o.2 ≤ o.1 ∧ o.1 ≤ N' + 0.95 * exact M D' o.2 := by
      intro D' N' o hl
      induction hl with
      | stop D' N' _ => intro _ _; simp [exact]
      | turn D' N' out hlt _ ih =>
        intro hD' hDD
        obtain ⟨n1, n2, n3⟩ := next_pos hD'
        obtain ⟨i1, i2⟩ := ih n2 (by linarith)
        have hb := bin_eq R D' hD'
        obtain ⟨r1, r2⟩ := hR ((D' + next D') / 2) (by linarith) (by linarith)
        set r := R ((D' + next D') / 2)
        have hg : 0 ≤ 1 / D' ^ 2 - 1 / (next D') ^ 2 := by
          have : 1 / (next D') ^ 2 ≤ 1 / D' ^ 2 :=
            one_div_le_one_div_of_le (by positivity) (pow_le_pow_left₀ hD'.le n1.le 2)
          linarith
        have e0 : ∀ c, 0 ≤ c → 0 ≤ exact c D' (next D') := by
          intro c hc
          unfold exact
          positivity
        have em : exact m D' (next D') ≤ exact r D' (next D') :=
          mul_le_mul_of_nonneg_right (by linarith) hg
        have eM : exact r D' (next D') ≤ exact M D' (next D') :=
          mul_le_mul_of_nonneg_right (by linarith) hg
        have hsplit : ∀ c, exact c D' out.2 = exact c D' (next D') + exact c (next D') out.2 := by
          intro c; unfold exact; ring
        obtain ⟨b1, b2⟩ := ratio_bounds
        have q1 := e0 m hm
        have q2 := e0 r (by linarith)
        have q3 := e0 M (by linarith)
        rw [hsplit, hsplit]
        constructor
        · nlinarith
        · nlinarith
    have := key D 0 (N, E) h hD le_rfl
    simpa using this

example : ∃ R : ℝ → ℝ, ∃ D Dlim m M : ℝ, 0 < D ∧ D < Dlim ∧ 0 ≤ m ∧ ∀ x, D < x → x < 1.4143 * Dlim → m ≤ R x ∧ R x ≤ M :=
  ⟨fun _ => 1, 1, 10, 1, 1, by norm_num, by norm_num, by norm_num, fun _ _ _ => ⟨le_rfl, le_rfl⟩⟩

/-- **C125 fails** for diameters that are not positive: with a positive limit the conversion then never returns. -/
theorem C125_fails (R : ℝ → ℝ) (D Dlim : ℝ) (hD : D ≤ 0) (hl : 0 < Dlim) : ¬ ∃ N E, Returns R D Dlim N E := by
  have key : ∀ (D N : ℝ) (o : ℝ × ℝ), Loop R Dlim D N o → 0 < D := by
    intro D N o h
    induction h with
    | stop D N hn => linarith [not_lt.mp hn]
    | turn D N out _ _ ih =>
      unfold next at ih
      by_contra h
      linarith [mul_nonpos_of_nonpos_of_nonneg (not_lt.mp h) (Real.sqrt_nonneg 2)]
  rintro ⟨N, E, h⟩
  linarith [key D 0 _ h]

/-- **C126.**  The equilibrium curve is the given fraction of geometric saturation, and for two positive diameters the numbers of
both curves stand in the inverse ratio of the squares of the diameters; with a fraction between zero and one the equilibrium
number never exceeds saturation. -/
theorem C126_curves (D E f : ℝ) (hD : 0 < D) (hE : 0 < E) (hf : 0 ≤ f) (hf1 : f ≤ 1) :
    saturation D * D ^ 2 = 1.54 ∧ equilibrium D f * D ^ 2 = equilibrium E f * E ^ 2 ∧
    0 ≤ equilibrium D f ∧ equilibrium D f ≤ saturation D ∧ (D < E → saturation E < saturation D) := by
  have hs : ∀ x : ℝ, 0 < x → saturation x * x ^ 2 = 1.54 := by
    intro x hx
    unfold saturation
    rw [zpow_neg]
    norm_cast
    field_simp
  have hp : ∀ x : ℝ, 0 < x → 0 < saturation x := by
    intro x hx
    unfold saturation
    positivity
  refine ⟨hs D hD, ?_, mul_nonneg hf (hp D hD).le, ?_, ?_⟩
  · unfold equilibrium
    rw [mul_assoc, mul_assoc, hs D hD, hs E hE]
  · unfold equilibrium
    nlinarith [hp D hD]
  · intro hlt
    have h1 := hs D hD
    have h2 := hs E hE
    have h3 := hp E hE
    by_contra h
    have : D ^ 2 < E ^ 2 := pow_lt_pow_left₀ hlt hD.le two_ne_zero
    nlinarith [hp D hD, not_lt.mp h, mul_lt_mul_of_pos_left this h3]

example : (0 : ℝ) < 1 ∧ (0 : ℝ) < 2 ∧ (0 : ℝ) ≤ 0.0218 ∧ (0.0218 : ℝ) ≤ 1 := by norm_num

end Verif.Sfd
