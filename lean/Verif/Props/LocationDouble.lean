import Verif.Model.LocationDouble
import Verif.Props.Location
import Verif.Props.Steps

/-! Properties C222 and C223: normalisation of locations and orientations in double precision. -/

namespace Verif.LocationDouble

open Verif.Parallel Verif.Steps

/-! ### Double precision -/

/-- A rounded number of absolute value at least `2 ^ k` is a multiple of `2 ^ (k - 52)`. -/
theorem grid_of_ge (x : ℚ) (k : ℤ) (h : (2 : ℚ) ^ k ≤ |x|) : ∃ j : ℤ, double x = j * 2 ^ (k - 52) := by
  have hx : 0 < |x| := lt_of_lt_of_le (by positivity) h
  have hk : k ≤ Int.log 2 |x| := by
    rw [← Int.zpow_le_iff_le_log (by norm_num) hx]; exact_mod_cast h
  obtain ⟨n, hn⟩ := Int.eq_ofNat_of_zero_le (sub_nonneg.2 hk)
  refine ⟨roundEven (x / spacing x) * 2 ^ n, ?_⟩
  have hs : spacing x = 2 ^ n * 2 ^ (k - 52) := by
    unfold spacing
    rw [← zpow_natCast, ← zpow_add₀ (by norm_num)]
    congr 1; omega
  have : double x = roundEven (x / spacing x) * spacing x := rfl
  rw [this]
  push_cast
  rw [mul_assoc, ← hs]

/-- Rounding keeps the multiples of a power of two. -/
theorem grid_keep (x : ℚ) (g i : ℤ) (h : x = i * 2 ^ g) : ∃ j : ℤ, double x = j * 2 ^ g := by
  by_cases hi : |i| ≤ 2 ^ 53
  · exact ⟨i, by rw [h, double_exact i g hi]⟩
  · obtain ⟨j, hj⟩ := grid_of_ge x (53 + g) (by
      rw [h, abs_mul, abs_of_pos (by positivity : (0 : ℚ) < 2 ^ g), zpow_add₀ (by norm_num)]
      apply mul_le_mul_of_nonneg_right _ (by positivity)
      have : ((2 ^ 53 : ℤ) : ℚ) < ((|i| : ℤ) : ℚ) := by exact_mod_cast not_le.1 hi
      rw [Int.cast_abs] at this
      refine le_trans (le_of_eq ?_) this.le
      norm_cast)
    refine ⟨j * 2, ?_⟩
    rw [hj, show (53 + g - 52 : ℤ) = 1 + g by ring, zpow_add₀ (by norm_num)]
    push_cast; ring

/-- The rounding error below a bound. -/
theorem err_le (x : ℚ) (k : ℤ) (h : |x| < 2 ^ k) : |double x - x| ≤ 2 ^ (k - 54) := by
  rcases eq_or_ne x 0 with rfl | h0
  · rw [double_zero]; simp; positivity
  have hx : 0 < |x| := abs_pos.2 h0
  have hlog : Int.log 2 |x| < k := by
    rw [← Int.lt_zpow_iff_log_lt (by norm_num) hx]; exact_mod_cast h
  have hs := spacing_pos x
  have hn := roundEven_near (x / spacing x)
  have e : double x - x = ((roundEven (x / spacing x) : ℚ) - x / spacing x) * spacing x := by
    unfold double; field_simp
  rw [e, abs_mul, abs_of_pos hs]
  have h1 : spacing x ≤ 2 ^ (k - 53) := by
    unfold spacing; exact zpow_le_zpow_right₀ (by norm_num) (by omega)
  have h2 : (2 : ℚ) ^ (k - 54) = 1 / 2 * 2 ^ (k - 53) := by
    rw [show (k - 53 : ℤ) = (k - 54) + 1 by ring, zpow_add₀ (by norm_num)]; norm_num; ring
  rw [h2]
  exact mul_le_mul hn h1 hs.le (by norm_num)

theorem fmod_range (a b : ℚ) (hb : 0 < b) : (0 ≤ a → 0 ≤ fmod a b ∧ fmod a b < b) ∧ (a < 0 → -b < fmod a b ∧ fmod a b ≤ 0) := by
  have e : b * (a / b) = a := by field_simp
  constructor
  · intro h
    have h1 := mul_le_mul_of_nonneg_left (Int.floor_le (a / b)) hb.le
    have h2 := mul_lt_mul_of_pos_left (Int.lt_floor_add_one (a / b)) hb
    unfold fmod; rw [if_pos h]
    constructor <;> linarith
  · intro h
    have h1 := mul_le_mul_of_nonneg_left (Int.le_ceil (a / b)) hb.le
    have h2 := mul_lt_mul_of_pos_left (Int.ceil_lt_add_one (a / b)) hb
    unfold fmod; rw [if_neg (not_le.2 h)]
    constructor <;> linarith

theorem fmod_shift (a b : ℚ) : ∃ k : ℤ, fmod a b = a - b * k := by
  unfold fmod; split_ifs
  · exact ⟨_, rfl⟩
  · exact ⟨_, rfl⟩

/-- What is rounded is a number of double precision. -/
theorem double_idem (x : ℚ) : double (double x) = double x := by
  rcases eq_or_ne x 0 with rfl | h0
  · rw [double_zero, double_zero]
  have hs := spacing_pos x
  have hi := Int.lt_zpow_succ_log_self (R := ℚ) (b := 2) (by norm_num) |x|
  push_cast at hi
  have hb : |x| ≤ ((2 ^ 53 : ℤ) : ℚ) * spacing x := by
    refine hi.le.trans (le_of_eq ?_)
    unfold spacing
    rw [show Int.log 2 |x| + 1 = 53 + (Int.log 2 |x| - 52) by ring, zpow_add₀ (by norm_num)]
    norm_num
  obtain ⟨h1, h2⟩ := abs_le.1 hb
  have q1 : ((-2 ^ 53 : ℤ) : ℚ) ≤ x / spacing x := by
    rw [le_div_iff₀ hs]; push_cast at h1 ⊢; linarith
  have q2 : x / spacing x ≤ ((2 ^ 53 : ℤ) : ℚ) := by rw [div_le_iff₀ hs]; exact h2
  have r1 := roundEven_mono q1
  have r2 := roundEven_mono q2
  rw [roundEven_int] at r1 r2
  exact double_exact (roundEven (x / spacing x)) (Int.log 2 |x| - 52) (abs_le.2 ⟨r1, r2⟩)

/-- A multiple of a power of two that is not too large is a number of double precision. -/
theorem grid_double (x : ℚ) (g j : ℤ) (h : x = j * 2 ^ g) (hx : |x| ≤ 2 ^ (53 + g)) : double x = x := by
  rw [h]
  apply double_exact
  rw [h, abs_mul, abs_of_pos (by positivity : (0 : ℚ) < 2 ^ g), zpow_add₀ (by norm_num)] at hx
  have := le_of_mul_le_mul_right hx (by positivity)
  have h2 : ((|j| : ℤ) : ℚ) ≤ ((2 ^ 53 : ℤ) : ℚ) := by
    rw [Int.cast_abs]; refine this.trans (le_of_eq ?_); norm_num
  exact_mod_cast h2

/-- 180 and 360 times any whole number are multiples of `2 ^ -45`. -/
theorem grid_sub (x : ℚ) (g j c : ℤ) (hg : g ≤ 0) (h : x = j * 2 ^ g) : ∃ i : ℤ, x + c = i * 2 ^ g := by
  obtain ⟨n, hn⟩ := Int.eq_ofNat_of_zero_le (neg_nonneg.2 hg)
  refine ⟨j + c * 2 ^ n, ?_⟩
  have : (2 : ℚ) ^ g * 2 ^ n = 1 := by
    rw [← zpow_natCast, ← zpow_add₀ (by norm_num), show g + ((n : ℕ) : ℤ) = 0 by omega, zpow_zero]
  rw [h]; push_cast
  linear_combination (-(c : ℚ)) * this

/-- The remainder of a number on the grid of `2 ^ -45`: it lies between 0 and 360, 360 included, is a number of double precision, and 180 can be
subtracted from it without an error. -/
theorem mod_grid (X : ℚ) (hd : double X = X) (j : ℤ) (hj : X = j * 2 ^ (-45 : ℤ)) :
    (∃ i : ℤ, floatMod X 360 = i * 2 ^ (-45 : ℤ)) ∧ 0 ≤ floatMod X 360 ∧ floatMod X 360 ≤ 360 ∧
      double (floatMod X 360) = floatMod X 360 := by
  obtain ⟨k, hk⟩ := fmod_shift X 360
  obtain ⟨i, hi⟩ := grid_sub X (-45) j (-360 * k) (by norm_num) hj
  have hfi : fmod X 360 = i * 2 ^ (-45 : ℤ) := by rw [hk, ← hi]; push_cast; ring
  obtain ⟨hp, hn⟩ := fmod_range X 360 (by norm_num)
  unfold floatMod
  by_cases hlt : fmod X 360 < 0
  · rw [if_pos hlt]
    obtain ⟨i2, hi2⟩ := grid_sub _ (-45) i 360 (by norm_num) hfi
    have hX : X < 0 := by by_contra h; linarith [(hp (not_lt.1 h)).1]
    have hr := hn hX
    refine ⟨grid_keep _ _ i2 (by push_cast at hi2; exact hi2), double_nonneg (by linarith), ?_, double_idem _⟩
    have := double_mono (x := fmod X 360 + 360) (y := 360) (by linarith) (by linarith)
    rwa [show double 360 = 360 by exact_mod_cast double_nat 360 (by norm_num)] at this
  · rw [if_neg hlt]
    push Not at hlt
    have hlt2 : fmod X 360 < 360 := by
      rcases lt_or_ge X 0 with h | h
      · have := (hn h).2; linarith
      · exact (hp h).2
    refine ⟨⟨i, hfi⟩, hlt, hlt2.le, ?_⟩
    by_cases hX : |X| < 256
    · rcases lt_or_ge X 0 with h | h
      · have : fmod X 360 = 0 := le_antisymm (hn h).2 hlt
        rw [this, double_zero]
      · have : fmod X 360 = X := by
          have h3 : X < 256 := (abs_lt.1 hX).2
          unfold fmod
          rw [if_pos h, Int.floor_eq_zero_iff.2 ⟨by positivity, by rw [div_lt_one (by norm_num)]; linarith⟩]
          simp
        rw [this, hd]
    · obtain ⟨m, hm⟩ := grid_of_ge X 8 (by norm_num; exact not_lt.1 hX)
      rw [hd] at hm
      obtain ⟨i2, hi2⟩ := grid_sub X (-44) m (-360 * k) (by norm_num) (by rw [hm]; norm_num)
      apply grid_double _ (-44) i2
      · rw [hk, ← hi2]; push_cast; ring
      · rw [abs_of_nonneg hlt]; norm_num; linarith

/-- The normalised longitude of a number of double precision is a remainder less 180, without an error in the subtraction. -/
theorem lon_remainder (lon : ℚ) (hd : double lon = lon) :
    0 ≤ floatMod (double (lon + 180)) 360 ∧ floatMod (double (lon + 180)) 360 ≤ 360 ∧
      double (floatMod (double (lon + 180)) 360) = floatMod (double (lon + 180)) 360 ∧
      lonDouble lon = floatMod (double (lon + 180)) 360 - 180 := by
  have main : (∃ j : ℤ, double (lon + 180) = j * 2 ^ (-45 : ℤ)) → 0 ≤ floatMod (double (lon + 180)) 360 ∧
      floatMod (double (lon + 180)) 360 ≤ 360 ∧ double (floatMod (double (lon + 180)) 360) = floatMod (double (lon + 180)) 360 ∧
      lonDouble lon = floatMod (double (lon + 180)) 360 - 180 := by
    rintro ⟨j, hj⟩
    obtain ⟨⟨i, hi⟩, h0, h1, h2⟩ := mod_grid _ (double_idem _) j hj
    obtain ⟨i2, hi2⟩ := grid_sub _ (-45) i (-180) (by norm_num) hi
    refine ⟨h0, h1, h2, ?_⟩
    unfold lonDouble
    apply grid_double _ (-45) i2
    · rw [← hi2]; push_cast; ring
    · rw [abs_le]; norm_num; constructor <;> linarith
  by_cases h1 : 128 ≤ |lon|
  · obtain ⟨j, hj⟩ := grid_of_ge lon 7 (by norm_num; exact h1)
    rw [hd] at hj
    obtain ⟨i, hi⟩ := grid_sub lon (-45) j 180 (by norm_num) (by rw [hj]; norm_num)
    push_cast at hi
    exact main (grid_keep _ _ i hi)
  by_cases h2 : 128 ≤ |lon + 180|
  · exact main (by simpa using grid_of_ge (lon + 180) 7 (by norm_num; exact h2))
  push Not at h1 h2
  rw [abs_lt] at h1 h2
  have hg : ∃ j : ℤ, double (lon + 180) = j * 2 ^ (-46 : ℤ) := by
    by_cases h3 : lon ≤ -64
    · obtain ⟨j, hj⟩ := grid_of_ge lon 6 (by rw [abs_of_nonpos (by linarith)]; norm_num; linarith)
      rw [hd] at hj
      obtain ⟨i, hi⟩ := grid_sub lon (-46) j 180 (by norm_num) (by rw [hj]; norm_num)
      push_cast at hi
      exact grid_keep _ _ i hi
    · simpa using grid_of_ge (lon + 180) 6 (by rw [abs_of_nonneg (by linarith)]; norm_num; linarith)
  obtain ⟨j, hj⟩ := hg
  have hlo : 52 ≤ double (lon + 180) := by
    have := double_mono (x := 52) (y := lon + 180) (by norm_num) (by linarith)
    rwa [show double 52 = 52 by exact_mod_cast double_nat 52 (by norm_num)] at this
  have hhi : double (lon + 180) ≤ 128 := by
    have := double_mono (x := lon + 180) (y := 128) (by linarith) (by linarith)
    rwa [show double 128 = 128 by exact_mod_cast double_nat 128 (by norm_num)] at this
  have hf : floatMod (double (lon + 180)) 360 = double (lon + 180) := by
    have : fmod (double (lon + 180)) 360 = double (lon + 180) := by
      unfold fmod
      rw [if_pos (by linarith), Int.floor_eq_zero_iff.2 ⟨by positivity, by rw [div_lt_one (by norm_num)]; linarith⟩]
      simp
    unfold floatMod
    rw [this, if_neg (by linarith)]
  refine ⟨by rw [hf]; linarith, by rw [hf]; linarith, by rw [hf, double_idem], ?_⟩
  unfold lonDouble
  rw [hf]
  obtain ⟨i, hi⟩ := grid_sub _ (-46) j (-180) (by norm_num) hj
  apply grid_double _ (-46) i
  · rw [← hi]; push_cast; ring
  · rw [abs_le]; norm_num; constructor <;> linarith

/-- The remainder of a number of double precision by 360 is 360 for the numbers that are below a multiple of 360 by at most `2 ^ -45`. -/
theorem mod_eq_iff (X : ℚ) : floatMod X 360 = 360 ↔ -2⁻¹ ^ 45 ≤ fmod X 360 ∧ fmod X 360 < 0 := by
  obtain ⟨hp, hn⟩ := fmod_range X 360 (by norm_num)
  unfold floatMod
  by_cases hlt : fmod X 360 < 0
  · rw [if_pos hlt]
    have hX : X < 0 := by by_contra h; linarith [(hp (not_lt.1 h)).1]
    have hr := hn hX
    have d360 : double 360 = 360 := by exact_mod_cast double_nat 360 (by norm_num)
    have dlow : double (360 - 2⁻¹ ^ 45) = 360 := by decide +kernel
    constructor
    · intro h
      refine ⟨?_, hlt⟩
      by_contra hc
      push Not at hc
      -- below the tie the result is at most `360 - 2 ^ -44`
      have h256 : (256 : ℚ) ≤ |fmod X 360 + 360| ∨ fmod X 360 + 360 < 256 := by
        rcases lt_or_ge (fmod X 360 + 360) 256 with h | h
        · exact Or.inr h
        · exact Or.inl (by rw [abs_of_nonneg (by linarith)]; exact h)
      rcases h256 with h256 | h256
      · have hlog : Int.log 2 |fmod X 360 + 360| = 8 := by
          rw [abs_of_nonneg (by linarith)] at h256 ⊢
          have hpos : 0 < fmod X 360 + 360 := by linarith
          apply le_antisymm
          · have : Int.log 2 (fmod X 360 + 360) < 9 := by
              rw [← Int.lt_zpow_iff_log_lt (by norm_num) hpos]; norm_num; linarith
            omega
          · rw [← Int.zpow_le_iff_le_log (by norm_num) hpos]; norm_num; exact h256
        have hs : spacing (fmod X 360 + 360) = 2⁻¹ ^ 44 := by
          unfold spacing; rw [hlog]; norm_num
        have hd : double (fmod X 360 + 360) = roundEven ((fmod X 360 + 360) / 2⁻¹ ^ 44) * 2⁻¹ ^ 44 := by
          rw [← hs]; rfl
        rw [h] at hd
        have hr2 : (roundEven ((fmod X 360 + 360) / 2⁻¹ ^ 44) : ℚ) = 360 * 2 ^ 44 := by
          have : (2⁻¹ : ℚ) ^ 44 * 2 ^ 44 = 1 := by norm_num
          calc (roundEven ((fmod X 360 + 360) / 2⁻¹ ^ 44) : ℚ)
              = roundEven ((fmod X 360 + 360) / 2⁻¹ ^ 44) * 2⁻¹ ^ 44 * 2 ^ 44 := by rw [mul_assoc, this, mul_one]
            _ = _ := by rw [← hd]
        have hnear := roundEven_near ((fmod X 360 + 360) / 2⁻¹ ^ 44)
        rw [hr2, abs_le] at hnear
        have e : (fmod X 360 + 360) / 2⁻¹ ^ 44 = (fmod X 360 + 360) * 2 ^ 44 := by
          rw [div_eq_mul_inv, inv_pow, inv_inv]
        rw [e] at hnear
        norm_num at hnear hc
        linarith
      · have := double_mono (x := fmod X 360 + 360) (y := 256) (by linarith) h256.le
        rw [show double 256 = 256 by exact_mod_cast double_nat 256 (by norm_num), h] at this
        norm_num at this
    · rintro ⟨h, -⟩
      apply le_antisymm
      · have := double_mono (x := fmod X 360 + 360) (y := 360) (by linarith) (by linarith)
        rwa [d360] at this
      · have := double_mono (x := 360 - 2⁻¹ ^ 45) (y := fmod X 360 + 360) (by norm_num) (by linarith)
        rwa [dlow] at this
  · rw [if_neg hlt]
    constructor
    · intro h
      rcases lt_or_ge X 0 with h2 | h2
      · linarith [(hn h2).2]
      · linarith [(hp h2).2]
    · intro h; exact absurd h.2 hlt

theorem odd_grid (j k : ℤ) (h : (j : ℚ) * 2 ^ (-44 : ℤ) = 360 * k - 2⁻¹ ^ 45) : False := by
  have h1 : (j : ℚ) * 2 = 720 * 2 ^ 44 * k - 1 := by
    have e1 : (2 : ℚ) ^ (-44 : ℤ) * 2 ^ 44 = 1 := by norm_num
    have e2 : (2⁻¹ : ℚ) ^ 45 * 2 ^ 45 = 1 := by norm_num
    linear_combination (2 ^ 45 : ℚ) * h - 2 * (j : ℚ) * e1 - e2
  have h2 : j * 2 = 720 * 2 ^ 44 * k - 1 := by exact_mod_cast h1
  omega

/-- There is exactly one number of double precision, the one just below -180, whose normalised longitude is 180. -/
theorem lon_180_iff (lon : ℚ) (hd : double lon = lon) : lonDouble lon = 180 ↔ lon = -180 - 2⁻¹ ^ 45 := by
  constructor
  · intro h
    obtain ⟨-, -, -, h3⟩ := lon_remainder lon hd
    have hM : floatMod (double (lon + 180)) 360 = 360 := by linarith
    obtain ⟨m1, m2⟩ := (mod_eq_iff _).1 hM
    obtain ⟨k, hk⟩ := fmod_shift (double (lon + 180)) 360
    have hneg : double (lon + 180) < 0 := by
      by_contra hc
      linarith [((fmod_range (double (lon + 180)) 360 (by norm_num)).1 (not_lt.1 hc)).1]
    have h128 : 128 ≤ |lon| := by
      by_contra hc
      push Not at hc
      linarith [double_nonneg (x := lon + 180) (by linarith [(abs_lt.1 hc).1])]
    obtain ⟨j, hj⟩ := grid_of_ge lon 7 (by norm_num; exact h128)
    rw [hd] at hj
    obtain ⟨i, hi⟩ := grid_sub lon (-45) j 180 (by norm_num) (by rw [hj]; norm_num)
    push_cast at hi
    obtain ⟨i2, hi2⟩ := grid_keep _ _ i hi
    obtain ⟨i3, hi3⟩ := grid_sub _ (-45) i2 (-360 * k) (by norm_num) hi2
    have hf : fmod (double (lon + 180)) 360 = i3 * 2 ^ (-45 : ℤ) := by rw [hk, ← hi3]; push_cast; ring
    have hi3' : i3 = -1 := by
      rw [hf] at m1 m2
      norm_num at m1 m2
      have a : (-1 : ℚ) ≤ i3 := by linarith
      have b : (i3 : ℚ) < 0 := by linarith
      have a' : -1 ≤ i3 := by exact_mod_cast a
      have b' : i3 < 0 := by exact_mod_cast b
      omega
    have hval : double (lon + 180) = 360 * k - 2⁻¹ ^ 45 := by
      rw [hi3'] at hf
      rw [hf] at hk
      norm_num at hk ⊢
      linarith
    by_cases hsm : |i| ≤ 2 ^ 53
    · have hex : double (lon + 180) = lon + 180 := by rw [hi]; exact double_exact i (-45) hsm
      have hk0 : k = 0 := by
        by_contra hk0
        have hbig : (2 : ℚ) ^ (8 : ℤ) ≤ |lon + 180| := by
          rw [← hex, hval]
          have : k ≤ -1 := by
            rw [hval] at hneg
            have : (k : ℚ) < 1 := by norm_num at hneg; linarith
            have : k < 1 := by exact_mod_cast this
            omega
          have hk' : (k : ℚ) ≤ -1 := by exact_mod_cast this
          rw [abs_of_nonpos (by norm_num; linarith)]
          norm_num
          linarith
        obtain ⟨m, hm⟩ := grid_of_ge (lon + 180) 8 hbig
        rw [hval] at hm
        exact odd_grid m k (by rw [hm]; norm_num)
      rw [hex, hk0] at hval
      push_cast at hval
      linarith
    · exfalso
      have hbig : (2 : ℚ) ^ (8 : ℤ) ≤ |lon + 180| := by
        have : ((2 ^ 53 : ℤ) : ℚ) < ((|i| : ℤ) : ℚ) := by exact_mod_cast not_le.1 hsm
        rw [Int.cast_abs] at this
        rw [hi, abs_mul, abs_of_pos (by positivity : (0 : ℚ) < 2 ^ (-45 : ℤ))]
        have h2 := mul_le_mul_of_nonneg_right this.le (by positivity : (0 : ℚ) ≤ 2 ^ (-45 : ℤ))
        refine le_trans (le_of_eq ?_) h2
        norm_num
      obtain ⟨m, hm⟩ := grid_of_ge (lon + 180) 8 hbig
      rw [hval] at hm
      exact odd_grid m k (by rw [hm]; norm_num)
  · rintro rfl
    decide +kernel

/-! ### C222 -/

/-- The latitude is always a latitude. -/
theorem C222_lat_range (loc : ℚ × ℚ) : -90 ≤ (normalizeDouble loc).2 ∧ (normalizeDouble loc).2 ≤ 90 :=
  ⟨le_min (le_max_right _ _) (by norm_num), min_le_right _ _⟩

theorem normalize_lat (lon lat : ℚ) (hlat : -90 ≤ lat ∧ lat ≤ 90) : normalizeDouble (lon, lat) = (lonDouble lon, lat) := by
  unfold normalizeDouble
  simp only [gt_iff_lt, not_lt.2 hlat.1, not_lt.2 hlat.2, if_false]
  rw [max_eq_left hlat.1, min_eq_left hlat.2]

/-- The normalised longitude is in [-180, 180), except for one number: the one just below -180, which becomes 180.  A latitude that is one stays as it is.
Missing: that number, see `C222_range_fails`; and latitudes beyond the poles, see `C01_lon_range_fails`. -/
theorem C222_range_partial (lon lat : ℚ) (hd : double lon = lon) (hlat : -90 ≤ lat ∧ lat ≤ 90) :
    (-180 ≤ (normalizeDouble (lon, lat)).1 ∧ (normalizeDouble (lon, lat)).1 < 180 ↔ lon ≠ -180 - 2⁻¹ ^ 45) ∧
      (normalizeDouble (lon, lat)).2 = lat := by
  obtain ⟨h0, h1, -, h3⟩ := lon_remainder lon hd
  rw [normalize_lat _ _ hlat]
  refine ⟨?_, rfl⟩
  rw [Ne, ← lon_180_iff lon hd]
  simp only
  rw [h3]
  constructor
  · intro h h'; linarith
  · intro h
    refine ⟨by linarith, lt_of_le_of_ne (by linarith) h⟩

/-- A location that was normalised stays as it is when it is normalised again, as it is when a crater is read from a file or copied, except for the longitude
just below -180.  Missing: that number, see `C222_idempotent_fails`. -/
theorem C222_idempotent_partial (lon lat : ℚ) (hd : double lon = lon) (hlat : -90 ≤ lat ∧ lat ≤ 90) (hne : lon ≠ -180 - 2⁻¹ ^ 45) :
    normalizeDouble (normalizeDouble (lon, lat)) = normalizeDouble (lon, lat) := by
  obtain ⟨h0, h1, h2, h3⟩ := lon_remainder lon hd
  rw [Ne, ← lon_180_iff lon hd] at hne
  rw [normalize_lat _ _ hlat, normalize_lat _ _ hlat]
  congr 1
  set M := floatMod (double (lon + 180)) 360 with hM
  have hlt : M < 360 := lt_of_le_of_ne h1 (by intro h; rw [h] at h3; exact hne (by rw [h3]; norm_num))
  rw [h3]
  have hf : floatMod M 360 = M := by
    have : fmod M 360 = M := by
      unfold fmod
      rw [if_pos h0, Int.floor_eq_zero_iff.2 ⟨by positivity, by rw [div_lt_one (by norm_num)]; exact hlt⟩]
      simp
    unfold floatMod
    rw [this, if_neg (not_lt.2 h0)]
  have h4 : lonDouble lon = double (M - 180) := rfl
  unfold lonDouble
  rw [show M - 180 + 180 = M by ring, h2, hf, ← h4, h3]

/-- The remainder of a number on a grid of `2 ^ -g` is that of exact numbers. -/
theorem mod_exact (X : ℚ) (g : ℕ) (j : ℤ) (hg : 360 * 2 ^ g ≤ 2 ^ 53) (hj : X = j * 2 ^ (-(g : ℤ))) :
    floatMod X 360 = X - 360 * ⌊X / 360⌋ := by
  unfold floatMod
  rcases le_or_gt 0 X with h | h
  · have e : fmod X 360 = X - 360 * ⌊X / 360⌋ := by unfold fmod; rw [if_pos h]
    have := ((fmod_range X 360 (by norm_num)).1 h).1
    rw [if_neg (not_lt.2 this), e]
  · have e : fmod X 360 = X - 360 * ⌈X / 360⌉ := by unfold fmod; rw [if_neg (not_le.2 h)]
    have hr := (fmod_range X 360 (by norm_num)).2 h
    have hc : (X / 360) * 360 = X := by ring
    by_cases hz : fmod X 360 < 0
    · rw [if_pos hz]
      have hf : ⌊X / 360⌋ = ⌈X / 360⌉ - 1 := by
        rw [Int.floor_eq_iff]
        push_cast
        rw [e] at hz hr
        constructor <;> linarith
      have e2 : fmod X 360 + 360 = X - 360 * ⌊X / 360⌋ := by rw [hf, e]; push_cast; ring
      rw [← e2]
      obtain ⟨i, hi⟩ := grid_sub X (-(g : ℤ)) j (-360 * ⌊X / 360⌋) (by omega) hj
      apply grid_double _ (-(g : ℤ)) i
      · rw [← hi, e2]; push_cast; ring
      · rw [abs_of_nonneg (by linarith), zpow_add₀ (by norm_num), zpow_neg, zpow_natCast]
        have : (360 : ℚ) * 2 ^ g ≤ 2 ^ 53 := by exact_mod_cast hg
        rw [← div_eq_mul_inv, le_div_iff₀ (by positivity)]
        have h3 : (fmod X 360 + 360) * 2 ^ g ≤ 360 * 2 ^ g := mul_le_mul_of_nonneg_right (by linarith) (by positivity)
        refine (h3.trans this).trans (le_of_eq ?_)
        norm_num
    · rw [if_neg hz, e]
      have : (X / 360) = ⌈X / 360⌉ := by
        have := le_antisymm hr.2 (not_lt.1 hz)
        rw [e] at this
        linarith
      have hf : ⌊X / 360⌋ = ⌈X / 360⌉ := by
        rw [Int.floor_eq_iff]; constructor <;> linarith
      rw [hf]

/-- Longitudes that are multiples of `2 ^ -g`, such as whole and half degrees, are normalised without any error: the result is that of exact
numbers, of which C01 speaks. -/
theorem C222_exact_partial (g : ℕ) (i : ℤ) (hi : |i| + 720 * 2 ^ g ≤ 2 ^ 53) (lat : ℚ) (hlat : -90 ≤ lat ∧ lat ≤ 90) :
    (((normalizeDouble ((i : ℚ) / 2 ^ g, lat)).1 : ℝ), ((normalizeDouble ((i : ℚ) / 2 ^ g, lat)).2 : ℝ)) =
      Verif.Location.normalizeCoords ((((i : ℚ) / 2 ^ g : ℚ) : ℝ), (lat : ℝ)) := by
  have hp : (0 : ℤ) < 2 ^ g := by positivity
  have hx : (i : ℚ) / 2 ^ g = i * 2 ^ (-(g : ℤ)) := by rw [zpow_neg, zpow_natCast, div_eq_mul_inv]
  obtain ⟨hi1, hi2⟩ := abs_le.1 (show |i| ≤ 2 ^ 53 - 720 * 2 ^ g by linarith)
  set x : ℚ := (i : ℚ) / 2 ^ g with hxdef
  have h1 : x + 180 = ((i + 180 * 2 ^ g : ℤ) : ℚ) * 2 ^ (-(g : ℤ)) := by
    rw [hxdef, zpow_neg, zpow_natCast]; push_cast; field_simp
  have hX : double (x + 180) = x + 180 := by
    rw [h1]; exact double_exact _ _ (abs_le.2 ⟨by linarith, by linarith⟩)
  have hM := mod_exact (x + 180) g _ (by linarith [abs_nonneg i]) h1
  have hr : 0 ≤ floatMod (x + 180) 360 ∧ floatMod (x + 180) 360 ≤ 360 := by
    rw [hM]
    have a := Int.floor_le ((x + 180) / 360)
    have b := Int.lt_floor_add_one ((x + 180) / 360)
    constructor <;> linarith
  have hl : lonDouble x = x + 180 - 360 * ⌊(x + 180) / 360⌋ - 180 := by
    unfold lonDouble
    rw [hX]
    obtain ⟨j, hj⟩ := grid_sub (x + 180) (-(g : ℤ)) _ (-360 * ⌊(x + 180) / 360⌋ - 180) (by omega) h1
    rw [← hM]
    apply grid_double _ (-(g : ℤ)) j
    · rw [← hj, hM]; push_cast; ring
    · rw [zpow_add₀ (by norm_num), zpow_neg, zpow_natCast, ← div_eq_mul_inv, le_div_iff₀ (by positivity)]
      have h2 : (180 : ℚ) * 2 ^ g ≤ 2 ^ 53 := by
        have : (180 : ℤ) * 2 ^ g ≤ 2 ^ 53 := by linarith [abs_nonneg i]
        exact_mod_cast this
      have h3 : |floatMod (x + 180) 360 - 180| * 2 ^ g ≤ 180 * 2 ^ g :=
        mul_le_mul_of_nonneg_right (abs_le.2 ⟨by linarith, by linarith⟩) (by positivity)
      refine (h3.trans h2).trans (le_of_eq ?_)
      norm_num
  rw [normalize_lat _ _ hlat]
  have hlr : (-90 : ℝ) ≤ (lat : ℝ) ∧ (lat : ℝ) ≤ 90 := ⟨by exact_mod_cast hlat.1, by exact_mod_cast hlat.2⟩
  unfold Verif.Location.normalizeCoords
  simp only [gt_iff_lt, not_lt.2 hlr.1, not_lt.2 hlr.2, if_false]
  rw [Verif.Location.clip_id hlr, hl]
  have hfl : ⌊((x : ℝ) + 180) / 360⌋ = ⌊(x + 180) / 360⌋ := by
    rw [← Rat.floor_cast (α := ℝ) ((x + 180) / 360)]; push_cast; rfl
  unfold Verif.Location.pymod
  rw [hfl]
  push_cast
  rfl

/-- The result differs from what was given by a multiple of 360 degrees and at most `2 ^ -43` degrees, which is less than a millionth of a metre on
the Moon. -/
theorem C222_near (lon lat : ℚ) (hd : double lon = lon) (hl : |lon| ≤ 360) (hlat : -90 ≤ lat ∧ lat ≤ 90) :
    ∃ k : ℤ, |(normalizeDouble (lon, lat)).1 - (lon + 360 * k)| ≤ 2⁻¹ ^ 43 := by
  obtain ⟨h0, h1, h2, h3⟩ := lon_remainder lon hd
  obtain ⟨l1, l2⟩ := abs_le.1 hl
  have e1 := err_le (lon + 180) 10 (by rw [abs_lt]; norm_num; constructor <;> linarith)
  set X := double (lon + 180) with hX
  obtain ⟨k, hk⟩ := fmod_shift X 360
  obtain ⟨hp, hn⟩ := fmod_range X 360 (by norm_num)
  rw [normalize_lat _ _ hlat]
  simp only [h3]
  rw [abs_le] at e1
  norm_num at e1
  unfold floatMod
  by_cases hlt : fmod X 360 < 0
  · rw [if_pos hlt]
    have hneg : X < 0 := by by_contra h; linarith [(hp (not_lt.1 h)).1]
    have e2 := err_le (fmod X 360 + 360) 9 (by rw [abs_lt]; norm_num; constructor <;> linarith [hn hneg])
    rw [abs_le] at e2
    norm_num at e2
    refine ⟨-k + 1, ?_⟩
    rw [abs_le]
    push_cast
    norm_num
    constructor <;> linarith
  · rw [if_neg hlt]
    refine ⟨-k, ?_⟩
    rw [abs_le]
    push_cast
    norm_num
    constructor <;> linarith

theorem clamp_near (x y e : ℚ) (hx : -90 ≤ x ∧ x ≤ 90) (h : |y - x| ≤ e) : |min (max y (-90)) 90 - x| ≤ e := by
  obtain ⟨h1, h2⟩ := abs_le.1 h
  rw [abs_le]
  rcases le_total y (-90) with hy | hy
  · rw [max_eq_right hy, min_eq_left (by norm_num)]
    constructor <;> linarith [hx.1, hx.2]
  · rw [max_eq_left hy]
    rcases le_total y 90 with hy' | hy'
    · rw [min_eq_left hy']; exact ⟨h1, h2⟩
    · rw [min_eq_right hy']; constructor <;> linarith [hx.1, hx.2]

/-- A location over a pole is turned to the other side of it: half a turn in longitude, and as far down from the pole as it was beyond it, both up to the same
rounding error. -/
theorem C222_over_pole (lon lat : ℚ) (hl : |lon| ≤ 360) :
    (90 < lat → lat ≤ 270 → |(normalizeDouble (lon, lat)).1 - (lon - 180)| ≤ 2⁻¹ ^ 43 ∧ |(normalizeDouble (lon, lat)).2 - (180 - lat)| ≤ 2⁻¹ ^ 43) ∧
    (lat < -90 → -270 ≤ lat → |(normalizeDouble (lon, lat)).1 - (lon - 180)| ≤ 2⁻¹ ^ 43 ∧ |(normalizeDouble (lon, lat)).2 - (-180 - lat)| ≤ 2⁻¹ ^ 43) := by
  obtain ⟨l1, l2⟩ := abs_le.1 hl
  have e1 : |double (lon - 180) - (lon - 180)| ≤ 2⁻¹ ^ 43 :=
    (err_le (lon - 180) 10 (by rw [abs_lt]; norm_num; constructor <;> linarith)).trans (by norm_num)
  refine ⟨fun h h' => ?_, fun h h' => ?_⟩
  · have e2 : |double (180 - lat) - (180 - lat)| ≤ 2⁻¹ ^ 43 :=
      (err_le (180 - lat) 10 (by rw [abs_lt]; norm_num; constructor <;> linarith)).trans (by norm_num)
    simp only [normalizeDouble, gt_iff_lt, h, if_true]
    exact ⟨e1, clamp_near _ _ _ ⟨by linarith, by linarith⟩ e2⟩
  · have e2 : |double (-180 - lat) - (-180 - lat)| ≤ 2⁻¹ ^ 43 :=
      (err_le (-180 - lat) 10 (by rw [abs_lt]; norm_num; constructor <;> linarith)).trans (by norm_num)
    have hn : ¬ 90 < lat := by linarith
    simp only [normalizeDouble, gt_iff_lt, hn, h, if_true, if_false]
    exact ⟨e1, clamp_near _ _ _ ⟨by linarith, by linarith⟩ e2⟩

example : |(normalizeDouble (30, 100)).1 - (-150)| ≤ 2⁻¹ ^ 43 ∧ |(normalizeDouble (30, 100)).2 - 80| ≤ 2⁻¹ ^ 43 := by
  have := (C222_over_pole 30 100 (by norm_num [abs_of_pos])).1 (by norm_num) (by norm_num)
  norm_num at this ⊢
  exact this

/-- The longitude just below -180, which is a number of double precision, is normalised to 180, outside the documented range. -/
theorem C222_range_fails : ∃ lon : ℚ, double lon = lon ∧ |lon| ≤ 181 ∧ (normalizeDouble (lon, 0)).1 = 180 := by
  refine ⟨-180 - 2⁻¹ ^ 45, ?_, ?_, ?_⟩ <;> decide +kernel

/-- A location that was normalised changes when it is normalised again: its longitude was 180 and becomes -180.  A crater made there has another location, and so
another identifier, once it has been written to a file and read. -/
theorem C222_idempotent_fails : ∃ lon : ℚ, double lon = lon ∧
    (normalizeDouble (normalizeDouble (lon, 0))).1 = -180 ∧ (normalizeDouble (lon, 0)).1 = 180 := by
  refine ⟨-180 - 2⁻¹ ^ 45, ?_, ?_, ?_⟩ <;> decide +kernel

/-- A longitude inside the documented range is not left as it is: the one just below 180 becomes -180, and a small one becomes 0. -/
theorem C222_unchanged_fails : (∃ lon : ℚ, double lon = lon ∧ -180 ≤ lon ∧ lon < 180 ∧ (normalizeDouble (lon, 0)).1 = -180 ∧ 179 < lon) ∧
    ∃ lon : ℚ, double lon = lon ∧ 0 < lon ∧ lon < 1 ∧ (normalizeDouble (lon, 0)).1 = 0 := by
  refine ⟨⟨180 - 2⁻¹ ^ 45, ?_, ?_, ?_, ?_, ?_⟩, ⟨2⁻¹ ^ 50, ?_, ?_, ?_, ?_⟩⟩ <;> decide +kernel

/-- The hypotheses are met: 370.5 degrees become 10.5. -/
example : normalizeDouble (741 / 2, 45) = (21 / 2, 45) ∧ double (741 / 2) = 741 / 2 ∧ |(741 : ℤ)| + 720 * 2 ^ 1 ≤ 2 ^ 53 := by
  refine ⟨?_, ?_, ?_⟩ <;> decide +kernel

/-! ### C223 -/

/-- An assigned orientation is reported in [0, 360), up to full turns and a rounding error of less than `2 ^ -45` degrees equal to the one given, unless the one given
lies below a full turn by at most `2 ^ -45` degrees; and it stays as it is when it is assigned once more.  Missing: these numbers, see `C223_range_fails`. -/
theorem C223_orientation_partial (v : ℚ) :
    ∃ r, setOrientation (some v) = some r ∧
      (0 ≤ r ∧ r ≤ 360 ∧ (r = 360 ↔ ∃ k : ℤ, v < 0 ∧ 360 * k - 2⁻¹ ^ 45 ≤ v ∧ v < 360 * k ∧ k ≤ 0)) ∧
      (∃ k : ℤ, |r - (v + 360 * k)| ≤ 2⁻¹ ^ 45) ∧ (r ≠ 360 → setOrientation (some r) = some r) := by
  refine ⟨floatMod v 360, rfl, ?_⟩
  obtain ⟨k, hk⟩ := fmod_shift v 360
  obtain ⟨hp, hn⟩ := fmod_range v 360 (by norm_num)
  have h0 : 0 ≤ floatMod v 360 ∧ floatMod v 360 ≤ 360 ∧ ∃ k : ℤ, |floatMod v 360 - (v + 360 * k)| ≤ 2⁻¹ ^ 45 := by
    unfold floatMod
    by_cases hlt : fmod v 360 < 0
    · have hneg : v < 0 := by by_contra h; linarith [(hp (not_lt.1 h)).1]
      have hr := hn hneg
      rw [if_pos hlt]
      refine ⟨double_nonneg (by linarith), ?_, -k + 1, ?_⟩
      · have := double_mono (x := fmod v 360 + 360) (y := 360) (by linarith) (by linarith)
        rwa [show double 360 = 360 by exact_mod_cast double_nat 360 (by norm_num)] at this
      · have e := err_le (fmod v 360 + 360) 9 (by rw [abs_lt]; norm_num; constructor <;> linarith)
        have e2 : v + 360 * ((-k + 1 : ℤ) : ℚ) = fmod v 360 + 360 := by rw [hk]; push_cast; ring
        rw [e2]
        refine e.trans (le_of_eq ?_)
        norm_num
    · rw [if_neg hlt]
      refine ⟨not_lt.1 hlt, ?_, -k, ?_⟩
      · rcases lt_or_ge v 0 with h | h
        · linarith [(hn h).2]
        · exact (hp h).2.le
      · rw [hk]; push_cast; rw [show v - 360 * (k : ℚ) - (v + 360 * -(k : ℚ)) = 0 by ring]; norm_num
  refine ⟨⟨h0.1, h0.2.1, ?_⟩, h0.2.2, ?_⟩
  · rw [mod_eq_iff]
    constructor
    · rintro ⟨h1, h2⟩
      have hneg : v < 0 := by by_contra h; linarith [(hp (not_lt.1 h)).1]
      refine ⟨k, hneg, by rw [hk] at h1; linarith, by rw [hk] at h2; linarith, ?_⟩
      have : (k : ℚ) < 1 := by rw [hk] at h1; norm_num at h1; linarith
      have : k < 1 := by exact_mod_cast this
      omega
    · rintro ⟨k', hneg, h1, h2, h3⟩
      have : ⌈v / 360⌉ = k' := by
        rw [Int.ceil_eq_iff]
        norm_num at h1
        constructor <;> linarith
      have e : fmod v 360 = v - 360 * k' := by unfold fmod; rw [if_neg (not_le.2 hneg), this]
      rw [e]
      constructor <;> linarith
  · intro hne
    have hlt := lt_of_le_of_ne h0.2.1 hne
    set M := floatMod v 360
    have : fmod M 360 = M := by
      unfold fmod
      rw [if_pos h0.1, Int.floor_eq_zero_iff.2 ⟨div_nonneg h0.1 (by norm_num), by rw [div_lt_one (by norm_num)]; exact hlt⟩]
      simp
    have hf : floatMod M 360 = M := by
      unfold floatMod
      rw [this, if_neg (not_lt.2 h0.1)]
    simp only [setOrientation, Option.map_some, hf]

/-- A small negative orientation, as a measurement of an axis towards north gives it, is reported as 360, and as 0 after the crater has been converted or read. -/
theorem C223_range_fails : ∃ v : ℚ, double v = v ∧ setOrientation (some v) = some 360 ∧ setOrientation (some 360) = some 0 := by
  refine ⟨-2⁻¹ ^ 50, ?_, ?_, ?_⟩ <;> decide +kernel

/-- An ordinary case: -90 is reported as 270, 725.5 as 5.5. -/
example : setOrientation (some (-90)) = some 270 ∧ setOrientation (some (1451 / 2)) = some (11 / 2) := by
  constructor <;> decide +kernel

end Verif.LocationDouble
