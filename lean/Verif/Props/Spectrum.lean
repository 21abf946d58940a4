import Verif.Model.Spectrum
import Mathlib.Analysis.Real.Pi.Bounds
import Mathlib.Tactic.Positivity
import Mathlib.Tactic.Linarith

/-!
C231, C232: the spectra of crater surfaces and outlines.
-/

set_option linter.all false

namespace Verif.Spectrum

theorem assign_in {r0 r1 c0 c1 : ℕ} {q a : Arr} {i j : ℕ} (h : r0 ≤ i ∧ i < r1 ∧ c0 ≤ j ∧ j < c1) : assign r0 r1 c0 c1 q a i j = q (i - r0) (j - c0) := if_pos h

theorem assign_out {r0 r1 c0 c1 : ℕ} {q a : Arr} {i j : ℕ} (h : ¬(r0 ≤ i ∧ i < r1 ∧ c0 ≤ j ∧ j < c1)) : assign r0 r1 c0 c1 q a i j = a i j := if_neg h

theorem quad_A {m n i j : ℕ} {q1 q2 : Arr} (hm : 2 ≤ m) (hn : 2 ≤ n) (hi : i < 2 * m) (hj : j < 2 * n) (h : m ≤ i ∧ n ≤ j) : quadrants m n q1 q2 i j = q1 (i - m) (j - n) := by
  unfold quadrants
  simp (disch := omega) only [assign_in, assign_out, fliplr, flipud, inner] <;> congr 1 <;> omega

theorem quad_B {m n i j : ℕ} {q1 q2 : Arr} (hm : 2 ≤ m) (hn : 2 ≤ n) (hi : i < 2 * m) (hj : j < 2 * n) (h : m < i ∧ 1 ≤ j ∧ j < n) : quadrants m n q1 q2 i j = q2 (i - m) (n - j) := by
  unfold quadrants
  simp (disch := omega) only [assign_in, assign_out, fliplr, flipud, inner] <;> congr 1 <;> omega

theorem quad_C {m n i j : ℕ} {q1 q2 : Arr} (hm : 2 ≤ m) (hn : 2 ≤ n) (hi : i < 2 * m) (hj : j < 2 * n) (h : 1 ≤ i ∧ i < m ∧ n < j) : quadrants m n q1 q2 i j = q2 (m - i) (j - n) := by
  unfold quadrants
  simp (disch := omega) only [assign_in, assign_out, fliplr, flipud, inner] <;> congr 1 <;> omega

theorem quad_D {m n i j : ℕ} {q1 q2 : Arr} (hm : 2 ≤ m) (hn : 2 ≤ n) (hi : i < 2 * m) (hj : j < 2 * n) (h : 1 ≤ i ∧ i < m ∧ 1 ≤ j ∧ j < n) : quadrants m n q1 q2 i j = q1 (m - i) (n - j) := by
  unfold quadrants
  simp (disch := omega) only [assign_in, assign_out, fliplr, flipud, inner] <;> congr 1 <;> omega

/-- The opposite index of `2 m`. -/
def opp (m i : ℕ) : ℕ := if i = 0 then 0 else 2 * m - i

theorem symm_inner (m n : ℕ) (hm : 2 ≤ m) (hn : 2 ≤ n) (q1 q2 : Arr) (i j : ℕ) (hi : i < 2 * m) (hj : j < 2 * n) (hi0 : i ≠ 0) (hj0 : j ≠ 0) :
    row m n (column m n (quadrants m n q1 q2)) i j = row m n (column m n (quadrants m n q1 q2)) (2 * m - i) (2 * n - j) := by
  have h1 : (1 ≤ i ∧ i < m) ∨ i = m ∨ (m < i) := by omega
  have k1 : (1 ≤ j ∧ j < n) ∨ j = n ∨ (n < j) := by omega
  unfold row column
  rcases h1 with h | h | h <;> rcases k1 with k | k | k <;>
    simp (disch := omega) only [assign_in, assign_out, quad_A, quad_B, quad_C, quad_D] <;> congr 1 <;> omega

/-- Lines 276-284. -/
def border (m n : ℕ) (a : Arr) : Arr := corners m n (leftFlip m (topFlip n (left m (top n a))))

theorem border_in {m n i j : ℕ} {a : Arr} (hm : 2 ≤ m) (hn : 2 ≤ n) (hi : i < 2 * m) (hj : j < 2 * n) (h : 1 ≤ i ∧ 1 ≤ j) : border m n a i j = a i j := by
  unfold border corners leftFlip topFlip left top
  simp (disch := omega) only [assign_in, assign_out] <;> congr 1 <;> omega

theorem border_tr {m n i j : ℕ} {a : Arr} (hm : 2 ≤ m) (hn : 2 ≤ n) (hi : i < 2 * m) (hj : j < 2 * n) (h : i = 0 ∧ n < j) : border m n a i j = a 1 j := by
  unfold border corners leftFlip topFlip left top
  simp (disch := omega) only [assign_in, assign_out] <;> congr 1 <;> omega

theorem border_tl {m n i j : ℕ} {a : Arr} (hm : 2 ≤ m) (hn : 2 ≤ n) (hi : i < 2 * m) (hj : j < 2 * n) (h : i = 0 ∧ 1 ≤ j ∧ j < n) : border m n a i j = a 1 (2 * n - j) := by
  unfold border corners leftFlip topFlip left top
  simp (disch := omega) only [assign_in, assign_out] <;> congr 1 <;> omega

theorem border_lb {m n i j : ℕ} {a : Arr} (hm : 2 ≤ m) (hn : 2 ≤ n) (hi : i < 2 * m) (hj : j < 2 * n) (h : m < i ∧ j = 0) : border m n a i j = a i 1 := by
  unfold border corners leftFlip topFlip left top
  simp (disch := omega) only [assign_in, assign_out] <;> congr 1 <;> omega

theorem border_lt {m n i j : ℕ} {a : Arr} (hm : 2 ≤ m) (hn : 2 ≤ n) (hi : i < 2 * m) (hj : j < 2 * n) (h : 1 ≤ i ∧ i < m ∧ j = 0) : border m n a i j = a (2 * m - i) 1 := by
  unfold border corners leftFlip topFlip left top
  simp (disch := omega) only [assign_in, assign_out] <;> congr 1 <;> omega

theorem border_o {m n i j : ℕ} {a : Arr} (hm : 2 ≤ m) (hn : 2 ≤ n) (hi : i < 2 * m) (hj : j < 2 * n) (h : i = 0 ∧ j = 0) : border m n a i j = a 1 1 := by
  unfold border corners leftFlip topFlip left top
  simp (disch := omega) only [assign_in, assign_out] <;> congr 1 <;> omega

theorem border_t {m n i j : ℕ} {a : Arr} (hm : 2 ≤ m) (hn : 2 ≤ n) (hi : i < 2 * m) (hj : j < 2 * n) (h : i = 0 ∧ j = n) : border m n a i j = a 1 n := by
  unfold border corners leftFlip topFlip left top
  simp (disch := omega) only [assign_in, assign_out] <;> congr 1 <;> omega

theorem border_l {m n i j : ℕ} {a : Arr} (hm : 2 ≤ m) (hn : 2 ≤ n) (hi : i < 2 * m) (hj : j < 2 * n) (h : i = m ∧ j = 0) : border m n a i j = a m 1 := by
  unfold border corners leftFlip topFlip left top
  simp (disch := omega) only [assign_in, assign_out] <;> congr 1 <;> omega

theorem symm_log (m n : ℕ) (hm : 2 ≤ m) (hn : 2 ≤ n) (q1 q2 : Arr) (i j : ℕ) (hi : i < 2 * m) (hj : j < 2 * n) :
    psdLog m n q1 q2 i j = psdLog m n q1 q2 (opp m i) (opp n j) := by
  have s := symm_inner m n hm hn q1 q2
  have e : psdLog m n q1 q2 = border m n (row m n (column m n (quadrants m n q1 q2))) := rfl
  rw [e]
  generalize row m n (column m n (quadrants m n q1 q2)) = a at s
  have h1 : i = 0 ∨ (1 ≤ i ∧ i < m) ∨ i = m ∨ (m < i) := by omega
  have k1 : j = 0 ∨ (1 ≤ j ∧ j < n) ∨ j = n ∨ (n < j) := by omega
  by_cases hi0 : i = 0 <;> by_cases hj0 : j = 0
  · rw [hi0, hj0]; rfl
  · rcases k1 with k | k | k | k <;>
      simp (disch := omega) only [opp, if_pos, if_neg, border_tr, border_tl, border_t] <;> congr 1 <;> omega
  · rcases h1 with k | k | k | k <;>
      simp (disch := omega) only [opp, if_pos, if_neg, border_lb, border_lt, border_l] <;> congr 1 <;> omega
  · simp (disch := omega) only [opp, if_neg, border_in]
    exact s i j hi hj hi0 hj0

/-- C231 The spectrum is that of a real surface: the power of every wave equals that of the wave of the opposite frequencies.  Index `m` of `2 m` is the frequency zero;
an index and its opposite add up to `2 m`, and the index 0, the largest frequency, is its own opposite. -/
theorem C231_symmetric (m n : ℕ) (hm : 2 ≤ m) (hn : 2 ≤ n) (q1 q2 : Arr) (mean : Bool) (i j : ℕ) (hi : i < 2 * m) (hj : j < 2 * n) :
    psd m n q1 q2 mean i j = psd m n q1 q2 mean ((2 * m - i) % (2 * m)) ((2 * n - j) % (2 * n)) := by
  have r : ∀ m i : ℕ, i < 2 * m → (2 * m - i) % (2 * m) = opp m i := by
    intro m i hi
    unfold opp
    split_ifs with h
    · subst h; simp
    · exact Nat.mod_eq_of_lt (by omega)
  rw [r m i hi, r n j hj]
  have hs := symm_log m n hm hn q1 q2 i j hi hj
  have hoi : opp m i < 2 * m := by unfold opp; split_ifs <;> omega
  unfold psd
  cases mean
  · simp only [Bool.false_eq_true, if_false]; rw [hs]
  · simp only [if_true]
    by_cases hj' : j = n
    · have : opp n j = n := by unfold opp; split_ifs <;> omega
      rw [assign_in (by omega), assign_in (by omega)]
    · have : opp n j ≠ n := by unfold opp; split_ifs <;> omega
      rw [assign_out (by omega), assign_out (by omega), hs]

example : psd 2 2 (fun r c => r + 2 * c) (fun _ _ => 7) true 1 3 = psd 2 2 (fun r c => r + 2 * c) (fun _ _ => 7) true 3 1 :=
  C231_symmetric 2 2 (by norm_num) (by norm_num) _ _ true 1 3 (by norm_num) (by norm_num)

/-- C231 The waves of two frequencies that are not negative have the drawn power of the first quadrant, those of a positive and a negative frequency that of the second
one; the mean around the crater of an ejecta or a wall has no power. -/
theorem C231_quadrants (m n : ℕ) (hm : 2 ≤ m) (hn : 2 ≤ n) (q1 q2 : Arr) (r c : ℕ) (hr : r < m) (hc : c < n) :
    psd m n q1 q2 false (m + r) (n + c) = 10 ^ q1 r c ∧ (0 < r → 0 < c → psd m n q1 q2 false (m + r) (n - c) = 10 ^ q2 r c) ∧
    (0 < c → psd m n q1 q2 true (m + r) (n + c) = 10 ^ q1 r c) ∧ (0 < r → 0 < c → psd m n q1 q2 true (m + r) (n - c) = 10 ^ q2 r c) ∧
    psd m n q1 q2 true (m + r) n = 0 := by
  have e : psdLog m n q1 q2 = border m n (row m n (column m n (quadrants m n q1 q2))) := rfl
  have h1 : psdLog m n q1 q2 (m + r) (n + c) = q1 r c := by
    rw [e, border_in hm hn (by omega) (by omega) (by omega)]
    unfold row column
    simp (disch := omega) only [assign_out, quad_A]
    congr 1 <;> omega
  have h2 : 0 < r → 0 < c → psdLog m n q1 q2 (m + r) (n - c) = q2 r c := by
    intro _ _
    rw [e, border_in hm hn (by omega) (by omega) (by omega)]
    unfold row column
    simp (disch := omega) only [assign_out, quad_B]
    congr 1 <;> omega
  unfold psd
  simp only [Bool.false_eq_true, if_false, if_true]
  refine ⟨by rw [h1], fun a b => by rw [h2 a b], fun a => ?_, fun a b => ?_, ?_⟩
  · rw [assign_out (by omega), h1]
  · rw [assign_out (by omega), h2 a b]
  · rw [assign_in (by omega)]

example : psd 2 2 (fun r c => r + c) (fun _ _ => 7) false 3 3 = 10 ^ (2 : ℝ) := by
  have := (C231_quadrants 2 2 (by norm_num) (by norm_num) (fun r c => r + c) (fun _ _ => 7) 1 1 (by norm_num) (by norm_num)).1
  norm_num at this ⊢
  exact this

/-- C231 Before the noise the power is largest for the longest waves, where it is the drawn maximum, it never grows with the frequency, and it stays above the maximum
less the drawn difference (widened by the direction). -/
theorem C231_falls (pMax pDiff nu shape : ℝ) (hd : 0 ≤ pDiff) (hnu : 0 < nu) :
    quadrant pMax pDiff nu shape 0 = pMax ∧ (∀ f g, 0 ≤ f → f ≤ g → quadrant pMax pDiff nu shape g ≤ quadrant pMax pDiff nu shape f) ∧
    ∀ f, 0 ≤ f → pMax - pDiff / Real.sqrt (1 - shape) ≤ quadrant pMax pDiff nu shape f := by
  have hq : 0 ≤ pDiff / Real.sqrt (1 - shape) := div_nonneg hd (Real.sqrt_nonneg _)
  unfold quadrant
  refine ⟨by simp, fun f g hf hg => ?_, fun f _ => ?_⟩
  · have h1 : Real.sqrt (f / nu) ≤ Real.sqrt (g / nu) := Real.sqrt_le_sqrt (by gcongr)
    have h2 : Real.exp (-Real.sqrt (g / nu)) ≤ Real.exp (-Real.sqrt (f / nu)) := Real.exp_le_exp.mpr (by linarith)
    have := mul_le_mul_of_nonneg_left (sub_le_sub_right h2 1) hq
    linarith
  · have h2 := (Real.exp_pos (-Real.sqrt (f / nu))).le
    have := mul_nonneg hq h2
    linarith

example : quadrant 3 2 1 0 4 ≤ quadrant 3 2 1 0 1 := (C231_falls 3 2 1 0 (by norm_num) (by norm_num)).2.1 1 4 (by norm_num) (by norm_num)

theorem freqNum_eq (m : ℕ) (w maxFreq : ℝ) (hm : 1 ≤ m) (hw : 0 < w) : freqNum m w maxFreq = ⌊maxFreq * w * (2 * m) / (2 * m - 1)⌋₊ := by
  unfold freqNum freq
  have hm' : (1 : ℝ) ≤ m := by exact_mod_cast hm
  have h1 : ((2 * m - 1 : ℕ) : ℝ) = 2 * m - 1 := by
    rw [Nat.cast_sub (by omega)]; push_cast; ring
  rw [h1]
  congr 1
  have : (2 * (m : ℝ) - 1) ≠ 0 := by linarith
  have : (m : ℝ) ≠ 0 := by linarith
  have := hw.ne'
  push_cast
  have e : ((2 * (m : ℝ) - 1 - m) / w - (0 - m) / w) / (2 * m) = (2 * m - 1) / (w * (2 * m)) := by
    field_simp
    ring
  rw [e, div_div_eq_mul_div, mul_assoc]

/-- C231 As long as the largest frequency asked for is one that the grid has, the waves returned are those around the frequency zero: every wave whose frequency is a step
below the one asked for is there, and none above that frequency by more than a part in `2 m - 1`. -/
theorem C231_kept_partial (m : ℕ) (hm : 1 ≤ m) (w maxFreq : ℝ) (hw : 0 < w) (hf : 0 ≤ maxFreq) (hk : maxFreq * w * (2 * m) / (2 * m - 1) < m + 1) (i : ℕ) (hi : i < 2 * m) :
    (|freq m w i| ≤ maxFreq - 1 / w → i ∈ rowsKept m (freqNum m w maxFreq)) ∧
    (i ∈ rowsKept m (freqNum m w maxFreq) → |freq m w i| ≤ maxFreq * (2 * m) / (2 * m - 1)) := by
  have hm' : (1 : ℝ) ≤ m := by exact_mod_cast hm
  have hd : (0 : ℝ) < 2 * m - 1 := by linarith
  rw [freqNum_eq m w maxFreq hm hw]
  set x := maxFreq * w * (2 * m) / (2 * m - 1) with hx
  have hx0 : 0 ≤ x := by positivity
  have hxge : maxFreq * w ≤ x := by
    rw [hx, le_div_iff₀ hd]
    have : 0 ≤ maxFreq * w := by positivity
    nlinarith
  have hfl := Nat.floor_le hx0
  have hlt := Nat.lt_floor_add_one x
  have hkm : ⌊x⌋₊ ≤ m := by
    have : ((⌊x⌋₊ : ℕ) : ℝ) < m + 1 := lt_of_le_of_lt hfl hk
    have : ⌊x⌋₊ < m + 1 := by exact_mod_cast this
    omega
  unfold rowsKept freq
  simp only [hkm, if_true, List.mem_filter, List.mem_range, decide_eq_true_eq]
  rw [abs_div, abs_of_pos hw]
  constructor
  · intro h
    rw [div_le_iff₀ hw, sub_mul, one_div, inv_mul_cancel₀ hw.ne', abs_le] at h
    refine ⟨hi, ?_, ?_⟩
    · have : (m : ℝ) < ((i + ⌊x⌋₊ : ℕ) : ℝ) + 1 := by push_cast; linarith [h.1]
      have : m < i + ⌊x⌋₊ + 1 := by exact_mod_cast this
      omega
    · have : (i : ℝ) < ((m + ⌊x⌋₊ : ℕ) : ℝ) := by push_cast; linarith [h.2]
      exact_mod_cast this
  · rintro ⟨_, h1, h2⟩
    rw [div_le_iff₀ hw]
    have e : maxFreq * (2 * m) / (2 * m - 1) * w = x := by rw [hx]; ring
    rw [e, abs_le]
    have h1' : (m : ℝ) ≤ ((i + ⌊x⌋₊ : ℕ) : ℝ) := by exact_mod_cast (by omega : m ≤ i + ⌊x⌋₊)
    have h2' : (i : ℝ) ≤ ((m + ⌊x⌋₊ : ℕ) : ℝ) := by exact_mod_cast h2.le
    push_cast at h1' h2'
    constructor <;> linarith

example : 200 ∈ rowsKept 200 (freqNum 200 2 40) :=
  (C231_kept_partial 200 (by norm_num) 2 40 (by norm_num) (by norm_num) (by norm_num) 200 (by norm_num)).1 (by norm_num [freq])

/-- C231 For wider ejecta it fails: with 400 rows, a largest frequency of 40 and ejecta that reach out to 7 radii (a width of 6), the first row to be returned is counted from
the end of the array, and only the waves of the highest frequencies, above 26 per radius, are returned. -/
theorem C231_wide_fails : ∀ i ∈ rowsKept 200 (freqNum 200 6 40), 26 < freq 200 6 i := by
  have e : freqNum 200 6 40 = 240 := by
    rw [freqNum_eq 200 6 40 (by norm_num) (by norm_num), Nat.floor_eq_iff (by norm_num)]
    norm_num
  rw [e]
  intro i hi
  unfold rowsKept at hi
  simp only [List.mem_filter, List.mem_range, decide_eq_true_eq] at hi
  have : 360 ≤ i := by
    have := hi.2.1
    norm_num at this
    exact this
  have h : (360 : ℝ) ≤ i := by exact_mod_cast this
  unfold freq
  push_cast
  rw [lt_div_iff₀ (by norm_num)]
  linarith

example : 399 ∈ rowsKept 200 240 := by simp [rowsKept]

/-! ### One dimension -/

theorem pow_bp4x : (10 : ℝ) ^ bp4x = 2 * Real.pi := by
  unfold bp4x
  exact Real.rpow_logb (by norm_num) (by norm_num) (by positivity)

theorem wavelength_eq (i : ℕ) : wavelength i = 2 * Real.pi / (i + 1) := by
  unfold wavelength
  have : (i : ℝ) + 1 ≠ 0 := by positivity
  field_simp

/-- C232 The waves returned are the `n` longest ones of the circumference, each a whole number of times around, from the shortest to the longest. -/
theorem C232_waves (d : Draws) (noise : ℕ → ℝ) (n : ℕ) :
    (spectrum d noise n).map Prod.fst = (List.range n).map (fun k : ℕ => 2 * Real.pi / ((n - k : ℕ) : ℝ)) ∧
    (spectrum d noise n).Pairwise (fun a b => a.1 < b.1) := by
  constructor
  · unfold spectrum
    apply List.ext_getElem
    · simp
    · intro k h1 h2
      have hk : k < n := by simpa using h2
      simp only [List.getElem_map, List.getElem_reverse, List.getElem_range, List.length_map, List.length_range]
      rw [wavelength_eq]
      congr 1
      have : ((n - 1 - k : ℕ) : ℝ) + 1 = ((n - 1 - k + 1 : ℕ) : ℝ) := by push_cast; ring
      rw [this]
      congr 1
      omega
  · unfold spectrum
    rw [List.pairwise_reverse, List.pairwise_map]
    refine List.pairwise_lt_range.imp ?_
    intro a b hab
    simp only
    rw [wavelength_eq, wavelength_eq]
    have : (a : ℝ) < b := by exact_mod_cast hab
    have := Real.pi_pos
    exact div_lt_div_of_pos_left (by positivity) (by positivity) (by linarith)

/-- C232 The documentation says that the waves shorter than the circumference over `n` are kept; none of those returned is. -/
theorem C232_kept_fails (d : Draws) (noise : ℕ → ℝ) (n : ℕ) : ∀ r ∈ spectrum d noise n, ¬ r.1 < 2 * Real.pi / n := by
  intro r hr
  unfold spectrum at hr
  simp only [List.mem_reverse, List.mem_map, List.mem_range] at hr
  obtain ⟨i, hi, rfl⟩ := hr
  simp only [not_lt]
  rw [wavelength_eq]
  have h : (i : ℝ) + 1 ≤ n := by exact_mod_cast hi
  have := Real.pi_pos
  exact div_le_div_of_nonneg_left (by positivity) (by positivity) h

/-- C232 Apart from the longest wave, the logarithm of the power before the noise is a broken line in the logarithm of the wavelength: below the drawn break it is the line of
the drawn slope through the break, and above it the line through the break and the point drawn for half the circumference. -/
theorem C232_line_partial (d : Draws) (hb : (10 : ℝ) ^ d.bp2x ≤ 2 * Real.pi) (i : ℕ) (hi : 1 ≤ i) :
    Real.logb 10 (power d i) =
      if wavelength i < 10 ^ d.bp2x then d.bp2y + d.slope12 * (Real.logb 10 (wavelength i) - d.bp2x)
      else d.bp3y + (d.bp3y - d.bp2y) / (Real.logb 10 Real.pi - d.bp2x) * (Real.logb 10 (wavelength i) - Real.logb 10 Real.pi) := by
  have hpi := Real.pi_pos
  have hp : (0 : ℝ) < 10 ^ d.bp2x := Real.rpow_pos_of_pos (by norm_num) _
  have h3 : bp3x = Real.logb 10 Real.pi := by
    unfold bp3x
    rw [pow_bp4x]
    congr 1
    ring
  have hy : 1 ≤ 2 * Real.pi / 10 ^ d.bp2x := (one_le_div hp).mpr hb
  have hbr : bp2Index d + 1 ≤ i ↔ wavelength i < 10 ^ d.bp2x := by
    unfold bp2Index
    rw [pow_bp4x, wavelength_eq, Nat.succ_le_iff, Nat.floor_lt (by linarith), div_lt_iff₀ (by positivity), sub_lt_iff_lt_add, div_lt_iff₀ hp, mul_comm ((10 : ℝ) ^ d.bp2x)]
  have hlog : ∀ x : ℝ, Real.logb 10 ((10 : ℝ) ^ x) = x := fun x => Real.logb_rpow (by norm_num) (by norm_num)
  unfold power
  simp only
  by_cases h : wavelength i < 10 ^ d.bp2x
  · rw [if_pos (hbr.mpr h), if_pos h, hlog]; ring
  · rw [if_neg (fun hh => h (hbr.mp hh)), if_neg h, h3]
    by_cases h2 : 2 ≤ i
    · rw [if_pos h2, hlog]; ring
    · have h1 : i = 1 := by omega
      subst h1
      rw [if_neg h2, if_pos rfl, hlog]
      have : wavelength 1 = Real.pi := by rw [wavelength_eq]; push_cast; ring
      rw [this]; ring

example : Real.logb 10 (power ⟨2, 0, -3, -1, 0⟩ 6) = -3 + 2 * (Real.logb 10 (wavelength 6) - 0) := by
  have hpi := Real.pi_lt_d2
  have hg := Real.pi_gt_three
  have := C232_line_partial ⟨2, 0, -3, -1, 0⟩ (by norm_num; linarith) 6 (by norm_num)
  rw [if_pos] at this
  · exact this
  · rw [wavelength_eq]
    norm_num
    rw [div_lt_one (by norm_num)]
    linarith

/-- C232 The mean from which a coefficient is drawn is one of two straight lines in the diameter.  It depends continuously on the diameter exactly if the
lines meet at the diameter where the file changes from one to the other; the code does not check that they do. -/
theorem C232_tie_partial (t : Tie) :
    (∀ d < t.tie, t.at d = (t.k1 * d + t.b1, t.sigma1)) ∧ (∀ d, t.tie ≤ d → t.at d = (t.k2 * d + t.b2, t.sigma2)) ∧
      (Continuous (fun d => (t.at d).1) ↔ t.k1 * t.tie + t.b1 = t.k2 * t.tie + t.b2) := by
  have h1 : ∀ d < t.tie, t.at d = (t.k1 * d + t.b1, t.sigma1) := fun d hd => if_pos hd
  have h2 : ∀ d, t.tie ≤ d → t.at d = (t.k2 * d + t.b2, t.sigma2) := fun d hd => if_neg (not_lt.mpr hd)
  refine ⟨h1, h2, fun hc => ?_, fun he => ?_⟩
  · have l1 : Filter.Tendsto (fun d => (t.at d).1) (nhdsWithin t.tie (Set.Iio t.tie)) (nhds (t.at t.tie).1) :=
      hc.continuousAt.tendsto.mono_left nhdsWithin_le_nhds
    have l2 : Filter.Tendsto (fun d => t.k1 * d + t.b1) (nhdsWithin t.tie (Set.Iio t.tie)) (nhds (t.k1 * t.tie + t.b1)) :=
      (Continuous.tendsto (by fun_prop) t.tie).mono_left nhdsWithin_le_nhds
    have l3 : Filter.Tendsto (fun d => (t.at d).1) (nhdsWithin t.tie (Set.Iio t.tie)) (nhds (t.k1 * t.tie + t.b1)) := by
      refine l2.congr' ?_
      filter_upwards [self_mem_nhdsWithin] with d hd
      rw [h1 d hd]
    have := tendsto_nhds_unique l3 l1
    rw [h2 _ le_rfl] at this
    exact this
  · have : (fun d => (t.at d).1) = fun d => if t.tie ≤ d then t.k2 * d + t.b2 else t.k1 * d + t.b1 := by
      funext d
      by_cases h : t.tie ≤ d
      · rw [h2 d h, if_pos h]
      · rw [h1 d (not_le.mp h), if_neg h]
    rw [this]
    refine Continuous.if_le (by fun_prop) (by fun_prop) continuous_const continuous_id ?_
    intro d hd
    subst hd
    exact he.symm

example : ¬ Continuous (fun d => ((⟨5, 1, 0, 1, 1, 1, 1⟩ : Tie).at d).1) := by
  rw [(C232_tie_partial _).2.2]
  norm_num

/-- C232 For the longest wave it fails: whatever was drawn for it, its power before the noise is 2π, the length of the wave itself. -/
theorem C232_longest_fails (d : Draws) : power d 0 = 2 * Real.pi := by
  unfold power
  simp [pow_bp4x]

example : power ⟨2, 0, -3, -1, -1⟩ 0 = power ⟨2, 0, -3, -1, 5⟩ 0 := by rw [C232_longest_fails, C232_longest_fails]

end Verif.Spectrum
