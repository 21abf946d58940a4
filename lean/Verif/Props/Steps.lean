import Verif.Model.Steps
import Verif.Props.Parallel
import Mathlib.Tactic.Linarith
import Mathlib.Tactic.Ring
import Mathlib.Tactic.FieldSimp

/-! Properties of the intervals of a run in double precision (C219, C220). -/

namespace Verif.Steps

open Verif.Parallel

/-! ### Double precision -/

theorem roundEven_int (n : ℤ) : roundEven (n : ℚ) = n := by unfold roundEven; simp

theorem roundEven_floor (q : ℚ) : ⌊q⌋ ≤ roundEven q ∧ roundEven q ≤ ⌊q⌋ + 1 := by
  unfold roundEven
  split_ifs <;> constructor <;> omega

theorem roundEven_mono {q r : ℚ} (h : q ≤ r) : roundEven q ≤ roundEven r := by
  rcases (Int.floor_le_floor h).lt_or_eq with hl | he
  · have := (roundEven_floor q).2
    have := (roundEven_floor r).1
    omega
  · have hf := Int.floor_le r
    unfold roundEven
    rw [he]
    have : q - ⌊r⌋ ≤ r - ⌊r⌋ := by linarith
    split_ifs <;> first | omega | (exfalso; linarith)

theorem spacing_pos (x : ℚ) : 0 < spacing x := by unfold spacing; positivity

theorem double_exact (m e : ℤ) (hm : |m| ≤ 2 ^ 53) : double (m * 2 ^ e) = m * 2 ^ e := by
  have key : ∀ m e : ℤ, |m| < 2 ^ 53 → double (m * 2 ^ e) = m * 2 ^ e := by
    intro m e hm
    rcases eq_or_ne m 0 with rfl | h0
    · simp [double_zero]
    have hx : (0 : ℚ) < |(m : ℚ) * 2 ^ e| := abs_pos.2 (mul_ne_zero (by exact_mod_cast h0) (by positivity))
    have hlog : Int.log 2 |(m : ℚ) * 2 ^ e| < e + 53 := by
      rw [← Int.lt_zpow_iff_log_lt (by norm_num) hx]
      rw [abs_mul, abs_of_pos (by positivity : (0 : ℚ) < 2 ^ e), add_comm, zpow_add₀ (by norm_num)]
      push_cast
      apply mul_lt_mul_of_pos_right _ (by positivity)
      have : ((|m| : ℤ) : ℚ) < ((2 ^ 53 : ℤ) : ℚ) := by exact_mod_cast hm
      rw [Int.cast_abs] at this
      calc |(m : ℚ)| < _ := this
        _ = _ := by norm_cast
    obtain ⟨k, hk⟩ := Int.eq_ofNat_of_zero_le (a := e - (Int.log 2 |(m : ℚ) * 2 ^ e| - 52)) (by omega)
    apply double_int (m * 2 ^ k)
    unfold spacing
    push_cast
    rw [mul_assoc, ← zpow_natCast, ← zpow_add₀ (by norm_num)]
    congr 2
    push_cast at hk ⊢
    omega
  rcases lt_or_eq_of_le hm with h | h
  · exact key m e h
  · rcases (abs_eq (by norm_num)).1 h with rfl | rfl
    · have := key 1 (53 + e) (by norm_num)
      rw [zpow_add₀ (by norm_num)] at this
      have h2 : ((2 : ℚ) ^ (53 : ℤ)) = 9007199254740992 := by norm_num
      rw [h2] at this
      push_cast at this ⊢
      simpa using this
    · have := key (-1) (53 + e) (by norm_num)
      rw [zpow_add₀ (by norm_num)] at this
      have h2 : ((2 : ℚ) ^ (53 : ℤ)) = 9007199254740992 := by norm_num
      rw [h2] at this
      push_cast at this ⊢
      simpa using this

theorem double_binade {x : ℚ} (hx : 0 < x) : (2 : ℚ) ^ Int.log 2 x ≤ double x ∧ double x ≤ 2 ^ (Int.log 2 x + 1) := by
  have hs := spacing_pos x
  have h52 : ((2 : ℚ) ^ (52 : ℤ)) = 2 ^ 52 := by norm_cast
  have e : spacing x = 2 ^ Int.log 2 x / 2 ^ 52 := by
    unfold spacing
    rw [abs_of_pos hx, zpow_sub₀ (by norm_num), h52]
  have lo := Int.zpow_log_le_self (b := 2) (by norm_num) hx
  have hi := Int.lt_zpow_succ_log_self (R := ℚ) (b := 2) (by norm_num) x
  push_cast at lo hi
  have q1 : ((2 ^ 52 : ℤ) : ℚ) ≤ x / spacing x := by
    rw [le_div_iff₀ hs, e]; push_cast; refine le_trans (le_of_eq ?_) lo; ring
  have q2 : x / spacing x ≤ ((2 ^ 53 : ℤ) : ℚ) := by
    rw [div_le_iff₀ hs, e]; push_cast
    rw [zpow_add₀ (by norm_num), zpow_one] at hi
    refine hi.le.trans (le_of_eq ?_)
    ring
  have r1 := roundEven_mono q1
  have r2 := roundEven_mono q2
  rw [roundEven_int] at r1 r2
  unfold double
  constructor
  · have : ((2 ^ 52 : ℤ) : ℚ) * spacing x ≤ roundEven (x / spacing x) * spacing x :=
      mul_le_mul_of_nonneg_right (by exact_mod_cast r1) hs.le
    refine le_trans (le_of_eq ?_) this
    rw [e]; push_cast; ring
  · have : roundEven (x / spacing x) * spacing x ≤ ((2 ^ 53 : ℤ) : ℚ) * spacing x :=
      mul_le_mul_of_nonneg_right (by exact_mod_cast r2) hs.le
    refine le_trans this (le_of_eq ?_)
    rw [e, zpow_add₀ (by norm_num), zpow_one]; push_cast; ring

theorem double_nonneg {x : ℚ} (hx : 0 ≤ x) : 0 ≤ double x := by
  rcases hx.lt_or_eq with h | rfl
  · exact le_trans (by positivity) (double_binade h).1
  · rw [double_zero]

theorem double_mono {x y : ℚ} (hx : 0 ≤ x) (h : x ≤ y) : double x ≤ double y := by
  rcases hx.lt_or_eq with hx | rfl
  · have hy := hx.trans_le h
    rcases (Int.log_mono_right (b := 2) hx h).lt_or_eq with hl | he
    · refine (double_binade hx).2.trans (le_trans ?_ (double_binade hy).1)
      exact zpow_le_zpow_right₀ (by norm_num) (by omega)
    · have hs : spacing x = spacing y := by unfold spacing; rw [abs_of_pos hx, abs_of_pos hy, he]
      unfold double
      rw [hs]
      apply mul_le_mul_of_nonneg_right _ (spacing_pos y).le
      exact_mod_cast roundEven_mono (div_le_div_of_nonneg_right h (spacing_pos y).le)
  · rw [double_zero]; exact double_nonneg h

theorem double_nat (n : ℕ) (hn : n ≤ 2 ^ 53) : double n = n := by
  have := double_exact n 0 (by rw [abs_of_nonneg (by positivity)]; exact_mod_cast hn)
  simpa using this

/-- The quotient of two whole numbers, rounded, has the same least whole number above it. -/
theorem ceil_double (A B : ℕ) (hB : 0 < B) (hA : A ≤ 2 ^ 52) (n : ℕ) (h1 : A ≤ n * B) (h2 : (n - 1 : ℤ) * B < A) :
    ⌈double ((A : ℚ) / B)⌉ = n := by
  have hBq : (0 : ℚ) < B := by exact_mod_cast hB
  have hn1 : 1 ≤ B := hB
  have hnA : n ≤ A ∨ n = 1 := by
    by_cases h : n = 1
    · exact Or.inr h
    · left
      rcases Nat.eq_zero_or_pos n with h0 | h0
      · omega
      · have : ((n : ℤ) - 1) * 1 ≤ ((n : ℤ) - 1) * B := mul_le_mul_of_nonneg_left (by exact_mod_cast hB) (by omega)
        have : (n : ℤ) - 1 < A := by linarith
        omega
  have hn : n ≤ 2 ^ 53 := by rcases hnA with h | h <;> omega
  have hx : (0 : ℚ) ≤ (A : ℚ) / B := by positivity
  rw [Int.ceil_eq_iff]
  constructor
  · have hd := (double_near ((A : ℚ) / B) hx).1
    have h3 : ((n : ℤ) - 1) * B + 1 ≤ A := by omega
    have h3q : (((n : ℚ) - 1) * B + 1) ≤ A := by exact_mod_cast h3
    have h4 : (A : ℚ) ≤ 2 ^ 52 := by exact_mod_cast hA
    have h5 : ((n : ℚ) - 1) + 1 / B ≤ (A : ℚ) / B := by
      rw [le_div_iff₀ hBq, add_mul, one_div, inv_mul_cancel₀ hBq.ne']; exact h3q
    have h6 : (2⁻¹ : ℚ) ^ 53 * ((A : ℚ) / B) < 1 / B := by
      rw [← mul_div_assoc]
      apply div_lt_div_of_pos_right _ hBq
      rw [inv_pow, inv_mul_lt_iff₀ (by positivity)]
      linarith
    push_cast; linarith
  · have := double_mono hx (y := n) (by rw [div_le_iff₀ hBq]; exact_mod_cast h1)
    rw [double_nat n hn] at this
    exact_mod_cast this

/-! ### C219: time steps -/

/-- Intervals, each of which begins where the last one ended, the first one at `t`. -/
def Adjoin : ℚ → List (ℚ × ℚ) → Prop
  | _, [] => True
  | t, w :: ws => w.1 = t ∧ Adjoin w.2 ws

/-- The times `0.1`, `0.2` and so on, as they are given to the program. -/
def period (ts te ti : ℚ) : Period := ⟨double ts, double te, double ti⟩

theorem ends_eq (rd : ℚ → ℚ) (p : Period) (i : ℕ) :
    ends rd p i = if begins rd p (i + 1) < p.te then p.te else begins rd p (i + 1) := rfl

theorem le_ends (rd : ℚ → ℚ) (p : Period) (i : ℕ) : p.te ≤ ends rd p i := by
  rw [ends_eq]; split_ifs with h
  · exact le_rfl
  · exact not_lt.1 h

theorem rounds_adjoin (rd : ℚ → ℚ) (p : Period) (i k : ℕ) :
    Adjoin (begins rd p i) (rounds rd p i k).done ∧ (∀ w ∈ (rounds rd p i k).done, p.te ≤ w.2 ∧ w.2 ≤ w.1) := by
  induction k generalizing i with
  | zero => simp [rounds, Adjoin]
  | succ k ih =>
    simp only [rounds]
    split_ifs with h
    · simp [Adjoin]
    · obtain ⟨h1, h2⟩ := ih (i + 1)
      refine ⟨⟨rfl, ?_⟩, ?_⟩
      · show Adjoin (ends rd p i) _
        by_cases hlt : begins rd p (i + 1) < p.te
        · have e : (rounds rd p (i + 1) k).done = [] := by
            cases k with
            | zero => rfl
            | succ k => simp only [rounds]; rw [if_pos (hlt.trans_le (le_ends rd p (i + 1)))]
          rw [e]; trivial
        · rw [ends_eq, if_neg hlt]; exact h1
      · intro w hw
        simp only [Outcome.cons, List.mem_cons] at hw
        rcases hw with rfl | hw
        · exact ⟨le_ends rd p i, not_lt.1 h⟩
        · exact h2 w hw

/-- Whatever the rounding, the intervals that a new run simulates follow each other without gaps and overlaps from the start, and do not go past the
end of the period.  Missing: they can fall short of the end (`C219_short_fails`), one of them can be empty or fail
(`C219_extra_fails`, `C219_error_fails`), and a run that is resumed can repeat one (`C219_repeat_fails`). -/
theorem C219_adjoin_partial (rd : ℚ → ℚ) (h0 : rd 0 = 0) (p : Period) (hts : rd p.ts = p.ts) (o : Outcome) (h : run rd p p.ts = some o) :
    Adjoin p.ts o.done ∧ ∀ w ∈ o.done, p.te ≤ w.2 ∧ w.2 ≤ w.1 := by
  have hr : resumes rd p p.ts = 0 := by simp [resumes, h0]
  have hb : begins rd p 0 = p.ts := by simp [begins, h0, hts]
  simp only [run, hr] at h
  split_ifs at h
  have := rounds_adjoin rd p 0 ((number rd p).toNat - 0)
  rw [hb] at this
  simp only [Option.some.injEq] at h
  rw [← h]; exact this

example : ∃ o, run double (period 1 0 (1 / 4)) 1 = some o ∧ o.done = [(1, 3 / 4), (3 / 4, 1 / 2), (1 / 2, 1 / 4), (1 / 4, 0)] := by
  refine ⟨⟨[(1, 3 / 4), (3 / 4, 1 / 2), (1 / 2, 1 / 4), (1 / 4, 0)], false⟩, ?_, rfl⟩
  decide +kernel

theorem double_scaled (e : ℤ) (m : ℤ) (x : ℚ) (hx : x = m * 2 ^ e) (hm : |m| ≤ 2 ^ 53) : double x = x := by
  rw [hx]; exact double_exact m e hm

/-- Times that are whole multiples of a power of two, at most `2 ^ 52` of it: whole numbers, halves, quarters.  Here the intervals are what they are
with exact numbers: `n` of them, the smallest number that covers the period, the last one shortened to end with the period.  A run that is resumed
after `j` intervals goes on with interval `j`. -/
theorem C219_exact_partial (e : ℤ) (a b c n j : ℕ) (ha : a ≤ 2 ^ 52) (hb : 0 < b) (hab : c + b ≤ a)
    (hn : a ≤ c + n * b) (hn' : c + (n - 1) * b < a) (hj : j < n) :
    run double ⟨a * 2 ^ e, c * 2 ^ e, b * 2 ^ e⟩ (a * 2 ^ e - j * (b * 2 ^ e)) =
      some ⟨(List.range' j (n - j)).map fun i : ℕ =>
        ((a - i * b : ℚ) * 2 ^ e, max ((c : ℚ) * 2 ^ e) ((a - (i + 1) * b : ℚ) * 2 ^ e)), false⟩ := by
  have hu : (0 : ℚ) < 2 ^ e := by positivity
  have hn0 : 1 ≤ n := by omega
  have hnb : n * b < 2 * a := by
    have : n * b = (n - 1) * b + b := by
      obtain ⟨m, rfl⟩ : ∃ m, n = m + 1 := ⟨n - 1, by omega⟩
      simp; ring
    omega
  have hbq : (0 : ℚ) < b := by exact_mod_cast hb
  set p : Period := ⟨a * 2 ^ e, c * 2 ^ e, b * 2 ^ e⟩ with hp
  have hlen : double (p.ts - p.te) = ((a - c : ℕ) : ℚ) * 2 ^ e := by
    have : p.ts - p.te = (((a - c : ℕ) : ℤ) : ℚ) * 2 ^ e := by
      simp only [hp]; rw [Int.cast_natCast, Nat.cast_sub (by omega)]; ring
    rw [double_scaled e _ _ this (by rw [abs_of_nonneg (by positivity)]; exact_mod_cast (by omega)), this]; simp
  have hacc : accepted double p := by
    unfold accepted
    rw [hlen]
    refine ⟨not_lt.2 (mul_le_mul_of_nonneg_right ?_ hu.le), not_le.2 (mul_pos hbq hu)⟩
    exact_mod_cast (by omega : b ≤ a - c)
  have hnum : number double p = n := by
    unfold number
    rw [hlen]
    have : ((a - c : ℕ) : ℚ) * 2 ^ e / p.ti = ((a - c : ℕ) : ℚ) / b := by
      simp only [hp]; field_simp
    rw [this]
    apply ceil_double _ _ hb (by omega) n (by omega)
    have h1 : (n - 1) * b < a - c := by omega
    have h2 : (((n - 1 : ℕ) : ℤ)) * b < ((a - c : ℕ) : ℤ) := by exact_mod_cast h1
    rw [Nat.cast_sub hn0] at h2
    exact_mod_cast h2
  have hstep : step double p = b * 2 ^ e := by
    unfold step
    rw [hnum, hlen]
    split_ifs with h1
    · have : n = 1 := by exact_mod_cast h1
      subst this
      have : a - c = b := by omega
      rw [this]
    · rfl
  have hmul : ∀ i : ℕ, i ≤ n → double ((i : ℚ) * (b * 2 ^ e)) = i * b * 2 ^ e := by
    intro i hi
    have h1 : (i : ℚ) * (b * 2 ^ e) = (((i * b : ℕ) : ℤ) : ℚ) * 2 ^ e := by push_cast; ring
    have h2 : i * b ≤ n * b := Nat.mul_le_mul_right b hi
    rw [double_scaled e _ _ h1 (by rw [abs_of_nonneg (by positivity)]; exact_mod_cast (by omega))]; ring
  have hbeg : ∀ i : ℕ, i ≤ n → begins double p i = (a - i * b : ℚ) * 2 ^ e := by
    intro i hi
    unfold begins
    rw [hstep, hmul i hi]
    have h1 : p.ts - i * b * 2 ^ e = (((a : ℤ) - (i * b : ℕ) : ℤ) : ℚ) * 2 ^ e := by simp only [hp]; push_cast; ring
    have h2 : i * b ≤ n * b := Nat.mul_le_mul_right b hi
    rw [double_scaled e _ _ h1 (by rw [abs_le]; constructor <;> omega)]
    simp only [hp]; ring
  have hend : ∀ i : ℕ, i < n → ends double p i = max ((c : ℚ) * 2 ^ e) ((a - (i + 1) * b : ℚ) * 2 ^ e) := by
    intro i hi
    rw [ends_eq, hbeg (i + 1) hi]
    push_cast
    split_ifs with h
    · rw [max_eq_left h.le]
    · rw [max_eq_right (not_lt.1 h)]
  have hround : ∀ k i : ℕ, i + k = n → rounds double p i k =
      ⟨(List.range' i k).map fun i : ℕ => ((a - i * b : ℚ) * 2 ^ e, max ((c : ℚ) * 2 ^ e) ((a - (i + 1) * b : ℚ) * 2 ^ e)), false⟩ := by
    intro k
    induction k with
    | zero => intro i _; simp [rounds]
    | succ k ih =>
      intro i hik
      simp only [rounds]
      rw [ih (i + 1) (by omega), hbeg i (by omega), hend i (by omega)]
      rw [if_neg]
      · simp [Outcome.cons, List.range'_succ]
      · rw [not_lt]
        apply max_le
        · apply mul_le_mul_of_nonneg_right _ hu.le
          have h1 : i * b ≤ (n - 1) * b := Nat.mul_le_mul_right b (by omega)
          have h2 : c + i * b ≤ a := by omega
          have : ((c + i * b : ℕ) : ℚ) ≤ a := by exact_mod_cast h2
          push_cast at this
          linarith
        · apply mul_le_mul_of_nonneg_right _ hu.le
          linarith
  have hres : resumes double p (a * 2 ^ e - j * (b * 2 ^ e)) = j := by
    unfold resumes
    rw [hstep]
    have h1 : p.ts - (a * 2 ^ e - j * (b * 2 ^ e)) = j * (b * 2 ^ e) := by simp only [hp]; ring
    rw [h1, hmul j hj.le]
    have h2 : (j : ℚ) * b * 2 ^ e / (b * 2 ^ e) = j := by field_simp
    rw [h2, double_nat]
    · simp
    · have : j * 1 ≤ n * b := Nat.mul_le_mul hj.le hb
      omega
  unfold run
  rw [if_pos hacc, hres, hnum, hround _ _ (by simp; omega)]
  simp

theorem abs_double_near (x : ℚ) (hx : 0 ≤ x) : |double x - x| ≤ 2⁻¹ ^ 53 * x := by
  obtain ⟨h1, h2⟩ := double_near x hx
  rw [abs_le]; constructor <;> linarith

/-- A run of two or more intervals that is resumed after `j` of them goes on with interval `j`, or repeats the one before it; it never leaves one out, when the
time step is not less than `2 ^ -40` of the start time.  Missing: it should not repeat one, see `C219_repeat_fails`. -/
theorem C219_resume_partial (p : Period) (hts : double p.ts = p.ts) (hn : number double p ≠ 1) (hti : 0 < p.ti) (hs : p.ts ≤ 2 ^ 40 * p.ti)
    (j : ℕ) (hj : (j : ℚ) * p.ti ≤ p.ts) :
    resumes double p (begins double p j) = j ∨ resumes double p (begins double p j) + 1 = j := by
  have hstep : step double p = p.ti := by unfold step; rw [if_neg hn]
  unfold resumes begins
  rw [hstep]
  rcases Nat.eq_zero_or_pos j with rfl | hj0
  · left; simp [double_zero, hts]
  have hj1 : (1 : ℚ) ≤ j := by exact_mod_cast hj0
  have hjt : 0 ≤ (j : ℚ) * p.ti := by positivity
  have hj40 : (j : ℚ) ≤ 2 ^ 40 := le_of_mul_le_mul_right (hj.trans hs) hti
  set P := double ((j : ℚ) * p.ti) with hP
  have hP0 : 0 ≤ P := double_nonneg hjt
  have hPts : P ≤ p.ts := by rw [← hts]; exact double_mono hjt hj
  have e1 := abs_double_near _ hjt
  rw [← hP] at e1
  have e2 := abs_double_near (p.ts - P) (by linarith)
  set B := double (p.ts - P) with hB
  rw [abs_le] at e1 e2
  have hD : |p.ts - B - j * p.ti| ≤ 2⁻¹ ^ 12 * p.ti := by
    rw [abs_le]
    norm_num at e1 e2 ⊢
    constructor <;> nlinarith [e1.1, e1.2, e2.1, e2.2]
  rw [abs_le] at hD
  have hD0 : 0 ≤ p.ts - B := by
    norm_num at hD
    nlinarith [hD.1]
  have e3 := abs_double_near _ hD0
  set E := double (p.ts - B) with hE
  have hE0 : 0 ≤ E := double_nonneg hD0
  rw [abs_le] at e3
  have hjt2 : (j : ℚ) * p.ti ≤ 2 ^ 40 * p.ti := hj.trans hs
  have hEj : |E - j * p.ti| ≤ 2⁻¹ ^ 11 * p.ti := by
    rw [abs_le]
    norm_num at e3 hD hjt2 ⊢
    constructor <;> linarith [e3.1, e3.2, hD.1, hD.2]
  rw [abs_le] at hEj
  have hQ0 : 0 ≤ E / p.ti := by positivity
  have q1 : (j : ℚ) - 2⁻¹ ^ 11 ≤ E / p.ti := by rw [le_div_iff₀ hti]; linarith [hEj.1]
  have q2 : E / p.ti ≤ j + 2⁻¹ ^ 11 := by rw [div_le_iff₀ hti]; linarith [hEj.2]
  have e4 := abs_double_near _ hQ0
  rw [abs_le] at e4
  generalize E / p.ti = Q at q1 q2 e4 ⊢
  generalize double Q = R at e4 ⊢
  obtain ⟨e5, e6⟩ := e4
  have r1 : (j : ℚ) - 1 ≤ R := by norm_num at e5 q1 q2; linarith
  have r2 : R < j + 1 := by norm_num at e6 q1 q2; linarith
  have f1 : (j : ℤ) - 1 ≤ ⌊R⌋ := by rw [Int.le_floor]; push_cast; exact r1
  have f2 : ⌊R⌋ < (j : ℤ) + 1 := by rw [Int.floor_lt]; push_cast; exact r2
  omega

example : ∃ p : Period, double p.ts = p.ts ∧ number double p ≠ 1 ∧ 0 < p.ti ∧ p.ts ≤ 2 ^ 40 * p.ti ∧ ((3 : ℕ) : ℚ) * p.ti ≤ p.ts :=
  ⟨period 1 0 (1 / 10), by decide +kernel⟩

/-- A period of 0.1 million years, from 0.3 to 0.2, is refused with a time step of 0.1: the difference of the two times is less than the time step in
double precision. -/
theorem C219_refused_fails : run double (period 0.3 0.2 0.1) (double 0.3) = none := by decide +kernel

/-- A run from 0.4 to 0.1 in steps of 0.1 simulates the three intervals, and stops with an error then: a fourth interval is begun, which starts after
the end of the period. -/
theorem C219_error_fails : ∃ o, run double (period 0.4 0.1 0.1) (double 0.4) = some o ∧ o.done.length = 3 ∧ o.failed = true := by
  have h : (run double (period 0.4 0.1 0.1) (double 0.4)).map (fun o => (o.done.length, o.failed)) = some (3, true) := by decide +kernel
  cases h1 : run double (period 0.4 0.1 0.1) (double 0.4) with
  | none => rw [h1] at h; simp at h
  | some o => rw [h1] at h; simp at h; exact ⟨o, rfl, h.1, h.2⟩

/-- A run from 0.4 to 0.3 in steps of 0.1 has two intervals, the second one of which is shorter than `10 ^ -16`.  Two states are saved after the first
one, and the elapsed time is 0.2 at the end. -/
theorem C219_extra_fails : ∃ o, run double (period 0.4 0.3 0.1) (double 0.4) = some o ∧ o.failed = false ∧ o.done.length = 2 ∧
    (∀ w ∈ o.done.getLast?, w.1 - w.2 < 1e-16) ∧ elapsed double (period 0.4 0.3 0.1) o.done.length = double 0.2 := by
  have h : (run double (period 0.4 0.3 0.1) (double 0.4)).map (fun o => (o.failed, o.done.length, o.done.getLast?.map fun w => decide (w.1 - w.2 < 1e-16))) =
      some (false, 2, some true) := by decide +kernel
  have h2 : elapsed double (period 0.4 0.3 0.1) 2 = double 0.2 := by decide +kernel
  cases h1 : run double (period 0.4 0.3 0.1) (double 0.4) with
  | none => rw [h1] at h; simp at h
  | some o =>
    rw [h1] at h
    simp only [Option.map_some, Option.some.injEq, Prod.mk.injEq] at h
    refine ⟨o, rfl, h.1, h.2.1, ?_, by rw [h.2.1]; exact h2⟩
    intro w hw
    have h3 := h.2.2
    rw [Option.mem_def.1 hw] at h3
    simpa using h3

/-- A run of age 0.9 in steps of 0.3 ends before the present: at a time that is not zero. -/
theorem C219_short_fails : ∃ o, run double (period 0.9 0 0.3) (double 0.9) = some o ∧ o.failed = false ∧ ∀ w ∈ o.done.getLast?, 0 < w.2 := by
  have h : (run double (period 0.9 0 0.3) (double 0.9)).map (fun o => (o.failed, o.done.getLast?.map fun w => decide (0 < w.2))) =
      some (false, some true) := by decide +kernel
  cases h1 : run double (period 0.9 0 0.3) (double 0.9) with
  | none => rw [h1] at h; simp at h
  | some o =>
    rw [h1] at h
    simp only [Option.map_some, Option.some.injEq, Prod.mk.injEq] at h
    refine ⟨o, rfl, h.1, ?_⟩
    intro w hw
    have h3 := h.2
    rw [Option.mem_def.1 hw] at h3
    simpa using h3

/-- A run of age 0.4 in steps of 0.1 that is resumed after the first interval simulates the first interval once more. -/
theorem C219_repeat_fails : ∃ o o', run double (period 0.4 0 0.1) (double 0.4) = some o ∧
    run double (period 0.4 0 0.1) ((o.done.head?.map Prod.snd).getD 0) = some o' ∧ o.done.length = 4 ∧ o' = o := by
  have h : (run double (period 0.4 0 0.1) (double 0.4)).map (fun o => o.done.length) = some 4 ∧
      run double (period 0.4 0 0.1) (ends double (period 0.4 0 0.1) 0) = run double (period 0.4 0 0.1) (double 0.4) ∧
      (run double (period 0.4 0 0.1) (double 0.4)).map (fun o => (o.done.head?.map Prod.snd).getD 0) = some (ends double (period 0.4 0 0.1) 0) := by
    decide +kernel
  cases h1 : run double (period 0.4 0 0.1) (double 0.4) with
  | none => rw [h1] at h; simp at h
  | some o =>
    rw [h1] at h
    simp only [Option.map_some, Option.some.injEq] at h
    exact ⟨o, o, rfl, by rw [h.2.2]; exact h.2.1, h.1, rfl⟩

/-- From 3800 to 0 million years before the present in steps of 100: 38 intervals. -/
example : ∃ o, run double ⟨3800, 0, 100⟩ 3800 = some o ∧ o.done.length = 38 ∧ o.failed = false := by
  have h := C219_exact_partial 0 3800 100 0 38 0 (by norm_num) (by norm_num) (by norm_num) (by norm_num) (by norm_num) (by norm_num)
  norm_num at h
  exact ⟨_, h, by simp, rfl⟩

/-! ### C220: equal numbers of craters -/

theorem countRounds_done (rd : ℚ → ℚ) (c : Count) (i k : ℕ) (h : ∀ m, i ≤ m → m ≤ i + k → 0 ≤ countAt rd c m) :
    countRounds rd c i k = ⟨(List.range' i k).map fun m => (countAt rd c m, countAt rd c (m + 1)), false⟩ := by
  induction k generalizing i with
  | zero => simp [countRounds]
  | succ k ih =>
    simp only [countRounds]
    rw [if_neg, ih (i + 1) (fun m h1 h2 => h m (by omega) (by omega))]
    · simp [Outcome.cons, List.range'_succ]
    · rw [not_or, not_lt, not_lt]
      exact ⟨h i le_rfl (by omega), h (i + 1) (by omega) (by omega)⟩

theorem countRounds_split (rd : ℚ → ℚ) (c : Count) (i k l : ℕ) (h : ∀ m, i ≤ m → m ≤ i + k → 0 ≤ countAt rd c m) :
    (countRounds rd c i (k + l)).done = ((List.range' i k).map fun m => (countAt rd c m, countAt rd c (m + 1))) ++ (countRounds rd c (i + k) l).done ∧
      (countRounds rd c i (k + l)).failed = (countRounds rd c (i + k) l).failed := by
  induction k generalizing i with
  | zero => simp
  | succ k ih =>
    rw [show k + 1 + l = (k + l) + 1 by ring]
    simp only [countRounds]
    rw [if_neg]
    · obtain ⟨h1, h2⟩ := ih (i + 1) (fun m h1 h2 => h m (by omega) (by omega))
      rw [show i + 1 + k = i + (k + 1) by ring] at h1 h2
      simp [Outcome.cons, List.range'_succ, h1, h2]
    · rw [not_or, not_lt, not_lt]
      exact ⟨h i le_rfl (by omega), h (i + 1) (by omega) (by omega)⟩

theorem double_pos {x : ℚ} (hx : 0 < x) : 0 < double x := lt_of_lt_of_le (by positivity) (double_binade hx).1

theorem log_scale (x : ℚ) (hx : 0 < x) (e : ℤ) : Int.log 2 (x * 2 ^ e) = Int.log 2 x + e := by
  have hxe : 0 < x * 2 ^ e := by positivity
  have lo := Int.zpow_log_le_self (b := 2) (by norm_num) hx
  have hi := Int.lt_zpow_succ_log_self (R := ℚ) (b := 2) (by norm_num) x
  apply le_antisymm
  · have : Int.log 2 (x * 2 ^ e) < Int.log 2 x + e + 1 := by
      rw [← Int.lt_zpow_iff_log_lt (by norm_num) hxe]
      push_cast at hi ⊢
      rw [show Int.log 2 x + e + 1 = (Int.log 2 x + 1) + e by ring, zpow_add₀ (by norm_num) _ e]
      exact mul_lt_mul_of_pos_right hi (by positivity)
    omega
  · rw [← Int.zpow_le_iff_le_log (by norm_num) hxe]
    push_cast at lo ⊢
    rw [zpow_add₀ (by norm_num)]
    exact mul_le_mul_of_nonneg_right lo (by positivity)

theorem double_scale (x : ℚ) (hx : 0 < x) (e : ℤ) : double (x * 2 ^ e) = double x * 2 ^ e := by
  have hs : spacing (x * 2 ^ e) = spacing x * 2 ^ e := by
    unfold spacing
    rw [abs_of_pos (by positivity), abs_of_pos hx, log_scale x hx, ← zpow_add₀ (by norm_num)]
    congr 1; ring
  have h2 : (2 : ℚ) ^ e ≠ 0 := by positivity
  unfold double
  rw [hs, mul_div_mul_right _ _ h2]
  ring

theorem countAt_pos (N : ℚ) (hN : 0 < N) (hd : double N = N) (n : ℕ) (hn : n ≤ 2 ^ 50) (i : ℕ) (hi : i < n) :
    0 < countAt double ⟨N, 0, n⟩ i := by
  have hn0 : (0 : ℚ) < n := by exact_mod_cast (by omega : 0 < n)
  have hnq : (n : ℚ) ≤ 2 ^ 50 := by exact_mod_cast hn
  have hin : (i : ℚ) ≤ n - 1 := by
    have : (i : ℚ) + 1 ≤ n := by exact_mod_cast hi
    linarith
  unfold countAt share
  simp only [sub_zero, hd]
  apply double_pos
  have s1 := (double_near (N / n) (by positivity)).2
  have s0 := double_nonneg (x := N / n) (by positivity)
  set s := double (N / n)
  have m1 := (double_near (i * s) (by positivity)).2
  have m2 : (i : ℚ) * s ≤ (n - 1) * ((1 + 2⁻¹ ^ 53) * (N / n)) := mul_le_mul hin s1 s0 (by linarith [(Nat.cast_nonneg i : (0 : ℚ) ≤ i)])
  have m3 : ((n : ℚ) - 1) * ((1 + 2⁻¹ ^ 53) * (N / n)) = (1 + 2⁻¹ ^ 53) * (1 - 1 / n) * N := by field_simp
  have m4 : (1 : ℚ) / n ≥ 1 / 2 ^ 50 := one_div_le_one_div_of_le hn0 hnq
  have m5 : (1 + 2⁻¹ ^ 53 : ℚ) * ((1 + 2⁻¹ ^ 53) * (1 - 1 / n)) ≤ (1 + 2⁻¹ ^ 53) * ((1 + 2⁻¹ ^ 53) * (1 - 1 / 2 ^ 50)) := by
    apply mul_le_mul_of_nonneg_left _ (by positivity)
    apply mul_le_mul_of_nonneg_left _ (by positivity)
    linarith
  have m6 : (1 + 2⁻¹ ^ 53 : ℚ) * ((1 + 2⁻¹ ^ 53) * (1 - 1 / 2 ^ 50)) < 1 := by norm_num
  have m7 : (1 + 2⁻¹ ^ 53 : ℚ) * ((1 + 2⁻¹ ^ 53) * (1 - 1 / n)) * N < 1 * N := mul_lt_mul_of_pos_right (m5.trans_lt m6) hN
  have m8 : (1 + 2⁻¹ ^ 53 : ℚ) * (i * s) ≤ (1 + 2⁻¹ ^ 53) * ((1 + 2⁻¹ ^ 53) * (1 - 1 / n) * N) := by
    apply mul_le_mul_of_nonneg_left _ (by positivity)
    rw [← m3]; exact m2
  have : double (i * s) < N := by
    calc _ ≤ _ := m1
      _ ≤ _ := m8
      _ = (1 + 2⁻¹ ^ 53 : ℚ) * ((1 + 2⁻¹ ^ 53) * (1 - 1 / n)) * N := by ring
      _ < _ := m7
      _ = N := one_mul N
  linarith

theorem countAt_zero (N : ℚ) (hd : double N = N) (n : ℕ) : countAt double ⟨N, 0, n⟩ 0 = N := by
  simp [countAt, double_zero, hd]

/-- A run down to no craters, divided into a number of intervals that is a power of two: all of them are simulated, the first one begins with the number
given, each begins where the last one ended, and the last one ends with none.  Missing: other numbers of intervals, see `C220_negative_fails`. -/
theorem C220_binary_partial (N : ℚ) (hN : 0 < N) (hd : double N = N) (k : ℕ) (hk : k ≤ 50) :
    ∃ t : ℕ → ℚ, t 0 = N ∧ t (2 ^ k) = 0 ∧ (∀ i < 2 ^ k, 0 < t i) ∧
      runCount double ⟨N, 0, 2 ^ k⟩ = ⟨(List.range (2 ^ k)).map fun i => (t i, t (i + 1)), false⟩ := by
  have hpow : 2 ^ k ≤ 2 ^ 50 := Nat.pow_le_pow_right (by norm_num) hk
  have hlast : countAt double ⟨N, 0, 2 ^ k⟩ (2 ^ k) = 0 := by
    unfold countAt share
    simp only [sub_zero, hd]
    have h1 : N / ((2 ^ k : ℕ) : ℚ) = N * 2 ^ (-(k : ℤ)) := by
      rw [zpow_neg, zpow_natCast]; push_cast; rw [div_eq_mul_inv]
    rw [h1, double_scale N hN, hd]
    have h2 : ((2 ^ k : ℕ) : ℚ) * (N * 2 ^ (-(k : ℤ))) = N := by
      rw [zpow_neg, zpow_natCast]; push_cast; field_simp
    rw [h2, hd, sub_self, double_zero]
  have hpos := countAt_pos N hN hd (2 ^ k) hpow
  refine ⟨countAt double ⟨N, 0, 2 ^ k⟩, countAt_zero N hd _, hlast, hpos, ?_⟩
  unfold runCount
  rw [countRounds_done, List.range_eq_range']
  intro m _ hm
  rcases Nat.lt_or_ge m (2 ^ k) with h | h
  · exact (hpos m h).le
  · have : m = 2 ^ k := by simp at hm; omega
    rw [this, hlast]

/-- A run down to no craters in any number of intervals up to `2 ^ 50`: all intervals but the last one are always simulated, beginning with the number given,
each where the one before ended, and none of these ends at a negative number.  If the run fails, it fails in the last interval.
Missing: the last interval can fail (`C220_negative_fails`) or not end at zero. -/
theorem C220_last_partial (N : ℚ) (hN : 0 < N) (hd : double N = N) (n : ℕ) (h0 : 0 < n) (hn : n ≤ 2 ^ 50) :
    Adjoin N (runCount double ⟨N, 0, n⟩).done ∧ (∀ w ∈ (runCount double ⟨N, 0, n⟩).done, 0 ≤ w.2) ∧
      (runCount double ⟨N, 0, n⟩).done.length = if (runCount double ⟨N, 0, n⟩).failed then n - 1 else n := by
  obtain ⟨m, rfl⟩ : ∃ m, n = m + 1 := ⟨n - 1, by omega⟩
  have hpos := countAt_pos N hN hd (m + 1) hn
  obtain ⟨h1, h2⟩ := countRounds_split double ⟨N, 0, m + 1⟩ 0 m 1 (fun i _ hi => (hpos i (by omega)).le)
  have hadj : ∀ k i : ℕ, ∀ ws, Adjoin (countAt double ⟨N, 0, m + 1⟩ (i + k)) ws → Adjoin (countAt double ⟨N, 0, m + 1⟩ i)
      (((List.range' i k).map fun j => (countAt double ⟨N, 0, m + 1⟩ j, countAt double ⟨N, 0, m + 1⟩ (j + 1))) ++ ws) := by
    intro k
    induction k with
    | zero => intro i ws h; simpa using h
    | succ k ih =>
      intro i ws h
      simp only [List.range'_succ, List.map_cons, List.cons_append, Adjoin, true_and]
      exact ih (i + 1) ws (by rw [show i + 1 + k = i + (k + 1) by ring]; exact h)
  unfold runCount
  simp only at h1 h2 ⊢
  rw [h1, h2, zero_add]
  have hz := countAt_zero N hd (m + 1)
  have hmem : ∀ w ∈ (List.range' 0 m).map (fun j => (countAt double ⟨N, 0, m + 1⟩ j, countAt double ⟨N, 0, m + 1⟩ (j + 1))), 0 ≤ w.2 := by
    intro w hw
    simp only [List.mem_map, List.mem_range'_1] at hw
    obtain ⟨j, hj, rfl⟩ := hw
    exact (hpos (j + 1) (by omega)).le
  by_cases hneg : countAt double ⟨N, 0, m + 1⟩ m < 0 ∨ countAt double ⟨N, 0, m + 1⟩ (m + 1) < 0
  · have e : countRounds double ⟨N, 0, m + 1⟩ m 1 = ⟨[], true⟩ := by simp only [countRounds]; rw [if_pos hneg]
    rw [e]
    refine ⟨?_, ?_, by simp⟩
    · have := hadj m 0 [] trivial
      rwa [hz] at this
    · simpa using hmem
  · have e : countRounds double ⟨N, 0, m + 1⟩ m 1 = ⟨[(countAt double ⟨N, 0, m + 1⟩ m, countAt double ⟨N, 0, m + 1⟩ (m + 1))], false⟩ := by
      simp only [countRounds]; rw [if_neg hneg]; rfl
    rw [e]
    refine ⟨?_, ?_, by simp⟩
    · have := hadj m 0 [(countAt double ⟨N, 0, m + 1⟩ m, countAt double ⟨N, 0, m + 1⟩ (m + 1))] (by simp [Adjoin])
      rwa [hz] at this
    · intro w hw
      rcases List.mem_append.1 hw with hw | hw
      · exact hmem w hw
      · rw [not_or, not_lt, not_lt] at hneg
        simp only [List.mem_singleton] at hw
        rw [hw]; exact hneg.2

example : (0 : ℚ) < 80 ∧ double 80 = 80 ∧ (runCount double ⟨80, 0, 100⟩).failed = false ∧ (runCount double ⟨80, 0, 100⟩).done.length = 100 := by
  decide +kernel

/-- A run to 29 craters in seven intervals stops with an error in the last one: the number of craters at its end is less than zero in double precision. -/
theorem C220_negative_fails : double 29 = 29 ∧ (runCount double ⟨29, 0, 7⟩).failed = true ∧ (runCount double ⟨29, 0, 7⟩).done.length = 6 ∧
    countAt double ⟨29, 0, 7⟩ 7 < 0 := by
  decide +kernel

end Verif.Steps
