import Verif.Model.Parallel
import Mathlib.Algebra.BigOperators.Intervals
import Mathlib.Algebra.Order.Field.Basic
import Mathlib.Tactic.Linarith
import Mathlib.Tactic.Ring
import Mathlib.Tactic.NormNum
import Mathlib.Tactic.Positivity
import Mathlib.Algebra.Order.Field.Power
import Mathlib.Tactic.FieldSimp

/-! Property C209: results do not depend on how the work is shared between threads. -/

namespace Verif.Parallel

/-! ### Loops that collect -/

/-- What holds at each moment of a collecting loop over `n` indices. -/
structure Inv {β : Type} (f : ℕ → β) (n : ℕ) (c : Config β) : Prop where
  ranges : ∀ r ∈ c.pending, r.1 ≤ r.2 ∧ r.2 ≤ n
  done : ∀ i < n, (∀ r ∈ c.pending, ¬ (r.1 ≤ i ∧ i < r.2)) → c.buffer i = some (f i)
  outside : ∀ i, n ≤ i → c.buffer i = none

theorem Inv.start {β : Type} (f : ℕ → β) (n : ℕ) : Inv f n (start β n) := by
  refine ⟨?_, ?_, fun _ _ => rfl⟩
  · simp [Parallel.start]
  · intro i hi h
    exact absurd ⟨Nat.zero_le i, hi⟩ (h (0, n) (by simp [Parallel.start]))

theorem Inv.step {β : Type} {f : ℕ → β} {n : ℕ} {c d : Config β} (h : Inv f n c) (hs : Step f c d) : Inv f n d := by
  cases hs with
  | split pre post lo hi b hlt =>
    have hr := h.ranges (lo, hi) (by simp)
    simp only at hr
    refine ⟨?_, ?_, h.outside⟩
    · intro r hm
      simp only [List.mem_append, List.mem_cons] at hm
      rcases hm with hm | rfl | rfl | hm
      · exact h.ranges r (by simp [hm])
      · simp only; omega
      · simp only; omega
      · exact h.ranges r (by simp [hm])
    · intro i hi' hout
      apply h.done i hi'
      intro r hm hin
      simp only [List.mem_append, List.mem_cons] at hm
      rcases hm with hm | rfl | hm
      · exact hout r (by simp [hm]) hin
      · simp only at hin
        by_cases hm : i < lo + (hi - lo) / 2
        · exact hout (lo, lo + (hi - lo) / 2) (by simp) ⟨hin.1, hm⟩
        · exact hout (lo + (hi - lo) / 2, hi) (by simp) ⟨not_lt.1 hm, hin.2⟩
      · exact hout r (by simp [hm]) hin
  | compute pre post lo hi b hlt =>
    have hr := h.ranges (lo, hi) (by simp)
    simp only at hr
    refine ⟨?_, ?_, ?_⟩
    · intro r hm
      simp only [List.mem_append, List.mem_cons] at hm
      rcases hm with hm | rfl | hm
      · exact h.ranges r (by simp [hm])
      · simp only; omega
      · exact h.ranges r (by simp [hm])
    · intro i hi' hout
      simp only
      by_cases he : i = lo
      · subst he; simp
      · rw [Function.update_of_ne he]
        apply h.done i hi'
        intro r hm hin
        simp only [List.mem_append, List.mem_cons] at hm
        rcases hm with hm | rfl | hm
        · exact hout r (by simp [hm]) hin
        · simp only at hin
          exact hout (lo + 1, hi) (by simp) ⟨by simp only; omega, hin.2⟩
        · exact hout r (by simp [hm]) hin
    · intro i hi'
      simp only
      rw [Function.update_of_ne (by omega)]
      exact h.outside i hi'
  | finish pre post lo b =>
    refine ⟨?_, ?_, h.outside⟩
    · intro r hm
      exact h.ranges r (by simp only [List.mem_append, List.mem_cons] at hm ⊢; tauto)
    · intro i hi' hout
      apply h.done i hi'
      intro r hm hin
      simp only [List.mem_append, List.mem_cons] at hm
      rcases hm with hm | rfl | hm
      · exact hout r (by simp [hm]) hin
      · simp only at hin; omega
      · exact hout r (by simp [hm]) hin

theorem Inv.reach {β : Type} {f : ℕ → β} {n : ℕ} {c : Config β} (h : Relation.ReflTransGen (Step f) (Parallel.start β n) c) : Inv f n c := by
  induction h with
  | refl => exact Inv.start f n
  | tail _ hs ih => exact ih.step hs

/-- However the indices of a loop that collects its results are divided between threads and whatever thread is faster, when the loop has ended the
result with number `i` is the value of `f` at `i`, for each of the `n` indices, and there are no others. -/
theorem C209_collect {β : Type} (f : ℕ → β) (n : ℕ) (c : Config β) (h : Relation.ReflTransGen (Step f) (start β n) c) (hend : c.pending = []) :
    ∀ i, c.buffer i = if i < n then some (f i) else none := by
  intro i
  have hi := Inv.reach h
  split_ifs with hlt
  · exact hi.done i hlt (by simp [hend])
  · exact hi.outside i (not_lt.1 hlt)

/-- How many steps a range can still take. -/
def weight (r : ℕ × ℕ) : ℕ := max 1 (3 * (r.2 - r.1) - 1)

theorem step_weight {β : Type} {f : ℕ → β} {c d : Config β} (hs : Step f c d) :
    (d.pending.map weight).sum + 1 ≤ (c.pending.map weight).sum := by
  cases hs with
  | split pre post lo hi b hlt =>
    simp only [List.map_append, List.map_cons, List.sum_append, List.sum_cons, weight]
    omega
  | compute pre post lo hi b hlt =>
    simp only [List.map_append, List.map_cons, List.sum_append, List.sum_cons, weight]
    omega
  | finish pre post lo b =>
    simp only [List.map_append, List.map_cons, List.sum_append, List.sum_cons, weight]
    omega

/-- Such a loop ends: every sequence of steps is shorter than three times the number of indices (or one step, without indices), and as long as
something is to be done there is a step. -/
theorem C209_ends {β : Type} (f : ℕ → β) (n : ℕ) :
    (∀ (s : ℕ → Config β) (k : ℕ), s 0 = start β n → (∀ i < k, Step f (s i) (s (i + 1))) → k ≤ max 1 (3 * n - 1)) ∧
    ∀ c, Relation.ReflTransGen (Step f) (start β n) c → c.pending ≠ [] → ∃ d, Step f c d := by
  refine ⟨?_, ?_⟩
  · intro s k h0 hs
    have key : ∀ j ≤ k, ((s j).pending.map weight).sum + j ≤ max 1 (3 * n - 1) := by
      intro j
      induction j with
      | zero => intro _; rw [h0]; simp [start, weight]
      | succ j ih =>
        intro hj
        have h1 := ih (by omega)
        have h2 := step_weight (hs j (by omega))
        omega
    have := key k le_rfl
    omega
  · intro c h hne
    obtain ⟨p, b⟩ := c
    rcases p with _ | ⟨⟨lo, hi⟩, post⟩
    · exact absurd rfl hne
    · have hr := (Inv.reach h).ranges (lo, hi) (by simp)
      simp only at hr
      rcases Nat.lt_or_ge lo hi with hlt | hge
      · exact ⟨_, Step.compute [] post lo hi b hlt⟩
      · obtain rfl : lo = hi := by omega
        exact ⟨_, Step.finish [] post lo b⟩

/-- Two threads: the second half is computed first. -/
example : Relation.ReflTransGen (Step fun i => 10 * i) (start ℕ 2) ⟨[], Function.update (Function.update (fun _ => none) 1 (some 10)) 0 (some 0)⟩ := by
  refine .head (Step.split [] [] 0 2 _ (by decide)) ?_
  refine .head (Step.compute [(0, 1)] [] 1 2 _ (by decide)) ?_
  refine .head (Step.finish [(0, 1)] [] 2 _) ?_
  refine .head (Step.compute [] [] 0 1 _ (by decide)) ?_
  exact .single (Step.finish [] [] 1 _)

/-! ### Loops that sum -/

/-- In exact arithmetic a sum does not depend on how it is divided.  Missing: the sums of the ray pattern are sums of rounded numbers, where it does,
see `C209_sum_fails`. -/
theorem C209_sum_partial {β : Type} [AddCommMonoid β] (f : ℕ → β) (n : ℕ) (v : β) (h : Sums (· + ·) 0 f 0 n v) :
    v = ∑ i ∈ Finset.range n, f i := by
  have key : ∀ lo hi v, Sums (· + ·) 0 f lo hi v → lo ≤ hi ∧ v = ∑ i ∈ Finset.Ico lo hi, f i := by
    intro lo hi v h
    induction h with
    | whole lo n =>
      refine ⟨by omega, ?_⟩
      have hf : ∀ (n lo : ℕ) (s : β), (List.range' lo n).foldl (fun s i => s + f i) s = s + ∑ i ∈ Finset.Ico lo (lo + n), f i := by
        intro n
        induction n with
        | zero => intro lo s; simp
        | succ n ih =>
          intro lo s
          rw [List.range'_succ, List.foldl_cons, ih, Finset.sum_eq_sum_Ico_succ_bot (by omega : lo < lo + (n + 1)), ← add_assoc,
            show lo + (n + 1) = lo + 1 + n by omega]
      rw [hf, zero_add]
    | halves lo hi a b hlt _ _ ih1 ih2 =>
      refine ⟨by omega, ?_⟩
      rw [ih1.2, ih2.2, zero_add, Finset.sum_Ico_consecutive _ ih1.1 ih2.1]
  rw [(key 0 n v h).2, Finset.range_eq_Ico]

/-- A rounded sum of numbers that are not negative: if each addition has a relative error of at most `u`, the sum of `n` numbers lies within a
factor `(1 ± u) ^ (2 n)` of the exact one, however it is divided. -/
theorem sum_error {add : ℚ → ℚ → ℚ} {u : ℚ} (h0 : 0 ≤ u) (h1 : u ≤ 1)
    (hadd : ∀ a b, 0 ≤ a → 0 ≤ b → (1 - u) * (a + b) ≤ add a b ∧ add a b ≤ (1 + u) * (a + b)) (f : ℕ → ℚ) (hf : ∀ i, 0 ≤ f i) :
    ∀ lo hi v, Sums add 0 f lo hi v → lo ≤ hi ∧
      (1 - u) ^ (2 * (hi - lo)) * ∑ i ∈ Finset.Ico lo hi, f i ≤ v ∧ v ≤ (1 + u) ^ (2 * (hi - lo)) * ∑ i ∈ Finset.Ico lo hi, f i := by
  have hu : (0 : ℚ) ≤ 1 - u := by linarith
  have hu1 : 1 - u ≤ 1 := by linarith
  have hv1 : (1 : ℚ) ≤ 1 + u := by linarith
  have two : ∀ (a b x y : ℚ) (k m : ℕ), 0 ≤ x → 0 ≤ y → k + 1 ≤ m →
      (1 - u) ^ k * x ≤ a → a ≤ (1 + u) ^ k * x → (1 - u) ^ k * y ≤ b → b ≤ (1 + u) ^ k * y →
      (1 - u) ^ m * (x + y) ≤ add a b ∧ add a b ≤ (1 + u) ^ m * (x + y) := by
    intro a b x y k m hx hy hkm ha1 ha2 hb1 hb2
    have ha : 0 ≤ a := le_trans (by positivity) ha1
    have hb : 0 ≤ b := le_trans (by positivity) hb1
    have hh := hadd a b ha hb
    refine ⟨?_, ?_⟩
    · calc (1 - u) ^ m * (x + y) ≤ (1 - u) ^ (k + 1) * (x + y) :=
            mul_le_mul_of_nonneg_right (pow_le_pow_of_le_one hu hu1 hkm) (by positivity)
        _ = (1 - u) * ((1 - u) ^ k * x + (1 - u) ^ k * y) := by ring
        _ ≤ (1 - u) * (a + b) := mul_le_mul_of_nonneg_left (by linarith) hu
        _ ≤ _ := hh.1
    · calc add a b ≤ (1 + u) * (a + b) := hh.2
        _ ≤ (1 + u) * ((1 + u) ^ k * x + (1 + u) ^ k * y) := mul_le_mul_of_nonneg_left (by linarith) (by linarith)
        _ = (1 + u) ^ (k + 1) * (x + y) := by ring
        _ ≤ _ := mul_le_mul_of_nonneg_right (pow_le_pow_right₀ hv1 hkm) (by positivity)
  have low : ∀ (k m : ℕ) (x a : ℚ), 0 ≤ x → k ≤ m → (1 - u) ^ k * x ≤ a → (1 - u) ^ m * x ≤ a := fun k m x a hx hkm h =>
    (mul_le_mul_of_nonneg_right (pow_le_pow_of_le_one hu hu1 hkm) hx).trans h
  have upp : ∀ (k m : ℕ) (x a : ℚ), 0 ≤ x → k ≤ m → a ≤ (1 + u) ^ k * x → a ≤ (1 + u) ^ m * x := fun k m x a hx hkm h =>
    h.trans (mul_le_mul_of_nonneg_right (pow_le_pow_right₀ hv1 hkm) hx)
  have pos : ∀ a b, 0 ≤ ∑ i ∈ Finset.Ico a b, f i := fun a b => Finset.sum_nonneg fun i _ => hf i
  intro lo hi v h
  induction h with
  | whole lo n =>
    refine ⟨by omega, ?_⟩
    have key : ∀ n : ℕ, (1 - u) ^ n * ∑ i ∈ Finset.Ico lo (lo + n), f i ≤ (List.range' lo n).foldl (fun s i => add s (f i)) 0 ∧
        (List.range' lo n).foldl (fun s i => add s (f i)) 0 ≤ (1 + u) ^ n * ∑ i ∈ Finset.Ico lo (lo + n), f i := by
      intro n
      induction n with
      | zero => simp
      | succ n ih =>
        rw [List.range'_concat, List.foldl_append, ← add_assoc, Finset.sum_Ico_succ_top (by omega)]
        simp only [List.foldl_cons, List.foldl_nil, one_mul]
        refine two _ _ _ _ n (n + 1) (pos _ _) (hf _) le_rfl ih.1 ih.2 ?_ ?_
        · exact low 0 n _ _ (hf _) (by omega) (by simp)
        · exact upp 0 n _ _ (hf _) (by omega) (by simp)
    exact ⟨low n _ _ _ (pos _ _) (by omega) (key n).1, upp n _ _ _ (pos _ _) (by omega) (key n).2⟩
  | halves lo hi a b hlt _ _ ih1 ih2 =>
    refine ⟨by omega, ?_⟩
    rw [← Finset.sum_Ico_consecutive _ ih1.1 ih2.1]
    have hx := pos lo (lo + (hi - lo) / 2)
    have hy := pos (lo + (hi - lo) / 2) hi
    generalize hm : lo + (hi - lo) / 2 = mid at *
    have g1 : 2 * (mid - lo) + 1 ≤ 2 * (hi - lo) - 1 := by omega
    have g2 : 2 * (hi - mid) ≤ 2 * (hi - lo) - 1 := by omega
    have first := two 0 a 0 (∑ i ∈ Finset.Ico lo mid, f i) (2 * (mid - lo)) (2 * (mid - lo) + 1) le_rfl hx le_rfl (by simp) (by simp) ih1.2.1 ih1.2.2
    rw [zero_add] at first
    exact two _ _ _ _ (2 * (hi - lo) - 1) (2 * (hi - lo)) hx hy (by omega) (low _ _ _ _ hx g1 first.1) (upp _ _ _ _ hx g1 first.2)
      (low _ _ _ _ hy g2 ih2.2.1) (upp _ _ _ _ hy g2 ih2.2.2)

theorem roundEven_near (q : ℚ) : |(roundEven q : ℚ) - q| ≤ 1 / 2 := by
  have h1 := Int.floor_le q
  have h2 := Int.lt_floor_add_one q
  unfold roundEven
  split_ifs with c1 c2 c3
  · rw [abs_le]; constructor <;> linarith
  · push_cast; rw [abs_le]; constructor <;> linarith
  · rw [abs_le]; constructor <;> linarith
  · push_cast; rw [abs_le]; constructor <;> linarith

/-- The relative error of a number of double precision. -/
theorem double_near (x : ℚ) (hx : 0 ≤ x) : (1 - 2⁻¹ ^ 53) * x ≤ double x ∧ double x ≤ (1 + 2⁻¹ ^ 53) * x := by
  rcases eq_or_lt_of_le hx with rfl | hpos
  · simp [double, roundEven]
  · have hs : 0 < spacing x := by unfold spacing; positivity
    have h := roundEven_near (x / spacing x)
    have e : double x - x = ((roundEven (x / spacing x) : ℚ) - x / spacing x) * spacing x := by
      unfold double
      rw [sub_mul, div_mul_cancel₀ _ hs.ne']
    have hle : spacing x ≤ 2⁻¹ ^ 52 * x := by
      unfold spacing
      have := Int.zpow_log_le_self (b := 2) (by norm_num) (abs_pos.2 hpos.ne')
      rw [zpow_sub₀ (by norm_num)]
      rw [abs_of_pos hpos] at this ⊢
      push_cast at this
      have h52 : ((2 : ℚ) ^ (52 : ℤ)) = 2 ^ 52 := by norm_cast
      rw [h52]
      calc (2 : ℚ) ^ Int.log 2 x / 2 ^ 52 = 2⁻¹ ^ 52 * 2 ^ Int.log 2 x := by rw [inv_pow]; ring
        _ ≤ _ := mul_le_mul_of_nonneg_left this (by positivity)
    have hb : |double x - x| ≤ 2⁻¹ ^ 53 * x := by
      rw [e, abs_mul, abs_of_pos hs]
      calc _ ≤ 1 / 2 * spacing x := mul_le_mul_of_nonneg_right h hs.le
        _ ≤ 1 / 2 * (2⁻¹ ^ 52 * x) := by linarith
        _ = _ := by ring
    rw [abs_le] at hb
    constructor <;> linarith [hb.1, hb.2]

/-- How far apart two evaluations of the intensity of the rays at a place can be: at most `2 ^ -48` of it.  Missing: they can be different, see
`C209_sum_fails`. -/
theorem C209_rays_partial (f : ℕ → ℚ) (hf : ∀ i, 0 ≤ f i) (v w : ℚ) (hv : Sums doubleAdd 0 f 0 rays v) (hw : Sums doubleAdd 0 f 0 rays w) :
    |v - w| ≤ 2⁻¹ ^ 48 * ∑ i ∈ Finset.range rays, f i := by
  have err := sum_error (add := doubleAdd) (u := 2⁻¹ ^ 53) (by positivity) (by norm_num)
    (fun a b ha hb => double_near (a + b) (add_nonneg ha hb)) f hf 0 rays
  obtain ⟨-, hv1, hv2⟩ := err v hv
  obtain ⟨-, hw1, hw2⟩ := err w hw
  rw [Finset.range_eq_Ico]
  have hs : 0 ≤ ∑ i ∈ Finset.Ico 0 rays, f i := Finset.sum_nonneg fun i _ => hf i
  have hc : (1 + 2⁻¹ ^ 53 : ℚ) ^ (2 * (rays - 0)) - (1 - 2⁻¹ ^ 53) ^ (2 * (rays - 0)) ≤ 2⁻¹ ^ 48 := by norm_num [rays]
  have := mul_le_mul_of_nonneg_right hc hs
  rw [abs_le]
  constructor <;> linarith

/-- The contributions of the five rays at a place. -/
def fiveRays : ℕ → ℚ := fun i => if i = 0 then 1 else if i = 2 ∨ i = 3 then 2⁻¹ ^ 53 else 0

theorem log_one_and : Int.log 2 |(1 : ℚ) + 2⁻¹ ^ 53| = 0 ∧ Int.log 2 |(1 : ℚ) + 2⁻¹ ^ 52| = 0 := by
  constructor
  · rw [abs_of_pos (by positivity), Int.log_of_one_le_right _ (by norm_num)]
    have : ⌊(1 : ℚ) + 2⁻¹ ^ 53⌋₊ = 1 := by rw [Nat.floor_eq_iff (by positivity)]; norm_num
    rw [this]; simp
  · rw [abs_of_pos (by positivity), Int.log_of_one_le_right _ (by norm_num)]
    have : ⌊(1 : ℚ) + 2⁻¹ ^ 52⌋₊ = 1 := by rw [Nat.floor_eq_iff (by positivity)]; norm_num
    rw [this]; simp

theorem double_int (n : ℤ) (x : ℚ) (h : x = n * spacing x) : double x = x := by
  have hs : spacing x ≠ 0 := by unfold spacing; positivity
  unfold double
  have : x / spacing x = n := by rw [div_eq_iff hs]; exact h
  rw [this]
  have : roundEven (n : ℚ) = n := by unfold roundEven; simp
  rw [this]; exact h.symm

theorem spacing_zpow (k : ℤ) : spacing ((2 : ℚ) ^ k) = 2 ^ (k - 52) := by
  unfold spacing
  rw [abs_of_pos (by positivity)]
  have := Int.log_zpow (R := ℚ) (b := 2) (by norm_num) k
  push_cast at this
  rw [this]

theorem double_zpow (k : ℤ) : double ((2 : ℚ) ^ k) = 2 ^ k := by
  apply double_int (2 ^ 52)
  rw [spacing_zpow, zpow_sub₀ (by norm_num)]
  push_cast
  field_simp

theorem double_zero : double 0 = 0 := by simp [double, roundEven]

theorem double_tie : double (1 + 2⁻¹ ^ 53) = 1 := by
  have hs : spacing (1 + 2⁻¹ ^ 53) = 2⁻¹ ^ 52 := by
    unfold spacing; rw [log_one_and.1]; norm_num [zpow_neg]
  have hq : ((1 : ℚ) + 2⁻¹ ^ 53) / 2⁻¹ ^ 52 = (2 ^ 52 : ℤ) + 1 / 2 := by norm_num
  unfold double
  rw [hs, hq]
  have hfl : ⌊((2 ^ 52 : ℤ) : ℚ) + 1 / 2⌋ = 2 ^ 52 := by
    rw [Int.floor_eq_iff]; constructor <;> norm_num
  unfold roundEven
  rw [hfl]
  norm_num

theorem double_next : double (1 + 2⁻¹ ^ 52) = 1 + 2⁻¹ ^ 52 := by
  apply double_int (2 ^ 52 + 1)
  unfold spacing; rw [log_one_and.2]; norm_num [zpow_neg]

/-- The intensity of the rays depends on how the threads share the work: the same contributions of the five rays give 1 when one thread adds them from
left to right, and the next larger number of double precision when they are added in halves, as with another number of threads or another one being
free.  So a run with the same seed need not give the same surface to the last digit. -/
theorem C209_sum_fails : ∃ f : ℕ → ℚ, (∀ i, 0 ≤ f i ∧ double (f i) = f i) ∧ Sums doubleAdd 0 f 0 rays 1 ∧ Sums doubleAdd 0 f 0 rays (1 + 2⁻¹ ^ 52) := by
  have one : double 1 = 1 := by simpa using double_zpow 0
  have p53 : double (2⁻¹ ^ 53) = 2⁻¹ ^ 53 := by
    have := double_zpow (-53)
    rwa [show ((2 : ℚ) ^ (-53 : ℤ)) = 2⁻¹ ^ 53 by norm_num [zpow_neg]] at this
  have p52 : double (2⁻¹ ^ 52) = 2⁻¹ ^ 52 := by
    have := double_zpow (-52)
    rwa [show ((2 : ℚ) ^ (-52 : ℤ)) = 2⁻¹ ^ 52 by norm_num [zpow_neg]] at this
  have sum2 : (2⁻¹ ^ 53 + 2⁻¹ ^ 53 : ℚ) = 2⁻¹ ^ 52 := by norm_num
  have r0 : fiveRays 0 = 1 := by simp [fiveRays]
  have r1 : fiveRays 1 = 0 := by simp [fiveRays]
  have r2 : fiveRays 2 = 2⁻¹ ^ 53 := if_neg (by decide)|>.trans (if_pos (by decide))
  have r3 : fiveRays 3 = 2⁻¹ ^ 53 := if_neg (by decide)|>.trans (if_pos (by decide))
  have r4 : fiveRays 4 = 0 := by simp [fiveRays]
  refine ⟨fiveRays, ?_, ?_, ?_⟩
  · intro i
    unfold fiveRays
    split_ifs
    · exact ⟨by norm_num, one⟩
    · exact ⟨by positivity, p53⟩
    · exact ⟨le_rfl, double_zero⟩
  · have h := Sums.whole (add := doubleAdd) (zero := 0) (f := fiveRays) 0 5
    have e : (List.range' 0 5).foldl (fun s i => doubleAdd s (fiveRays i)) 0 = 1 := by
      simp only [List.range', List.foldl_cons, List.foldl_nil, Nat.reduceAdd, doubleAdd, r0, r1, r2, r3, r4, zero_add, add_zero, one, double_tie]
    rw [e] at h
    exact h
  · have hl := Sums.whole (add := doubleAdd) (zero := 0) (f := fiveRays) 0 2
    have hr := Sums.whole (add := doubleAdd) (zero := 0) (f := fiveRays) 2 3
    have e1 : (List.range' 0 2).foldl (fun s i => doubleAdd s (fiveRays i)) 0 = 1 := by
      simp only [List.range', List.foldl_cons, List.foldl_nil, doubleAdd, r0, r1, zero_add, add_zero, one]
    have e2 : (List.range' 2 3).foldl (fun s i => doubleAdd s (fiveRays i)) 0 = 2⁻¹ ^ 52 := by
      simp only [List.range', List.foldl_cons, List.foldl_nil, Nat.reduceAdd, doubleAdd, r2, r3, r4, zero_add, add_zero, p53, sum2, p52]
    rw [e1] at hl
    rw [e2] at hr
    have h := Sums.halves (add := doubleAdd) (zero := 0) (f := fiveRays) 0 5 _ _ (by decide) hl hr
    have e3 : doubleAdd (doubleAdd 0 1) (2⁻¹ ^ 52) = 1 + 2⁻¹ ^ 52 := by
      simp only [doubleAdd, zero_add, one, double_next]
    rw [e3] at h
    exact h

end Verif.Parallel
