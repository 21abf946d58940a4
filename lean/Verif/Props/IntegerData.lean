import Verif.Model.IntegerData
import Mathlib.Tactic.Linarith
import Mathlib.Tactic.NormNum
import Mathlib.Algebra.BigOperators.Group.List.Basic
import Mathlib.Tactic.Push

/-! Property C254: adding to mesh data that are whole numbers. -/

namespace Verif.IntegerData

/-! ### Helpers -/

theorem store_int (k : ℤ) : store (k : ℚ) = k := by
  unfold store
  split_ifs <;> simp

theorem store_between (v : ℤ) (x : ℚ) (hv : 0 ≤ v) (h0 : 0 ≤ x) (h1 : x < 1) : store (v + x) = v := by
  have : (0 : ℚ) ≤ v := by exact_mod_cast hv
  unfold store
  rw [if_pos (by linarith), Int.floor_eq_iff]
  constructor <;> linarith

/-- Cutting off the fraction moves a number by less than one, towards zero. -/
theorem store_near (x : ℚ) : |(store x : ℚ)| ≤ |x| ∧ |x - store x| < 1 := by
  unfold store
  split_ifs with h
  · have h1 := Int.floor_le x
    have h2 := Int.lt_floor_add_one x
    have h3 : (0 : ℚ) ≤ (⌊x⌋ : ℤ) := by exact_mod_cast Int.floor_nonneg.2 h
    rw [abs_of_nonneg h3, abs_of_nonneg h, abs_of_nonneg (by linarith)]
    exact ⟨h1, by linarith⟩
  · have hx : x < 0 := not_le.1 h
    have h1 := Int.le_ceil x
    have h2 := Int.ceil_lt_add_one x
    have h3 : ((⌈x⌉ : ℤ) : ℚ) ≤ 0 := by exact_mod_cast Int.ceil_le.2 (by simpa using hx.le)
    rw [abs_of_nonpos h3, abs_of_neg hx, abs_of_nonpos (by linarith)]
    exact ⟨by linarith, by linarith⟩

/-! ### Theorems -/

/-- **C254, part.**  Whole numbers are stored as given and added exactly, in any number of calls for regions, or for the whole surface if the integer type is
given with every call.  Missing: numbers with fractions, see `C254_fraction_fails`, and calls for the whole surface without a type, see `C254_whole_fails`. -/
theorem C254_whole_numbers_partial (k : ℤ) (ks : List (Bool × Bool × ℤ)) (h : ∀ x ∈ ks, x.1 = true → x.2.1 = true) :
    create { number := k } = k ∧
    run k (ks.map fun x => (x.1, { number := x.2.2, integer := x.2.1 })) = k + (ks.map fun x => x.2.2).sum ∧
    ∀ whole (v j : ℤ) integer, add whole v { number := j, integer := integer, overwrite := true } = .value j := by
  refine ⟨by simp [create, store_int], ?_, ?_⟩
  · induction ks generalizing k with
    | nil => simp [run]
    | cons x ks ih =>
      obtain ⟨w, i, j⟩ := x
      have hw : (w && !i) = false := by
        have := h (w, i, j) List.mem_cons_self
        cases w <;> cases i <;> simp_all
      have hadd : add w k { number := (j : ℚ), integer := i } = .value (k + j) := by
        have hs : store ((k : ℚ) + (j : ℚ)) = k + j := by
          rw [← Int.cast_add, store_int]
        cases i <;> simp_all [add, store_int]
      simp only [List.map_cons, run, hadd, List.sum_cons]
      rw [ih (k + j) fun x hx => h x (List.mem_cons_of_mem _ hx), add_assoc]
  · intro whole v j integer
    cases integer <;> simp [add, store_int]

/-- **C254 fails** for fractions: numbers below one that are added to a value that is not negative are lost, however many they are and whatever they add up to. -/
theorem C254_fraction_fails (v : ℤ) (hv : 0 ≤ v) (xs : List ℚ) (h : ∀ x ∈ xs, 0 ≤ x ∧ x < 1) :
    run v (xs.map fun x => (false, { number := x })) = v := by
  induction xs with
  | nil => rfl
  | cons x xs ih =>
    obtain ⟨h0, h1⟩ := h x List.mem_cons_self
    have hadd : add false v { number := x } = .value v := by simp [add, store_between v x hv h0 h1]
    simp only [List.map_cons, run, hadd]
    exact ih fun y hy => h y (List.mem_cons_of_mem _ hy)

/-- **C254 fails** for the whole surface: without the integer type every call that adds raises an error, even for whole numbers, while the same call for a region
works. -/
theorem C254_whole_fails (v k : ℤ) :
    add true v { number := k } = .typeError ∧ add false v { number := k } = .value (v + k) := by
  refine ⟨by simp [add], ?_⟩
  have hs : store ((v : ℚ) + (k : ℚ)) = v + k := by rw [← Int.cast_add, store_int]
  simp [add, hs]

/-- One call for a region loses less than one. -/
theorem C254_loss (v : ℤ) (x : ℚ) : ∃ w, add false v { number := x } = .value w ∧ |v + x - w| < 1 := by
  refine ⟨store (v + x), by simp [add], (store_near (v + x)).2⟩

/-- With `positive_only` a result below zero becomes zero, for a new variable, a replaced value and a sum. -/
theorem C254_positive (whole integer : Bool) (v k : ℤ) (h : whole = true → integer = true) :
    create { number := k, positive := true } = max 0 k ∧
    add whole v { number := k, integer := integer, overwrite := true, positive := true } = .value (max 0 k) ∧
    add whole v { number := k, integer := integer, positive := true } = .value (max 0 (v + k)) := by
  have hs : store ((v : ℚ) + (k : ℚ)) = v + k := by rw [← Int.cast_add, store_int]
  refine ⟨by simp [create, store_int], ?_, ?_⟩
  · cases integer <;> simp [add, store_int]
  · cases whole <;> cases integer <;> simp_all [add, store_int]

/-! ### Cases -/

/-- Ten times 0.9 added to 5 leaves 5; 3 and -1 give 7; 2.7 is stored as 2 and -2.7 as -2. -/
example : run 5 ((List.replicate 10 (9 / 10 : ℚ)).map fun x => (false, { number := x })) = 5 ∧
    run 5 ([(false, false, 3), (true, true, -1)].map fun x : Bool × Bool × ℤ => (x.1, { number := x.2.2, integer := x.2.1 })) = 7 ∧
    create { number := 27 / 10 } = 2 ∧ create { number := -27 / 10 } = -2 := by
  refine ⟨C254_fraction_fails 5 (by norm_num) _ (by simp; norm_num), ?_, by decide +kernel, by decide +kernel⟩
  exact (C254_whole_numbers_partial 5 [(false, false, 3), (true, true, -1)] (by simp)).2.1

end Verif.IntegerData
