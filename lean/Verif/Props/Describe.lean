import Verif.Model.Describe
import Mathlib.Tactic.Linarith
import Mathlib.Tactic.NormNum
import Mathlib.Tactic.Ring
import Mathlib.Data.Nat.Notation

/-! Property C255: printed descriptions. -/

namespace Verif.Describe

/-! ### Specification -/

/-- The mean diameter of a circle is twice its radius. -/
def MeanOfCircle (mean : ℚ → ℚ → ℚ) : Prop := ∀ r, mean r r = 2 * r

/-- A crater with semiaxes `p`, `q` that is measured with the semiaxes `M`, `m`. -/
abbrev crater (p q M m : ℚ) : Sizes := ⟨p, q, some M, some m⟩

/-! ### Theorems -/

/-- Two craters with the same description have the same original size. -/
theorem C255_original (mean : ℚ → ℚ → ℚ) (hm : MeanOfCircle mean) (c c' : Sizes) (h : sizeLines mean c = sizeLines mean c') :
    c.major = c'.major ∧ c.minor = c'.minor := by
  have h' := congrArg List.head? h
  unfold sizeLines at h'
  by_cases h1 : c.major = c.minor <;> by_cases h2 : c'.major = c'.minor
  · rw [if_pos h1, if_pos h2, ← h1, ← h2, hm, hm] at h'
    simp at h'
    exact ⟨h', by rw [← h1, ← h2, h']⟩
  · rw [if_pos h1, if_neg h2] at h'
    simp at h'
  · rw [if_neg h1, if_pos h2] at h'
    simp at h'
  · rw [if_neg h1, if_neg h2] at h'
    simp at h'
    exact ⟨h'.1, h'.2.1⟩

/-- **C255, part.**  A crater that is measured with another semimajor axis shows its measured size: two such craters with the same description have the same
measured size.  Missing: a measured size that differs in the semiminor axis only, see `C255_measured_fails`. -/
theorem C255_measured_partial (mean : ℚ → ℚ → ℚ) (hm : MeanOfCircle mean) (p q M m M' m' : ℚ) (h1 : M ≠ p) (h2 : M' ≠ p)
    (h : sizeLines mean (crater p q M m) = sizeLines mean (crater p q M' m')) : M = M' ∧ m = m' := by
  have h : (if M = m then [Line.measuredDiameter (mean M m)] else [.measuredEllipse M m (mean M m)]) =
      if M' = m' then [.measuredDiameter (mean M' m')] else [.measuredEllipse M' m' (mean M' m')] := by
    have := List.append_cancel_left h
    simpa only [crater, if_neg h1, if_neg h2] using this
  by_cases h3 : M = m <;> by_cases h4 : M' = m'
  · subst h3; subst h4
    simp [hm M, hm M'] at h
    exact ⟨h, h⟩
  · simp [h3, h4] at h
  · simp [h3, h4] at h
  · simp [h3, h4] at h
    exact ⟨h.1, h.2.1⟩

/-- **C255 fails** for a crater that is measured with the same semimajor axis and another semiminor axis: the description is the one of a crater that has not been
measured at all. -/
theorem C255_measured_fails (mean : ℚ → ℚ → ℚ) (p q m : ℚ) : sizeLines mean (crater p q p m) = sizeLines mean ⟨p, q, none, none⟩ := by
  simp [sizeLines]

/-- **C255 fails** for the file of prescribed craters: the description of the production function is the same for all files, and does not contain any of their names. -/
theorem C255_file_fails (f g : String) (n : Option ℕ) : prescribedLines (some f) n = prescribedLines (some g) n ∧
    (prescribedLines (some f) n).head? = some "Quasi-Monte Carlo file: {self.quasimc_file}" := ⟨rfl, rfl⟩

/-- The number of prescribed craters is shown: descriptions with different numbers are different. -/
theorem C255_number (f : Option String) (n k : ℕ) (h : prescribedLines f (some n) = prescribedLines f (some k)) : toString n = toString k := by
  cases f <;> simpa [prescribedLines] using h

/-! ### Cases -/

/-- A circle of radius 5 that is measured as an ellipse with the semiaxes 5 and 3 is printed like one that has not been measured; one that is measured with the semiaxes
6 and 3 is not. -/
example : ∃ mean : ℚ → ℚ → ℚ, MeanOfCircle mean ∧ sizeLines mean (crater 5 5 5 3) = [.diameter 10] ∧
    sizeLines mean (crater 5 5 6 3) = [.diameter 10, .measuredEllipse 6 3 9] := by
  refine ⟨fun a b => a + b, fun r => by ring, ?_, ?_⟩
  · simp [sizeLines]; norm_num
  · simp [sizeLines]; norm_num

end Verif.Describe
