import Verif.Model.Measure
import Mathlib.Analysis.Real.Pi.Bounds
import Mathlib.Tactic.Linarith
import Mathlib.Tactic.NormNum

namespace Verif.Measure

variable {Loc : Type}

/-- The crater with which the next pass starts: it has the fitted centre and axes, the fitted orientation in degrees, and is otherwise as before. -/
def Follows (r : FitResult Loc) (c c' : Rim Loc) : Prop :=
  c'.location = r.location ∧ c'.semimajor = r.a ∧ c'.semiminor = r.b ∧ c'.measuredRadius = c.measuredRadius ∧
    c'.radius = c.radius ∧ |c'.orientation * (Real.pi / 180) - r.o| ≤ 1e-16 * |r.o|

/-- The conversion to degrees of double precision is that of a circle, up to rounding. -/
theorem degrees_near (o : ℝ) : |o * (180 / 3.141592653589793) * (Real.pi / 180) - o| ≤ 1e-16 * |o| := by
  have h1 := Real.pi_gt_d20
  have h2 := Real.pi_lt_d20
  have e : o * (180 / 3.141592653589793) * (Real.pi / 180) - o = (Real.pi / 3.141592653589793 - 1) * o := by
    field_simp
  rw [e, abs_mul]
  apply mul_le_mul_of_nonneg_right _ (abs_nonneg o)
  rw [abs_le]
  constructor
  · rw [le_sub_iff_add_le, le_div_iff₀ (by norm_num)]
    norm_num at h1 ⊢
    linarith
  · rw [sub_le_iff_le_add, div_le_iff₀ (by norm_num)]
    norm_num at h2 ⊢
    linarith

theorem fitLoop_spec (ratio tol : ℝ) (nloops : ℕ) (fit : ℕ → ℝ → Rim Loc → FitResult Loc) (k i : ℕ) (c : Rim Loc)
    (hk : nloops < k + i ∨ nloops = k + i ∧ 0 < k) (hi : i = 0 ∨ i < nloops) :
    let ps := fitLoop ratio tol nloops fit k i c
    1 ≤ ps.length ∧ ps.length + i ≤ max 1 nloops ∧
    (∀ j p, ps[j]? = some p → p.1 = ratio * c.measuredRadius ∧ p.2.1.measuredRadius = c.measuredRadius ∧
      p.2.1.radius = c.radius ∧ p.2.2 = fit (i + j) p.1 p.2.1) ∧
    (∃ r, ps[0]? = some (ratio * c.measuredRadius, c, r)) ∧
    (∀ j p p', ps[j]? = some p → ps[j + 1]? = some p' → Follows p.2.2 p.2.1 p'.2.1 ∧ ¬ settled tol p.2.1 p.2.2) ∧
    (∀ p, ps.getLast? = some p → settled tol p.2.1 p.2.2 ∨ ps.length + i = max 1 nloops) := by
  induction k generalizing i c with
  | zero => omega
  | succ k ih =>
    classical
    intro ps
    have hps : ps = fitLoop ratio tol nloops fit (k + 1) i c := rfl
    unfold fitLoop at hps
    simp only at hps
    set r := fit i (fitExtent ratio c) c with hr
    have hmax : i < max 1 nloops := by rcases hi with rfl | h <;> simp_all
    by_cases hs : settled tol c r
    · rw [if_pos hs] at hps
      rw [hps]
      refine ⟨by simp, by simp only [List.length_singleton]; omega, ?_, ⟨r, rfl⟩, ?_, ?_⟩
      · intro j p hj
        cases j with
        | zero => simp only [List.getElem?_cons_zero, Option.some.injEq] at hj; subst hj; exact ⟨rfl, rfl, rfl, rfl⟩
        | succ j => simp at hj
      · intro j p p' _ h'
        simp at h'
      · intro p hp
        simp only [List.getLast?_singleton, Option.some.injEq] at hp
        subst hp
        exact Or.inl hs
    · rw [if_neg hs] at hps
      by_cases hn : i + 1 ≥ nloops
      · rw [if_pos hn] at hps
        rw [hps]
        refine ⟨by simp, by simp only [List.length_singleton]; omega, ?_, ⟨r, rfl⟩, ?_, ?_⟩
        · intro j p hj
          cases j with
          | zero => simp only [List.getElem?_cons_zero, Option.some.injEq] at hj; subst hj; exact ⟨rfl, rfl, rfl, rfl⟩
          | succ j => simp at hj
        · intro j p p' _ h'
          simp at h'
        · intro p hp
          simp only [List.getLast?_singleton, Option.some.injEq] at hp
          subst hp
          right
          simp only [List.length_singleton]
          omega
      · rw [if_neg hn] at hps
        set c' : Rim Loc := { c with location := r.location, semimajor := r.a, semiminor := r.b, orientation := r.o * (180 / 3.141592653589793) } with hc'
        obtain ⟨h1, h2, h3, ⟨r', h4⟩, h5, h6⟩ := ih (i + 1) c' (by omega) (by omega)
        set qs := fitLoop ratio tol nloops fit k (i + 1) c' with hqs
        rw [hps]
        refine ⟨by simp, by simp only [List.length_cons]; omega, ?_, ⟨r, rfl⟩, ?_, ?_⟩
        · intro j p hj
          cases j with
          | zero => simp only [List.getElem?_cons_zero, Option.some.injEq] at hj; subst hj; exact ⟨rfl, rfl, rfl, rfl⟩
          | succ j =>
            rw [List.getElem?_cons_succ] at hj
            obtain ⟨a, b, d, e⟩ := h3 j p hj
            refine ⟨a, b, d, ?_⟩
            rw [e]
            congr 1
            omega
        · intro j p p' hj hj'
          cases j with
          | zero =>
            simp only [List.getElem?_cons_zero, Option.some.injEq] at hj
            subst hj
            rw [List.getElem?_cons_succ, h4, Option.some.injEq] at hj'
            subst hj'
            exact ⟨⟨rfl, rfl, rfl, rfl, rfl, degrees_near r.o⟩, hs⟩
          | succ j =>
            rw [List.getElem?_cons_succ] at hj hj'
            exact h5 j p p' hj hj'
        · intro p hp
          have hne : qs ≠ [] := by intro e; rw [e] at h1; simp at h1
          obtain ⟨q, qs', hq⟩ := List.exists_cons_of_ne_nil hne
          have : qs.getLast? = some p := by
            rw [hq, List.getLast?_cons_cons] at hp
            rw [hq]; exact hp
          rcases h6 p this with h | h
          · exact Or.inl h
          · right
            simp only [List.length_cons]
            omega

/-- The rim fit always ends: it makes at least one pass and at most the requested number; it stops at the first pass whose
axes changed by less than the tolerance. -/
theorem C114_ends (ratio tol : ℝ) (nloops : ℕ) (fit : ℕ → ℝ → Rim Loc → FitResult Loc) (c : Rim Loc) :
    1 ≤ (fitRim ratio tol nloops fit c).length ∧ (fitRim ratio tol nloops fit c).length ≤ max 1 nloops ∧
    (∀ j p p', (fitRim ratio tol nloops fit c)[j]? = some p → (fitRim ratio tol nloops fit c)[j + 1]? = some p' →
      ¬ (|p.2.2.a - p.2.1.semimajor| < tol * c.radius ∧ |p.2.2.b - p.2.1.semiminor| < tol * c.radius) ∨ c.radius ≤ 0) ∧
    (∀ p, (fitRim ratio tol nloops fit c).getLast? = some p → 0 < c.radius →
      (|p.2.2.a - p.2.1.semimajor| < tol * c.radius ∧ |p.2.2.b - p.2.1.semiminor| < tol * c.radius) ∨
        (fitRim ratio tol nloops fit c).length = max 1 nloops) := by
  obtain ⟨h1, h2, h3, _, h5, h6⟩ := fitLoop_spec ratio tol nloops fit (nloops + 1) 0 c (by omega) (Or.inl rfl)
  have hset : ∀ (p : ℝ × Rim Loc × FitResult Loc), p.2.1.radius = c.radius → 0 < c.radius →
      (settled tol p.2.1 p.2.2 ↔ |p.2.2.a - p.2.1.semimajor| < tol * c.radius ∧
        |p.2.2.b - p.2.1.semiminor| < tol * c.radius) := by
    intro p hp hr
    unfold settled
    rw [hp, div_lt_iff₀ hr, div_lt_iff₀ hr]
  refine ⟨h1, h2, ?_, ?_⟩
  · intro j p p' hj hj'
    by_cases hr : 0 < c.radius
    · left
      rw [← hset p (h3 j p hj).2.2.1 hr]
      exact (h5 j p p' hj hj').2
    · exact Or.inr (not_lt.mp hr)
  · intro p hp hr
    have hm : ∃ j : ℕ, (fitRim ratio tol nloops fit c)[j]? = some p := by
      rw [List.getLast?_eq_getElem?] at hp
      exact ⟨_, hp⟩
    obtain ⟨j, hj⟩ := hm
    rw [← hset p (h3 j p hj).2.2.1 hr]
    exact h6 p hp

/-- The first pass starts from the crater itself, and every other from the centre and axes that the pass before has found and from the
orientation found, in degrees; the weights are those of the number of the pass. -/
theorem C114_chain_partial (ratio tol : ℝ) (nloops : ℕ) (fit : ℕ → ℝ → Rim Loc → FitResult Loc) (c : Rim Loc) :
    (∀ p, (fitRim ratio tol nloops fit c)[0]? = some p → p.2.1 = c ∧ p.2.2 = fit 0 p.1 c) ∧
    ∀ (j : ℕ) (p p' : ℝ × Rim Loc × FitResult Loc), (fitRim ratio tol nloops fit c)[j]? = some p →
      (fitRim ratio tol nloops fit c)[j + 1]? = some p' →
      p'.2.1.location = p.2.2.location ∧ p'.2.1.semimajor = p.2.2.a ∧ p'.2.1.semiminor = p.2.2.b ∧
        |p'.2.1.orientation * (Real.pi / 180) - p.2.2.o| ≤ 1e-16 * |p.2.2.o| ∧
        p'.2.2 = fit (j + 1) p'.1 p'.2.1 := by
  obtain ⟨_, _, h3, ⟨r, h4⟩, h5, _⟩ := fitLoop_spec ratio tol nloops fit (nloops + 1) 0 c (by omega) (Or.inl rfl)
  refine ⟨fun p hp => ?_, fun j p p' hj hj' => ?_⟩
  · have h := (h3 0 p hp).2.2.2
    have e : p = (ratio * c.measuredRadius, c, r) := Option.some.inj (hp.symm.trans h4)
    subst e
    exact ⟨rfl, h⟩
  · obtain ⟨a, b, d, _, _, o⟩ := (h5 j p p' hj hj').1
    have := (h3 (j + 1) p' hj').2.2.2
    rw [Nat.zero_add] at this
    exact ⟨a, b, d, o, this⟩

/-- The region that is looked at never grows or shrinks with the fit: in every pass it has the same extent, although the
code says that it surrounds the best-fit radius. -/
theorem C114_extent_fails (ratio tol : ℝ) (nloops : ℕ) (fit : ℕ → ℝ → Rim Loc → FitResult Loc) (c : Rim Loc) :
    ∀ p ∈ fitRim ratio tol nloops fit c, p.1 = ratio * c.measuredRadius := by
  obtain ⟨_, _, h3, _, _, _⟩ := fitLoop_spec ratio tol nloops fit (nloops + 1) 0 c (by omega) (Or.inl rfl)
  intro p hp
  obtain ⟨j, hj⟩ := List.mem_iff_getElem?.mp hp
  exact (h3 j p hj).1

/-- A crater of radius 1 whose rim is fitted at 2 in the first pass and at 2 again in the second: two passes, and the
second still looks at the region for radius 1. -/
example : (fitRim 2 0.01 4 (fun _ _ (_ : Rim Unit) => ⟨(), 2, 2, 0⟩) ⟨(), 1, 1, 0, 1, 1⟩).length = 2 := by
  have h1 : ¬ settled 0.01 (⟨(), 1, 1, 0, 1, 1⟩ : Rim Unit) ⟨(), 2, 2, 0⟩ := by
    unfold settled; norm_num
  have h2 : settled 0.01 (⟨(), 2, 2, 0 * (180 / 3.141592653589793), 1, 1⟩ : Rim Unit) ⟨(), 2, 2, 0⟩ := by
    unfold settled; norm_num
  simp [fitRim, fitLoop, if_neg h1, if_pos h2]

end Verif.Measure
