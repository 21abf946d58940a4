import Verif.Model.Inverse
import Verif.Props.Production
import Mathlib.Topology.Order.IntermediateValue
import Mathlib.Analysis.SpecialFunctions.Pow.Continuity

/-! Properties C79 (age and diameter conversions are inverse), C80 (units of N(D)), and the
continuity part of C72. -/

namespace Verif.Inverse

open Verif.Production

/-- What is assumed of the root finder: what it returns is a root inside the bracket, and it returns
something for a continuous function with a change of sign. -/
structure Sound (solve : Solver) : Prop where
  root : ∀ f lo hi x, solve f lo hi = some x → lo ≤ x ∧ x ≤ hi ∧ f x = 0
  total : ∀ f lo hi, lo ≤ hi → ContinuousOn f (Set.Icc lo hi) → f lo * f hi ≤ 0 →
    (solve f lo hi).isSome

/-- Such a root finder exists. -/
example : ∃ s, Sound s := by
  classical
  refine ⟨fun f lo hi => if h : ∃ x, lo ≤ x ∧ x ≤ hi ∧ f x = 0 then some h.choose else none, ?_, ?_⟩
  · intro f lo hi x h
    split_ifs at h with hx
    cases h
    exact hx.choose_spec
  · intro f lo hi hle hc hs
    have : ∃ x, lo ≤ x ∧ x ≤ hi ∧ f x = 0 := by
      rcases le_total (f lo) 0 with h | h
      · rcases le_total (f hi) 0 with h' | h'
        · rcases eq_or_lt_of_le h with h0 | h0
          · exact ⟨lo, le_rfl, hle, h0⟩
          · rcases eq_or_lt_of_le h' with h1 | h1
            · exact ⟨hi, hle, le_rfl, h1⟩
            · nlinarith
        · obtain ⟨x, hx, he⟩ := intermediate_value_Icc hle hc ⟨h, h'⟩
          exact ⟨x, hx.1, hx.2, he⟩
      · rcases le_total (f hi) 0 with h' | h'
        · obtain ⟨x, hx, he⟩ := intermediate_value_Icc' hle hc ⟨h', h⟩
          exact ⟨x, hx.1, hx.2, he⟩
        · rcases eq_or_lt_of_le h with h0 | h0
          · exact ⟨lo, le_rfl, hle, h0.symm⟩
          · rcases eq_or_lt_of_le h' with h1 | h1
            · exact ⟨hi, hle, le_rfl, h1.symm⟩
            · nlinarith
    rw [dif_pos this]; rfl

theorem solve_unique {solve : Solver} (hs : Sound solve) {f : ℝ → ℝ} {lo hi x : ℝ}
    (hc : ContinuousOn f (Set.Icc lo hi)) (hx : lo ≤ x) (hx' : x ≤ hi) (h0 : f x = 0)
    (hsgn : f lo * f hi ≤ 0) (hinj : Set.InjOn f (Set.Icc lo hi)) : solve f lo hi = some x := by
  have ht := hs.total f lo hi (hx.trans hx') hc hsgn
  obtain ⟨y, hy⟩ := Option.isSome_iff_exists.mp ht
  obtain ⟨a, b, c⟩ := hs.root f lo hi y hy
  rw [hy]
  congr 1
  exact hinj ⟨a, b⟩ ⟨hx, hx'⟩ (c.trans h0.symm)

/-! ### C79: ages -/

/-- For every production function whose number density is continuous and strictly increasing in the
age: converting an age to a number and back gives the age, and whatever age is found for a number
reproduces that number. -/
theorem C79_age (solve : Solver) (hs : Sound solve) (N : ℝ → ℝ → ℝ) (lo hi D : ℝ)
    (hc : Continuous (N D)) (hm : StrictMono (N D)) :
    (∀ t, lo ≤ t → t ≤ hi → ageFromDN solve N lo hi D (N D t) = some t) ∧
    (∀ n t, ageFromDN solve N lo hi D n = some t → N D t = n) ∧
    (∀ n, lo ≤ hi → N D lo ≤ n → n ≤ N D hi → (ageFromDN solve N lo hi D n).isSome) := by
  refine ⟨?_, ?_, ?_⟩
  · intro t h1 h2
    apply solve_unique hs _ h1 h2 (by simp)
    · have a := hm.monotone h1
      have b := hm.monotone h2
      nlinarith
    · intro x _ y _ hxy
      exact hm.injective (by simpa using hxy)
    · exact (hc.sub continuous_const).continuousOn
  · intro n t h
    have : N D t - n = 0 := (hs.root _ _ _ _ h).2.2
    linarith
  · intro n hle h1 h2
    refine hs.total (fun t => N D t - n) _ _ hle (hc.sub continuous_const).continuousOn ?_
    nlinarith

/-- Both production functions qualify: the Neukum function between 0 and 4500 My... -/
theorem C79_neukum_age (solve : Solver) (hs : Sound solve) (p : Neukum) (hp : p.Ok) (D t : ℝ)
    (hD : 0 < p.csfd D) (h0 : 0 ≤ t) (h1 : t ≤ 4500) :
    ageFromDN solve (fun D t => p.function D t 0) 0 4500 D (p.function D t 0) = some t := by
  refine (C79_age solve hs (fun D t => p.function D t 0) 0 4500 D ?_ ?_).1 t h0 h1
  · unfold Neukum.function Neukum.chronology Neukum.n1
    fun_prop
  · intro a b hab
    have := n1_strictMono p hp hab
    simp only [Neukum.function, Neukum.chronology]
    exact mul_lt_mul_of_pos_left (by linarith) hD

/-- The hypotheses are met by the lunar production function at every diameter, for instance 1 km; so `C79_age` applies to it. -/
example : moon.Ok ∧ 0 < moon.csfd 1000 :=
  ⟨moon_ok, mul_pos (C72_positive moon (by norm_num [moon]) (by norm_num [moon]) _ (by norm_num)) (by norm_num)⟩

/-- ... and every power law with a positive coefficient. -/
theorem C79_powerlaw_age (solve : Solver) (hs : Sound solve) (p : PowerLaw) (hp : 0 < p.coef) (D t : ℝ)
    (hD : 0 < D) (h0 : 0 ≤ t) (h1 : t ≤ 1e6) :
    ageFromDN solve (fun D t => p.function D t 0) 0 1e6 D (p.function D t 0) = some t := by
  refine (C79_age solve hs (fun D t => p.function D t 0) 0 1e6 D ?_ ?_).1 t h0 h1
  · unfold PowerLaw.function
    fun_prop
  · intro a b hab
    have : 0 < p.csfd D := mul_pos hp (Real.rpow_pos_of_pos hD _)
    simp only [PowerLaw.function]
    exact mul_lt_mul_of_pos_left (by linarith) this

example : ∃ p, PowerLaw.make 7.883e-3 (-3.328) = some p ∧ 0 < p.coef := by norm_num [PowerLaw.make]

/-! ### Continuity of the Neukum size distribution -/

/-- The three branches as one product. -/
theorem csfdKm_eq (p : Neukum) (hlo : 0 < p.lo) (hhi : p.lo ≤ p.hi) (D : ℝ) :
    p.csfdKm D = p.table (max p.lo (min D p.hi)) * (min D p.lo / p.lo) ^ p.exponent p.lo *
      (max D p.hi / p.hi) ^ (p.exponent p.hi - 5) := by
  have h0 : 0 < p.hi := lt_of_lt_of_le hlo hhi
  unfold Neukum.csfdKm
  split_ifs with h1 h2
  · rw [min_eq_left (h1.le.trans hhi), max_eq_left h1.le, min_eq_left h1.le,
      max_eq_right (h1.le.trans hhi), div_self h0.ne']
    simp
  · rw [min_eq_right h2.le, max_eq_right hhi, min_eq_right (hhi.trans h2.le), max_eq_left h2.le,
      div_self hlo.ne']
    simp
  · rw [min_eq_left (not_lt.mp h2), max_eq_right (not_lt.mp h1), min_eq_right (not_lt.mp h1),
      max_eq_right (not_lt.mp h2), div_self hlo.ne', div_self h0.ne']
    simp

theorem continuous_polyEval (cs : List ℝ) : Continuous (polyEval cs) :=
  continuous_iff_continuousAt.mpr fun x => (hasDerivAt_polyEval cs x).continuousAt

theorem csfdKm_continuousOn (p : Neukum) (hlo : 0 < p.lo) (hhi : p.lo ≤ p.hi) :
    ContinuousOn p.csfdKm (Set.Ioi 0) := by
  have h0 : 0 < p.hi := lt_of_lt_of_le hlo hhi
  have e : p.csfdKm = fun D => p.table (max p.lo (min D p.hi)) *
      (min D p.lo / p.lo) ^ p.exponent p.lo * (max D p.hi / p.hi) ^ (p.exponent p.hi - 5) :=
    funext (csfdKm_eq p hlo hhi)
  rw [e]
  intro D hD
  have hD : 0 < D := hD
  apply ContinuousAt.continuousWithinAt
  have c1 : ContinuousAt (fun D : ℝ => max p.lo (min D p.hi)) D := by fun_prop
  have c2 : ContinuousAt (fun D : ℝ => min D p.lo / p.lo) D := by fun_prop
  have c3 : ContinuousAt (fun D : ℝ => max D p.hi / p.hi) D := by fun_prop
  have hpos1 : 0 < max p.lo (min D p.hi) := lt_max_of_lt_left hlo
  have hpos2 : 0 < min D p.lo / p.lo := div_pos (lt_min hD hlo) hlo
  have hpos3 : 0 < max D p.hi / p.hi := div_pos (lt_max_of_lt_right h0) h0
  apply ContinuousAt.mul
  · apply ContinuousAt.mul
    · unfold Neukum.table
      apply ContinuousAt.rpow continuousAt_const _ (Or.inl (by norm_num))
      apply (continuous_polyEval p.coef).continuousAt.comp'
      unfold Real.logb
      apply ContinuousAt.div_const
      exact c1.log hpos1.ne'
    · exact c2.rpow continuousAt_const (Or.inl hpos2.ne')
  · exact c3.rpow continuousAt_const (Or.inl hpos3.ne')

/-- The size distributions of Moon and Mars are continuous at every positive diameter. -/
theorem C72_continuous (D : ℝ) (hD : 0 < D) :
    ContinuousAt moon.csfd D ∧ ContinuousAt mars.csfd D := by
  have key : ∀ p : Neukum, 0 < p.lo → p.lo ≤ p.hi → ContinuousAt p.csfd D := by
    intro p h1 h2
    have h := csfdKm_continuousOn p h1 h2
    have h3 : ContinuousAt p.csfdKm (D * 1e-3) :=
      h.continuousAt (Ioi_mem_nhds (by positivity))
    unfold Neukum.csfd
    have h4 : ContinuousAt (fun D : ℝ => D * 1e-3) D := by fun_prop
    exact (ContinuousAt.comp' (f := fun D : ℝ => D * 1e-3) h3 h4).mul continuousAt_const
  exact ⟨key moon (by norm_num [moon]) (by norm_num [moon]),
    key mars (by norm_num [mars]) (by norm_num [mars])⟩

/-! ### C79: diameters -/

/-- Converting a diameter to a number over a non-empty window and back gives the diameter, for the
Neukum functions and diameters inside the bracket of the root finder. -/
theorem C79_diameter (solve : Solver) (hs : Sound solve) (D ts te : ℝ) (h : te < ts)
    (h0 : 1e-6 ≤ D) (h1 : D ≤ 1e6) :
    dFromNAge solve moon.function (moon.function D ts te) ts te = some D ∧
    dFromNAge solve mars.function (mars.function D ts te) ts te = some D := by
  have key : ∀ p : Neukum, p.Ok → (∀ D, 0 < D → ContinuousAt p.csfd D) →
      (∀ D D', 0 < D → D < D' → p.csfd D' < p.csfd D) →
      dFromNAge solve p.function (p.function D ts te) ts te = some D := by
    intro p hp hc hd
    have hG : 0 < p.chronology ts te := by
      have := n1_strictMono p hp h
      simp only [Neukum.chronology]; linarith
    have anti : ∀ D D', 0 < D → D < D' → p.function D' ts te < p.function D ts te :=
      fun D D' a b => mul_lt_mul_of_pos_right (hd D D' a b) hG
    have anti' : ∀ D D', 0 < D → D ≤ D' → p.function D' ts te ≤ p.function D ts te := by
      intro D D' a b
      rcases eq_or_lt_of_le b with rfl | b
      · exact le_rfl
      · exact (anti D D' a b).le
    apply solve_unique hs _ h0 h1 (by simp)
    · have a := anti' 1e-6 D (by norm_num) h0
      have b := anti' D 1e6 (by linarith) h1
      nlinarith
    · intro x hx y hy hxy
      have hx0 : (0 : ℝ) < x := lt_of_lt_of_le (by norm_num) hx.1
      have hy0 : (0 : ℝ) < y := lt_of_lt_of_le (by norm_num) hy.1
      have e : p.function x ts te = p.function y ts te := by simpa using hxy
      rcases lt_trichotomy x y with g | g | g
      · have := anti x y hx0 g; linarith
      · exact g
      · have := anti y x hy0 g; linarith
    · intro x hx
      have hx0 : (0 : ℝ) < x := lt_of_lt_of_le (by norm_num) hx.1
      exact (((hc x hx0).mul continuousAt_const).sub continuousAt_const).continuousWithinAt
  exact ⟨key moon moon_ok (fun D hD => (C72_continuous D hD).1) C72_moon_decreasing,
    key mars mars_ok (fun D hD => (C72_continuous D hD).2) C72_mars_decreasing⟩

example (solve : Solver) (hs : Sound solve) :
    dFromNAge solve moon.function (moon.function 20000 3900 3000) 3900 3000 = some 20000 :=
  (C79_diameter solve hs 20000 3900 3000 (by norm_num) (by norm_num) (by norm_num)).1

/-! ### C80: units of N(D) -/

/-- The two readings of an N(D) pair agree when numbers are given per square metre, the only unit
with conversion factor 1. -/
theorem C80_per_square_metre_partial (c : RunArgs.Ctx) (p : ℝ × ℝ) (hA : 0 < c.area) (h : c.nConv = 1) :
    timeOfNDProduction c p = timeOfNDSimulation c p := by
  unfold timeOfNDProduction timeOfNDSimulation
  rw [h]
  congr 1
  field_simp

example : ∃ c : RunArgs.Ctx, 0 < c.area ∧ c.nConv = 1 ∧ c.dConv = 1000 :=
  ⟨⟨none, 1e12, 1000, 1, fun D t => t / D, fun D n => some (n * D), none, some 4500, 1, 1e6⟩, by norm_num, rfl, rfl⟩

/-- What a pair means to the production function is what the pair with its number multiplied by the square of the conversion factor means to a
simulation. -/
theorem C80_factor_partial (c : RunArgs.Ctx) (D N : ℝ) (hA : 0 < c.area) (h : 0 < c.nConv) :
    timeOfNDProduction c (D, N) = timeOfNDSimulation c (D, N * c.nConv ^ 2) := by
  unfold timeOfNDProduction timeOfNDSimulation
  congr 1
  dsimp only
  field_simp

/-- Full statement: the same N(D) pair means the same time for `Production.sample`,
`quasimc_merge` and for `Simulation.run`.  It fails for the default unit (per 10⁶ km², factor 1e12):
the simulation divides by the factor, the production function multiplies by it.  With a linear
chronology the times differ by a factor 1e24. -/
theorem C80_units_fails :
    ∃ c : RunArgs.Ctx, ∃ p : ℝ × ℝ, c.nConv = 1e12 ∧ c.dConv = 1000 ∧ 0 < c.area ∧
      (∀ D N, 0 ≤ N → c.F D (N * 1e12) = N ∧ c.ageOf D N = some (N * 1e12)) ∧
      timeOfNDSimulation c p = .ok 1 ∧ timeOfNDProduction c p = .ok 1e24 := by
  refine ⟨⟨none, 1, 1000, 1e12, fun _ t => t / 1e12, fun _ N => some (N * 1e12), none, none, 1, 2⟩,
    (1, 1), rfl, rfl, by norm_num, ?_, ?_, ?_⟩
  · intro D N _
    exact ⟨by norm_num, rfl⟩
  · norm_num [timeOfNDSimulation, RunArgs.ageV, RunArgs.validateCsfd, RunArgs.failIf, bind,
      Except.bind, pure, Except.pure]
  · norm_num [timeOfNDProduction, RunArgs.ageV, RunArgs.validateCsfd, RunArgs.failIf, bind,
      Except.bind, pure, Except.pure]

end Verif.Inverse
