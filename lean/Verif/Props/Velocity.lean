import Verif.Props.Sampling
import Verif.Model.Sample
import Mathlib.Probability.Distributions.Gaussian.Real
import Mathlib.Probability.ProductMeasure
import Mathlib.MeasureTheory.Integral.Pi
import Mathlib.MeasureTheory.Integral.Gamma
import Mathlib.MeasureTheory.Constructions.HaarToSphere
import Mathlib.MeasureTheory.Measure.Lebesgue.VolumeOfBalls
import Mathlib.Tactic.FieldSimp
import Mathlib.Tactic.Positivity
import Mathlib.Tactic.NormNum

/-! Properties C152 and C153: the distribution of the sampled velocities. -/

namespace Verif.Sampling

open MeasureTheory ProbabilityTheory
open scoped NNReal ENNReal

/-! ### C152 -/

/-- Three independent normal numbers with mean zero and variance `v`. -/
noncomputable def normals (v : ℝ≥0) : Measure (Fin 3 → ℝ) := Measure.pi fun _ => gaussianReal 0 v

theorem normals_density (v : ℝ≥0) (hv : v ≠ 0) :
    normals v = volume.withDensity fun x : Fin 3 → ℝ => ENNReal.ofReal (∏ i, gaussianPDFReal 0 v (x i)) := by
  unfold normals
  symm
  apply (Measure.pi_eq ?_).symm
  intro s hs
  rw [withDensity_apply _ (MeasurableSet.univ_pi hs), volume_pi, Measure.restrict_pi_pi]
  rw [← ofReal_integral_eq_lintegral_ofReal]
  · rw [integral_fintype_prod_eq_prod (fun (_ : Fin 3) (y : ℝ) => gaussianPDFReal 0 v y)]
    rw [ENNReal.ofReal_prod_of_nonneg]
    · apply Finset.prod_congr rfl
      intro i _
      rw [gaussianReal_apply_eq_integral 0 hv]
    · intro i _
      exact integral_nonneg fun y => gaussianPDFReal_nonneg _ _ _
  · apply Integrable.fintype_prod
    intro i
    exact (integrable_gaussianPDFReal 0 v).integrableOn
  · exact Filter.Eventually.of_forall fun x => Finset.prod_nonneg fun i _ => gaussianPDFReal_nonneg _ _ _

/-- The density of the speed: Maxwell's. -/
noncomputable def maxwell (v : ℝ) (y : ℝ) : ℝ :=
  4 * Real.pi * (Real.sqrt (2 * Real.pi * v))⁻¹ ^ 3 * (y ^ 2 * Real.exp (-y ^ 2 / (2 * v)))

theorem normals_speed (v : ℝ≥0) (hv : v ≠ 0) (f : ℝ → ℝ) :
    ∫ x, f (speed (x 0) (x 1) (x 2)) ∂normals v = ∫ y in Set.Ioi (0 : ℝ), maxwell v y * f y := by
  rw [normals_density v hv, integral_withDensity_eq_integral_toReal_smul]
  · have h1 : ∀ x : EuclideanSpace ℝ (Fin 3), speed (x 0) (x 1) (x 2) = ‖x‖ := by
      intro x
      rw [EuclideanSpace.norm_eq, Fin.sum_univ_three]
      simp [speed]
    set g : ℝ → ℝ := fun y => (Real.sqrt (2 * Real.pi * v))⁻¹ ^ 3 * Real.exp (-y ^ 2 / (2 * v)) * f y with hg
    have h2 : ∀ x : EuclideanSpace ℝ (Fin 3),
        (ENNReal.ofReal (∏ i, gaussianPDFReal 0 v (x i))).toReal • f (speed (x 0) (x 1) (x 2)) = g ‖x‖ := by
      intro x
      rw [ENNReal.toReal_ofReal (Finset.prod_nonneg fun i _ => gaussianPDFReal_nonneg _ _ _), h1, smul_eq_mul]
      simp only [hg]
      congr 1
      simp only [gaussianPDFReal, Fin.prod_univ_three, sub_zero]
      rw [EuclideanSpace.real_norm_sq_eq, Fin.sum_univ_three]
      have : Real.exp (-(x 0 ^ 2 + x 1 ^ 2 + x 2 ^ 2) / (2 * v)) = Real.exp (-x 0 ^ 2 / (2 * v)) *
          Real.exp (-x 1 ^ 2 / (2 * v)) * Real.exp (-x 2 ^ 2 / (2 * v)) := by
        rw [← Real.exp_add, ← Real.exp_add]; congr 1; ring
      rw [this]
      ring
    have h3 := (PiLp.volume_preserving_ofLp (Fin 3)).integral_comp (MeasurableEquiv.measurableEmbedding
      (MeasurableEquiv.toLp 2 (Fin 3 → ℝ)).symm)
      (fun x : Fin 3 → ℝ => (ENNReal.ofReal (∏ i, gaussianPDFReal 0 v (x i))).toReal • f (speed (x 0) (x 1) (x 2)))
    rw [← h3]
    simp only [h2]
    rw [integral_fun_norm_addHaar]
    simp only [finrank_euclideanSpace, Fintype.card_fin, Measure.real, EuclideanSpace.volume_ball_fin_three]
    simp only [ENNReal.ofReal_one, one_pow, one_mul, nsmul_eq_mul, smul_eq_mul]
    rw [ENNReal.toReal_ofReal (by positivity), ← mul_assoc, ← integral_const_mul]
    apply integral_congr_ae
    apply Filter.Eventually.of_forall
    intro y
    simp only [hg, maxwell]
    push_cast
    ring
  · apply Measurable.ennreal_ofReal
    exact Finset.measurable_prod _ fun i _ => (measurable_gaussianPDFReal 0 v).comp (measurable_pi_apply i)
  · exact Filter.Eventually.of_forall fun x => ENNReal.ofReal_lt_top

/-- The variance of the components for a mean velocity. -/
noncomputable def variance (vmean : ℝ) : ℝ≥0 := ⟨sigmaOf vmean ^ 2, sq_nonneg _⟩

theorem sigmaOf_pos (vmean : ℝ) (h : 0 < vmean) : 0 < sigmaOf vmean := by
  unfold sigmaOf
  have := Real.pi_pos
  positivity

theorem variance_ne (vmean : ℝ) (h : 0 < vmean) : variance vmean ≠ 0 := by
  intro hc
  have : sigmaOf vmean ^ 2 = 0 := congrArg NNReal.toReal hc
  have := sigmaOf_pos vmean h
  simp_all

/-- The mean of the sampled velocities is the mean velocity that is asked for, when there is no escape velocity (missing: with an
escape velocity it is not, as the next two theorems show). -/
theorem C152_mean_partial (vmean : ℝ) (h : 0 < vmean) :
    ∫ x, speed (x 0) (x 1) (x 2) ∂normals (variance vmean) = vmean := by
  have hs := sigmaOf_pos vmean h
  have hpi := Real.pi_pos
  have hv : ((variance vmean : ℝ≥0) : ℝ) = sigmaOf vmean ^ 2 := rfl
  rw [normals_speed (variance vmean) (variance_ne vmean h) (fun y => y), hv]
  have hσ : sigmaOf vmean * Real.sqrt (8 / Real.pi) = vmean := by
    unfold sigmaOf
    have : 0 < Real.sqrt (8 / Real.pi) := by positivity
    field_simp
  generalize sigmaOf vmean = σ at *
  have h1 : ∀ y ∈ Set.Ioi (0 : ℝ), maxwell (σ ^ 2) y * y =
      (4 * Real.pi * (Real.sqrt (2 * Real.pi * σ ^ 2))⁻¹ ^ 3) * (y ^ (3 : ℝ) * Real.exp (-(1 / (2 * σ ^ 2)) * y ^ (2 : ℝ))) := by
    intro y _
    unfold maxwell
    rw [show (3 : ℝ) = ((3 : ℕ) : ℝ) by norm_num, Real.rpow_natCast, Real.rpow_two,
      show -y ^ 2 / (2 * σ ^ 2) = -(1 / (2 * σ ^ 2)) * y ^ 2 by ring]
    ring
  rw [setIntegral_congr_fun measurableSet_Ioi h1, integral_const_mul,
    integral_rpow_mul_exp_neg_mul_rpow (by norm_num) (by norm_num) (by positivity)]
  rw [show -((3 : ℝ) + 1) / 2 = ((-2 : ℤ) : ℝ) by norm_num, Real.rpow_intCast, show ((3 : ℝ) + 1) / 2 = (1 : ℕ) + 1 by norm_num,
    Real.Gamma_nat_eq_factorial, Nat.factorial_one]
  rw [Real.sqrt_mul (by positivity), Real.sqrt_sq hs.le, ← hσ]
  have e : Real.sqrt (8 / Real.pi) = 4 / Real.sqrt (2 * Real.pi) := by
    rw [show (8 : ℝ) / Real.pi = 4 ^ 2 / (2 * Real.pi) by field_simp; norm_num, Real.sqrt_div' _ (by positivity),
      Real.sqrt_sq (by norm_num)]
  rw [e]
  have h2 : Real.sqrt (2 * Real.pi) ^ 2 = 2 * Real.pi := Real.sq_sqrt (by positivity)
  have h3 : 0 < Real.sqrt (2 * Real.pi) := by positivity
  generalize Real.sqrt (2 * Real.pi) = w at *
  have hw : Real.pi = w ^ 2 / 2 := by linarith
  rw [hw]
  rw [zpow_neg, zpow_ofNat]
  field_simp
  norm_num

example : ∫ x, speed (x 0) (x 1) (x 2) ∂normals (variance 22100) = 22100 := C152_mean_partial 22100 (by norm_num)

theorem measurable_speed : Measurable fun x : Fin 3 → ℝ => speed (x 0) (x 1) (x 2) := by
  unfold speed
  fun_prop

instance (v : ℝ≥0) : IsProbabilityMeasure (normals v) := by unfold normals; infer_instance

theorem integrable_speed (vmean : ℝ) (h : 0 < vmean) :
    Integrable (fun x : Fin 3 → ℝ => speed (x 0) (x 1) (x 2)) (normals (variance vmean)) := by
  apply Integrable.of_integral_ne_zero
  rw [C152_mean_partial vmean h]
  exact h.ne'

/-- Velocities above any bound have a positive probability. -/
theorem fast_pos (v : ℝ≥0) (hv : v ≠ 0) (c : ℝ) : 0 < normals v {x | c < speed (x 0) (x 1) (x 2)} := by
  have hbox : Set.univ.pi (fun i : Fin 3 => if i = 0 then Set.Ioi |c| else Set.univ) ⊆
      {x : Fin 3 → ℝ | c < speed (x 0) (x 1) (x 2)} := by
    intro x hx
    have h0 : |c| < x 0 := by simpa using hx 0 (Set.mem_univ _)
    have : x 0 ≤ speed (x 0) (x 1) (x 2) := by
      unfold speed
      apply Real.le_sqrt_of_sq_le
      nlinarith [sq_nonneg (x 1), sq_nonneg (x 2)]
    exact lt_of_le_of_lt (le_abs_self c) (lt_of_lt_of_le h0 this)
  refine lt_of_lt_of_le ?_ (measure_mono hbox)
  unfold normals
  rw [Measure.pi_pi, Fin.prod_univ_three]
  simp only [if_pos, show (1 : Fin 3) ≠ 0 from by decide, show (2 : Fin 3) ≠ 0 from by decide, if_false, measure_univ, mul_one]
  rw [pos_iff_ne_zero]
  intro hc
  have := gaussianReal_absolutelyContinuous' 0 hv hc
  rw [Real.volume_Ioi] at this
  exact ENNReal.top_ne_zero this

/-- With an escape velocity below the mean, the mean of the sampled velocities is larger than the mean that was asked for. -/
theorem C152_escape_fails (vmean vesc : ℝ) (h0 : 0 < vesc) (h : vesc < vmean) :
    vmean < ∫ x, withEscape (speed (x 0) (x 1) (x 2)) vesc ∂normals (variance (encounter vmean vesc)) := by
  have hsq : 0 < vmean ^ 2 - vesc ^ 2 := by nlinarith
  have hm : 0 < encounter vmean vesc := Real.sqrt_pos.mpr hsq
  have hm2 : encounter vmean vesc ^ 2 = vmean ^ 2 - vesc ^ 2 := Real.sq_sqrt hsq.le
  have hvm : 0 < vmean := h0.trans h
  generalize encounter vmean vesc = m at *
  have hX := integrable_speed m hm
  have hmean := C152_mean_partial m hm
  set X : (Fin 3 → ℝ) → ℝ := fun x => speed (x 0) (x 1) (x 2) with hXd
  have hXnn : ∀ x, 0 ≤ X x := fun x => Real.sqrt_nonneg _
  have hW : Integrable (fun x => withEscape (X x) vesc) (normals (variance m)) := by
    apply Integrable.mono' (hX.add (integrable_const vesc))
    · have : Measurable fun x => withEscape (X x) vesc := by
        unfold withEscape
        exact ((measurable_speed.pow_const 2).add_const _).sqrt
      exact this.aestronglyMeasurable
    · refine Filter.Eventually.of_forall fun x => ?_
      unfold withEscape
      rw [Real.norm_of_nonneg (Real.sqrt_nonneg _)]
      apply Real.sqrt_le_iff.mpr
      have := hXnn x
      simp only [Pi.add_apply]
      constructor
      · positivity
      · nlinarith
  have hlin : Integrable (fun x => (m * X x + vesc ^ 2) / vmean) (normals (variance m)) :=
    ((hX.const_mul m).add (integrable_const _)).div_const _
  have hge : ∀ x, X x ≠ m → (m * X x + vesc ^ 2) / vmean < withEscape (X x) vesc := by
    intro x hx
    rw [div_lt_iff₀ hvm]
    have e : withEscape (X x) vesc * vmean = Real.sqrt ((X x ^ 2 + vesc ^ 2) * (m ^ 2 + vesc ^ 2)) := by
      unfold withEscape
      rw [Real.sqrt_mul (by positivity), show m ^ 2 + vesc ^ 2 = vmean ^ 2 by linarith, Real.sqrt_sq hvm.le]
    rw [e]
    apply Real.lt_sqrt_of_sq_lt
    have : 0 < (X x - m) ^ 2 := by
      have : X x - m ≠ 0 := sub_ne_zero.mpr hx
      positivity
    nlinarith [mul_pos (pow_pos h0 2) this]
  have hge' : ∀ x, (m * X x + vesc ^ 2) / vmean ≤ withEscape (X x) vesc := by
    intro x
    by_cases hx : X x = m
    · rw [hx]
      unfold withEscape
      rw [show m ^ 2 + vesc ^ 2 = vmean ^ 2 by linarith, Real.sqrt_sq hvm.le, div_le_iff₀ hvm]
      nlinarith
    · exact (hge x hx).le
  have hpos : 0 < ∫ x, (withEscape (X x) vesc - (m * X x + vesc ^ 2) / vmean) ∂normals (variance m) := by
    rw [integral_pos_iff_support_of_nonneg (fun x => sub_nonneg.mpr (hge' x)) (hW.sub hlin)]
    refine lt_of_lt_of_le (fast_pos (variance m) (variance_ne m hm) m) (measure_mono ?_)
    intro x hx
    have hx' : m < X x := hx
    exact (sub_pos.mpr (hge x hx'.ne')).ne'
  rw [integral_sub hW hlin, integral_div, integral_add (hX.const_mul m) (integrable_const _), integral_const_mul, hmean] at hpos
  simp only [integral_const, probReal_univ, smul_eq_mul, one_mul] at hpos
  have e : (m * m + vesc ^ 2) / vmean = vmean := by
    rw [div_eq_iff hvm.ne']
    nlinarith
  rw [e] at hpos
  linarith

/-- With an escape velocity at or above the mean, the mean of the velocities below the escape velocity, which are the ones that
are returned, is smaller than the mean that was asked for. -/
theorem C152_truncated_fails (vmean vesc : ℝ) (h0 : 0 < vmean) (h : vmean ≤ vesc) :
    ∫ x in {x | speed (x 0) (x 1) (x 2) < vesc}, speed (x 0) (x 1) (x 2) ∂normals (variance vmean) <
      vmean * (normals (variance vmean)).real {x | speed (x 0) (x 1) (x 2) < vesc} := by
  have hX := integrable_speed vmean h0
  have hmean := C152_mean_partial vmean h0
  have hfast := fast_pos (variance vmean) (variance_ne vmean h0) vesc
  set X : (Fin 3 → ℝ) → ℝ := fun x => speed (x 0) (x 1) (x 2) with hXd
  set A : Set (Fin 3 → ℝ) := {x | X x < vesc} with hA
  have hAm : MeasurableSet A := measurableSet_lt measurable_speed measurable_const
  have hsplit := integral_add_compl hAm hX
  rw [hmean] at hsplit
  have hpos : 0 < ∫ x in Aᶜ, (X x - vmean) ∂normals (variance vmean) := by
    rw [setIntegral_pos_iff_support_of_nonneg_ae]
    · refine lt_of_lt_of_le hfast (measure_mono ?_)
      intro x hx
      have hx' : vesc < X x := hx
      refine ⟨(sub_pos.mpr (lt_of_le_of_lt h hx')).ne', ?_⟩
      simp only [hA, Set.mem_compl_iff, Set.mem_ofPred_eq, not_lt]
      exact hx'.le
    · rw [Filter.EventuallyLE, ae_restrict_iff' hAm.compl]
      refine Filter.Eventually.of_forall fun x hx => ?_
      simp only [hA, Set.mem_compl_iff, Set.mem_ofPred_eq, not_lt] at hx
      exact sub_nonneg.mpr (h.trans hx)
    · exact (hX.sub (integrable_const _)).integrableOn
  rw [integral_sub hX.integrableOn (integrable_const _).integrableOn] at hpos
  simp only [integral_const, smul_eq_mul, measureReal_restrict_apply_univ] at hpos
  have hc := measureReal_compl hAm (μ := normals (variance vmean))
  rw [probReal_univ] at hc
  rw [hc] at hpos
  have : ∫ x in A, X x ∂normals (variance vmean) < vmean * (normals (variance vmean)).real A := by nlinarith
  exact this

/-! ### C153 -/

theorem truncated_cons (vesc v0 d : ℝ) (rest : List (List ℝ)) (h : vesc < v0) :
    truncated vesc [v0] ([d] :: rest) = if d < vesc then some [d] else truncated vesc [d] rest := by
  have e : redraw vesc [v0] [d] = [d] := by
    unfold redraw
    rw [if_pos h]
    rfl
  have e2 : truncated vesc [v0] ([d] :: rest) =
      if ∀ v ∈ redraw vesc [v0] [d], v < vesc then some (redraw vesc [v0] [d])
      else truncated vesc (redraw vesc [v0] [d]) rest := by
    rw [truncated]
  rw [e2, e]
  simp

/-- The loop for one velocity returns the first draw that is not above the escape velocity, if it is below it. -/
theorem truncated_first (vesc v0 : ℝ) (h : vesc < v0) (x : ℕ → ℝ) (n : ℕ) (v : ℝ) :
    truncated vesc [v0] ((List.range n).map fun i => [x i]) = some [v] ↔
      ∃ k < n, (∀ i < k, vesc < x i) ∧ x k < vesc ∧ v = x k := by
  induction n generalizing x v0 with
  | zero => simp [truncated]
  | succ n ih =>
    rw [List.range_succ_eq_map, List.map_cons, List.map_map, truncated_cons vesc v0 (x 0) _ h]
    by_cases h1 : x 0 < vesc
    · rw [if_pos h1]
      constructor
      · intro e
        injection e with e
        injection e with e
        exact ⟨0, Nat.succ_pos n, fun i hi => absurd hi (Nat.not_lt_zero i), h1, e.symm⟩
      · rintro ⟨k, _, hk, _, rfl⟩
        cases k with
        | zero => rfl
        | succ k => exact absurd (hk 0 (Nat.succ_pos k)) (not_lt.mpr h1.le)
    · rw [if_neg h1]
      rcases eq_or_lt_of_le (not_lt.mp h1) with h2 | h2
      · constructor
        · intro e
          rw [C59_equal_never_ends_fails vesc [x 0] (by simp [← h2])] at e
          cases e
        · rintro ⟨k, _, hk, hk', rfl⟩
          cases k with
          | zero => exact absurd hk' (by rw [← h2]; exact lt_irrefl _)
          | succ k => exact absurd (hk 0 (Nat.succ_pos k)) (by rw [← h2]; exact lt_irrefl _)
      · have := ih (x 0) h2 (fun i => x (i + 1))
        rw [show ((fun i => [x i]) ∘ Nat.succ) = fun i => [x (i + 1)] from rfl, this]
        constructor
        · rintro ⟨k, hk, a, b, c⟩
          refine ⟨k + 1, by omega, ?_, b, c⟩
          intro i hi
          cases i with
          | zero => exact h2
          | succ i => exact a i (by omega)
        · rintro ⟨k, hk, a, b, c⟩
          cases k with
          | zero => exact absurd b h1
          | succ k => exact ⟨k, by omega, fun i hi => a (i + 1) (by omega), b, c⟩

/-- The law of a velocity that is drawn again until it is below the escape velocity: for independent draws `X` with any law that
has no mass at the escape velocity itself, the probability that the loop ends with a velocity in `A` is the probability of `A`
under the condition that the velocity is below the escape velocity. -/
theorem C153_law {Ω : Type} [MeasurableSpace Ω] (ν : Measure Ω) [IsProbabilityMeasure ν] (X : Ω → ℝ) (hX : Measurable X)
    (vesc : ℝ) (h0 : 0 < vesc) (hno : ν {ω | X ω = vesc} = 0) (A : Set ℝ) (hA : MeasurableSet A) :
    Measure.infinitePi (fun _ : ℕ => ν)
      {ω | ∃ n v, v ∈ A ∧ truncated vesc [2 * vesc] ((List.range n).map fun i => [X (ω i)]) = some [v]} =
    ν {ω | X ω ∈ A ∧ X ω < vesc} / ν {ω | X ω < vesc} := by
  set P := Measure.infinitePi (fun _ : ℕ => ν) with hP
  set G : Set Ω := {ω | X ω ∈ A ∧ X ω < vesc} with hG
  set B : Set Ω := {ω | vesc < X ω} with hB
  have hGm : MeasurableSet G := (hX hA).inter (measurableSet_lt hX measurable_const)
  have hBm : MeasurableSet B := measurableSet_lt measurable_const hX
  set T : ℕ → ℕ → Set Ω := fun k i => if i < k then B else G with hT
  have hTm : ∀ k i, MeasurableSet (T k i) := by
    intro k i
    simp only [hT]
    split_ifs
    · exact hBm
    · exact hGm
  set E : ℕ → Set (ℕ → Ω) := fun k => Set.pi (Finset.range (k + 1)) (T k) with hE
  have hset : {ω : ℕ → Ω | ∃ n v, v ∈ A ∧ truncated vesc [2 * vesc] ((List.range n).map fun i => [X (ω i)]) = some [v]} =
      ⋃ k, E k := by
    ext ω
    simp only [Set.mem_ofPred_eq, Set.mem_iUnion]
    constructor
    · rintro ⟨n, v, hv, h⟩
      obtain ⟨k, _, a, b, rfl⟩ := (truncated_first vesc (2 * vesc) (by linarith) (fun i => X (ω i)) n v).mp h
      refine ⟨k, fun i hi => ?_⟩
      have hi' : i < k + 1 := by simpa using hi
      by_cases hik : i < k
      · simp only [hT, if_pos hik]; exact a i hik
      · have : i = k := by omega
        subst this
        simp only [hT, if_neg hik]; exact ⟨hv, b⟩
    · rintro ⟨k, hk⟩
      have hkk : ω k ∈ G := by
        have := hk k (by simp)
        simpa only [hT, if_neg (lt_irrefl k)] using this
      refine ⟨k + 1, X (ω k), hkk.1, (truncated_first vesc (2 * vesc) (by linarith) (fun i => X (ω i)) (k + 1) _).mpr
        ⟨k, Nat.lt_succ_self k, fun i hi => ?_, hkk.2, rfl⟩⟩
      have := hk i (by simp; omega)
      simp only [hT, if_pos hi] at this
      exact this
  have hEv : ∀ k, P (E k) = ν B ^ k * ν G := by
    intro k
    rw [hP, hE]
    simp only
    rw [Measure.infinitePi_pi _ (fun i _ => hTm k i), Finset.prod_range_succ]
    simp only [hT, if_neg (lt_irrefl k)]
    congr 1
    rw [Finset.prod_congr rfl (g := fun _ => ν B) (fun i hi => by rw [if_pos (Finset.mem_range.mp hi)])]
    simp
  have hEm : ∀ k, MeasurableSet (E k) := by
    intro k
    exact MeasurableSet.pi (Finset.countable_toSet _) fun i _ => hTm k i
  have hdisj : Pairwise (Function.onFun Disjoint E) := by
    have key : ∀ a b, a < b → Disjoint (E a) (E b) := by
      intro a b hab
      rw [Set.disjoint_left]
      intro ω h1 h2
      have g1 := h1 a (by simp)
      have g2 := h2 a (by simp; omega)
      simp only [hT, if_neg (lt_irrefl a)] at g1
      simp only [hT, if_pos hab] at g2
      exact absurd g1.2 (not_lt.mpr (le_of_lt g2))
    intro a b hab
    rcases lt_or_gt_of_ne hab with h | h
    · exact key a b h
    · exact (key b a h).symm
  rw [hset, measure_iUnion hdisj hEm]
  simp only [hEv]
  rw [ENNReal.tsum_mul_right, ENNReal.tsum_geometric, mul_comm, ENNReal.div_eq_inv_mul, mul_comm]
  congr 2
  -- what is not above is below, up to a null set
  have hlt : MeasurableSet {ω | X ω < vesc} := measurableSet_lt hX measurable_const
  have hcompl : ν Bᶜ = ν {ω | X ω < vesc} := by
    apply le_antisymm
    · have : Bᶜ ⊆ {ω | X ω < vesc} ∪ {ω | X ω = vesc} := by
        intro ω hω
        simp only [hB, Set.mem_compl_iff, Set.mem_ofPred_eq, not_lt] at hω
        rcases lt_or_eq_of_le hω with h | h
        · exact Or.inl h
        · exact Or.inr h
      calc ν Bᶜ ≤ _ := measure_mono this
        _ ≤ _ := measure_union_le _ _
        _ = _ := by rw [hno, add_zero]
    · apply measure_mono
      intro ω hω
      simp only [hB, Set.mem_compl_iff, Set.mem_ofPred_eq, not_lt]
      exact le_of_lt hω
  rw [← hcompl, prob_compl_eq_one_sub hBm]

theorem speed_no_atom (v : ℝ≥0) (hv : v ≠ 0) (c : ℝ) : normals v {x | speed (x 0) (x 1) (x 2) = c} = 0 := by
  have hm : MeasurableSet {x : Fin 3 → ℝ | speed (x 0) (x 1) (x 2) = c} :=
    measurableSet_eq_fun measurable_speed measurable_const
  have h := normals_speed v hv (Set.indicator {c} fun _ => (1 : ℝ))
  have h1 : ∫ y in Set.Ioi (0 : ℝ), maxwell v y * Set.indicator {c} (fun _ => (1 : ℝ)) y = 0 := by
    apply integral_eq_zero_of_ae
    apply ae_restrict_of_ae
    have : ∀ᵐ y : ℝ, y ≠ c := by
      rw [ae_iff]
      simp
    filter_upwards [this] with y hy
    simp [hy]
  have h2 : (fun x : Fin 3 → ℝ => Set.indicator {c} (fun _ => (1 : ℝ)) (speed (x 0) (x 1) (x 2))) =
      Set.indicator {x : Fin 3 → ℝ | speed (x 0) (x 1) (x 2) = c} fun _ => (1 : ℝ) := by
    funext x
    by_cases hx : speed (x 0) (x 1) (x 2) = c <;> simp [hx]
  rw [h1, h2, integral_indicator_const _ hm] at h
  simp only [smul_eq_mul, mul_one] at h
  exact (measureReal_eq_zero_iff).mp h

/-- Velocities with an escape velocity at or above the mean follow Maxwell's law cut off at the escape velocity, and sampling ends
with probability one. -/
theorem C153_maxwell (vmean vesc : ℝ) (h0 : 0 < vmean) (hv : 0 < vesc) :
    let ν := normals (variance vmean)
    let ends := fun A : Set ℝ => {ω : ℕ → Fin 3 → ℝ | ∃ n v, v ∈ A ∧
      truncated vesc [2 * vesc] ((List.range n).map fun i => [speed (ω i 0) (ω i 1) (ω i 2)]) = some [v]}
    (∀ A, MeasurableSet A → Measure.infinitePi (fun _ : ℕ => ν) (ends A) =
      ν {x | speed (x 0) (x 1) (x 2) ∈ A ∧ speed (x 0) (x 1) (x 2) < vesc} / ν {x | speed (x 0) (x 1) (x 2) < vesc}) ∧
    Measure.infinitePi (fun _ : ℕ => ν) (ends Set.univ) = 1 := by
  intro ν ends
  have hlaw := fun A hA => C153_law ν (fun x : Fin 3 → ℝ => speed (x 0) (x 1) (x 2)) measurable_speed vesc hv
    (speed_no_atom _ (variance_ne vmean h0) vesc) A hA
  refine ⟨hlaw, ?_⟩
  have hu := hlaw Set.univ MeasurableSet.univ
  refine hu.trans ?_
  simp only [Set.mem_univ, true_and]
  apply ENNReal.div_self
  · have hbox : Set.univ.pi (fun _ : Fin 3 => Set.Ioo (-(vesc / 2)) (vesc / 2)) ⊆
        {x : Fin 3 → ℝ | speed (x 0) (x 1) (x 2) < vesc} := by
      intro x hx
      have hb : ∀ i, x i ^ 2 < (vesc / 2) ^ 2 := fun i => by
        have := hx i (Set.mem_univ _)
        exact sq_lt_sq' this.1 this.2
      change Real.sqrt (x 0 ^ 2 + x 1 ^ 2 + x 2 ^ 2) < vesc
      rw [Real.sqrt_lt' hv]
      nlinarith [hb 0, hb 1, hb 2]
    intro hc
    have hz := measure_mono_null hbox hc
    have hz' : Measure.pi (fun _ : Fin 3 => gaussianReal 0 (variance vmean))
        (Set.univ.pi fun _ : Fin 3 => Set.Ioo (-(vesc / 2)) (vesc / 2)) = 0 := hz
    rw [Measure.pi_pi, Finset.prod_const, pow_eq_zero_iff (by simp)] at hz'
    have := gaussianReal_absolutelyContinuous' 0 (variance_ne vmean h0) hz'
    rw [Real.volume_Ioo, ENNReal.ofReal_eq_zero] at this
    linarith
  · exact measure_ne_top _ _

/-- Impacts on the Moon: a mean of 22.1 km/s and an escape velocity of 2.38 km/s. -/
example : 22100 < ∫ x, withEscape (speed (x 0) (x 1) (x 2)) 2380 ∂normals (variance (encounter 22100 2380)) :=
  C152_escape_fails 22100 2380 (by norm_num) (by norm_num)

/-- The law of the speeds meets the hypotheses of `C153_law`. -/
example : normals (variance 5000) {x | speed (x 0) (x 1) (x 2) = 42000} = 0 :=
  speed_no_atom _ (by
    intro h
    have := sigmaOf_pos 5000 (by norm_num)
    have h' : sigmaOf 5000 ^ 2 = 0 := congrArg NNReal.toReal h
    exact (pow_pos this 2).ne' h') _

end Verif.Sampling
