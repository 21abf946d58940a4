import Verif.Props.Independent
import Verif.Props.Between

/-! Property C203: the numbers of craters of different sizes in different regions. -/

namespace Verif.Populate

open Verif.Sampling MeasureTheory

/-- The draws for the size of one crater and for its place: five independent uniform numbers. -/
noncomputable def uniform5 : Measure (ℝ × ℝ × ℝ × ℝ × ℝ) := (volume.restrict (Set.Ico 0 1)).prod uniform4

instance : IsProbabilityMeasure (volume.restrict (Set.Ico (0 : ℝ) 1)) := by
  constructor
  rw [Measure.restrict_apply MeasurableSet.univ, Set.univ_inter, Real.volume_Ico]
  norm_num

instance : IsProbabilityMeasure uniform5 := by unfold uniform5; infer_instance

/-- The draws that give a crater with a diameter above `a` and up to `b` in the region `A`. -/
def makes (F : ℝ → ℝ) (lo hi : ℝ) (area : ℕ → ℝ) (nodes : ℕ → List Vec) (faces : List ℕ) (a b : ℝ) (A : Set Vec) :
    Set (ℝ × ℝ × ℝ × ℝ × ℝ) :=
  {x | (0 ≤ x.1 ∧ x.1 < 1 ∧ ∃ d, drawSize (sizeTable F lo hi) x.1 0 = .ok d ∧ a < d ∧ d ≤ b) ∧ x.2 ∈ hits area nodes faces A}

/-- The draws for a size between two diameters are an interval. -/
theorem size_interval {F N : ℝ → ℝ} {lo hi : ℝ} (p : Population F lo hi) (hN : ByPowerLaws F lo hi N) (a b : ℝ) (ha : lo ≤ a) (hab : a ≤ b)
    (hb : b ≤ hi) :
    {t : ℝ | 0 ≤ t ∧ t < 1 ∧ ∃ d, drawSize (sizeTable F lo hi) t 0 = .ok d ∧ a < d ∧ d ≤ b} =
      Set.Ico ((N b - F hi) / (F lo - F hi)) ((N a - F hi) / (F lo - F hi)) := by
  have hsub : 0 < F lo - F hi := by linarith [p.more]
  have hNb := (hN.range p b (ha.trans hab) hb).1
  have hNa := (hN.range p a ha (hab.trans hb)).2
  ext t
  simp only [Set.mem_ofPred_eq, Set.mem_Ico]
  constructor
  · rintro ⟨h0, h1, d, hd, h2, h3⟩
    constructor
    · by_contra hc
      have := (drawSize_between p hN t h0 h1 b (ha.trans hab) hb d hd).2 (not_le.1 hc)
      linarith
    · exact (drawSize_between p hN t h0 h1 a ha (hab.trans hb) d hd).1 h2
  · rintro ⟨h2, h3⟩
    have h0 : 0 ≤ t := le_trans (div_nonneg (by linarith) hsub.le) h2
    have h1 : t < 1 := lt_of_lt_of_le h3 ((div_le_one hsub).2 (by linarith))
    obtain ⟨d, hd, _⟩ := drawSize_spec p t 0 h0 h1 le_rfl one_pos
    refine ⟨h0, h1, d, hd, (drawSize_between p hN t h0 h1 a ha (hab.trans hb) d hd).2 h3, ?_⟩
    by_contra hc
    have := (drawSize_between p hN t h0 h1 b (ha.trans hab) hb d hd).1 (not_le.1 hc)
    linarith

/-- The probability of a crater with a size in the interval and in the region. -/
theorem makes_measure {F N : ℝ → ℝ} {lo hi : ℝ} (p : Population F lo hi) (hN : ByPowerLaws F lo hi N) (area : ℕ → ℝ) (nodes : ℕ → List Vec)
    (faces : List ℕ) (a b : ℝ) (ha : lo ≤ a) (hab : a ≤ b) (hb : b ≤ hi) (A : Set Vec) (hA : MeasurableSet A) :
    MeasurableSet (makes F lo hi area nodes faces a b A) ∧
      uniform5 (makes F lo hi area nodes faces a b A) = ENNReal.ofReal ((N a - N b) / (F lo - F hi)) * uniform4 (hits area nodes faces A) := by
  have he : makes F lo hi area nodes faces a b A =
      Set.Ico ((N b - F hi) / (F lo - F hi)) ((N a - F hi) / (F lo - F hi)) ×ˢ hits area nodes faces A := by
    rw [← size_interval p hN a b ha hab hb]
    rfl
  have hsub : 0 < F lo - F hi := by linarith [p.more]
  have hNb := (hN.range p b (ha.trans hab) hb).1
  have hNa := (hN.range p a ha (hab.trans hb)).2
  refine ⟨he ▸ measurableSet_Ico.prod (hits_measurable area nodes faces A hA), ?_⟩
  rw [he, uniform5, Measure.prod_prod, Measure.restrict_apply measurableSet_Ico]
  congr 1
  have hsubset : Set.Ico ((N b - F hi) / (F lo - F hi)) ((N a - F hi) / (F lo - F hi)) ⊆ Set.Ico 0 1 := by
    apply Set.Ico_subset_Ico
    · exact div_nonneg (by linarith) hsub.le
    · exact (div_le_one hsub).2 (by linarith)
  rw [Set.inter_eq_left.2 hsubset, Real.volume_Ico]
  congr 1
  rw [← sub_div]
  congr 1
  ring

/-- Boxes of sizes and regions without common craters. -/
theorem makes_disjoint {F : ℝ → ℝ} {lo hi : ℝ} (area : ℕ → ℝ) (nodes : ℕ → List Vec) (faces : List ℕ) (a b a' b' : ℝ) (A A' : Set Vec)
    (h : Disjoint A A' ∨ b ≤ a' ∨ b' ≤ a) :
    Disjoint (makes F lo hi area nodes faces a b A) (makes F lo hi area nodes faces a' b' A') := by
  rw [Set.disjoint_left]
  rintro x ⟨⟨_, _, d, hd, h1, h2⟩, hx⟩ ⟨⟨_, _, d', hd', h3, h4⟩, hx'⟩
  rw [hd] at hd'
  cases hd'
  rcases h with h | h | h
  · exact Set.disjoint_left.1 (hits_disjoint area nodes faces h) hx hx'
  · linarith
  · linarith

/-- The numbers of craters in boxes of sizes and regions without common craters are independent of each other and Poisson.  The mean is the density of
craters of these sizes times the area of the region, too large by the factor that belongs to craters beyond the range; the density is the one
of the production function at the 50 diameters of the size table and follows power laws between them.  Sizes are those before the noise of 10⁻⁸.
Missing from the full statement: a mean without the factor (`C203_mean_fails`), and the density of the production function between the diameters
of the table (`C203_between_fails`), unless it is a power law (`C203_power_law_partial`). -/
theorem C203_joint_partial {m : ℕ} {F N : ℝ → ℝ} {lo hi : ℝ} (p : Population F lo hi) (hN : ByPowerLaws F lo hi N) (area : ℕ → ℝ)
    (nodes : ℕ → List Vec) (hm : Faces area nodes) (faces : List ℕ) (hne : faces ≠ []) (lower upper : Fin m → ℝ)
    (hlu : ∀ j, lo ≤ lower j ∧ lower j ≤ upper j ∧ upper j ≤ hi) (A : Fin m → Set Vec)
    (hA : ∀ j, MeasurableSet (A j)) (hd : Pairwise fun a b => Disjoint (A a) (A b) ∨ upper a ≤ lower b ∨ upper b ≤ lower a)
    (lam : NNReal) (mean : Fin m → NNReal) (hlam : (lam : ℝ) = expectedNumber F lo (faces.map area).sum)
    (hmean : ∀ j, (mean j : ENNReal) =
      ENNReal.ofReal (F lo / (F lo - F hi) * (N (lower j) - N (upper j))) *
        (faces.map fun f => ENNReal.ofReal (area f) * fraction (nodes f) (A j)).sum) (k : Fin m → ℕ) :
    ∑' n, ProbabilityTheory.poissonMeasure lam {n} *
      Measure.pi (fun _ : Fin n => uniform5)
        {ω | ∀ j, ∃ S : Finset (Fin n),
          (∀ i, i ∈ S ↔ ω i ∈ makes F lo hi area nodes faces (lower j) (upper j) (A j)) ∧ S.card = k j} =
    ∏ j, ProbabilityTheory.poissonMeasure (mean j) {k j} := by
  have hlp : 0 < F lo := p.pos.trans p.more
  have hsub : 0 < F lo - F hi := by linarith [p.more]
  have hms := fun j => makes_measure p hN area nodes faces _ _ (hlu j).1 (hlu j).2.1 (hlu j).2.2 (A j) (hA j)
  apply counts_poisson uniform5 (fun j => makes F lo hi area nodes faces (lower j) (upper j) (A j)) (fun j => (hms j).1)
    (fun a b hab => makes_disjoint area nodes faces _ _ _ _ _ _ (hd hab)) lam mean
  intro j
  rw [(hms j).2, hmean j]
  set q := (N (lower j) - N (upper j)) / (F lo - F hi) with hq
  have hq0 : 0 ≤ q := div_nonneg (by linarith [hN.anti p _ _ (hlu j).1 (hlu j).2.1 (hlu j).2.2]) hsub.le
  have e : F lo / (F lo - F hi) * (N (lower j) - N (upper j)) = q * F lo := by
    rw [hq]; ring
  have hreg := region_mass area nodes hm faces hne (A j) (hA j) F lo hlp.le lam hlam
  rw [e, ENNReal.ofReal_mul hq0, mul_assoc, hreg]
  ring

/-- For a production function that is a power law of the diameter the density is that of the production function at every diameter.  Missing: a mean
without the factor (`C203_mean_fails`). -/
theorem C203_power_law_partial {m : ℕ} {F : ℝ → ℝ} {lo hi : ℝ} (p : Population F lo hi) (c s : ℝ) (hF : ∀ d, 0 < d → F d = c * d ^ s)
    (area : ℕ → ℝ) (nodes : ℕ → List Vec) (hm : Faces area nodes) (faces : List ℕ) (hne : faces ≠ []) (lower upper : Fin m → ℝ)
    (hlu : ∀ j, lo ≤ lower j ∧ lower j ≤ upper j ∧ upper j ≤ hi) (A : Fin m → Set Vec)
    (hA : ∀ j, MeasurableSet (A j)) (hd : Pairwise fun a b => Disjoint (A a) (A b) ∨ upper a ≤ lower b ∨ upper b ≤ lower a)
    (lam : NNReal) (mean : Fin m → NNReal) (hlam : (lam : ℝ) = expectedNumber F lo (faces.map area).sum)
    (hmean : ∀ j, (mean j : ENNReal) =
      ENNReal.ofReal (F lo / (F lo - F hi) * (F (lower j) - F (upper j))) *
        (faces.map fun f => ENNReal.ofReal (area f) * fraction (nodes f) (A j)).sum) (k : Fin m → ℕ) :
    ∑' n, ProbabilityTheory.poissonMeasure lam {n} *
      Measure.pi (fun _ : Fin n => uniform5)
        {ω | ∀ j, ∃ S : Finset (Fin n),
          (∀ i, i ∈ S ↔ ω i ∈ makes F lo hi area nodes faces (lower j) (upper j) (A j)) ∧ S.card = k j} =
    ∏ j, ProbabilityTheory.poissonMeasure (mean j) {k j} := by
  have hc : 0 < c := by
    have h := p.pos.trans p.more
    rw [hF lo p.lo_pos] at h
    exact pos_of_mul_pos_left h (Real.rpow_pos_of_pos p.lo_pos s).le
  exact C203_joint_partial p (byPowerLaws_self c s hc p.lo_pos p.lo_lt hF) area nodes hm faces hne lower upper hlu A hA hd lam mean hlam hmean k

/-- There is such a mean for every box. -/
theorem exists_mean {F N : ℝ → ℝ} {lo hi : ℝ} (p : Population F lo hi) (area : ℕ → ℝ) (nodes : ℕ → List Vec) (hm : Faces area nodes)
    (faces : List ℕ) (hne : faces ≠ []) (a b : ℝ) (A : Set Vec) (hA : MeasurableSet A) (lam : NNReal)
    (hlam : (lam : ℝ) = expectedNumber F lo (faces.map area).sum) :
    ∃ mean : NNReal, (mean : ENNReal) = ENNReal.ofReal (F lo / (F lo - F hi) * (N a - N b)) *
      (faces.map fun f => ENNReal.ofReal (area f) * fraction (nodes f) A).sum := by
  have hlp : 0 < F lo := p.pos.trans p.more
  have h := region_mass area nodes hm faces hne A hA F lo hlp.le lam hlam
  have hfin : (faces.map fun f => ENNReal.ofReal (area f) * fraction (nodes f) A).sum ≠ ⊤ := by
    intro ht
    rw [ht, ENNReal.mul_top (by simpa using hlp)] at h
    exact absurd h.symm (ENNReal.mul_ne_top ENNReal.coe_ne_top (measure_ne_top _ _))
  exact ⟨ENNReal.toNNReal _, ENNReal.coe_toNNReal (ENNReal.mul_ne_top ENNReal.ofReal_ne_top hfin)⟩

/-- Three boxes: the small craters of two halves of space, and the large ones everywhere. -/
example : ∃ (A : Fin 3 → Set Vec) (lower upper : Fin 3 → ℝ), Population (fun d => d ^ (-3 : ℝ)) 10 12 ∧
    (∀ d : ℝ, 0 < d → d ^ (-3 : ℝ) = 1 * d ^ (-3 : ℝ)) ∧
    Faces (fun _ => 1) (fun _ => [![0, 0, 0], ![1, 0, 0], ![0, 1, 0]]) ∧ (∀ j, 10 ≤ lower j ∧ lower j ≤ upper j ∧ upper j ≤ 12) ∧
    (∀ j, MeasurableSet (A j)) ∧
    (Pairwise fun a b => Disjoint (A a) (A b) ∨ upper a ≤ lower b ∨ upper b ≤ lower a) ∧ ¬ Disjoint (A 0) (A 2) := by
  have hms : MeasurableSet {p : Vec | p 0 < 1 / 2} := measurableSet_lt (measurable_pi_apply 0) measurable_const
  refine ⟨![{p | p 0 < 1 / 2}, {p | ¬ p 0 < 1 / 2}, Set.univ], ![10, 10, 11], ![11, 11, 12], cubes, fun d _ => (one_mul _).symm, triangles, ?_, ?_,
    ?_, ?_⟩
  · intro j; fin_cases j <;> norm_num
  · intro j
    fin_cases j
    · exact hms
    · exact hms.compl
    · exact MeasurableSet.univ
  · intro a b hab
    fin_cases a <;> fin_cases b <;> first | exact absurd rfl hab | simp [Set.disjoint_left]
  · intro h
    have h1 : (0 : Vec) ∈ (![{p | p 0 < 1 / 2}, {p | ¬ p 0 < 1 / 2}, Set.univ] : Fin 3 → Set Vec) 0 := by
      change (0 : Vec) 0 < 1 / 2
      simp
    exact Set.disjoint_left.1 h h1 trivial

/-- The mean is larger than the density of craters of these sizes times the area of the region, in every box that is not empty. -/
theorem C203_mean_fails {F : ℝ → ℝ} {lo hi : ℝ} (p : Population F lo hi) (area : ℕ → ℝ) (nodes : ℕ → List Vec) (faces : List ℕ) (a b : ℝ)
    (A : Set Vec) (hab : F b < F a) (mean : NNReal) (hpos : mean ≠ 0)
    (hmean : (mean : ENNReal) = ENNReal.ofReal (F lo / (F lo - F hi) * (F a - F b)) *
      (faces.map fun f => ENNReal.ofReal (area f) * fraction (nodes f) A).sum) :
    ENNReal.ofReal (F a - F b) * (faces.map fun f => ENNReal.ofReal (area f) * fraction (nodes f) A).sum < mean := by
  have hsub : 0 < F lo - F hi := by linarith [p.more]
  have hc : 1 < F lo / (F lo - F hi) := by rw [one_lt_div hsub]; linarith [p.pos]
  have hlt : F a - F b < F lo / (F lo - F hi) * (F a - F b) := by nlinarith
  have hpos2 : 0 < F lo / (F lo - F hi) * (F a - F b) := by nlinarith
  set S := (faces.map fun f => ENNReal.ofReal (area f) * fraction (nodes f) A).sum
  have hS0 : S ≠ 0 := by
    intro h
    rw [h, mul_zero] at hmean
    exact hpos (by exact_mod_cast hmean)
  have hS1 : S ≠ ⊤ := by
    intro h
    rw [h, ENNReal.mul_top (by simpa using hpos2)] at hmean
    exact ENNReal.coe_ne_top hmean
  rw [hmean]
  exact ENNReal.mul_lt_mul_left hS0 hS1 ((ENNReal.ofReal_lt_ofReal_iff hpos2).2 hlt)

theorem linear : Population (fun d => 20 - d) 10 12 := by
  refine ⟨by norm_num, by norm_num, ?_, by norm_num, by norm_num⟩
  intro a _ b _ h
  simp only
  linarith

/-- For a production function that is not a power law the probability of a crater in a region with a size above a diameter between two entries of the
table is not the fraction of such craters that the production function has, whatever the mesh and the region (unless it is never hit). -/
theorem C203_between_fails (area : ℕ → ℝ) (nodes : ℕ → List Vec) (faces : List ℕ) :
    ∃ d : ℝ, 10 < d ∧ d < 12 ∧ ∀ A : Set Vec, MeasurableSet A → uniform4 (hits area nodes faces A) ≠ 0 →
      uniform5 (makes (fun d => 20 - d) 10 12 area nodes faces d 12 A) <
        ENNReal.ofReal (((20 - d) - (20 - 12)) / ((20 - 10) - (20 - 12))) * uniform4 (hits area nodes faces A) := by
  have hs := sizeGrid_strict 10 12 (by norm_num) (by norm_num)
  set a := sizeGrid 10 12 0 with ha
  set b := sizeGrid 10 12 1 with hb
  have hab : a < b := hs Nat.zero_lt_one
  have ha10 : a = 10 := sizeGrid_lo 10 12 (by norm_num)
  have hb12 : b < 12 := by
    have := hs (show 1 < 49 by norm_num)
    rwa [sizeGrid_hi 10 12 (by norm_num)] at this
  have hb0 : 0 < b := by linarith
  set d := Real.sqrt (a * b) with hd
  have hdd : d * d = a * b := Real.mul_self_sqrt (by nlinarith)
  have hd0 : 0 ≤ d := Real.sqrt_nonneg _
  have d1 : a < d := by nlinarith
  have d2 : d < b := by nlinarith
  refine ⟨d, by linarith, by linarith, fun A hA hpos => ?_⟩
  obtain ⟨N, hN⟩ := exists_byPowerLaws _ linear
  rw [(makes_measure linear hN area nodes faces d 12 (by linarith) (by linarith) le_rfl A hA).2]
  have hN12 : N 12 = 8 := by
    have := hN.at_grid linear 49 le_rfl
    rw [sizeGrid_hi 10 12 (by norm_num)] at this
    rw [this]
    norm_num
  have hlt : N d < 20 - d := by
    obtain ⟨np, nl⟩ := log_between linear hN 0 (by norm_num) d d1.le d2.le
    simp only [Nat.zero_add] at nl
    rw [← ha, ← hb] at nl
    have hld : Real.log d = (Real.log a + Real.log b) / 2 := by
      rw [hd, Real.log_sqrt (by nlinarith), Real.log_mul (by linarith) hb0.ne']
    have hw : Real.log b - Real.log a ≠ 0 := by linarith [Real.log_lt_log (by linarith) hab]
    have hmid : Real.log (N d) = (Real.log (20 - a) + Real.log (20 - b)) / 2 := by
      rw [nl, hld]
      field_simp
      ring
    have hsq : N d * N d = (20 - a) * (20 - b) := by
      apply Real.log_injOn_pos (Set.mem_Ioi.2 (mul_pos np np)) (Set.mem_Ioi.2 (mul_pos (by linarith) (by linarith)))
      rw [Real.log_mul np.ne' np.ne', Real.log_mul (by linarith) (by linarith), hmid]
      ring
    have : N d * N d < (20 - d) * (20 - d) := by
      rw [hsq]
      have : (20 - d) * (20 - d) - (20 - a) * (20 - b) = 20 * (a + b - 2 * d) := by nlinarith
      have : 0 < a + b - 2 * d := by nlinarith [sq_nonneg (a - b)]
      linarith
    nlinarith
  apply ENNReal.mul_lt_mul_left hpos (measure_ne_top _ _)
  rw [ENNReal.ofReal_lt_ofReal_iff (by apply div_pos <;> linarith)]
  rw [hN12]
  apply div_lt_div_of_pos_right _ (by norm_num)
  linarith

end Verif.Populate
