import Verif.Props.Populate
import Mathlib.Algebra.MvPolynomial.Coeff

/-! Property C157, continued: the numbers of craters in different regions. -/

namespace Verif.Populate

open Verif.Sampling MeasureTheory

section Counts

open ProbabilityTheory ENNReal Finset

/-- How many ways there are to give labels to `n` items with prescribed numbers of each label. -/
theorem labelings {σ : Type*} [Fintype σ] [DecidableEq σ] (n : ℕ) (d : σ →₀ ℕ) (hd : d.sum (fun _ m => m) = n) :
    (univ.filter fun c : Fin n → σ => ∀ o, (univ.filter fun i => c i = o).card = d o).card = d.multinomial := by
  have h := MvPolynomial.coeff_sum_X_pow_of_fintype (R := ℕ) d n
  rw [if_pos hd] at h
  rw [show (∑ i, MvPolynomial.X i : MvPolynomial σ ℕ) ^ n = ∏ _i : Fin n, ∑ o, MvPolynomial.X o by
    simp, Finset.prod_univ_sum, MvPolynomial.coeff_sum] at h
  have e : ∀ c : Fin n → σ, MvPolynomial.coeff d (∏ i, (MvPolynomial.X (c i) : MvPolynomial σ ℕ)) =
      if ∀ o, (univ.filter fun i => c i = o).card = d o then 1 else 0 := by
    intro c
    have e1 : (∏ i, (MvPolynomial.X (c i) : MvPolynomial σ ℕ)) =
        MvPolynomial.monomial (∑ i, Finsupp.single (c i) 1) 1 := by
      rw [MvPolynomial.monomial_sum_one]
      rfl
    rw [e1, MvPolynomial.coeff_monomial]
    have e2 : (∑ i, Finsupp.single (c i) 1 = d) ↔ ∀ o, (univ.filter fun i => c i = o).card = d o := by
      rw [Finsupp.ext_iff]
      refine forall_congr' fun o => ?_
      rw [Finsupp.finsetSum_apply]
      simp only [Finsupp.single_apply, card_filter]
    simp only [e2]
  simp only [e] at h
  rw [Fintype.piFinset_univ, ← card_filter] at h
  exact_mod_cast h

variable {α : Type*} {m : ℕ}

/-- The set for a label: one of the sets, or what is outside of all. -/
def cell (I : Fin m → Set α) : Option (Fin m) → Set α
  | some j => I j
  | none => (⋃ j, I j)ᶜ

theorem cell_unique {I : Fin m → Set α} (hI : Pairwise fun a b => Disjoint (I a) (I b)) {x : α} {o o' : Option (Fin m)}
    (h : x ∈ cell I o) (h' : x ∈ cell I o') : o = o' := by
  rcases o with _ | a <;> rcases o' with _ | b
  · rfl
  · exact absurd (Set.mem_iUnion.mpr ⟨b, h'⟩) h
  · exact absurd (Set.mem_iUnion.mpr ⟨a, h⟩) h'
  · by_contra hne
    exact Set.disjoint_left.mp (hI (i := a) (j := b) (fun e => hne (by rw [e]))) h h'

theorem cell_exists (I : Fin m → Set α) (x : α) : ∃ o, x ∈ cell I o := by
  by_cases h : ∃ j, x ∈ I j
  · obtain ⟨j, hj⟩ := h; exact ⟨some j, hj⟩
  · exact ⟨none, fun hx => h (Set.mem_iUnion.mp hx)⟩

/-- The numbers of `n` draws in disjoint sets. -/
def Counts (n : ℕ) (I : Fin m → Set α) (k : Fin m → ℕ) : Set (Fin n → α) :=
  {ω | ∀ j, ∃ S : Finset (Fin n), (∀ i, i ∈ S ↔ ω i ∈ I j) ∧ S.card = k j}

/-- The labels with their numbers. -/
noncomputable def numbers (n : ℕ) (k : Fin m → ℕ) : Option (Fin m) →₀ ℕ :=
  Finsupp.equivFunOnFinite.symm fun o => o.elim (n - ∑ j, k j) k

theorem numbers_none (n : ℕ) (k : Fin m → ℕ) : numbers n k none = n - ∑ j, k j := rfl

theorem numbers_some (n : ℕ) (k : Fin m → ℕ) (j : Fin m) : numbers n k (some j) = k j := rfl

theorem numbers_sum {n : ℕ} {k : Fin m → ℕ} (h : ∑ j, k j ≤ n) : (numbers n k).sum (fun _ m => m) = n := by
  rw [Finsupp.sum_fintype _ _ (fun _ => rfl), Fintype.sum_option]
  simp only [numbers, Finsupp.equivFunOnFinite_symm_apply_apply, Option.elim]
  omega

theorem counts_zero {n : ℕ} {I : Fin m → Set α} (hI : Pairwise fun a b => Disjoint (I a) (I b)) {k : Fin m → ℕ}
    (h : n < ∑ j, k j) : Counts n I k = ∅ := by
  rw [Set.eq_empty_iff_forall_notMem]
  intro ω hω
  choose S hS hc using hω
  have h1 : (univ.biUnion S).card = ∑ j, k j := by
    rw [card_biUnion]
    · exact sum_congr rfl fun j _ => hc j
    · intro a _ b _ hab
      rw [Function.onFun, Finset.disjoint_left]
      intro i ha hb
      exact Set.disjoint_left.mp (hI hab) ((hS a i).mp ha) ((hS b i).mp hb)
  have h2 := card_le_univ (univ.biUnion S)
  rw [h1, Fintype.card_fin] at h2
  omega

variable [MeasurableSpace α]

theorem counts_measure (ν : Measure α) [IsProbabilityMeasure ν] (I : Fin m → Set α) (hm : ∀ j, MeasurableSet (I j))
    (hI : Pairwise fun a b => Disjoint (I a) (I b)) (n : ℕ) (k : Fin m → ℕ) (hk : ∑ j, k j ≤ n) :
    Measure.pi (fun _ : Fin n => ν) (Counts n I k) =
      (numbers n k).multinomial * ((∏ j, ν (I j) ^ k j) * ν (⋃ j, I j)ᶜ ^ (n - ∑ j, k j)) := by
  classical
  set B : (Fin n → Option (Fin m)) → Set (Fin n → α) := fun c => Set.univ.pi fun i => cell I (c i) with hB
  set L := univ.filter fun c : Fin n → Option (Fin m) => ∀ o, (univ.filter fun i => c i = o).card = numbers n k o with hL
  have hmem : ∀ c ω, ω ∈ B c ↔ ∀ i, ω i ∈ cell I (c i) := fun c ω => by simp [hB]
  have hset : Counts n I k = ⋃ c ∈ L, B c := by
    ext ω
    simp only [Set.mem_iUnion, exists_prop]
    constructor
    · intro hω
      choose c hc using fun i => cell_exists I (ω i)
      refine ⟨c, ?_, (hmem c ω).mpr hc⟩
      rw [hL, mem_filter]
      refine ⟨mem_univ _, ?_⟩
      have hj : ∀ j, (univ.filter fun i => c i = some j).card = k j := by
        intro j
        obtain ⟨S, hS, hSc⟩ := hω j
        rw [← hSc]
        congr 1
        ext i
        rw [mem_filter, hS]
        constructor
        · rintro ⟨_, e⟩
          have := hc i
          rw [e] at this
          exact this
        · intro h
          exact ⟨mem_univ _, cell_unique hI (hc i) h⟩
      rintro (_ | j)
      · have htot : ∑ o, (univ.filter fun i => c i = o).card = n := by
          rw [← card_eq_sum_card_fiberwise (f := c) (s := univ) (t := univ) (fun _ _ => mem_coe.mpr (mem_univ _)), card_univ,
            Fintype.card_fin]
        rw [Fintype.sum_option] at htot
        simp only [hj] at htot
        simp only [numbers, Finsupp.equivFunOnFinite_symm_apply_apply, Option.elim]
        omega
      · rw [hj]
        rfl
    · rintro ⟨c, hc, hω⟩ j
      rw [hL, mem_filter] at hc
      refine ⟨univ.filter fun i => c i = some j, fun i => ?_, hc.2 (some j)⟩
      rw [mem_filter]
      constructor
      · rintro ⟨_, e⟩
        have := (hmem c ω).mp hω i
        rw [e] at this
        exact this
      · intro h
        exact ⟨mem_univ _, cell_unique hI ((hmem c ω).mp hω i) h⟩
  have hdis : Set.PairwiseDisjoint (↑L) B := by
    intro c _ c' _ hcc
    rw [Function.onFun, Set.disjoint_left]
    intro ω h1 h2
    apply hcc
    funext i
    exact cell_unique hI ((hmem c ω).mp h1 i) ((hmem c' ω).mp h2 i)
  have hcell : ∀ o, MeasurableSet (cell I o) := by
    rintro (_ | j)
    · exact (MeasurableSet.iUnion hm).compl
    · exact hm j
  have hmeas : ∀ c ∈ L, MeasurableSet (B c) := fun c _ => MeasurableSet.univ_pi fun i => hcell _
  have hval : ∀ c ∈ L, Measure.pi (fun _ : Fin n => ν) (B c) = (∏ j, ν (I j) ^ k j) * ν (⋃ j, I j)ᶜ ^ (n - ∑ j, k j) := by
    intro c hc
    rw [hL, mem_filter] at hc
    rw [hB, Measure.pi_pi]
    have : ∏ i, ν (cell I (c i)) = ∏ o, ν (cell I o) ^ numbers n k o := by
      rw [← Finset.prod_fiberwise_of_maps_to (s := univ) (t := univ) (g := c) (fun _ _ => mem_univ _)]
      refine prod_congr rfl fun o _ => ?_
      rw [← hc.2 o, ← prod_const]
      refine prod_congr rfl fun i hi => ?_
      rw [(mem_filter.mp hi).2]
    rw [this, Fintype.prod_option, mul_comm]
    rfl
  rw [hset, measure_biUnion_finset hdis hmeas, sum_congr rfl hval, sum_const, labelings n _ (numbers_sum hk), nsmul_eq_mul]

/-- If the number of draws is Poisson, the numbers of draws in disjoint sets are independent and Poisson. -/
theorem counts_poisson (ν : Measure α) [IsProbabilityMeasure ν] (I : Fin m → Set α) (hm : ∀ j, MeasurableSet (I j))
    (hI : Pairwise fun a b => Disjoint (I a) (I b)) (lam : NNReal) (mean : Fin m → NNReal)
    (hmean : ∀ j, (mean j : ℝ≥0∞) = lam * ν (I j)) (k : Fin m → ℕ) :
    ∑' n, poissonMeasure lam {n} * Measure.pi (fun _ : Fin n => ν) (Counts n I k) = ∏ j, poissonMeasure (mean j) {k j} := by
  set p : Fin m → ℝ := fun j => (ν (I j)).toReal with hp
  set q : ℝ := (ν (⋃ j, I j)ᶜ).toReal with hq
  set K := ∑ j, k j with hK
  have hp0 : ∀ j, 0 ≤ p j := fun _ => toReal_nonneg
  have hq0 : 0 ≤ q := toReal_nonneg
  have hpe : ∀ j, ν (I j) = ENNReal.ofReal (p j) := fun j => (ofReal_toReal (measure_ne_top ν _)).symm
  have hqe : ν (⋃ j, I j)ᶜ = ENNReal.ofReal q := (ofReal_toReal (measure_ne_top ν _)).symm
  have htot : ∑ j, p j + q = 1 := by
    have h1 : ν (⋃ j, I j) = ∑ j, ν (I j) := by
      rw [measure_iUnion hI hm, tsum_fintype]
    have h2 : ν (⋃ j, I j) + ν (⋃ j, I j)ᶜ = 1 := by
      rw [measure_add_measure_compl (MeasurableSet.iUnion hm), measure_univ]
    rw [h1] at h2
    have h3 := congrArg ENNReal.toReal h2
    rw [toReal_add (by simp [measure_ne_top]) (measure_ne_top ν _), toReal_sum (fun j _ => measure_ne_top ν _), toReal_one] at h3
    exact h3
  have hmr : ∀ j, (mean j : ℝ) = lam * p j := by
    intro j
    have := congrArg ENNReal.toReal (hmean j)
    simpa [hp] using this
  set P : ℝ := ∏ j, p j ^ k j with hP
  have hP0 : 0 ≤ P := prod_nonneg fun j _ => pow_nonneg (hp0 j) _
  set g : ℕ → ℝ := fun n => if K ≤ n then
    Real.exp (-lam) * lam ^ n / n.factorial * ((numbers n k).multinomial * (P * q ^ (n - K))) else 0 with hg
  have hg0 : ∀ n, 0 ≤ g n := by
    intro n
    simp only [hg]
    split_ifs
    · positivity
    · exact le_refl _
  have hterm : ∀ n, poissonMeasure lam {n} * Measure.pi (fun _ : Fin n => ν) (Counts n I k) = ENNReal.ofReal (g n) := by
    intro n
    by_cases h : K ≤ n
    · have e : (∏ j, ν (I j) ^ k j) = ENNReal.ofReal P := by
        rw [hP, ENNReal.ofReal_prod_of_nonneg fun j _ => pow_nonneg (hp0 j) _]
        exact prod_congr rfl fun j _ => by rw [hpe, ofReal_pow (hp0 j)]
      rw [counts_measure ν I hm hI n k h, e, hqe, poissonMeasure_singleton, ← ofReal_pow hq0, ← ofReal_mul hP0, ← ofReal_natCast,
        ← ofReal_mul (by positivity), ← ofReal_mul (by positivity)]
      simp only [hg]
      rw [if_pos h]
    · rw [counts_zero hI (not_le.mp h)]
      simp [hg, if_neg h]
  set Q : ℝ := ∏ j, ((k j).factorial : ℝ) with hQ
  have hQ0 : Q ≠ 0 := by positivity
  have hsum : HasSum g (∏ j, (Real.exp (-(mean j : ℝ)) * (mean j : ℝ) ^ k j / (k j).factorial)) := by
    have hz : ∀ n ∈ Finset.range K, g n = 0 := by
      intro n hn
      simp only [hg]
      rw [if_neg (not_le.mpr (Finset.mem_range.mp hn))]
    rw [← hasSum_nat_add_iff' K, Finset.sum_eq_zero hz, sub_zero]
    have hshift : (fun r => g (r + K)) = fun r : ℕ =>
        (Real.exp (-lam) * (lam ^ K * P) / Q) * ((lam * q) ^ r / r.factorial) := by
      funext r
      simp only [hg]
      rw [if_pos (by omega), Nat.add_sub_cancel]
      have hc : Q * r.factorial * ((numbers (r + K) k).multinomial : ℝ) = (r + K).factorial := by
        have h0 := Nat.multinomial_spec univ (numbers (r + K) k)
        have h1 := numbers_sum (n := r + K) (k := k) (by omega)
        rw [Finsupp.sum_fintype _ _ (fun _ => rfl)] at h1
        rw [h1, Fintype.prod_option, Finsupp.multinomial_of_support_subset (subset_univ _)] at h0
        rw [numbers_none, Nat.add_sub_cancel] at h0
        simp only [numbers_some] at h0
        have h2 : (r.factorial : ℝ) * (∏ j, ((k j).factorial : ℝ)) * ((numbers (r + K) k).multinomial : ℝ) = (r + K).factorial := by
          exact_mod_cast h0
        rw [← h2, hQ]
        ring
      have a2 : (r.factorial : ℝ) ≠ 0 := by positivity
      have a3 : ((numbers (r + K) k).multinomial : ℝ) ≠ 0 := by
        intro h
        rw [h, mul_zero] at hc
        have : ((r + K).factorial : ℝ) ≠ 0 := by positivity
        exact this hc.symm
      rw [← hc, pow_add, mul_pow]
      field_simp
    rw [hshift]
    have hexp : HasSum (fun r : ℕ => (lam * q) ^ r / (r.factorial : ℝ)) (Real.exp (lam * q)) := by
      rw [Real.exp_eq_exp_ℝ]
      exact NormedSpace.expSeries_div_hasSum_exp _
    have := hexp.mul_left (Real.exp (-lam) * (lam ^ K * P) / Q)
    have e : (∏ j, (Real.exp (-(mean j : ℝ)) * (mean j : ℝ) ^ k j / (k j).factorial)) =
        Real.exp (-lam) * (lam ^ K * P) / Q * Real.exp (lam * q) := by
      rw [Finset.prod_div_distrib, prod_mul_distrib, ← Real.exp_sum]
      have e1 : ∑ j, -(mean j : ℝ) = -lam + lam * q := by
        simp only [hmr]
        rw [sum_neg_distrib, ← mul_sum, show ∑ j, p j = 1 - q by linarith]
        ring
      have e2 : ∏ j, (mean j : ℝ) ^ k j = lam ^ K * P := by
        simp only [hmr, mul_pow]
        rw [prod_mul_distrib, prod_pow_eq_pow_sum]
      rw [e1, e2, Real.exp_add]
      ring
    rw [e]
    exact this
  rw [tsum_congr hterm, ← ENNReal.ofReal_tsum_of_nonneg hg0 hsum.summable, hsum.tsum_eq, ENNReal.ofReal_prod_of_nonneg]
  · exact prod_congr rfl fun j _ => (poissonMeasure_singleton _ _).symm
  · intro j _; positivity

end Counts

/-- What a crater of the group of faces needs to fall into a region. -/
theorem hits_disjoint (area : ℕ → ℝ) (nodes : ℕ → List Vec) (faces : List ℕ) {A B : Set Vec} (h : Disjoint A B) :
    Disjoint (hits area nodes faces A) (hits area nodes faces B) := by
  rw [Set.disjoint_left]
  rintro x ⟨p, hp, e⟩ ⟨q, hq, e'⟩
  rw [e] at e'
  cases e'
  exact Set.disjoint_left.mp h hp hq

/-- The numbers of craters in regions without common points are independent: the probability of finding `k j` craters in each of the
regions `A j` is the product of the probabilities for the single regions, each Poisson with a mean of density times area. -/
theorem C157_independent {m : ℕ} (area : ℕ → ℝ) (nodes : ℕ → List Vec) (hm : Faces area nodes) (faces : List ℕ) (hne : faces ≠ [])
    (A : Fin m → Set Vec) (hA : ∀ j, MeasurableSet (A j)) (hd : Pairwise fun a b => Disjoint (A a) (A b)) (F : ℝ → ℝ) (lo : ℝ)
    (hF : 0 ≤ F lo) (lam : NNReal) (mean : Fin m → NNReal) (hlam : (lam : ℝ) = expectedNumber F lo (faces.map area).sum)
    (hmean : ∀ j, (mean j : ENNReal) =
      ENNReal.ofReal (F lo) * (faces.map fun f => ENNReal.ofReal (area f) * fraction (nodes f) (A j)).sum) (k : Fin m → ℕ) :
    ∑' n, ProbabilityTheory.poissonMeasure lam {n} *
      Measure.pi (fun _ : Fin n => uniform4)
        {ω | ∀ j, ∃ S : Finset (Fin n), (∀ i, i ∈ S ↔ ω i ∈ hits area nodes faces (A j)) ∧ S.card = k j} =
    ∏ j, ProbabilityTheory.poissonMeasure (mean j) {k j} := by
  apply counts_poisson uniform4 (fun j => hits area nodes faces (A j)) (fun j => hits_measurable area nodes faces (A j) (hA j))
    (fun a b hab => hits_disjoint area nodes faces (hd hab)) lam mean
  intro j
  exact mean_region area nodes hm faces hne (A j) (hA j) F lo hF lam (mean j) hlam (hmean j)

/-- Two halves of space. -/
example : ∃ A : Fin 2 → Set Vec, (∀ j, MeasurableSet (A j)) ∧ (Pairwise fun a b => Disjoint (A a) (A b)) ∧
    Faces (fun _ => 1) (fun _ => [![0, 0, 0], ![1, 0, 0], ![0, 1, 0]]) := by
  refine ⟨![{p | p 0 < 1 / 2}, {p | ¬ p 0 < 1 / 2}], ?_, ?_, triangles⟩
  · have : MeasurableSet {p : Vec | p 0 < 1 / 2} := measurableSet_lt (measurable_pi_apply 0) measurable_const
    intro j
    fin_cases j
    · exact this
    · exact this.compl
  · intro a b hab
    fin_cases a <;> fin_cases b <;> simp_all [Set.disjoint_left]

end Verif.Populate
