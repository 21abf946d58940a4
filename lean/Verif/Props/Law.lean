import Verif.Props.Sampling
import Verif.Model.Sample
import Mathlib.MeasureTheory.Measure.Lebesgue.Basic
import Mathlib.MeasureTheory.Measure.Prod
import Mathlib.MeasureTheory.Group.Prod
import Mathlib.MeasureTheory.Measure.Haar.Unique
import Mathlib.MeasureTheory.Measure.Lebesgue.EqHaar
import Mathlib.MeasureTheory.Constructions.BorelSpace.Order
import Mathlib.Tactic.FieldSimp
import Mathlib.Tactic.Positivity

/-! The distributions of the random draws: impact angles (C77), locations (C78), points of faces (C56). -/

namespace Verif.Sampling

open MeasureTheory

/-! ### C77 -/

/-- With a uniform draw the probability of an impact angle of at most `θ` is `sin² θ`. -/
theorem C77_law (θ : ℝ) (h0 : 0 ≤ θ) (h1 : θ ≤ 90) :
    volume {u : ℝ | 0 ≤ u ∧ u < 1 ∧ impactAngle u ≤ θ} = ENNReal.ofReal (Real.sin (θ * (Real.pi / 180)) ^ 2) := by
  set s := Real.sin (θ * (Real.pi / 180)) ^ 2 with hs
  have hs1 : s ≤ 1 := by rw [hs]; exact Real.sin_sq_le_one _
  have hset : {u : ℝ | 0 ≤ u ∧ u < 1 ∧ impactAngle u ≤ θ} = Set.Ico 0 1 ∩ Set.Icc 0 s := by
    ext u
    simp only [Set.mem_ofPred_eq, Set.mem_inter_iff, Set.mem_Ico, Set.mem_Icc]
    constructor
    · rintro ⟨a, b, c⟩
      exact ⟨⟨a, b⟩, a, ((C77_angle u a b).2.2 θ h0 h1).mp c⟩
    · rintro ⟨⟨a, b⟩, _, c⟩
      exact ⟨a, b, ((C77_angle u a b).2.2 θ h0 h1).mpr c⟩
  rw [hset]
  apply le_antisymm
  · calc volume (Set.Ico 0 1 ∩ Set.Icc 0 s) ≤ volume (Set.Icc 0 s) := measure_mono Set.inter_subset_right
      _ = _ := by rw [Real.volume_Icc, sub_zero]
  · calc ENNReal.ofReal s = volume (Set.Ico 0 s) := by rw [Real.volume_Ico, sub_zero]
      _ ≤ _ := by
        apply measure_mono
        intro u hu
        exact ⟨⟨hu.1, lt_of_lt_of_le hu.2 hs1⟩, hu.1, hu.2.le⟩

/-- Half of all impacts come in at less than 45 degrees. -/
example : volume {u : ℝ | 0 ≤ u ∧ u < 1 ∧ impactAngle u ≤ 45} = ENNReal.ofReal (1 / 2) := by
  rw [C77_law 45 (by norm_num) (by norm_num), show (45 : ℝ) * (Real.pi / 180) = Real.pi / 4 by ring, Real.sin_pi_div_four,
    div_pow, Real.sq_sqrt (by norm_num)]
  norm_num

/-! ### C78 -/

/-- With two independent uniform draws the probability of a box of longitudes and latitudes is the area of the box on the unit
sphere, divided by the area `4 π` of the sphere. -/
theorem C78_law (l1 l2 p1 p2 : ℝ) (hl1 : -180 ≤ l1) (hl : l1 ≤ l2) (hl2 : l2 ≤ 180) (hp1 : -90 ≤ p1) (hp : p1 ≤ p2)
    (hp2 : p2 ≤ 90) :
    volume {x : ℝ × ℝ | (0 ≤ x.1 ∧ x.1 < 1) ∧ (0 ≤ x.2 ∧ x.2 < 1) ∧
      (l1 ≤ (randomLocation x.1 x.2).1 ∧ (randomLocation x.1 x.2).1 < l2) ∧
      (p1 < (randomLocation x.1 x.2).2 ∧ (randomLocation x.1 x.2).2 ≤ p2)} =
    ENNReal.ofReal ((l2 - l1) * (Real.pi / 180) * (Real.sin (p2 * (Real.pi / 180)) - Real.sin (p1 * (Real.pi / 180))) /
      (4 * Real.pi)) := by
  have hpi := Real.pi_pos
  have hlon : ∀ u v : ℝ, (randomLocation u v).1 = 360 * u - 180 := by
    intro u v; unfold randomLocation; field_simp; ring
  have s1 := Real.neg_one_le_sin (p1 * (Real.pi / 180))
  have s2 := Real.sin_le_one (p2 * (Real.pi / 180))
  have hset : {x : ℝ × ℝ | (0 ≤ x.1 ∧ x.1 < 1) ∧ (0 ≤ x.2 ∧ x.2 < 1) ∧
      (l1 ≤ (randomLocation x.1 x.2).1 ∧ (randomLocation x.1 x.2).1 < l2) ∧
      (p1 < (randomLocation x.1 x.2).2 ∧ (randomLocation x.1 x.2).2 ≤ p2)} =
      Set.Ico ((l1 + 180) / 360) ((l2 + 180) / 360) ×ˢ
      Set.Ico ((1 - Real.sin (p2 * (Real.pi / 180))) / 2) ((1 - Real.sin (p1 * (Real.pi / 180))) / 2) := by
    ext ⟨u, v⟩
    simp only [Set.mem_ofPred_eq, Set.mem_prod, Set.mem_Ico]
    rw [hlon]
    constructor
    · rintro ⟨⟨a, b⟩, ⟨c, d⟩, ⟨e, f⟩, g, h⟩
      have key := (C78_location u v a b c d).2.2.2.2
      have k1 := (key p1 hp1 (by linarith)).not.mp (not_le.mpr g)
      have k2 := (key p2 (by linarith) hp2).mp h
      push Not at k1
      refine ⟨⟨?_, ?_⟩, ?_, ?_⟩ <;> linarith
    · rintro ⟨⟨a, b⟩, c, d⟩
      have u0 : 0 ≤ u := by linarith
      have u1 : u < 1 := by linarith
      have v0 : 0 ≤ v := by linarith
      have v1 : v < 1 := by linarith
      have key := (C78_location u v u0 u1 v0 v1).2.2.2.2
      refine ⟨⟨u0, u1⟩, ⟨v0, v1⟩, ⟨by linarith, by linarith⟩, ?_, ?_⟩
      · exact not_le.mp ((key p1 hp1 (by linarith)).not.mpr (by linarith))
      · exact (key p2 (by linarith) hp2).mpr (by linarith)
  rw [hset, Measure.volume_eq_prod, Measure.prod_prod, Real.volume_Ico, Real.volume_Ico, ← ENNReal.ofReal_mul]
  · congr 1
    field_simp
    ring
  · linarith

/-- The northern part of a quarter of the longitudes gets an eighth of the impacts. -/
example : volume {x : ℝ × ℝ | (0 ≤ x.1 ∧ x.1 < 1) ∧ (0 ≤ x.2 ∧ x.2 < 1) ∧
      (0 ≤ (randomLocation x.1 x.2).1 ∧ (randomLocation x.1 x.2).1 < 90) ∧
      (0 < (randomLocation x.1 x.2).2 ∧ (randomLocation x.1 x.2).2 ≤ 90)} = ENNReal.ofReal (1 / 8) := by
  rw [C78_law 0 90 0 90 (by norm_num) (by norm_num) (by norm_num) (by norm_num) (by norm_num) (by norm_num),
    show (90 : ℝ) * (Real.pi / 180) = Real.pi / 2 by ring, Real.sin_pi_div_two, zero_mul, Real.sin_zero]
  congr 1
  have := Real.pi_pos.ne'
  field_simp
  norm_num

/-! ### C56 -/

/-- The point of a triangle with weights `1 - q₁ - q₂`, `q₁` and `q₂` of its corners. -/
noncomputable def bary (t : Vec × Vec × Vec) (q : ℝ × ℝ) : Vec := (1 - q.1 - q.2) • t.1 + q.1 • t.2.1 + q.2 • t.2.2

/-- The weights of the points of a triangle that lie in `A`. -/
def weightsIn (t : Vec × Vec × Vec) (A : Set Vec) : Set (ℝ × ℝ) :=
  {q | 0 ≤ q.1 ∧ 0 ≤ q.2 ∧ q.1 + q.2 ≤ 1 ∧ bary t q ∈ A}

theorem measurable_bary (t : Vec × Vec × Vec) : Measurable (bary t) := by
  unfold bary
  fun_prop

theorem measurable_weightsIn (t : Vec × Vec × Vec) (A : Set Vec) (hA : MeasurableSet A) : MeasurableSet (weightsIn t A) := by
  have h1 : MeasurableSet {q : ℝ × ℝ | 0 ≤ q.1} := measurableSet_le measurable_const measurable_fst
  have h2 : MeasurableSet {q : ℝ × ℝ | 0 ≤ q.2} := measurableSet_le measurable_const measurable_snd
  have h3 : MeasurableSet {q : ℝ × ℝ | q.1 + q.2 ≤ 1} :=
    measurableSet_le (measurable_fst.add measurable_snd) measurable_const
  exact h1.inter (h2.inter (h3.inter (measurable_bary t hA)))

theorem null_line (a b c : ℝ) (hb : b ≠ 0) : volume {q : ℝ × ℝ | a * q.1 + b * q.2 = c} = 0 := by
  have hm : MeasurableSet {q : ℝ × ℝ | a * q.1 + b * q.2 = c} :=
    measurableSet_eq_fun (by fun_prop) measurable_const
  rw [Measure.volume_eq_prod, Measure.measure_prod_null hm]
  refine Filter.Eventually.of_forall fun x => ?_
  have : Prod.mk x ⁻¹' {q : ℝ × ℝ | a * q.1 + b * q.2 = c} ⊆ {(c - a * x) / b} := by
    intro y hy
    simp only [Set.mem_preimage, Set.mem_ofPred_eq] at hy
    rw [Set.mem_singleton_iff, eq_div_iff hb]
    linarith
  exact measure_mono_null this Real.volume_singleton

theorem null_line' (c : ℝ) : volume {q : ℝ × ℝ | q.1 = c} = 0 := by
  have : {q : ℝ × ℝ | q.1 = c} = {c} ×ˢ Set.univ := by ext; simp
  rw [this, Measure.volume_eq_prod, Measure.prod_prod, Real.volume_singleton, zero_mul]

/-- Two uniform draws, folded into the triangle, are uniform in the triangle. -/
theorem fold_uniform (t : Vec × Vec × Vec) (A : Set Vec) (hA : MeasurableSet A) :
    volume {r : ℝ × ℝ | (0 ≤ r.1 ∧ r.1 < 1) ∧ (0 ≤ r.2 ∧ r.2 < 1) ∧ trianglePoint t r.1 r.2 ∈ A} =
      2 * volume (weightsIn t A) := by
  set S := weightsIn t A with hS
  have hSm := measurable_weightsIn t A hA
  -- the weights strictly inside
  set S' : Set (ℝ × ℝ) := S ∩ {q | 0 < q.1 ∧ 0 < q.2 ∧ q.1 + q.2 < 1} with hS'
  have hin : MeasurableSet {q : ℝ × ℝ | 0 < q.1 ∧ 0 < q.2 ∧ q.1 + q.2 < 1} :=
    (measurableSet_lt measurable_const measurable_fst).inter
      ((measurableSet_lt measurable_const measurable_snd).inter
        (measurableSet_lt (measurable_fst.add measurable_snd) measurable_const))
  have hS'm : MeasurableSet S' := hSm.inter hin
  have hedge : volume (({q : ℝ × ℝ | q.1 = 0} ∪ {q : ℝ × ℝ | (0 : ℝ) * q.1 + 1 * q.2 = 0}) ∪
      {q : ℝ × ℝ | (1 : ℝ) * q.1 + 1 * q.2 = 1}) = 0 := by
    rw [measure_union_null_iff, measure_union_null_iff]
    exact ⟨⟨null_line' 0, null_line 0 1 0 one_ne_zero⟩, null_line 1 1 1 one_ne_zero⟩
  have hSS' : volume S' = volume S := by
    apply le_antisymm (measure_mono Set.inter_subset_left)
    have : S ⊆ S' ∪ (({q : ℝ × ℝ | q.1 = 0} ∪ {q : ℝ × ℝ | (0 : ℝ) * q.1 + 1 * q.2 = 0}) ∪
      {q : ℝ × ℝ | (1 : ℝ) * q.1 + 1 * q.2 = 1}) := by
      rintro ⟨a, b⟩ h
      have h' := h
      rw [hS] at h'
      obtain ⟨h1, h2, h3, h4⟩ := h'
      simp only at h1 h2 h3
      by_cases e1 : a = 0
      · right; left; left; exact e1
      by_cases e2 : b = 0
      · right; left; right; simp [e2]
      by_cases e3 : a + b = 1
      · right; right; simpa using e3
      · left
        exact ⟨h, lt_of_le_of_ne h1 (Ne.symm e1), lt_of_le_of_ne h2 (Ne.symm e2), lt_of_le_of_ne h3 e3⟩
    calc volume S ≤ _ := measure_mono this
      _ ≤ _ := measure_union_le _ _
      _ = volume S' := by rw [hedge, add_zero]
  -- the mirrored copy
  set R : Set (ℝ × ℝ) := (fun q : ℝ × ℝ => (1, 1) - q) ⁻¹' S' with hR
  have hmp : MeasurePreserving (fun q : ℝ × ℝ => ((1, 1) : ℝ × ℝ) - q) volume volume :=
    (Measure.measurePreserving_sub_left (volume : Measure ℝ) 1).prod (Measure.measurePreserving_sub_left (volume : Measure ℝ) 1)
  have hRv : volume R = volume S' := hmp.measure_preimage hS'm.nullMeasurableSet
  have hRm : MeasurableSet R := hmp.measurable hS'm
  have hdisj : Disjoint S' R := by
    rw [Set.disjoint_left]
    rintro ⟨a, b⟩ ⟨_, h⟩ ⟨_, h'⟩
    simp only [Set.mem_ofPred_eq, Prod.mk_sub_mk] at h h'
    linarith [h.1, h.2.1, h.2.2, h'.1, h'.2.1, h'.2.2]
  have hU : volume (S' ∪ R) = 2 * volume S := by
    rw [measure_union hdisj hRm, hRv, hSS', two_mul]
  rw [← hU]
  apply le_antisymm
  · -- all draws but a null set fall into one of the copies
    have : {r : ℝ × ℝ | (0 ≤ r.1 ∧ r.1 < 1) ∧ (0 ≤ r.2 ∧ r.2 < 1) ∧ trianglePoint t r.1 r.2 ∈ A} ⊆
        (S' ∪ R) ∪ (({q : ℝ × ℝ | q.1 = 0} ∪ {q : ℝ × ℝ | (0 : ℝ) * q.1 + 1 * q.2 = 0}) ∪
      {q : ℝ × ℝ | (1 : ℝ) * q.1 + 1 * q.2 = 1}) := by
      rintro ⟨a, b⟩ ⟨⟨a0, a1⟩, ⟨b0, b1⟩, h⟩
      simp only at a0 a1 b0 b1
      by_cases e1 : a = 0
      · right; left; left; exact e1
      by_cases e2 : b = 0
      · right; left; right; simp [e2]
      by_cases e3 : a + b = 1
      · right; right; simpa using e3
      left
      have pa := lt_of_le_of_ne a0 (Ne.symm e1)
      have pb := lt_of_le_of_ne b0 (Ne.symm e2)
      unfold trianglePoint at h
      simp only at h
      by_cases hgt : a + b > 1
      · rw [if_pos hgt, if_pos hgt] at h
        right
        refine ⟨⟨?_, ?_, ?_, h⟩, ?_, ?_, ?_⟩ <;> simp only [Prod.mk_sub_mk] <;> linarith
      · rw [if_neg hgt, if_neg hgt] at h
        have hlt : a + b < 1 := lt_of_le_of_ne (not_lt.mp hgt) e3
        left
        exact ⟨⟨a0, b0, hlt.le, h⟩, pa, pb, hlt⟩
    calc _ ≤ _ := measure_mono this
      _ ≤ _ := measure_union_le _ _
      _ = _ := by rw [hedge, add_zero]
  · apply measure_mono
    rintro ⟨a, b⟩ (⟨h, h'⟩ | ⟨h, h'⟩)
    · obtain ⟨_, _, _, h4⟩ := h
      simp only [Set.mem_ofPred_eq] at h'
      refine ⟨⟨h'.1.le, by simp only; linarith [h'.2.1, h'.2.2]⟩, ⟨h'.2.1.le, by simp only; linarith [h'.1, h'.2.2]⟩, ?_⟩
      unfold trianglePoint
      have hng : ¬ a + b > 1 := by linarith [h'.2.2]
      simp only [if_neg hng]
      exact h4
    · obtain ⟨_, _, _, h4⟩ := h
      simp only [Set.mem_ofPred_eq, Prod.mk_sub_mk] at h'
      refine ⟨⟨by simp only; linarith [h'.1, h'.2.1, h'.2.2], by simp only; linarith [h'.1]⟩,
        ⟨by simp only; linarith [h'.1, h'.2.1, h'.2.2], by simp only; linarith [h'.2.1]⟩, ?_⟩
      unfold trianglePoint
      have hg : a + b > 1 := by linarith [h'.2.2]
      simp only [if_pos hg]
      exact h4

/-- All the weights of a triangle together: an area of 1/2. -/
theorem weights_all (t : Vec × Vec × Vec) : 2 * volume (weightsIn t Set.univ) = 1 := by
  rw [← fold_uniform t Set.univ MeasurableSet.univ]
  have : {r : ℝ × ℝ | (0 ≤ r.1 ∧ r.1 < 1) ∧ (0 ≤ r.2 ∧ r.2 < 1) ∧ trianglePoint t r.1 r.2 ∈ Set.univ} =
      Set.Ico (0 : ℝ) 1 ×ˢ Set.Ico (0 : ℝ) 1 := by ext; simp
  rw [this, Measure.volume_eq_prod, Measure.prod_prod, Real.volume_Ico]
  simp

theorem searchLeft_mono (a : List ℝ) : Monotone (searchLeft a) := by
  intro x y hxy
  unfold searchLeft
  induction a with
  | nil => simp
  | cons b a ih =>
    rw [List.takeWhile_cons, List.takeWhile_cons]
    by_cases h : b < x
    · rw [if_pos (by simpa using h), if_pos (by simpa using lt_of_lt_of_le h hxy)]
      simpa using ih
    · rw [if_neg (by simpa using h)]; simp

/-- Random points of a face are uniform on the face: for three independent uniform draws, the probability of a region is the
sum over the triangles of the face of the share of the triangle in the area times the fraction of the triangle in the region
(the weights of all its points make up an area of 1/2). -/
theorem C56_uniform (nodes : List Vec) (hT : 0 < totalArea nodes) (A : Set Vec) (hA : MeasurableSet A) :
    volume {r : ℝ × ℝ × ℝ | (0 ≤ r.1 ∧ r.1 < 1) ∧ (0 ≤ r.2.1 ∧ r.2.1 < 1) ∧ (0 ≤ r.2.2 ∧ r.2.2 < 1) ∧
      ∃ p ∈ A, locationOnFace nodes r.1 r.2.1 r.2.2 = some p} =
    ((fan nodes).map fun t => ENNReal.ofReal (fanArea t.1 t.2.1 t.2.2 / totalArea nodes) *
      (2 * volume (weightsIn t A))).sum := by
  set areas := (fan nodes).map fun t => fanArea t.1 t.2.1 t.2.2 with ha
  set P : ℕ → Set ℝ := fun k => {r | 0 < r ∧ r < 1 ∧ searchLeft (cumAreas areas) r = k} with hP
  set Q : Vec × Vec × Vec → Set (ℝ × ℝ) := fun t =>
    {r | (0 ≤ r.1 ∧ r.1 < 1) ∧ (0 ≤ r.2 ∧ r.2 < 1) ∧ trianglePoint t r.1 r.2 ∈ A} with hQ
  have hPm : ∀ k, MeasurableSet (P k) := by
    intro k
    have h1 : MeasurableSet {r : ℝ | 0 < r} := measurableSet_lt measurable_const measurable_id
    have h2 : MeasurableSet {r : ℝ | r < 1} := measurableSet_lt measurable_id measurable_const
    have h3 : MeasurableSet (searchLeft (cumAreas areas) ⁻¹' {k}) :=
      (searchLeft_mono (cumAreas areas)).measurable (measurableSet_singleton k)
    exact h1.inter (h2.inter h3)
  have hQm : ∀ t, MeasurableSet (Q t) := by
    intro t
    have h1 : MeasurableSet {r : ℝ × ℝ | 0 ≤ r.1 ∧ r.1 < 1} :=
      (measurableSet_le measurable_const measurable_fst).inter (measurableSet_lt measurable_fst measurable_const)
    have h2 : MeasurableSet {r : ℝ × ℝ | 0 ≤ r.2 ∧ r.2 < 1} :=
      (measurableSet_le measurable_const measurable_snd).inter (measurableSet_lt measurable_snd measurable_const)
    have hc : MeasurableSet {r : ℝ × ℝ | r.1 + r.2 > 1} :=
      measurableSet_lt measurable_const (measurable_fst.add measurable_snd)
    have hm : Measurable fun r : ℝ × ℝ => trianglePoint t r.1 r.2 := by
      classical
      have e : (fun r : ℝ × ℝ => trianglePoint t r.1 r.2) = fun r : ℝ × ℝ =>
          bary t (if r.1 + r.2 > 1 then ((1, 1) : ℝ × ℝ) - r else r) := by
        funext r
        unfold trianglePoint bary
        by_cases h : r.1 + r.2 > 1
        · simp only [if_pos h, Prod.fst_sub, Prod.snd_sub]
        · simp only [if_neg h]
      rw [e]
      exact (measurable_bary t).comp (Measurable.ite hc (measurable_const.sub measurable_id) measurable_id)
    exact h1.inter (h2.inter (hm hA))
  set E := ⋃ k : Fin (fan nodes).length, P k ×ˢ Q (fan nodes)[k.1] with hE
  have hEv : volume E = ((fan nodes).map fun t => ENNReal.ofReal (fanArea t.1 t.2.1 t.2.2 / totalArea nodes) *
      (2 * volume (weightsIn t A))).sum := by
    rw [hE, measure_iUnion]
    · rw [tsum_fintype, ← Fin.sum_univ_fun_getElem]
      apply Finset.sum_congr rfl
      intro k _
      rw [Measure.volume_eq_prod, Measure.prod_prod]
      congr 1
      · exact C56_area_weighted nodes hT k k.2
      · exact fold_uniform _ A hA
    · intro i j hij
      rw [Function.onFun, Set.disjoint_left]
      rintro ⟨a, b⟩ ⟨h1, _⟩ ⟨h2, _⟩
      exact hij (Fin.ext (h1.2.2.symm.trans h2.2.2))
    · intro k
      exact (hPm k).prod (hQm _)
  rw [← hEv]
  apply le_antisymm
  · have hnull : volume {r : ℝ × ℝ × ℝ | r.1 = 0} = 0 := by
      have : {r : ℝ × ℝ × ℝ | r.1 = 0} = {0} ×ˢ Set.univ := by ext; simp
      rw [this, Measure.volume_eq_prod, Measure.prod_prod, Real.volume_singleton, zero_mul]
    have hsub : {r : ℝ × ℝ × ℝ | (0 ≤ r.1 ∧ r.1 < 1) ∧ (0 ≤ r.2.1 ∧ r.2.1 < 1) ∧ (0 ≤ r.2.2 ∧ r.2.2 < 1) ∧
        ∃ p ∈ A, locationOnFace nodes r.1 r.2.1 r.2.2 = some p} ⊆ E ∪ {r | r.1 = 0} := by
      rintro ⟨r0, r1, r2⟩ ⟨⟨a, b⟩, h1, h2, p, hp, hl⟩
      simp only at a b h1 h2 hl
      by_cases e : r0 = 0
      · right; exact e
      left
      simp only [locationOnFace] at hl
      rw [← ha] at hl
      obtain ⟨t, ht, hp'⟩ := Option.map_eq_some_iff.mp hl
      obtain ⟨hk, rfl⟩ := List.getElem?_eq_some_iff.mp ht
      rw [hE, Set.mem_iUnion]
      exact ⟨⟨_, hk⟩, ⟨lt_of_le_of_ne a (Ne.symm e), b, rfl⟩, h1, h2, hp' ▸ hp⟩
    calc _ ≤ _ := measure_mono hsub
      _ ≤ _ := measure_union_le _ _
      _ = _ := by rw [hnull, add_zero]
  · apply measure_mono
    rintro ⟨r0, r1, r2⟩ h
    rw [hE, Set.mem_iUnion] at h
    obtain ⟨k, ⟨h1, h2, h3⟩, h4, h5, h6⟩ := h
    simp only at h1 h2 h3 h4 h5 h6
    refine ⟨⟨h1.le, h2⟩, h4, h5, _, h6, ?_⟩
    simp only [locationOnFace]
    rw [← ha, h3, List.getElem?_eq_getElem k.2]
    rfl

/-- A square in a plane has a positive area. -/
example : 0 < totalArea [![0, 0, 1], ![1, 0, 1], ![1, 1, 1], ![0, 1, 1]] := by
  simp [totalArea, fan, fanArea, crossV, normV]
  norm_num

end Verif.Sampling
