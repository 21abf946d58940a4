import Verif.Props.Joint
import Verif.Props.Run
import Verif.Props.Production

/-! Property C208: the number of intervals of a run does not change the statistics of its craters. -/

namespace Verif.Populate

open Verif.Sampling MeasureTheory ProbabilityTheory

/-- The probability that a population of the faces for one window has `k j` craters in the `j`-th box of diameters and places.  `F` is the number of
craters per area in the window that are larger than a diameter. -/
noncomputable def chance {m : ℕ} (F : ℝ → ℝ) (lo hi : ℝ) (area : ℕ → ℝ) (nodes : ℕ → List Vec) (faces : List ℕ) (lower upper : Fin m → ℝ)
    (A : Fin m → Set Vec) (k : Fin m → ℕ) : ENNReal :=
  ∑' n, poissonMeasure (expectedNumber F lo (faces.map area).sum).toNNReal {n} *
    Measure.pi (fun _ : Fin n => uniform5)
      {ω | ∀ j, ∃ S : Finset (Fin n),
        (∀ i, i ∈ S ↔ ω i ∈ makes F lo hi area nodes faces (lower j) (upper j) (A j)) ∧ S.card = k j}

/-- The ways to divide numbers of craters between the first window and the others: what the first one gets. -/
def parts {m : ℕ} (k : Fin m → ℕ) : Finset (Fin m → ℕ) := Fintype.piFinset fun j => Finset.range (k j + 1)

/-- The probability that populations for the windows of a run, made one after the other with independent draws, have together `k j` craters in the
`j`-th box.  `N d ts te` is the number of craters per area larger than `d` that form from the age `ts` to the age `te`. -/
noncomputable def total {m : ℕ} (N : ℝ → ℝ → ℝ → ℝ) (lo hi : ℝ) (area : ℕ → ℝ) (nodes : ℕ → List Vec) (faces : List ℕ) (lower upper : Fin m → ℝ)
    (A : Fin m → Set Vec) : List (ℝ × ℝ) → (Fin m → ℕ) → ENNReal
  | [], k => if k = 0 then 1 else 0
  | w :: ws, k => ∑ a ∈ parts k,
      chance (fun d => N d w.1 w.2) lo hi area nodes faces lower upper A a * total N lo hi area nodes faces lower upper A ws (k - a)

/-- Independent Poisson numbers add up to a Poisson number. -/
theorem poisson_add (a b : NNReal) (n : ℕ) :
    ∑ i ∈ Finset.range (n + 1), poissonMeasure a {i} * poissonMeasure b {n - i} = poissonMeasure (a + b) {n} := by
  simp only [poissonMeasure_singleton]
  have h : ∀ i ∈ Finset.range (n + 1),
      ENNReal.ofReal (Real.exp (-a) * a ^ i / i.factorial) * ENNReal.ofReal (Real.exp (-b) * b ^ (n - i) / (n - i).factorial) =
      ENNReal.ofReal (Real.exp (-(a + b : NNReal)) / n.factorial * ((a : ℝ) ^ i * (b : ℝ) ^ (n - i) * (n.choose i))) := by
    intro i hi
    have hle : i ≤ n := Nat.lt_succ_iff.1 (Finset.mem_range.1 hi)
    rw [← ENNReal.ofReal_mul (by positivity)]
    congr 1
    have hc : (n.choose i : ℝ) = n.factorial / (i.factorial * (n - i).factorial) := Nat.cast_choose ℝ hle
    have he : Real.exp (-(a + b : NNReal)) = Real.exp (-a) * Real.exp (-b) := by
      rw [← Real.exp_add]; congr 1; push_cast; ring
    have h1 : (n.factorial : ℝ) ≠ 0 := by positivity
    have h2 : (i.factorial : ℝ) ≠ 0 := by positivity
    have h3 : ((n - i).factorial : ℝ) ≠ 0 := by positivity
    rw [hc, he]
    field_simp
  rw [Finset.sum_congr rfl h, ← ENNReal.ofReal_sum_of_nonneg (fun i _ => by positivity), ← Finset.mul_sum, ← add_pow]
  congr 1
  push_cast
  ring

theorem poisson_zero (n : ℕ) : poissonMeasure 0 {n} = if n = 0 then 1 else 0 := by
  rw [poissonMeasure_singleton]
  rcases n with _ | n <;> simp

/-- The same for several boxes at once. -/
theorem poisson_split {m : ℕ} (a b : Fin m → NNReal) (k : Fin m → ℕ) :
    ∑ x ∈ parts k, (∏ j, poissonMeasure (a j) {x j}) * ∏ j, poissonMeasure (b j) {(k - x) j} = ∏ j, poissonMeasure (a j + b j) {k j} := by
  simp only [← poisson_add, parts]
  rw [Finset.prod_univ_sum]
  apply Finset.sum_congr rfl
  intro x _
  rw [← Finset.prod_mul_distrib]
  rfl

/-- Multiples of a production function have the multiples of its continuation. -/
theorem scaled_laws {S M : ℝ → ℝ} {lo hi : ℝ} (p : Population S lo hi) (hM : ByPowerLaws S lo hi M) (c : ℝ) (hc : 0 < c) :
    Population (fun d => S d * c) lo hi ∧ ByPowerLaws (fun d => S d * c) lo hi fun d => M d * c := by
  refine ⟨⟨p.lo_pos, p.lo_lt, ?_, mul_pos p.pos hc, mul_lt_mul_of_pos_right p.more hc⟩, ?_⟩
  · intro x hx y hy hxy
    exact mul_le_mul_of_nonneg_right (p.anti hx hy hxy) hc.le
  · intro j hj d h1 h2
    simp only
    rw [hM j hj d h1 h2, mul_div_mul_right _ _ hc.ne']
    ring

/-- One window of a production function that is a size distribution times a chronology. -/
theorem chance_window {m : ℕ} {S T M : ℝ → ℝ} {lo hi : ℝ} (p : Population S lo hi) (hM : ByPowerLaws S lo hi M) (area : ℕ → ℝ)
    (nodes : ℕ → List Vec) (hm : Faces area nodes) (faces : List ℕ) (hne : faces ≠ []) (lower upper : Fin m → ℝ)
    (hlu : ∀ j, lo ≤ lower j ∧ lower j ≤ upper j ∧ upper j ≤ hi) (A : Fin m → Set Vec) (hA : ∀ j, MeasurableSet (A j))
    (hd : Pairwise fun a b => Disjoint (A a) (A b) ∨ upper a ≤ lower b ∨ upper b ≤ lower a) (base : Fin m → NNReal)
    (hbase : ∀ j, (base j : ENNReal) = ENNReal.ofReal (S lo / (S lo - S hi) * (M (lower j) - M (upper j))) *
        (faces.map fun f => ENNReal.ofReal (area f) * fraction (nodes f) (A j)).sum)
    (ts te : ℝ) (hw : T te < T ts) (k : Fin m → ℕ) :
    chance (fun d => S d * (T ts - T te)) lo hi area nodes faces lower upper A k =
      ∏ j, poissonMeasure ((T ts - T te).toNNReal * base j) {k j} := by
  have hc : 0 < T ts - T te := by linarith
  obtain ⟨p', hM'⟩ := scaled_laws p hM (T ts - T te) hc
  have hlp : 0 < S lo := p.pos.trans p.more
  have harea : 0 ≤ (faces.map area).sum := by
    apply List.sum_nonneg
    intro x hx
    obtain ⟨f, -, rfl⟩ := List.mem_map.1 hx
    exact (hm.pos f).le
  apply C203_joint_partial p' hM' area nodes hm faces hne lower upper hlu A hA hd
  · rw [Real.coe_toNNReal]
    unfold expectedNumber
    positivity
  · intro j
    have hsub : S lo - S hi ≠ 0 := by linarith [p.more]
    have h0 : 0 ≤ S lo / (S lo - S hi) * (M (lower j) - M (upper j)) :=
      mul_nonneg (div_nonneg hlp.le (by linarith [p.more])) (by linarith [hM.anti p _ _ (hlu j).1 (hlu j).2.1 (hlu j).2.2])
    have e : S lo * (T ts - T te) / (S lo * (T ts - T te) - S hi * (T ts - T te)) *
        (M (lower j) * (T ts - T te) - M (upper j) * (T ts - T te)) =
        (T ts - T te) * (S lo / (S lo - S hi) * (M (lower j) - M (upper j))) := by
      have : S lo * (T ts - T te) - S hi * (T ts - T te) = (S lo - S hi) * (T ts - T te) := by ring
      rw [this]
      field_simp
    rw [e, ENNReal.ofReal_mul hc.le, mul_assoc, ← hbase j, ENNReal.coe_mul]
    rfl

/-- The number of intervals of a run, and where they begin and end, does not change the statistics of its craters: whatever windows cover a period
without gap or overlap, the numbers of craters in boxes of diameters and places have the same joint distribution as in a single population for the whole
period.  The production function is a size distribution that falls with diameter times a chronology that grows with age. -/
theorem C208_schedule {m : ℕ} {N : ℝ → ℝ → ℝ → ℝ} {S T : ℝ → ℝ} {lo hi ts te : ℝ} (h : te < ts)
    (hN : ∀ d ts te, N d ts te = S d * (T ts - T te)) (p : Population S lo hi) (hT : StrictMonoOn T (Set.Ici te)) (area : ℕ → ℝ) (nodes : ℕ → List Vec)
    (hm : Faces area nodes) (faces : List ℕ) (hne : faces ≠ []) (lower upper : Fin m → ℝ)
    (hlu : ∀ j, lo ≤ lower j ∧ lower j ≤ upper j ∧ upper j ≤ hi) (A : Fin m → Set Vec) (hA : ∀ j, MeasurableSet (A j))
    (hd : Pairwise fun a b => Disjoint (A a) (A b) ∨ upper a ≤ lower b ∨ upper b ≤ lower a) (ws : List (ℝ × ℝ))
    (hws : Run.Tiles ws ts te) (k : Fin m → ℕ) :
    total N lo hi area nodes faces lower upper A ws k = chance (fun d => N d ts te) lo hi area nodes faces lower upper A k := by
  simp only [hN]
  obtain ⟨M, hM⟩ := exists_byPowerLaws S p
  have hlp : 0 < S lo := p.pos.trans p.more
  have harea : 0 ≤ (faces.map area).sum := by
    apply List.sum_nonneg
    intro x hx
    obtain ⟨f, -, rfl⟩ := List.mem_map.1 hx
    exact (hm.pos f).le
  have hb := fun j => exists_mean (N := M) p area nodes hm faces hne (lower j) (upper j) (A j) (hA j)
    (expectedNumber S lo (faces.map area).sum).toNNReal (Real.coe_toNNReal _ (mul_nonneg hlp.le harea))
  choose base hbase using hb
  rw [chance_window p hM area nodes hm faces hne lower upper hlu A hA hd base hbase ts te (hT Set.self_mem_Ici h.le h) k]
  have key : ∀ (ws : List (ℝ × ℝ)) (ts : ℝ), te ≤ ts → Run.Tiles ws ts te → ∀ k : Fin m → ℕ,
      total N lo hi area nodes faces lower upper A ws k =
        ∏ j, poissonMeasure ((T ts - T te).toNNReal * base j) {k j} := by
    intro ws
    induction ws with
    | nil =>
      intro ts _ hws k
      simp only [Run.Tiles] at hws
      subst hws
      simp only [sub_self, Real.toNNReal_zero, zero_mul, poisson_zero, total]
      by_cases hk : k = 0
      · simp [hk]
      · rw [if_neg hk]
        obtain ⟨j, hj⟩ := Function.ne_iff.1 hk
        exact (Finset.prod_eq_zero (Finset.mem_univ j) (by simpa using hj)).symm
    | cons w ws ih =>
      intro ts _ hws k
      obtain ⟨x, y⟩ := w
      obtain ⟨rfl, hyx, hrest⟩ := hws
      have hle : te ≤ y := by
        clear ih
        induction ws generalizing y with
        | nil => exact (show y = te from hrest).symm.le
        | cons v vs ih2 =>
          obtain ⟨v1, v2⟩ := v
          obtain ⟨rfl, hv, hr⟩ := hrest
          exact (ih2 v2 (hv.trans hyx) hr).trans hv.le
      simp only [total, hN]
      rw [Finset.sum_congr rfl fun a _ => by
        rw [chance_window p hM area nodes hm faces hne lower upper hlu A hA hd base hbase x y (hT hle (hle.trans hyx.le) hyx) a, ih y hle hrest (k - a)]]
      rw [poisson_split]
      apply Finset.prod_congr rfl
      intro j _
      rw [← add_mul, ← Real.toNNReal_add (by linarith [hT hle (hle.trans hyx.le) hyx])
        (by linarith [hT.monotoneOn Set.self_mem_Ici hle hle])]
      congr 4
      ring
  exact key ws ts h.le hws k

/-- The same for the production functions of the code: Neukum's for the Moon and for Mars, and every power law that falls with diameter. -/
theorem C208_functions {m : ℕ} {N : ℝ → ℝ → ℝ → ℝ}
    (hN : N = Production.moon.function ∨ N = Production.mars.function ∨
      ∃ p : Production.PowerLaw, 0 < p.coef ∧ p.slope < 0 ∧ N = p.function)
    {lo hi ts te : ℝ} (h : te < ts) (hlo : 0 < lo) (hhi : lo < hi) (area : ℕ → ℝ) (nodes : ℕ → List Vec)
    (hm : Faces area nodes) (faces : List ℕ) (hne : faces ≠ []) (lower upper : Fin m → ℝ)
    (hlu : ∀ j, lo ≤ lower j ∧ lower j ≤ upper j ∧ upper j ≤ hi) (A : Fin m → Set Vec) (hA : ∀ j, MeasurableSet (A j))
    (hd : Pairwise fun a b => Disjoint (A a) (A b) ∨ upper a ≤ lower b ∨ upper b ≤ lower a) (ws : List (ℝ × ℝ))
    (hws : Run.Tiles ws ts te) (k : Fin m → ℕ) :
    total N lo hi area nodes faces lower upper A ws k = chance (fun d => N d ts te) lo hi area nodes faces lower upper A k := by
  have anti : ∀ S : ℝ → ℝ, (∀ D D', 0 < D → D < D' → S D' < S D) → (∀ D, 0 < D → 0 < S D) → Population S lo hi := by
    intro S h1 h2
    refine ⟨hlo, hhi, ?_, h2 _ (hlo.trans hhi), h1 _ _ hlo hhi⟩
    intro a ha b hb hab
    rcases eq_or_lt_of_le hab with rfl | hlt
    · exact le_rfl
    · exact (h1 a b (lt_of_lt_of_le hlo ha.1) hlt).le
  rcases hN with rfl | rfl | ⟨p, hc, hs, rfl⟩
  · refine C208_schedule h (S := Production.moon.csfd) (T := Production.moon.n1) (fun _ _ _ => rfl) (anti _ Production.C72_moon_decreasing fun D hD => ?_)
      ((Production.n1_strictMono _ Production.moon_ok).strictMonoOn _) area nodes hm faces hne lower upper hlu A hA hd ws hws k
    exact mul_pos (Production.C72_positive _ (by norm_num [Production.moon]) (by norm_num [Production.moon]) _ (by positivity)) (by norm_num)
  · refine C208_schedule h (S := Production.mars.csfd) (T := Production.mars.n1) (fun _ _ _ => rfl) (anti _ Production.C72_mars_decreasing fun D hD => ?_)
      ((Production.n1_strictMono _ Production.mars_ok).strictMonoOn _) area nodes hm faces hne lower upper hlu A hA hd ws hws k
    exact mul_pos (Production.C72_positive _ (by norm_num [Production.mars]) (by norm_num [Production.mars]) _ (by positivity)) (by norm_num)
  · refine C208_schedule h (S := p.csfd) (T := id) (fun _ _ _ => rfl) (anti _ (fun D D' hD hDD => ?_) fun D hD => ?_)
      (strictMono_id.strictMonoOn _) area nodes hm faces hne lower upper hlu A hA hd ws hws k
    · exact mul_lt_mul_of_pos_left (Real.rpow_lt_rpow_of_neg hD hDD hs) hc
    · exact mul_pos hc (Real.rpow_pos_of_pos hD _)

/-- Two schedules of the same period. -/
example : Run.Tiles [(4000, 3000), (3000, 1000), (1000, 0)] 4000 0 ∧ Run.Tiles [(4000, 0)] 4000 0 ∧ StrictMonoOn (fun t : ℝ => 2 * t) (Set.Ici 0) ∧
    Population (fun d => d ^ (-3 : ℝ)) 10 12 := by
  refine ⟨by norm_num [Run.Tiles], by norm_num [Run.Tiles], ?_, cubes⟩
  intro a _ b _ hab
  simp only
  linarith

end Verif.Populate
