import Verif.Props.Sampling
import Verif.Model.Sample
import Mathlib.MeasureTheory.Measure.Lebesgue.Basic
import Mathlib.Analysis.SpecialFunctions.Pow.Real
import Mathlib.Tactic.FieldSimp
import Mathlib.Tactic.Positivity
import Mathlib.Tactic.NormNum

/-! Property C151: samples of a production function. -/

namespace Verif.Sampling

open MeasureTheory

/-! ### C151 -/

theorem sizeGrid_lo (lo hi : ℝ) (h : 0 < lo) : sizeGrid lo hi 0 = lo := by
  simp [sizeGrid, Real.exp_log h]

theorem sizeGrid_hi (lo hi : ℝ) (h : 0 < hi) : sizeGrid lo hi 49 = hi := by
  have : Real.log lo + (Real.log hi - Real.log lo) * (49 : ℕ) / 49 = Real.log hi := by push_cast; ring
  rw [sizeGrid, this, Real.exp_log h]

theorem sizeGrid_strict (lo hi : ℝ) (h0 : 0 < lo) (h : lo < hi) : StrictMono (sizeGrid lo hi) := by
  intro i j hij
  unfold sizeGrid
  apply Real.exp_lt_exp.mpr
  have hl : Real.log lo < Real.log hi := Real.log_lt_log h0 h
  have hc : (i : ℝ) < j := by exact_mod_cast hij
  have : (Real.log hi - Real.log lo) * i < (Real.log hi - Real.log lo) * j := by
    apply mul_lt_mul_of_pos_left hc; linarith
  have : (Real.log hi - Real.log lo) * i / 49 < (Real.log hi - Real.log lo) * j / 49 := by linarith
  linarith

theorem sizeGrid_mem (lo hi : ℝ) (h0 : 0 < lo) (h : lo < hi) (j : ℕ) (hj : j ≤ 49) :
    sizeGrid lo hi j ∈ Set.Icc lo hi := by
  have hm := (sizeGrid_strict lo hi h0 h).monotone
  constructor
  · have := hm (Nat.zero_le j); rwa [sizeGrid_lo lo hi h0] at this
  · have := hm hj; rwa [sizeGrid_hi lo hi (h0.trans h)] at this

/-- A range of diameters and the number of craters per area in the window larger than each diameter: it falls with the diameter
and is positive. -/
structure Population (F : ℝ → ℝ) (lo hi : ℝ) : Prop where
  lo_pos : 0 < lo
  lo_lt : lo < hi
  anti : AntitoneOn F (Set.Icc lo hi)
  pos : 0 < F hi
  more : F hi < F lo

theorem sizeTable_get (F : ℝ → ℝ) (lo hi : ℝ) (j : ℕ) (hj : j < 50) :
    (sizeTable F lo hi)[j]? = some ⟨sizeGrid lo hi (49 - j), F (sizeGrid lo hi (49 - j))⟩ := by
  simp [sizeTable, List.getElem?_map, List.getElem?_range hj]

theorem Population.table {F : ℝ → ℝ} {lo hi : ℝ} (p : Population F lo hi) :
    Table (sizeTable F lo hi) ⟨hi, F hi⟩ ⟨lo, F lo⟩ := by
  have hhi : 0 < hi := p.lo_pos.trans p.lo_lt
  have hlen : (sizeTable F lo hi).length = 50 := by simp [sizeTable]
  have hmem : ∀ e ∈ sizeTable F lo hi, ∃ j, j ≤ 49 ∧ e = ⟨sizeGrid lo hi j, F (sizeGrid lo hi j)⟩ := by
    intro e he
    obtain ⟨j, hj, rfl⟩ := List.mem_map.mp he
    exact ⟨49 - j, by omega, rfl⟩
  have hm := (sizeGrid_strict lo hi p.lo_pos p.lo_lt).monotone
  refine ⟨by omega, ?_, ?_, ?_, ?_, ?_, ?_, p.more⟩
  · rw [List.head?_eq_getElem?, sizeTable_get _ _ _ _ (by norm_num)]
    simp only [Nat.sub_zero, sizeGrid_hi lo hi hhi]
  · rw [List.getLast?_eq_getElem?, hlen, sizeTable_get _ _ _ _ (by norm_num)]
    simp only [show 49 - (50 - 1) = 0 from rfl, sizeGrid_lo lo hi p.lo_pos]
  · intro e he
    obtain ⟨j, _, rfl⟩ := hmem e he
    exact Real.exp_pos _
  · intro e he
    obtain ⟨j, hj, rfl⟩ := hmem e he
    have hg := sizeGrid_mem lo hi p.lo_pos p.lo_lt j hj
    exact lt_of_lt_of_le p.pos (p.anti hg ⟨p.lo_lt.le, le_refl _⟩ hg.2)
  · unfold sizeTable
    rw [List.pairwise_map]
    apply List.Pairwise.imp _ List.pairwise_lt_range
    intro a b hab
    exact hm (by omega)
  · unfold sizeTable
    rw [List.pairwise_map]
    apply List.Pairwise.imp _ List.pairwise_lt_range
    intro a b hab
    exact p.anti (sizeGrid_mem lo hi p.lo_pos p.lo_lt _ (by omega)) (sizeGrid_mem lo hi p.lo_pos p.lo_lt _ (by omega))
      (hm (by omega))

theorem Population.lowest {F : ℝ → ℝ} {lo hi : ℝ} (p : Population F lo hi) :
    lowest (sizeTable F lo hi) = F hi / F lo := by
  unfold Sampling.lowest
  rw [p.table.head, p.table.tail]
  rfl

theorem Population.frac {F : ℝ → ℝ} {lo hi : ℝ} (p : Population F lo hi) : 0 < F hi / F lo ∧ F hi / F lo < 1 := by
  have : 0 < F lo := p.pos.trans p.more
  exact ⟨div_pos p.pos this, (div_lt_one this).mpr p.more⟩

theorem Population.ok {F : ℝ → ℝ} {lo hi : ℝ} (p : Population F lo hi) : tableOk (sizeTable F lo hi) :=
  ⟨p.table.two, p.table.dpos, p.table.npos, p.table.incr.isChain⟩

theorem interp_gt {d0 d1 n0 n1 u : ℝ} (hd1 : 0 < d1) (hd : d1 < d0) (hn : n0 < n1) (h1 : u < n1) :
    d1 < interpolate d0 d1 n0 n1 u 0 := by
  have hl : Real.log d1 < Real.log d0 := Real.log_lt_log hd1 hd
  have t1 : (u - n0) / (n1 - n0) < 1 := by rw [div_lt_one (by linarith)]; linarith
  simp only [interpolate, mul_zero, add_zero, mul_one]
  rw [← Real.log_lt_iff_lt_exp hd1]
  nlinarith

/-- A draw gives a crater larger than a tabulated diameter exactly when it is below the normalised number of that diameter;
the noise only makes it larger, by less than one part in 10⁸. -/
theorem drawSize_spec {F : ℝ → ℝ} {lo hi : ℝ} (p : Population F lo hi) (t r : ℝ) (ht0 : 0 ≤ t) (ht1 : t < 1) (hr0 : 0 ≤ r)
    (hr1 : r < 1) :
    ∃ d, drawSize (sizeTable F lo hi) t r = .ok d ∧ lo ≤ d ∧ d < hi * (1 + 1e-8) ∧
    ∀ j ≤ 49, let u := F hi / F lo + (1 - F hi / F lo) * t
      (u < F (sizeGrid lo hi j) / F lo → sizeGrid lo hi j < d) ∧
      (F (sizeGrid lo hi j) / F lo ≤ u → d ≤ sizeGrid lo hi j * (1 + 1e-8 * r)) := by
  obtain ⟨c0, c1⟩ := p.frac
  have hu0 : F hi / F lo ≤ F hi / F lo + (1 - F hi / F lo) * t := by nlinarith
  have hu1 : F hi / F lo + (1 - F hi / F lo) * t < 1 := by nlinarith
  have hlow := p.lowest
  have T := p.table
  unfold drawSize
  rw [hlow]
  generalize F hi / F lo + (1 - F hi / F lo) * t = u at *
  obtain ⟨d, hd, hlo, hhi⟩ := C57_range (u := u) (r := r) T hu0 hu1 hr0 hr1
  refine ⟨d, hd, hlo, hhi, ?_⟩
  obtain ⟨k, e0, e1, g0, g1, b0, b1, hk, hr⟩ := size_segment (u := u) T hu0 hu1 r
  have hu : 0 < u := lt_of_lt_of_le c0 hu0
  have hlp : 0 < F lo := p.pos.trans p.more
  rw [hd] at hr
  injection hr with hr
  have hlen : (sizeTable F lo hi).length = 50 := by simp [sizeTable]
  have hk50 : k + 1 < 50 := by
    obtain ⟨h, _⟩ := List.getElem?_eq_some_iff.mp g1
    omega
  have q0 := g0
  have q1 := g1
  rw [sizeTable_get _ _ _ _ (by omega)] at q0 q1
  have s := sizeGrid_strict lo hi p.lo_pos p.lo_lt
  have hstrict : e1.diam < e0.diam := by
    rw [← Option.some.inj q0, ← Option.some.inj q1]
    exact s (by omega)
  have hd1 : 0 < e1.diam := T.dpos _ (List.mem_of_getElem? g1)
  have n0p : 0 < e0.num / F lo := div_pos (T.npos _ (List.mem_of_getElem? g0)) hlp
  have ha := interp_gt (d0 := e0.diam) (n0 := Real.log (e0.num / F lo)) (n1 := Real.log (e1.num / F lo)) (u := Real.log u)
    hd1 hstrict (Real.log_lt_log n0p (lt_of_le_of_lt b0 b1)) (Real.log_lt_log hu b1)
  have hb := (interp_bounds (d0 := e0.diam) (n0 := Real.log (e0.num / F lo)) (n1 := Real.log (e1.num / F lo)) (u := Real.log u)
    hd1 hstrict.le (Real.log_le_log n0p b0) (Real.log_lt_log hu b1)).2
  rw [interp_noise] at hr
  intro j hj
  have he : (sizeTable F lo hi)[49 - j]? = some ⟨sizeGrid lo hi j, F (sizeGrid lo hi j)⟩ := by
    rw [sizeTable_get _ _ _ _ (by omega), show 49 - (49 - j) = j by omega]
  have hkd0 : e0.diam = sizeGrid lo hi (49 - k) := by rw [← Option.some.inj q0]
  have hkd1 : e1.diam = sizeGrid lo hi (49 - (k + 1)) := by rw [← Option.some.inj q1]
  constructor
  · intro hlt
    have hjk : j ≤ 49 - (k + 1) := by
      by_contra hc
      have hjk : 49 - j ≤ k := by omega
      have hn : F (sizeGrid lo hi j) ≤ e0.num := by
        rcases Nat.lt_or_ge (49 - j) k with h | h
        · exact pairwise_get T.incr h he g0
        · have : 49 - j = k := by omega
          rw [this, g0] at he
          rw [Option.some.inj he]
      have := div_le_div_of_nonneg_right hn hlp.le
      linarith
    have := s.monotone hjk
    rw [← hkd1] at this
    have : 0 ≤ interpolate e0.diam e1.diam (Real.log (e0.num / F lo)) (Real.log (e1.num / F lo)) (Real.log u) 0 := by linarith
    simp only [] at hr
    nlinarith
  · intro hle
    have hjk : 49 - k ≤ j := by
      by_contra hc
      have hn : e1.num ≤ F (sizeGrid lo hi j) := by
        rcases Nat.lt_or_ge (k + 1) (49 - j) with h | h
        · exact pairwise_get T.incr h g1 he
        · have : 49 - j = k + 1 := by omega
          rw [this, g1] at he
          rw [Option.some.inj he]
      have := div_le_div_of_nonneg_right hn hlp.le
      linarith
    have h2 := s.monotone hjk
    rw [← hkd0] at h2
    have : 0 ≤ 1 + 1e-8 * r := by positivity
    rw [hr]
    exact mul_le_mul_of_nonneg_right (hb.trans h2) this

theorem mapM_ok {α : Type} (f : α → Except SizeErr ℝ) (l : List α) (h : ∀ a ∈ l, ∃ d, f a = .ok d) :
    ∃ ds : List ℝ, l.mapM f = .ok ds ∧ ds.length = l.length ∧ ∀ d ∈ ds, ∃ a ∈ l, f a = .ok d := by
  induction l with
  | nil => exact ⟨[], rfl, rfl, by simp⟩
  | cons a l ih =>
    obtain ⟨d, hd⟩ := h a (by simp)
    obtain ⟨ds, h1, h2, h3⟩ := ih fun b hb => h b (by simp [hb])
    refine ⟨d :: ds, ?_, by simp [h2], ?_⟩
    · rw [List.mapM_cons, hd, h1]; rfl
    · intro x hx
      rcases List.mem_cons.mp hx with rfl | hx
      · exact ⟨a, by simp, hd⟩
      · obtain ⟨b, hb, hf⟩ := h3 x hx
        exact ⟨b, by simp [hb], hf⟩

/-- A sample of a population has as many craters as the Poisson generator gives for the expected number of craters larger than
the smallest diameter on the area (on 1 m² without an area), all of them inside the range of diameters, and if times are asked
for as many times, all in the window, from oldest to youngest. -/
theorem C151_sample (poisson : ℝ → ℕ) (N : ℝ → ℝ → ℝ) (ts te lo hi : ℝ) (area : Option ℝ) (wantTimes : Bool)
    (sizes times : ℕ → ℝ × ℝ) (hp : Population (fun d => N d ts - N d te) lo hi) (hw : te ≤ ts) (ha : ∀ a, area = some a → 0 ≤ a)
    (hs : ∀ i, 0 ≤ (sizes i).1 ∧ (sizes i).1 < 1 ∧ 0 ≤ (sizes i).2 ∧ (sizes i).2 < 1)
    (ht : ∀ i, 0 ≤ (times i).2 ∧ (times i).2 < 1) :
    ∃ ds tms, sample poisson N ts te (some (lo, hi)) area wantTimes sizes times = .ok (ds, tms) ∧
    (area = none → ds.length = poisson (N lo ts - N lo te)) ∧ (∀ a, area = some a → ds.length = poisson ((N lo ts - N lo te) * a)) ∧
    (∀ d ∈ ds, lo ≤ d ∧ d < hi * (1 + 1e-8)) ∧
    (wantTimes = false → tms = []) ∧
    (wantTimes = true → tms.length = ds.length ∧ (∀ t ∈ tms, te ≤ t ∧ t ≤ ts) ∧ tms.Pairwise (fun a b => b ≤ a)) := by
  classical
  set F := fun d => N d ts - N d te with hF
  have hdraw := fun i => drawSize_spec hp (sizes i).1 (sizes i).2 (hs i).1 (hs i).2.1 (hs i).2.2.1 (hs i).2.2.2
  obtain ⟨ds, h1, h2, h3⟩ := mapM_ok (fun i => drawSize (sizeTable F lo hi) (sizes i).1 (sizes i).2)
    (List.range (sampleCount poisson F lo area)) (fun i _ => (hdraw i).imp fun d h => h.1)
  refine ⟨ds, if wantTimes then computeTime te ts (ds.mapIdx fun i d => (N d, times i)) else [], ?_, ?_, ?_, ?_, ?_, ?_⟩
  · unfold sample
    simp only
    rw [if_neg (by push Not; exact ⟨hp.lo_pos, hp.lo_lt.le⟩)]
    rw [if_neg (not_lt.mpr (by cases area with | none => simp | some a => exact ha a rfl))]
    rw [if_neg (not_not.mpr hp.ok), h1]
  · intro h; rw [h2, List.length_range, h]; simp [sampleCount, expectedNumber, hF]
  · intro a h; rw [h2, List.length_range, h]; rfl
  · intro d hd
    obtain ⟨i, _, hi⟩ := h3 d hd
    obtain ⟨d', e, a, b, _⟩ := hdraw i
    rw [hi] at e
    injection e with e
    rw [e]
    exact ⟨a, b⟩
  · intro h; rw [h]; rfl
  · intro h
    rw [h]
    have := C58_times te ts hw (ds.mapIdx fun i d => (N d, times i)) (by
      intro c hc
      obtain ⟨i, hi, rfl⟩ := List.mem_mapIdx.mp hc
      exact ht i)
    simpa using this

/-- The law of the sampled diameters: for a uniform draw, the probability of a crater larger than a tabulated diameter is the
fraction of the craters in the range that are larger (without the noise exactly, with it within one part in 10⁸ of the diameter). -/
theorem C151_law {F : ℝ → ℝ} {lo hi : ℝ} (p : Population F lo hi) (r : ℝ) (hr0 : 0 ≤ r) (hr1 : r < 1) (j : ℕ) (hj : j ≤ 49) :
    let D := sizeGrid lo hi j
    let P := fun x => volume {t : ℝ | 0 ≤ t ∧ t < 1 ∧ ∃ d, drawSize (sizeTable F lo hi) t r = .ok d ∧ x < d}
    P (D * (1 + 1e-8 * r)) ≤ ENNReal.ofReal ((F D - F hi) / (F lo - F hi)) ∧
    ENNReal.ofReal ((F D - F hi) / (F lo - F hi)) ≤ P D := by
  intro D P
  obtain ⟨c0, c1⟩ := p.frac
  have hlp : 0 < F lo := p.pos.trans p.more
  have hsub : 0 < F lo - F hi := by linarith [p.more]
  have hD := sizeGrid_mem lo hi p.lo_pos p.lo_lt j hj
  have hFD : F D ≤ F lo := p.anti ⟨le_refl _, p.lo_lt.le⟩ hD hD.1
  have key : ∀ t : ℝ, F hi / F lo + (1 - F hi / F lo) * t < F D / F lo ↔ t < (F D - F hi) / (F lo - F hi) := by
    intro t
    rw [lt_div_iff₀ hlp, lt_div_iff₀ hsub]
    have : (F hi / F lo + (1 - F hi / F lo) * t) * F lo = F hi + (F lo - F hi) * t := by field_simp
    rw [this]
    constructor <;> intro h <;> linarith
  have hq : (F D - F hi) / (F lo - F hi) ≤ 1 := by rw [div_le_one hsub]; linarith
  constructor
  · calc P (D * (1 + 1e-8 * r)) ≤ volume (Set.Ico 0 ((F D - F hi) / (F lo - F hi))) := by
          apply measure_mono
          rintro t ⟨t0, t1, d, hd, hx⟩
          obtain ⟨d', e, _, _, h⟩ := drawSize_spec p t r t0 t1 hr0 hr1
          rw [hd] at e
          injection e with e
          subst e
          refine ⟨t0, (key t).mp ?_⟩
          by_contra hc
          exact absurd ((h j hj).2 (not_lt.mp hc)) (not_le.mpr hx)
      _ = _ := by rw [Real.volume_Ico, sub_zero]
  · calc _ = volume (Set.Ico 0 ((F D - F hi) / (F lo - F hi))) := by rw [Real.volume_Ico, sub_zero]
      _ ≤ P D := by
          apply measure_mono
          rintro t ⟨t0, t1⟩
          have t1' : t < 1 := lt_of_lt_of_le t1 hq
          obtain ⟨d', e, _, _, h⟩ := drawSize_spec p t r t0 t1' hr0 hr1
          exact ⟨t0, t1', d', e, (h j hj).1 ((key t).mpr t1)⟩

/-- The expected number of sampled craters larger than a tabulated diameter, without the noise: the expected number of draws
times the probability of a crater larger than the diameter. -/
noncomputable def expectedAbove (F : ℝ → ℝ) (lo hi area x : ℝ) : ℝ :=
  expectedNumber F lo area *
    (volume {t : ℝ | 0 ≤ t ∧ t < 1 ∧ ∃ d, drawSize (sizeTable F lo hi) t 0 = .ok d ∧ x < d}).toReal

theorem expectedAbove_eq {F : ℝ → ℝ} {lo hi : ℝ} (p : Population F lo hi) (area : ℝ) (j : ℕ) (hj : j ≤ 49) :
    expectedAbove F lo hi area (sizeGrid lo hi j) =
      F lo / (F lo - F hi) * (area * (F (sizeGrid lo hi j) - F hi)) := by
  obtain ⟨h1, h2⟩ := C151_law p 0 (le_refl _) one_pos j hj
  simp only [mul_zero, add_zero, mul_one] at h1 h2
  have hsub : 0 < F lo - F hi := by linarith [p.more]
  have hD := sizeGrid_mem lo hi p.lo_pos p.lo_lt j hj
  have hFD : F hi ≤ F (sizeGrid lo hi j) := p.anti hD ⟨p.lo_lt.le, le_refl _⟩ hD.2
  unfold expectedAbove expectedNumber
  rw [le_antisymm h1 h2, ENNReal.toReal_ofReal (div_nonneg (by linarith) hsub.le)]
  field_simp

/-- The expected numbers are right up to a common factor, which is close to one when few of the craters larger than the smallest
diameter are larger than the largest. -/
theorem C151_expected_partial {F : ℝ → ℝ} {lo hi : ℝ} (p : Population F lo hi) (area : ℝ) (ha : 0 ≤ area) (ε : ℝ)
    (hε : F hi * (1 + ε) ≤ ε * F lo) (j : ℕ) (hj : j ≤ 49) :
    let want := area * (F (sizeGrid lo hi j) - F hi)
    want ≤ expectedAbove F lo hi area (sizeGrid lo hi j) ∧ expectedAbove F lo hi area (sizeGrid lo hi j) ≤ (1 + ε) * want := by
  intro want
  have hsub : 0 < F lo - F hi := by linarith [p.more]
  have hD := sizeGrid_mem lo hi p.lo_pos p.lo_lt j hj
  have hFD : F hi ≤ F (sizeGrid lo hi j) := p.anti hD ⟨p.lo_lt.le, le_refl _⟩ hD.2
  have hw : 0 ≤ want := mul_nonneg ha (by linarith)
  rw [expectedAbove_eq p area j hj]
  constructor
  · have : 1 ≤ F lo / (F lo - F hi) := by rw [le_div_iff₀ hsub]; linarith [p.pos]
    exact le_mul_of_one_le_left hw this
  · apply mul_le_mul_of_nonneg_right _ hw
    rw [div_le_iff₀ hsub]
    nlinarith

/-- The number of craters is drawn for all craters larger than the smallest diameter, but all of them are then given diameters
up to the largest: of every size too many craters are expected, by the fraction of craters above the range. -/
theorem C151_overcount_fails {F : ℝ → ℝ} {lo hi : ℝ} (p : Population F lo hi) (area : ℝ) (ha : 0 < area) :
    area * (F lo - F hi) < expectedAbove F lo hi area lo ∧
    expectedAbove F lo hi area lo = area * (F lo - F hi) + area * F hi := by
  have h := expectedAbove_eq p area 0 (by norm_num)
  rw [sizeGrid_lo lo hi p.lo_pos] at h
  have hsub : 0 < F lo - F hi := by linarith [p.more]
  have e : F lo / (F lo - F hi) * (area * (F lo - F hi)) = area * F lo := by field_simp
  rw [e] at h
  rw [h]
  constructor
  · nlinarith [p.pos]
  · ring

theorem cubes : Population (fun d => d ^ (-3 : ℝ)) 10 12 := by
  refine ⟨by norm_num, by norm_num, ?_, Real.rpow_pos_of_pos (by norm_num) _, ?_⟩
  · intro a ha b hb hab
    exact Real.rpow_le_rpow_of_nonpos (by linarith [ha.1]) hab (by norm_num)
  · exact Real.rpow_lt_rpow_of_neg (by norm_num) (by norm_num) (by norm_num)

/-- For craters of 10 to 12 km and numbers that fall with the cube of the diameter, more than twice the right number is expected. -/
example : 2 * (1 * ((10 : ℝ) ^ (-3 : ℝ) - 12 ^ (-3 : ℝ))) < expectedAbove (fun d => d ^ (-3 : ℝ)) 10 12 1 10 := by
  rw [(C151_overcount_fails cubes 1 one_pos).2]
  have h1 : (10 : ℝ) ^ (-3 : ℝ) = 1 / 1000 := by
    rw [Real.rpow_neg (by norm_num), show (3 : ℝ) = ((3 : ℕ) : ℝ) by norm_num, Real.rpow_natCast]; norm_num
  have h2 : (12 : ℝ) ^ (-3 : ℝ) = 1 / 1728 := by
    rw [Real.rpow_neg (by norm_num), show (3 : ℝ) = ((3 : ℕ) : ℝ) by norm_num, Real.rpow_natCast]; norm_num
  rw [h1, h2]
  norm_num

/-- The documentation says that without a range of diameters the one of the production function is used, but every such call ends
in a TypeError. -/
theorem C151_no_range_fails (poisson : ℝ → ℕ) (N : ℝ → ℝ → ℝ) (ts te : ℝ) (area : Option ℝ) (wantTimes : Bool)
    (sizes times : ℕ → ℝ × ℝ) : sample poisson N ts te none area wantTimes sizes times = .error .type := rfl

/-- A range of a single diameter passes the checks, but no crater can be drawn from it: every sample that is not empty ends in an
IndexError. -/
theorem C151_single_fails (poisson : ℝ → ℕ) (N : ℝ → ℝ → ℝ) (ts te D : ℝ) (area : Option ℝ) (wantTimes : Bool)
    (sizes times : ℕ → ℝ × ℝ) (hD : 0 < D) (hN : N D te < N D ts) (ha : ∀ a, area = some a → 0 ≤ a)
    (hn : sampleCount poisson (fun d => N d ts - N d te) D area ≠ 0) :
    sample poisson N ts te (some (D, D)) area wantTimes sizes times = .error (.size .index) := by
  classical
  have hg : ∀ j, sizeGrid D D j = D := by intro j; simp [sizeGrid, Real.exp_log hD]
  set F := fun d => N d ts - N d te with hF
  have hFp : 0 < F D := by simp only [hF]; linarith
  have htab : sizeTable F D D = List.replicate 50 ⟨D, F D⟩ := by
    unfold sizeTable
    simp only [hg]
    rw [List.map_const', List.length_range]
  have hok : tableOk (sizeTable F D D) := by
    rw [htab]
    refine ⟨by simp, ?_, ?_, ?_⟩
    · intro e he; rw [List.eq_of_mem_replicate he]; exact hD
    · intro e he; rw [List.eq_of_mem_replicate he]; exact hFp
    · apply List.Pairwise.isChain
      rw [List.pairwise_replicate]
      right; exact le_refl _
  have hdraw : ∀ t r, drawSize (sizeTable F D D) t r = .error .index := by
    intro t r
    have hl : lowest (sizeTable F D D) = 1 := by
      rw [htab]
      simp [lowest, List.replicate, div_self hFp.ne']
    unfold drawSize
    rw [hl]
    have hu : (1 : ℝ) + (1 - 1) * t = 1 := by ring
    rw [hu]
    obtain ⟨c1, c2, c3, c4⟩ := hok
    unfold randomSize
    rw [if_neg (by omega), if_neg (by push Not; exact c2), if_neg (by push Not; exact c3), if_neg (not_not.mpr c4)]
    have hlogs : (normalise (sizeTable F D D)).map Real.log = List.replicate 50 0 := by
      rw [htab]
      unfold normalise
      rw [List.map_replicate, List.map_replicate]
      congr 1
      simp [List.replicate, div_self hFp.ne']
    have hs : searchRight ((normalise (sizeTable F D D)).map Real.log) (Real.log 1) = 50 := by
      rw [hlogs, Real.log_one]
      unfold searchRight
      rw [List.takeWhile_replicate]
      simp
    simp only [hs]
    rw [htab]
    rfl
  unfold sample
  simp only
  rw [if_neg (by push Not; exact ⟨hD, le_refl _⟩),
    if_neg (not_lt.mpr (by cases area with | none => simp | some a => exact ha a rfl))]
  rw [if_neg (not_not.mpr hok)]
  obtain ⟨m, hm⟩ : ∃ m, sampleCount poisson F D area = m + 1 := ⟨_, (Nat.succ_pred_eq_of_ne_zero hn).symm⟩
  rw [hm, List.range_succ_eq_map, List.mapM_cons, hdraw]
  rfl

example : ∃ (N : ℝ → ℝ → ℝ), Population (fun d => N d 1 - N d 0) 10 12 := by
  refine ⟨fun d t => t * d ^ (-3 : ℝ), ?_⟩
  simpa using cubes

end Verif.Sampling
