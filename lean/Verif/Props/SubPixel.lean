import Verif.Model.SubPixel
import Verif.Props.Limits
import Verif.Props.Profile
import Verif.Props.Region
import Verif.Props.Production
import Mathlib.MeasureTheory.Integral.IntervalIntegral.Basic
import Mathlib.MeasureTheory.Function.LocallyIntegrable
import Mathlib.Analysis.SpecialFunctions.Pow.Deriv
import Mathlib.Analysis.Real.Pi.Bounds
import Mathlib.Data.List.GetD

/-! Property C217: craters too small for the mesh. -/

namespace Verif.SubPixel
open Verif.SurfaceData Verif.Limits Verif.Production

/-- `s` is the size of the largest face of a bin. -/
def IsLargest (areas : List ℝ) (bin : List ℕ) (s : ℝ) : Prop :=
  (∃ f ∈ bin, faceSize areas f = s) ∧ ∀ f ∈ bin, faceSize areas f ≤ s

theorem binMax_spec (areas : List ℝ) (bin : List ℕ) (hne : bin ≠ []) :
    IsLargest areas bin (((bin.map fun i => Real.sqrt (areas.getD i 0)).max?).getD 0) := by
  rcases hm : (bin.map fun i => Real.sqrt (areas.getD i 0)).max? with _ | m
  · rw [List.max?_eq_none_iff, List.map_eq_nil_iff] at hm
    exact absurd hm hne
  · obtain ⟨h1, h2⟩ := List.max?_eq_some_iff.mp hm
    obtain ⟨f, hf, rfl⟩ := List.mem_map.mp h1
    exact ⟨⟨f, hf, rfl⟩, fun f' hf' => h2 _ (List.mem_map.mpr ⟨f', hf', rfl⟩)⟩

theorem accumulate_none (N : Production) (ts te : ℝ) (bs : List (List ℕ × ℝ)) (k : ℕ → ℝ) (f : ℕ)
    (h : ∀ b ∈ bs, f ∉ b.1) : accumulate N ts te bs k f = k f := by
  induction bs generalizing k with
  | nil => rfl
  | cons b bs ih =>
    unfold accumulate
    rw [ih _ fun c hc => h c (List.mem_cons_of_mem _ hc), if_neg (h b List.mem_cons_self)]

theorem accumulate_one (N : Production) (ts te : ℝ) (g : List ℕ → ℝ) (bins : List (List ℕ)) (k : ℕ → ℝ) (f : ℕ)
    (hd : bins.flatten.Nodup) (bin : List ℕ) (hb : bin ∈ bins) (hf : f ∈ bin) :
    accumulate N ts te (bins.zip (bins.map g)) k f = k f + amount N ts te (g bin) := by
  induction bins generalizing k with
  | nil => simp at hb
  | cons b bins ih =>
    rw [List.flatten_cons, List.nodup_append] at hd
    obtain ⟨_, hd2, hd3⟩ := hd
    simp only [List.map_cons, List.zip_cons_cons, accumulate]
    rcases List.mem_cons.mp hb with rfl | hb
    · rw [accumulate_none]
      · rw [if_pos hf]
      · intro c hc hfc
        have hc := (List.of_mem_zip (show (c.1, c.2) ∈ _ from hc)).1
        exact hd3 f hf f (List.mem_flatten.mpr ⟨_, hc, hfc⟩) rfl
    · rw [ih _ hd2 hb, if_neg]
      intro hfb
      exact hd3 f hfb f (List.mem_flatten.mpr ⟨_, hb, hf⟩) rfl

/-- The size of the bin of a face. -/
theorem largest_bounds {areas : List ℝ} (hpos : ∀ a ∈ areas, 0 < a) {bins : List (List ℕ)} (h : GoodBins areas bins) {bin : List ℕ}
    (hb : bin ∈ bins) {f : ℕ} (hf : f ∈ bin) {s : ℝ} (hs : IsLargest areas bin s) :
    0 < faceSize areas f ∧ faceSize areas f ≤ s ∧ s < Real.sqrt 2 * faceSize areas f := by
  obtain ⟨hp, _, h2⟩ := h
  have hlt : f < areas.length := List.mem_range.mp (hp.subset (List.mem_flatten.mpr ⟨_, hb, hf⟩))
  have ha : 0 < areas.getD f 0 := by
    rw [List.getD_eq_getElem _ _ hlt]; exact hpos _ (List.getElem_mem _)
  refine ⟨Real.sqrt_pos.mpr ha, hs.2 f hf, ?_⟩
  obtain ⟨g, hg, rfl⟩ := hs.1
  unfold faceSize
  rw [← Real.sqrt_mul (by norm_num)]
  exact Real.sqrt_lt_sqrt (by
    have hlt : g < areas.length := List.mem_range.mp (hp.subset (List.mem_flatten.mpr ⟨_, hb, hg⟩))
    rw [List.getD_eq_getElem _ _ hlt]; exact (hpos _ (List.getElem_mem _)).le) (h2 bin hb g hg f hf)

theorem compute_ok {production : Option Production} {ts te : ℝ} {areas : List ℝ} {k k' : ℕ → ℝ}
    (h : compute production ts te areas k = .ok k') : te < ts ∧ ∃ N bins, production = some N ∧ faceBins areas = some bins ∧
      k' = accumulate N ts te (bins.zip (binMaxSizes areas bins)) k := by
  unfold compute at h
  split_ifs at h with h1
  rcases production with _ | N
  · simp at h
  · rcases hb : faceBins areas with _ | bins
    · rw [hb] at h; simp at h
    · rw [hb] at h
      simp only [Except.ok.injEq] at h
      exact ⟨not_le.mp h1, N, bins, rfl, rfl, h.symm⟩

/-- The degradation added to a face is that of all diameters from 10⁻⁸ m up to the size of the largest face of its bin, whatever else is
pending; that size is at least the size of the face, and less than the square root of two times it. -/
theorem C217_amount (N : Production) (ts te : ℝ) (areas : List ℝ) (hpos : ∀ a ∈ areas, 0 < a) (k k' : ℕ → ℝ)
    (h : compute (some N) ts te areas k = .ok k') (f : ℕ) (hf : f < areas.length) :
    ∃ s, faceSize areas f ≤ s ∧ s < Real.sqrt 2 * faceSize areas f ∧ (∃ g < areas.length, faceSize areas g = s) ∧
      k' f = k f + ∫ D in (1e-8)..s, Verif.Profile.degradation D 100 * N D ts te * (Real.pi * (D / 2) * 100) := by
  obtain ⟨_, N', bins, hN, hb, rfl⟩ := compute_ok h
  rw [Option.some.injEq] at hN
  subst hN
  have hg := C34_partition_partial areas hpos bins hb
  obtain ⟨bin, hbin, hfb⟩ := List.mem_flatten.mp (hg.1.symm.subset (List.mem_range.mpr hf))
  have hl := binMax_spec areas bin (fun e => hg.2.1 (e ▸ hbin))
  obtain ⟨_, h1, h2⟩ := largest_bounds hpos hg hbin hfb hl
  refine ⟨_, h1, h2, ?_, accumulate_one N ts te _ bins k f (hg.1.nodup_iff.mpr List.nodup_range) bin hbin hfb⟩
  obtain ⟨g, hgb, e⟩ := hl.1
  exact ⟨g, List.mem_range.mp (hg.1.subset (List.mem_flatten.mpr ⟨_, hbin, hgb⟩)), e⟩

/-- A period that does not go forward and a missing production function are errors of their own kind. -/
theorem C217_errors (production : Option Production) (ts te : ℝ) (areas : List ℝ) (k : ℕ → ℝ) :
    (ts ≤ te → compute production ts te areas k = .error .value) ∧
    (te < ts → compute none ts te areas k = .error .runtime) := by
  constructor
  · intro h
    unfold compute
    rw [if_pos h]
  · intro h
    unfold compute
    rw [if_neg (not_le.mpr h)]

theorem amount_eq (n : ℝ → ℝ) (G : ℝ → ℝ) (N : Production) (hN : ∀ D ts te, N D ts te = n D * (G ts - G te)) (ts te s : ℝ) :
    amount N ts te s = amount (fun D _ _ => n D) 0 0 s * (G ts - G te) := by
  unfold amount
  rw [← intervalIntegral.integral_mul_const]
  congr 1
  funext D
  unfold integrand
  rw [hN]
  ring

/-- The number formed is a number per size times what has formed altogether. -/
def Separable (N : Production) : Prop := ∃ n G : ℝ → ℝ, ∀ D ts te, N D ts te = n D * (G ts - G te)

theorem all_ok {production : Option Production} {areas : List ℝ} {ws : List (ℝ × ℝ)} {k : ℕ → ℝ} (N : Production) (hp : production = some N)
    (bins : List (List ℕ)) (hb : faceBins areas = some bins) (hw : ∀ w ∈ ws, w.2 < w.1) :
    ∃ k', computeAll production areas ws k = .ok k' := by
  induction ws generalizing k with
  | nil => exact ⟨k, rfl⟩
  | cons w ws ih =>
    unfold computeAll compute
    rw [if_neg (not_le.mpr (hw w List.mem_cons_self)), hp]
    simp only [hb]
    rw [hp] at ih
    exact ih fun w hm => hw w (List.mem_cons_of_mem _ hm)

/-- It does not matter in how many calls the degradation of a period is computed: for every sequence of adjacent periods the degradation that
has been added to a face in the end is that of the whole period. -/
theorem C217_windows (N : Production) (hN : Separable N) (areas : List ℝ) (hpos : ∀ a ∈ areas, 0 < a) (bins : List (List ℕ))
    (hb : faceBins areas = some bins) (ws : List (ℝ × ℝ)) (a b : ℝ) (ht : Run.Tiles ws a b) (hab : b < a) (k : ℕ → ℝ) :
    ∃ k₁ k₂, computeAll (some N) areas ws k = .ok k₁ ∧ compute (some N) a b areas k = .ok k₂ ∧
      ∀ f < areas.length, k₁ f = k₂ f := by
  have hw : ∀ (ws : List (ℝ × ℝ)) (a b : ℝ), Run.Tiles ws a b → ∀ w ∈ ws, w.2 < w.1 := by
    intro ws
    induction ws with
    | nil => simp
    | cons w ws ih =>
      intro a b h
      obtain ⟨rfl, h1, h2⟩ := h
      intro v hv
      rcases List.mem_cons.mp hv with rfl | hv
      · exact h1
      · exact ih _ _ h2 v hv
  obtain ⟨k₁, h1⟩ := all_ok (k := k) N rfl bins hb (hw ws a b ht)
  obtain ⟨k₂, h2⟩ := all_ok (k := k) N rfl bins hb (ws := [(a, b)]) (by simpa using hab)
  have h2' : compute (some N) a b areas k = .ok k₂ := by
    unfold computeAll at h2
    rcases e : compute (some N) a b areas k with x | x
    · rw [e] at h2; simp [Except.bind] at h2
    · rw [e] at h2; simpa [Except.bind, computeAll] using h2
  refine ⟨k₁, k₂, h1, h2', ?_⟩
  intro f hf
  have hg := C34_partition_partial areas hpos bins hb
  obtain ⟨bin, hbin, hfb⟩ := List.mem_flatten.mp (hg.1.symm.subset (List.mem_range.mpr hf))
  obtain ⟨n, G, e⟩ := hN
  set s := ((bin.map fun i => Real.sqrt (areas.getD i 0)).max?).getD 0 with hs
  have step : ∀ ts te k k', compute (some N) ts te areas k = .ok k' →
      k' f = k f + amount (fun D _ _ => n D) 0 0 s * (G ts - G te) := by
    intro ts te k k' h
    obtain ⟨_, N', bins', e1, e2, rfl⟩ := compute_ok h
    rw [Option.some.injEq] at e1
    rw [hb, Option.some.injEq] at e2
    subst e1; subst e2
    rw [← amount_eq n G N e]
    exact accumulate_one N ts te _ bins k f (hg.1.nodup_iff.mpr List.nodup_range) bin hbin hfb
  have all : ∀ (ws : List (ℝ × ℝ)) (a b : ℝ) (k k' : ℕ → ℝ), Run.Tiles ws a b → computeAll (some N) areas ws k = .ok k' →
      k' f = k f + amount (fun D _ _ => n D) 0 0 s * (G a - G b) := by
    intro ws
    induction ws with
    | nil =>
      intro a b k k' ht h
      simp only [Run.Tiles] at ht
      simp only [computeAll, Except.ok.injEq] at h
      rw [← h, ht]; ring
    | cons w ws ih =>
      intro a b k k' ht h
      obtain ⟨x, y⟩ := w
      obtain ⟨rfl, _, ht⟩ := ht
      unfold computeAll at h
      rcases e1 : compute (some N) x y areas k with v | v
      · rw [e1] at h; simp [Except.bind] at h
      · rw [e1] at h
        rw [ih y b v k' ht h, step x y k v e1]; ring
  rw [all ws a b k k₁ ht h1, step a b k k₂ h2']

/-- Power law and Neukum production are of this kind. -/
theorem separable (p : PowerLaw) (q : Neukum) : Separable p.function ∧ Separable q.function :=
  ⟨⟨p.csfd, id, fun _ _ _ => rfl⟩, ⟨q.csfd, q.n1, fun _ _ _ => rfl⟩⟩

theorem degradation_cont : ContinuousOn (fun D => Verif.Profile.degradation D 100) (Set.Ioi 0) := by
  unfold Verif.Profile.degradation Verif.Profile.smoothBroken
  intro x hx
  have hx : (0 : ℝ) < x := hx
  apply ContinuousAt.continuousWithinAt
  have hq : ContinuousAt (fun D : ℝ => D / 2 / 0.5e3) x := by fun_prop
  refine ((continuousAt_const.mul (hq.rpow_const ?_))).mul (ContinuousAt.rpow_const ?_ ?_)
  · left; positivity
  · exact continuousAt_const.mul (continuousAt_const.add (hq.rpow_const (by left; positivity)))
  · left
    have : (0 : ℝ) < (x / 2 / 0.5e3) ^ ((1.0 : ℝ) / 1.0) := Real.rpow_pos_of_pos (by positivity) _
    positivity

theorem integrable (N : Production) (hN : ValidDistribution N) (ts te : ℝ) (h : te ≤ ts) (a b : ℝ) (ha : 0 < a) (hb : 0 < b) :
    IntervalIntegrable (integrand N ts te) MeasureTheory.volume a b := by
  have hpos : ∀ x ∈ Set.uIcc a b, 0 < x := fun x hx => lt_of_lt_of_le (lt_min ha hb) hx.1
  have h1 : IntervalIntegrable (fun D => N D ts te) MeasureTheory.volume a b :=
    AntitoneOn.intervalIntegrable fun x hx y hy hxy => hN.antitone x y ts te (hpos x hx) hxy h
  have h2 : ContinuousOn (fun D => Verif.Profile.degradation D 100 * (Real.pi * (D / 2) * 100)) (Set.uIcc a b) :=
    (degradation_cont.mono hpos).mul (by fun_prop)
  have := h1.mul_continuousOn h2
  refine this.congr ?_
  intro D _
  unfold integrand
  ring

theorem integrand_nonneg (N : Production) (hN : ValidDistribution N) (ts te : ℝ) (h : te ≤ ts) (D : ℝ) (hD : 0 < D) :
    0 ≤ integrand N ts te D := by
  unfold integrand
  have h1 := (Verif.Profile.C99_degradation 100 (by norm_num) D (D + 1) hD (by linarith)).1
  have h2 := hN.nonneg D ts te hD h
  have := Real.pi_pos
  positivity

/-- With a production function in order, what is added is never negative, not less for a larger face, not less for a longer period, and
nothing for no time at all. -/
theorem C217_monotone (N : Production) (hN : ValidDistribution N) (ts te s : ℝ) (hs : 1e-8 ≤ s) (h : te ≤ ts) :
    0 ≤ amount N ts te s ∧ (∀ s' ≥ s, amount N ts te s ≤ amount N ts te s') ∧
    (∀ ts' ≥ ts, amount N ts te s ≤ amount N ts' te s) ∧ (∀ te' ≤ te, amount N ts te s ≤ amount N ts te' s) ∧
    amount N ts ts s = 0 := by
  have h8 : (0 : ℝ) < 1e-8 := by norm_num
  have hs0 : 0 < s := lt_of_lt_of_le h8 hs
  have key : ∀ a b : ℝ, 0 < a → a ≤ b → 0 ≤ ∫ D in a..b, integrand N ts te D := by
    intro a b ha hab
    apply intervalIntegral.integral_nonneg hab
    intro u hu
    exact integrand_nonneg N hN ts te h u (lt_of_lt_of_le ha hu.1)
  have cmp : ∀ ts' te', te' ≤ ts' → (∀ D, 0 < D → N D ts te ≤ N D ts' te') → amount N ts te s ≤ amount N ts' te' s := by
    intro ts' te' h' hle
    unfold amount
    apply intervalIntegral.integral_mono_on hs (integrable N hN ts te h _ _ h8 hs0) (integrable N hN ts' te' h' _ _ h8 hs0)
    intro D hD
    have hD0 : 0 < D := lt_of_lt_of_le h8 hD.1
    have h1 := (Verif.Profile.C99_degradation 100 (by norm_num) D (D + 1) hD0 (by linarith)).1
    have := Real.pi_pos
    unfold integrand
    have := hle D hD0
    gcongr
  refine ⟨key _ _ h8 hs, ?_, ?_, ?_, ?_⟩
  · intro s' hs'
    unfold amount
    rw [← intervalIntegral.integral_add_adjacent_intervals (integrable N hN ts te h _ _ h8 hs0)
      (integrable N hN ts te h _ _ hs0 (lt_of_lt_of_le hs0 hs'))]
    have := key s s' hs0 hs'
    linarith
  · intro ts' hts
    exact cmp ts' te (h.trans hts) fun D hD => hN.older D ts ts' te hD h hts
  · intro te' hte
    exact cmp ts te' (hte.trans h) fun D hD => hN.younger D ts te te' hD hte h
  · unfold amount
    have : ∫ D in (1e-8)..s, integrand N ts ts D = ∫ D in (1e-8)..s, (0 : ℝ) := by
      apply intervalIntegral.integral_congr
      intro D hD
      have hD0 : 0 < D := lt_of_lt_of_le (lt_min h8 hs0) hD.1
      simp only [integrand, hN.empty D ts hD0, mul_zero, zero_mul]
    rw [this]; simp

/-- Production functions in order, and a bin to go with them. -/
example : ValidDistribution moon.function ∧ ∃ p, PowerLaw.make 1 3 = some p ∧ ValidDistribution p.function :=
  ⟨C72_moon_valid, ⟨1, 3 * -1⟩, by norm_num [PowerLaw.make], C15_valid 1 3 _ (by norm_num [PowerLaw.make])⟩

/-! ### The combined effect of the small craters -/

/-- The combined effect of all craters with diameters between 10⁻⁸ m and `s`: each degrades the region within a hundred crater radii of its
center by the degradation function, and `-dN/dD` is the number of craters of each size. -/
noncomputable def combined (N : Production) (ts te s : ℝ) : ℝ :=
  ∫ D in (1e-8)..s, Verif.Profile.degradation D 100 * (Real.pi * (100 * (D / 2)) ^ 2) * -(deriv (fun x => N x ts te) D)

/-- For a power law what is added is proportional to the combined effect of the craters: the factor is `1 / (50 |slope|)` for all faces and
periods.  What is missing: the factor is not one, see `C217_combined_fails`. -/
theorem C217_combined_partial (coef slope : ℝ) (p : PowerLaw) (hp : PowerLaw.make coef slope = some p) (ts te s : ℝ) (hs : 1e-8 ≤ s) :
    50 * |slope| * amount p.function ts te s = combined p.function ts te s := by
  obtain ⟨h1, h2, h3⟩ := make_spec hp
  unfold amount combined
  rw [← intervalIntegral.integral_const_mul]
  apply intervalIntegral.integral_congr
  intro D hD
  have h8 : (0 : ℝ) < 1e-8 := by norm_num
  have hD0 : 0 < D := lt_of_lt_of_le (lt_min h8 (lt_of_lt_of_le h8 hs)) hD.1
  have hd : deriv (fun x => p.function x ts te) D = p.coef * (p.slope * D ^ (p.slope - 1)) * (ts - te) := by
    have := ((Real.hasDerivAt_rpow_const (p := p.slope) (Or.inl hD0.ne')).const_mul p.coef).mul_const (ts - te)
    exact this.deriv
  dsimp only
  rw [hd, Real.rpow_sub_one hD0.ne', h3]
  unfold integrand PowerLaw.function PowerLaw.csfd
  rw [h3]
  generalize D ^ (-|slope|) = X
  field_simp
  ring

/-- For a power law of slope one or steeper, what is added is at most a fiftieth of the combined effect of the craters that the mesh does not
resolve: the number of craters larger than each diameter takes the place of the number of craters of that diameter, and π·100·D/2 that of the
area within a hundred crater radii. -/
theorem C217_combined_fails (coef slope : ℝ) (hc : 0 < coef) (hslope : 1 ≤ |slope|) (p : PowerLaw) (hp : PowerLaw.make coef slope = some p)
    (ts te s : ℝ) (ht : te < ts) (hs : 1e-8 < s) :
    0 < amount p.function ts te s ∧ 50 * amount p.function ts te s ≤ combined p.function ts te s := by
  have h8 : (0 : ℝ) < 1e-8 := by norm_num
  obtain ⟨h1, h2, h3⟩ := make_spec hp
  have hpos : 0 < amount p.function ts te s := by
    apply intervalIntegral.intervalIntegral_pos_of_pos_on
      (integrable _ (C15_valid coef slope p hp) ts te ht.le _ _ h8 (h8.trans hs)) _ hs
    intro D hD
    have hD0 : 0 < D := h8.trans hD.1
    have e1 := (Verif.Profile.C99_degradation 100 (by norm_num) D (D + 1) hD0 (by linarith)).1
    have e2 : 0 < D ^ p.slope := Real.rpow_pos_of_pos hD0 _
    have e3 : 0 < ts - te := by linarith
    have := Real.pi_pos
    unfold integrand PowerLaw.function PowerLaw.csfd
    rw [h1]
    positivity
  refine ⟨hpos, ?_⟩
  rw [← C217_combined_partial coef slope p hp ts te s hs.le]
  nlinarith

example : ∃ p, PowerLaw.make 1 3 = some p ∧ (0 : ℝ) < 1 ∧ 1 ≤ |(3 : ℝ)| := ⟨⟨1, 3 * -1⟩, by norm_num [PowerLaw.make], by norm_num, by norm_num⟩

/-! ### Formed or smoothed -/

theorem sq_faceSize {areas : List ℝ} {f : ℕ} (h : 0 < faceSize areas f) : areas.getD f 0 = faceSize areas f ^ 2 := by
  unfold faceSize at *
  rw [Real.sq_sqrt]
  exact (Real.sqrt_pos.mp h).le

theorem region_some (m : Verif.Region.Mesh) (dist : ℕ → ℝ) (half : ℝ) (nearest : ℕ) (D : ℝ) (f : ℕ) (hf : f < m.nFace)
    (hd : dist f ≤ 0.75 * D) : ∃ r, craterRegion m dist half nearest D = some r ∧ r.radius = 0.75 * D := by
  have e : (1.5 : ℝ) * (D / 2) = 0.75 * D := by ring
  unfold craterRegion Verif.Region.extractRegion
  rw [e]
  dsimp only
  by_cases h1 : 0.75 * D < half
  · rw [if_pos h1, if_neg]
    · exact ⟨_, rfl, rfl⟩
    · intro h2
      have : f ∈ (Finset.range m.nFace).filter fun f => dist f ≤ 0.75 * D :=
        Finset.mem_filter.mpr ⟨Finset.mem_range.mpr hf, hd⟩
      rw [h2] at this
      simp at this
  · rw [if_neg h1]
    exact ⟨_, rfl, rfl⟩

theorem region_radius {m : Verif.Region.Mesh} {dist : ℕ → ℝ} {half : ℝ} {nearest : ℕ} {D : ℝ} {r : Verif.Region.Local}
    (h : craterRegion m dist half nearest D = some r) : r.radius = 0.75 * D := by
  have e : (1.5 : ℝ) * (D / 2) = 0.75 * D := by ring
  unfold craterRegion Verif.Region.extractRegion at h
  rw [e] at h
  dsimp only at h
  split_ifs at h <;> rw [← Option.some.inj h]

theorem forms_of (m : Verif.Region.Mesh) (dist : ℕ → ℝ) (half : ℝ) (nearest : ℕ) (areas : List ℝ) (f : ℕ) (hf : f < m.nFace) (D : ℝ)
    (h0 : 0 < faceSize areas f) (hD : faceSize areas f ≤ D) (hd : dist f ≤ 0.75 * D) :
    forms m dist half nearest areas f D = true := by
  obtain ⟨r, h1, h2⟩ := region_some m dist half nearest D f hf hd
  unfold forms
  rw [h1]
  simp only [decide_eq_true_eq, h2, sq_faceSize h0]
  have := Real.pi_gt_three
  have e : faceSize areas f ^ 2 ≤ D ^ 2 := pow_le_pow_left₀ h0.le hD 2
  have : 0 < D ^ 2 := by have := h0.trans_le hD; positivity
  nlinarith

/-- No crater is lost: one with its center on a face, not farther from the middle of the face than three quarters of the size of the face,
is either made, or its diameter is within the range that is degraded on that face.  What is missing: craters with their center farther from
the middle of an elongated face, see `C217_lost_fails`. -/
theorem C217_none_lost_partial (m : Verif.Region.Mesh) (areas : List ℝ) (hpos : ∀ a ∈ areas, 0 < a) (bins : List (List ℕ))
    (hb : faceBins areas = some bins) (bin : List ℕ) (hbin : bin ∈ bins) (f : ℕ) (hf : f ∈ bin) (hn : f < m.nFace) (s : ℝ)
    (hs : IsLargest areas bin s) (dist : ℕ → ℝ) (half : ℝ) (nearest : ℕ) (hd : dist f ≤ 0.75 * faceSize areas f) (D : ℝ) :
    D ≤ s ∨ forms m dist half nearest areas f D = true := by
  rcases le_or_gt D s with h | h
  · exact .inl h
  · right
    obtain ⟨h0, h1, _⟩ := largest_bounds hpos (C34_partition_partial areas hpos bins hb) hbin hf hs
    exact forms_of m dist half nearest areas f hn D h0 (h1.trans h.le) (by linarith)

/-- A crater that is both made and within the range degraded on the face of its center has a diameter between three quarters and the square
root of two of the size of the face.  What is missing: that there is none, see `C217_twice_fails`. -/
theorem C217_twice_partial (m : Verif.Region.Mesh) (areas : List ℝ) (hpos : ∀ a ∈ areas, 0 < a) (bins : List (List ℕ))
    (hb : faceBins areas = some bins) (bin : List ℕ) (hbin : bin ∈ bins) (f : ℕ) (hf : f ∈ bin) (s : ℝ)
    (hs : IsLargest areas bin s) (dist : ℕ → ℝ) (half : ℝ) (nearest : ℕ) (D : ℝ) (hD : 0 < D) (h : D ≤ s)
    (h' : forms m dist half nearest areas f D = true) :
    0.75 * faceSize areas f < D ∧ D < Real.sqrt 2 * faceSize areas f := by
  obtain ⟨h0, h1, h2⟩ := largest_bounds hpos (C34_partition_partial areas hpos bins hb) hbin hf hs
  refine ⟨?_, lt_of_le_of_lt h h2⟩
  unfold forms at h'
  rcases e : craterRegion m dist half nearest D with _ | r
  · rw [e] at h'; simp at h'
  · rw [e] at h'
    simp only [decide_eq_true_eq, region_radius e, sq_faceSize h0] at h'
    by_contra hc
    have hle : D ≤ 0.75 * faceSize areas f := not_lt.mp hc
    have h4 : Real.pi < 3.15 := Real.pi_lt_d2
    have : D ^ 2 ≤ (0.75 * faceSize areas f) ^ 2 := pow_le_pow_left₀ hD.le hle 2
    have : 0 < D ^ 2 := by positivity
    nlinarith

/-- In every bin with faces of different sizes, craters are made that are also accounted for by degradation: those on the smallest face of
the bin with diameters from its size, where populating begins, to that of the largest face. -/
theorem C217_twice_fails (m : Verif.Region.Mesh) (areas : List ℝ) (hpos : ∀ a ∈ areas, 0 < a) (bins : List (List ℕ))
    (hb : faceBins areas = some bins) (bin : List ℕ) (hbin : bin ∈ bins) (hn : ∀ f ∈ bin, f < m.nFace) (t s : ℝ)
    (ht : IsSmallest areas bin t) (hs : IsLargest areas bin s) (hne : ∃ f ∈ bin, ∃ g ∈ bin, faceSize areas f ≠ faceSize areas g) :
    t < s ∧ ∃ f ∈ bin, ∀ (dist : ℕ → ℝ) (half : ℝ) (nearest : ℕ) (D : ℝ), dist f ≤ 0.75 * faceSize areas f → t ≤ D → D ≤ s →
      forms m dist half nearest areas f D = true := by
  constructor
  · obtain ⟨f, hf, g, hg, e⟩ := hne
    rcases lt_or_gt_of_ne e with h | h
    · exact lt_of_le_of_lt (ht.2 f hf) (h.trans_le (hs.2 g hg))
    · exact lt_of_le_of_lt (ht.2 g hg) (h.trans_le (hs.2 f hf))
  · obtain ⟨f, hf, rfl⟩ := ht.1
    refine ⟨f, hf, ?_⟩
    intro dist half nearest D hd hD _
    obtain ⟨h0, _, _⟩ := largest_bounds hpos (C34_partition_partial areas hpos bins hb) hbin hf hs
    exact forms_of m dist half nearest areas f (hn f hf) D h0 hD (by linarith)

theorem bins_near : faceBins [1, 1.5] = some [[0, 1]] := by
  have hlog : Real.logb 2 1.5 < 1 := by
    rw [Real.logb_lt_iff_lt_rpow (by norm_num) (by norm_num)]; norm_num
  have hlog0 : 0 < Real.logb 2 1.5 := Real.logb_pos (by norm_num) (by norm_num)
  have hc : ⌈Real.logb 2 1.5⌉₊ = 1 := by
    rw [Nat.ceil_eq_iff (by norm_num)]
    constructor
    · simpa using hlog0
    · simpa using hlog.le
  have hf : ⌊Real.logb 2 1.5⌋₊ = 0 := Nat.floor_eq_zero.mpr hlog
  have h1 : ([1, 1.5] : List ℝ).min? = some 1 := List.min?_eq_some_iff.mpr ⟨by simp, by norm_num⟩
  have h2 : ([1, 1.5] : List ℝ).max? = some 1.5 := List.max?_eq_some_iff.mpr ⟨by simp, by norm_num⟩
  unfold faceBins
  rw [h1, h2]
  simp only [div_one, hc]
  simp [place, binIndex, hf]

/-- Such a bin exists. -/
example : ∃ bin ∈ [[0, 1]], faceBins [1, 1.5] = some [[0, 1]] ∧ ∃ f ∈ bin, ∃ g ∈ bin, faceSize [1, 1.5] f ≠ faceSize [1, 1.5] g := by
  refine ⟨[0, 1], by simp, bins_near, 0, by simp, 1, by simp, ?_⟩
  simp only [faceSize, List.getD_cons_zero, List.getD_cons_succ]
  intro h
  have := Real.sqrt_inj (by norm_num) (by norm_num) |>.mp h
  norm_num at this

/-- With these faces the degradation of any period is computed. -/
example (p : PowerLaw) : ∃ k', compute (some p.function) 2 1 [1, 1.5] (fun _ => 0) = .ok k' := by
  unfold compute
  rw [if_neg (by norm_num)]
  simp only [bins_near]
  exact ⟨_, rfl⟩

/-- Whatever the mesh, a crater is not made if no face has its middle within three quarters of its diameter, also if it is larger than the
largest face of its bin, so that it is not part of the degradation either. -/
theorem C217_lost_fails (m : Verif.Region.Mesh) (areas : List ℝ) (dist : ℕ → ℝ) (half D : ℝ) (nearest face : ℕ)
    (hh : 3 / 4 * D < half) (hd : ∀ f < m.nFace, 3 / 4 * D < dist f) : forms m dist half nearest areas face D = false := by
  have he : 1.5 * (D / 2) = 3 / 4 * D := by ring
  have : craterRegion m dist half nearest D = none :=
    (Verif.Region.C67_absent _ _ _ _ _ _).2 ⟨rfl, by rw [he]; exact hh, fun f hf => by rw [he]; exact hd f hf⟩
  unfold forms
  rw [this]

/-- A face of area 1 that is four times as long as a square: a crater of diameter 1.1 with its center at the end of the face is larger than
the face, so that it is not part of the degradation, but is not made, since no face has its middle within 0.825 of it. -/
example : ∃ (m : Verif.Region.Mesh) (areas : List ℝ) (bins : List (List ℕ)) (dist : ℕ → ℝ) (half D : ℝ),
    (∀ a ∈ areas, 0 < a) ∧ areas.length = m.nFace ∧ faceBins areas = some bins ∧
    (∀ bin ∈ bins, 0 ∈ bin → ∀ s, IsLargest areas bin s → s < D) ∧ (∀ f < m.nFace, dist 0 ≤ dist f) ∧
    3 / 4 * D < half ∧ ∀ f < m.nFace, 3 / 4 * D < dist f := by
  obtain ⟨b, hb, _⟩ := bins_two
  refine ⟨⟨2, 0, 0, fun _ => [], fun _ => [], fun _ => [], fun _ => [], fun _ => []⟩, [1, 100], b,
    fun f => if f = 0 then 2 else 7, 1000, 1.1, by simp, rfl, hb, ?_, ?_, ?_⟩
  · intro bin hbin h0 s hs
    obtain ⟨hp, _, h2⟩ := C34_partition_partial [1, 100] (by simp) b hb
    obtain ⟨f, hf, rfl⟩ := hs.1
    have hlt : f < 2 := by
      have : f ∈ List.range [(1 : ℝ), 100].length := hp.mem_iff.mp (List.mem_flatten.mpr ⟨bin, hbin, hf⟩)
      simpa using this
    interval_cases f
    · simp [faceSize]; norm_num
    · have := h2 bin hbin 1 hf 0 h0
      norm_num at this
  · intro f _
    show (if (0 : ℕ) = 0 then (2 : ℝ) else 7) ≤ if f = 0 then 2 else 7
    rw [if_pos rfl]
    split_ifs <;> norm_num
  · refine ⟨by norm_num, fun f _ => ?_⟩
    show 3 / 4 * (1.1 : ℝ) < if f = 0 then 2 else 7
    split_ifs <;> norm_num

end Verif.SubPixel
