import Verif.Model.Superdomain
import Mathlib.Algebra.Order.Archimedean.Real.Basic
import Mathlib.Analysis.Real.Pi.Bounds
import Mathlib.Tactic.Linarith
import Mathlib.Tactic.Ring
import Mathlib.Tactic.FieldSimp

/-!
C212: the face sizes found automatically for the surroundings of a local region.
-/

namespace Verif.Superdomain

open Verif.HiRes

/-! ### The trial diameters -/

theorem trial_zero {R s : ℝ} : trial R s 0 = s := by simp [trial]

theorem trial_last {R s : ℝ} (hs : 0 < s) : trial R s 999 = R * 2 := by
  simp only [trial]
  norm_num
  field_simp

theorem trial_succ {R s : ℝ} (hs : 0 < s) (hR : s ≤ R * 2) (i : ℕ) :
    trial R s (i + 1) = trial R s i * (R * 2 / s) ^ ((1 : ℝ) / 999) := by
  have hq : 0 < R * 2 / s := div_pos (lt_of_lt_of_le hs hR) hs
  have e : (((i + 1 : ℕ) : ℝ)) / 999 = (i : ℝ) / 999 + 1 / 999 := by push_cast; ring
  simp only [trial]
  rw [e, Real.rpow_add hq]
  ring

theorem trial_mono {R s : ℝ} (hs : 0 < s) (hR : s ≤ R * 2) {i j : ℕ} (h : i ≤ j) : trial R s i ≤ trial R s j := by
  have hq : 1 ≤ R * 2 / s := by rw [le_div_iff₀ hs]; linarith
  simp only [trial]
  apply mul_le_mul_of_nonneg_left _ hs.le
  apply Real.rpow_le_rpow_of_exponent_le hq
  have : (i : ℝ) ≤ j := by exact_mod_cast h
  linarith

theorem trial_range {R s : ℝ} (hs : 0 < s) (hR : s ≤ R * 2) {i : ℕ} (h : i < 1000) :
    s ≤ trial R s i ∧ trial R s i ≤ R * 2 := by
  constructor
  · have := trial_mono hs hR (Nat.zero_le i)
    rwa [trial_zero] at this
  · have := trial_mono hs hR (show i ≤ 999 by omega)
    rwa [trial_last hs] at this

/-- What the inner loop returns: the first trial that reaches, or the old size if no trial reaches. -/
theorem pick_spec (rmax : ℝ → ℝ) (R d s : ℝ) :
    (∃ i < 1000, pick rmax R d s = trial R s i ∧ d ≤ rmax (trial R s i) ∧ ∀ j < i, rmax (trial R s j) < d) ∨
    (pick rmax R d s = s ∧ ∀ i < 1000, rmax (trial R s i) < d) := by
  classical
  simp only [pick, trials]
  cases h : ((List.range 1000).map (trial R s)).find? (fun x => decide (rmax x ≥ d)) with
  | none =>
    right
    refine ⟨rfl, fun i hi => ?_⟩
    rw [List.find?_eq_none] at h
    have := h (trial R s i) (List.mem_map.mpr ⟨i, List.mem_range.mpr hi, rfl⟩)
    simpa using this
  | some x =>
    left
    rw [List.find?_eq_some_iff_getElem] at h
    obtain ⟨hx, i, hi, hxi, hbefore⟩ := h
    simp only [List.length_map, List.length_range] at hi
    simp only [List.getElem_map, List.getElem_range] at hxi
    refine ⟨i, hi, by simp [hxi], ?_, fun j hj => ?_⟩
    · rw [hxi]; simpa using hx
    · have := hbefore j hj
      simpa using this

theorem pick_range {rmax : ℝ → ℝ} {R d s : ℝ} (hs : 0 < s) (hR : s ≤ R * 2) :
    s ≤ pick rmax R d s ∧ pick rmax R d s ≤ R * 2 := by
  rcases pick_spec rmax R d s with ⟨i, hi, h, -⟩ | ⟨h, -⟩
  · rw [h]; exact trial_range hs hR hi
  · rw [h]; exact ⟨le_rfl, hR⟩

attribute [local irreducible] pick

/-- The ratio of neighbouring trial diameters at the start of the search, the coarsest of all. -/
noncomputable def resolution (R : ℝ) : ℝ := (R * 2 / 0.1) ^ ((1 : ℝ) / 999)

theorem resolution_ge {R s : ℝ} (hs : 0.1 ≤ s) (hR : s ≤ R * 2) :
    (R * 2 / s) ^ ((1 : ℝ) / 999) ≤ resolution R := by
  have hs0 : 0 < s := by linarith
  apply Real.rpow_le_rpow (div_nonneg (by linarith) hs0.le) _ (by norm_num)
  exact div_le_div_of_nonneg_left (by linarith) (by norm_num) hs

theorem resolution_pos {R : ℝ} (hR : 0.1 ≤ R * 2) : 0 < resolution R :=
  Real.rpow_pos_of_pos (div_pos (by linarith) (by norm_num)) _

/-- No crater that is smaller than the size by more than one step of the trial diameters reaches the distance. -/
def Least (rmax : ℝ → ℝ) (R d s : ℝ) : Prop := ∀ D, 0.1 ≤ D → D * resolution R ≤ s → rmax D < d

theorem pick_least {rmax : ℝ → ℝ} {R d d' s : ℝ} (hmono : MonotoneOn rmax (Set.Icc 0.1 (R * 2))) (hs : 0.1 ≤ s)
    (hR : s ≤ R * 2) (hd : d' ≤ d) (h : Least rmax R d' s) : Least rmax R d (pick rmax R d s) := by
  have hs0 : 0 < s := by linarith
  rcases pick_spec rmax R d s with ⟨i, hi, hp, -, hbefore⟩ | ⟨hp, -⟩
  · intro D hD hle
    rw [hp] at hle
    cases i with
    | zero =>
      rw [trial_zero] at hle
      exact lt_of_lt_of_le (h D hD hle) hd
    | succ i =>
      have hr := trial_range hs0 hR (show i < 1000 by omega)
      rw [trial_succ hs0 hR] at hle
      have h1 : D * resolution R ≤ trial R s i * resolution R :=
        hle.trans (mul_le_mul_of_nonneg_left (resolution_ge hs hR) (by linarith))
      have h2 : D ≤ trial R s i := le_of_mul_le_mul_right h1 (resolution_pos (by linarith))
      exact lt_of_le_of_lt (hmono ⟨hD, by linarith⟩ ⟨by linarith, hr.2⟩ h2) (hbefore i (by omega))
  · intro D hD hle
    rw [hp] at hle
    exact lt_of_lt_of_le (h D hD hle) hd

/-! ### The search -/

theorem samples_stop (rmax : ℝ → ℝ) (R : ℝ) (n m : ℕ) (hm : n ≤ m) (d s : ℝ) (hs : 0.1 ≤ s) (hR : s ≤ R * 2)
    (h : Real.pi * R ≤ d + n * 0.1) : samples rmax R m d s = samples rmax R n d s := by
  induction n generalizing m d s with
  | zero =>
    have : ¬ d < Real.pi * R := by push Not; simpa using h
    cases m with
    | zero => rfl
    | succ m => simp only [samples]; rw [if_neg this]
  | succ n ih =>
    obtain ⟨m, rfl⟩ : ∃ k, m = k + 1 := ⟨m - 1, by omega⟩
    simp only [samples]
    by_cases hc : d < Real.pi * R
    · rw [if_pos hc, if_pos hc]
      have hp := pick_range (rmax := rmax) (d := d) (by linarith : 0 < s) hR
      rw [ih m (by omega) _ _ (hs.trans hp.1) hp.2 (by push_cast at h; linarith)]
    · rw [if_neg hc, if_neg hc]

theorem samples_cover (rmax : ℝ → ℝ) (R : ℝ) (n : ℕ) (d s r : ℝ) (hs : 0.1 ≤ s) (hR : s ≤ R * 2)
    (h : Real.pi * R ≤ d + n * 0.1) (hdr : d ≤ r) (hr : r < Real.pi * R) :
    ∃ p ∈ samples rmax R n d s, p.1 ≤ r ∧ r < p.1 + p.2 := by
  induction n generalizing d s with
  | zero => exfalso; simp at h; linarith
  | succ n ih =>
    have hc : d < Real.pi * R := lt_of_le_of_lt hdr hr
    have hp := pick_range (rmax := rmax) (d := d) (by linarith : 0 < s) hR
    simp only [samples]
    rw [if_pos hc]
    by_cases hn : r < d + pick rmax R d s
    · exact ⟨_, List.mem_cons_self, hdr, hn⟩
    · obtain ⟨p, hm, h1⟩ := ih _ _ (hs.trans hp.1) hp.2 (by push_cast at h; linarith) (not_lt.mp hn)
      exact ⟨p, List.mem_cons_of_mem _ hm, h1⟩

theorem samples_mem (rmax : ℝ → ℝ) (R : ℝ) (n : ℕ) (d s : ℝ) (hs : 0.1 ≤ s) (hR : s ≤ R * 2) :
    (∀ p ∈ samples rmax R n d s, d ≤ p.1 ∧ p.1 < Real.pi * R ∧ s ≤ p.2 ∧ p.2 ≤ R * 2 ∧
      (p.1 ≤ rmax (R * 2) → p.1 ≤ rmax p.2)) ∧
    (samples rmax R n d s).Pairwise fun p q => p.1 + p.2 ≤ q.1 ∧ p.2 ≤ q.2 := by
  induction n generalizing d s with
  | zero => simp [samples]
  | succ n ih =>
    simp only [samples]
    by_cases hc : d < Real.pi * R
    · rw [if_pos hc]
      have hs0 : 0 < s := by linarith
      have hp := pick_range (rmax := rmax) (d := d) hs0 hR
      obtain ⟨h1, h2⟩ := ih (d + pick rmax R d s) _ (hs.trans hp.1) hp.2
      constructor
      · intro p hm
        rcases List.mem_cons.mp hm with rfl | hm
        · refine ⟨le_rfl, hc, hp.1, hp.2, fun hreach => ?_⟩
          rcases pick_spec rmax R d s with ⟨i, hi, he, hd, -⟩ | ⟨-, hno⟩
          · rw [he]; exact hd
          · have := hno 999 (by omega)
            rw [trial_last hs0] at this
            exact absurd hreach (not_le.mpr this)
        · obtain ⟨a, b, c, e, f⟩ := h1 p hm
          exact ⟨by linarith, b, hp.1.trans c, e, f⟩
      · refine List.pairwise_cons.mpr ⟨fun q hq => ?_, h2⟩
        obtain ⟨a, -, c, -⟩ := h1 q hq
        exact ⟨a, c⟩
    · rw [if_neg hc]; simp

theorem samples_least (rmax : ℝ → ℝ) (R : ℝ) (hmono : MonotoneOn rmax (Set.Icc 0.1 (R * 2))) (n : ℕ) (d d' s : ℝ)
    (hs : 0.1 ≤ s) (hR : s ≤ R * 2) (hd : d' ≤ d) (h : Least rmax R d' s) :
    ∀ p ∈ samples rmax R n d s, Least rmax R p.1 p.2 := by
  induction n generalizing d d' s with
  | zero => simp [samples]
  | succ n ih =>
    simp only [samples]
    by_cases hc : d < Real.pi * R
    · rw [if_pos hc]
      have hp := pick_range (rmax := rmax) (d := d) (by linarith : 0 < s) hR
      have hl := pick_least hmono hs hR hd h
      intro p hm
      rcases List.mem_cons.mp hm with rfl | hm
      · exact hl
      · exact ih _ d _ (hs.trans hp.1) hp.2 (by linarith [hp.1]) hl p hm
    · rw [if_neg hc]; simp

/-- **C212.** Whatever the extent of ejecta (not even monotonic), the search for the face sizes ends; the distances at which a size
has been found, taken with their sizes, cover everything from one metre to the antipode without overlap, and sizes never decrease with
distance. -/
theorem C212_search (rmax : ℝ → ℝ) (R : ℝ) (hR : 0.05 ≤ R) :
    ∃ N, (∀ n, N ≤ n → search rmax R n = search rmax R N) ∧
      (∀ r, 1 ≤ r → r < Real.pi * R → ∃ p ∈ search rmax R N, p.1 ≤ r ∧ r < p.1 + p.2) ∧
      (search rmax R N).Pairwise (fun p q => p.1 + p.2 ≤ q.1 ∧ p.2 ≤ q.2) ∧
      ∀ p ∈ search rmax R N, 1 ≤ p.1 ∧ p.1 < Real.pi * R ∧ 0.1 ≤ p.2 ∧ p.2 ≤ R * 2 := by
  obtain ⟨N, hN⟩ := exists_nat_ge (Real.pi * R / 0.1)
  have hN' : Real.pi * R ≤ N * 0.1 := by rwa [div_le_iff₀ (by norm_num)] at hN
  have h0 : (0.1 : ℝ) ≤ 1 * 0.1 := by norm_num
  have h1 : (1 * 0.1 : ℝ) ≤ R * 2 := by linarith
  refine ⟨N, fun n hn => samples_stop rmax R N n hn 1 _ h0 h1 (by linarith), fun r hr hr' => ?_, ?_, ?_⟩
  · exact samples_cover rmax R N 1 _ r h0 h1 (by linarith) hr hr'
  · exact (samples_mem rmax R N 1 _ h0 h1).2
  · intro p hp
    obtain ⟨a, b, c, e, -⟩ := (samples_mem rmax R N 1 _ h0 h1).1 p hp
    exact ⟨a, b, by linarith, e⟩

/-- **C212**, the part that holds of "ejecta of a crater of that size just reach": at every sampled distance, craters of the size
found reach that far, if a crater as large as the body does; and where larger craters throw farther, no crater smaller by more than
one step of the trial diameters (of at most `(20 R) ^ (1/999)`, 1.018 on the Moon) does.  Sizes below ten centimetres are never tried.
What is missing: see the `_fails` theorems below. -/
theorem C212_just_reaches_partial (rmax : ℝ → ℝ) (R : ℝ) (hR : 0.05 ≤ R) (n : ℕ) (p : ℝ × ℝ) (hp : p ∈ search rmax R n) :
    (p.1 ≤ rmax (R * 2) → p.1 ≤ rmax p.2) ∧
    (MonotoneOn rmax (Set.Icc 0.1 (R * 2)) →
      ∀ D, 0.1 ≤ D → D * (20 * R) ^ ((1 : ℝ) / 999) ≤ p.2 → rmax D < p.1) := by
  have h0 : (0.1 : ℝ) ≤ 1 * 0.1 := by norm_num
  have h1 : (1 * 0.1 : ℝ) ≤ R * 2 := by linarith
  have hmem := (samples_mem rmax R n 1 _ h0 h1).1 p hp
  refine ⟨hmem.2.2.2.2, fun hm D hD hle => ?_⟩
  have hres : resolution R = (20 * R) ^ ((1 : ℝ) / 999) := by
    rw [resolution]; congr 1; ring
  rw [← hres] at hle
  have hbig : 0.1 < R * 2 := by
    have := Real.pi_lt_d2
    nlinarith [hmem.1, hmem.2.1]
  have hone : 1 < resolution R := Real.one_lt_rpow (by rw [lt_div_iff₀ (by norm_num)]; linarith) (by norm_num)
  refine samples_least rmax R hm n 1 1 _ h0 h1 le_rfl ?_ p hp D hD hle
  intro D' hD' hle'
  exfalso
  nlinarith

/-- Craters whose ejecta reach ten diameters on the Moon meet the hypotheses, and there are samples. -/
example : (0.05 : ℝ) ≤ 1737400 ∧ MonotoneOn (fun D : ℝ => 10 * D) (Set.Icc 0.1 (1737400 * 2)) ∧
    ∃ p, p ∈ search (fun D => 10 * D) 1737400 1 := by
  refine ⟨by norm_num, fun a _ b _ h => by simpa using h, (1, pick (fun D => 10 * D) 1737400 1 (1 * 0.1)), ?_⟩
  have : (1 : ℝ) < Real.pi * 1737400 := by nlinarith [Real.pi_gt_three]
  simp only [search, samples]
  rw [if_pos this]
  simp

/-- **C212 fails** where the ejecta are cut off near the rim (`ejecta_truncation`, here 1.1 crater radii): at some distance the size
found is that of a crater whose ejecta do not reach that far, because no crater's do and the last size is kept. -/
theorem C212_truncated_fails (R : ℝ) (hR : 1 ≤ R) :
    ∃ n, ∃ p ∈ search (fun D => 1.1 * (D / 2)) R n, 1.1 * (p.2 / 2) < p.1 := by
  obtain ⟨N, -, hcover, -, hmem⟩ := C212_search (fun D => 1.1 * (D / 2)) R (by linarith)
  by_contra hno
  push Not at hno
  have hpi := Real.pi_gt_d2
  obtain ⟨p, hp, h1, h2⟩ := hcover (3.1 * R) (by linarith) (by nlinarith)
  have h3 := hno N p hp
  have h4 := (hmem p hp).2.2.2
  linarith

/-! ### The settings -/

/-- Settings as they are when the surface is made, before a factor is known. -/
def fresh (R pix L : ℝ) : Settings := { radius := R, pix := pix, localRadius := L }

theorem slope_eq {R pix L f : ℝ} (hd : Real.pi * R - L - L ≠ 0) :
    readSlope { fresh R pix L with factor := some f } = some ((pix * f - pix) / (Real.pi * R - L - L)) := by
  show HiRes.slope ⟨R, pix, L, f⟩ = _
  simp only [HiRes.slope, if_neg hd]

theorem sizeAt_in {pix L m b r : ℝ} (h : r < L) : sizeAt pix L m b r = pix := by simp only [sizeAt, if_pos h]

theorem sizeAt_out {pix L m b r : ℝ} (h : ¬ r < L) : sizeAt pix L m b r = pix + m * (r - L) ^ b := by
  simp only [sizeAt, if_neg h]

/-- **C212**, the part that holds of an explicit factor: read for the first time after it has been set, the face size is the pixel
size inside the local region, grows linearly outside and is the factor times the pixel size at the local radius before the antipode. -/
theorem C212_explicit_partial (R pix L f : ℝ) (hf : 1 ≤ f) (hL : 2 * L < Real.pi * R) :
    ∃ s, setFactor (fresh R pix L) f = some s ∧
      (∀ r < L, (readSize s r).map Prod.snd = some pix) ∧
      (∃ m, ∀ r, L ≤ r → (readSize s r).map Prod.snd = some (pix + m * (r - L))) ∧
      (readSize s (Real.pi * R - L)).map Prod.snd = some (f * pix) := by
  refine ⟨{ fresh R pix L with factor := some f }, ?_, fun r hr => ?_, ?_, ?_⟩
  · simp only [setFactor]; rw [if_neg (not_lt.mpr hf)]
  all_goals
    have hd : Real.pi * R - L - L ≠ 0 := by intro h; linarith
    have hs : readSlope { fresh R pix L with factor := some f } = some ((pix * f - pix) / (Real.pi * R - L - L)) :=
      slope_eq hd
  · simp only [readSize, hs, Option.map_some]
    show some (sizeAt pix L ((pix * f - pix) / (Real.pi * R - L - L)) 1 r) = _
    rw [sizeAt_in hr]
  · refine ⟨(pix * f - pix) / (Real.pi * R - L - L), fun r hr => ?_⟩
    simp only [readSize, hs, Option.map_some]
    show some (sizeAt pix L ((pix * f - pix) / (Real.pi * R - L - L)) 1 r) = _
    rw [sizeAt_out (not_lt.mpr hr), Real.rpow_one]
  · simp only [readSize, hs, Option.map_some]
    show some (sizeAt pix L ((pix * f - pix) / (Real.pi * R - L - L)) 1 (Real.pi * R - L)) = _
    rw [sizeAt_out (by push Not; linarith), Real.rpow_one, div_mul_cancel₀ _ hd]
    congr 1
    ring

/-- **C212 fails** for a factor that is set again: once a face size has been read (the mesh made), another factor is accepted and
reported, and enters the identity of the mesh, but face sizes stay those of the first factor everywhere. -/
theorem C212_again_fails (R pix L f f' : ℝ) (hf' : 1 ≤ f') (hp : 0 < pix) (hne : f ≠ f') (hL : 2 * L < Real.pi * R) (r : ℝ) :
    ∃ s₁ v s₂, readSize { fresh R pix L with factor := some f } r = some (s₁, v) ∧ setFactor s₁ f' = some s₂ ∧
      s₂.factor = some f' ∧
      (∀ x, (readSize s₂ x).map Prod.snd = (readSize { fresh R pix L with factor := some f } x).map Prod.snd) ∧
      (readSize s₂ (Real.pi * R - L)).map Prod.snd ≠ some (f' * pix) := by
  have hd : Real.pi * R - L - L ≠ 0 := by intro h; linarith
  have hs : readSlope { fresh R pix L with factor := some f } = some ((pix * f - pix) / (Real.pi * R - L - L)) :=
    slope_eq hd
  refine ⟨{ fresh R pix L with factor := some f, slope := some ((pix * f - pix) / (Real.pi * R - L - L)), exponent := some 1 }, sizeAt pix L ((pix * f - pix) / (Real.pi * R - L - L)) 1 r,
    { fresh R pix L with
    factor := some f', slope := some ((pix * f - pix) / (Real.pi * R - L - L)), exponent := some 1 }, ?_, ?_, rfl, ?_, ?_⟩
  · simp only [readSize, hs, Option.map_some]
    rfl
  · simp only [setFactor]; rw [if_neg (not_lt.mpr hf')]
  · intro x
    simp only [readSize, hs, Option.map_some]
    simp [readSlope, fresh]
  · show some (sizeAt pix L ((pix * f - pix) / (Real.pi * R - L - L)) 1 (Real.pi * R - L)) ≠ _
    rw [sizeAt_out (by push Not; linarith), Real.rpow_one]
    intro h
    rw [Option.some.injEq] at h
    apply hne
    rw [div_mul_cancel₀ _ hd] at h
    have : pix * f = pix * f' := by linarith
    exact mul_left_cancel₀ hp.ne' this

/-- **C212 fails** for a pixel size that is set again: once a face size has been read, another pixel size is accepted and holds inside
the local region, but outside faces grow as before, so that at the local radius before the antipode a face is not the factor times the new
pixel size; it is too small if pixels became larger, and too large if they became smaller. -/
theorem C212_pixel_fails (R pix pix' L f : ℝ) (hf : 1 < f) (hp' : 0 < pix') (hne : pix ≠ pix') (hL : 2 * L < Real.pi * R) (r : ℝ) :
    ∃ s₁ v s₂ far, readSize { fresh R pix L with factor := some f } r = some (s₁, v) ∧ setPix s₁ pix' = some s₂ ∧
      (∀ x < L, (readSize s₂ x).map Prod.snd = some pix') ∧
      (readSize s₂ (Real.pi * R - L)).map Prod.snd = some far ∧ far ≠ f * pix' ∧ (far < f * pix' ↔ pix < pix') := by
  have hd : Real.pi * R - L - L ≠ 0 := by intro h; linarith
  have hs : readSlope { fresh R pix L with factor := some f } = some ((pix * f - pix) / (Real.pi * R - L - L)) :=
    slope_eq hd
  refine ⟨{ fresh R pix L with factor := some f, slope := some ((pix * f - pix) / (Real.pi * R - L - L)), exponent := some 1 },
    sizeAt pix L ((pix * f - pix) / (Real.pi * R - L - L)) 1 r,
    { fresh R pix' L with factor := some f, slope := some ((pix * f - pix) / (Real.pi * R - L - L)), exponent := some 1 },
    pix' + (pix * f - pix), ?_, ?_, ?_, ?_, ?_, ?_⟩
  · simp only [readSize, hs, Option.map_some]
    rfl
  · simp only [setPix]; rw [if_neg (not_le.mpr hp')]; rfl
  · intro x hx
    show some (sizeAt pix' L ((pix * f - pix) / (Real.pi * R - L - L)) 1 x) = _
    rw [sizeAt_in hx]
  · show some (sizeAt pix' L ((pix * f - pix) / (Real.pi * R - L - L)) 1 (Real.pi * R - L)) = _
    rw [sizeAt_out (by push Not; linarith), Real.rpow_one, div_mul_cancel₀ _ hd]
  · intro h
    apply hne
    have : (f - 1) * (pix - pix') = 0 := by linarith
    rcases mul_eq_zero.mp this with h | h <;> linarith
  · constructor
    · intro h
      by_contra hc
      push Not at hc
      nlinarith
    · intro h
      nlinarith

/-- **C212 fails** for the factor that is reported after an automatic search: it is not the ratio of the farthest face size to the
pixel size, but the farthest face size in metres; only for pixels of one metre is it the same. -/
theorem C212_metres_fails (R pix L : ℝ) (hp : 0 < pix) (fit : Option (ℝ × ℝ)) :
    ∃ F v, (finish (fresh R pix L) fit).factor = some F ∧
      (readSize (finish (fresh R pix L) fit) (Real.pi * R)).map Prod.snd = some v ∧ (0 < v → pix ≠ 1 → F ≠ v / pix) := by
  refine ⟨sizeAt pix L (fit.getD (1, 1)).1 (fit.getD (1, 1)).2 (Real.pi * R),
    sizeAt pix L (fit.getD (1, 1)).1 (fit.getD (1, 1)).2 (Real.pi * R), rfl, rfl, fun hF hne h => hne ?_⟩
  rw [eq_div_iff hp.ne'] at h
  exact mul_left_cancel₀ hF.ne' (h.trans (mul_one _).symm)

/-- **C212 fails** for a surface that is made again with the factor reported after an automatic search: it has the same identity, so
that its mesh counts as the same, but its farthest faces are larger than those of the first surface. -/
theorem C212_identity_fails (R pix L a b : ℝ) (hp : 1 ≤ pix) (hL0 : 0 < L) (hL : 2 * L < Real.pi * R) (ha : 0 < a) :
    ∃ F s v₁ v₂, (finish (fresh R pix L) (some (a, b))).factor = some F ∧ setFactor (fresh R pix L) F = some s ∧
      identity s = identity (finish (fresh R pix L) (some (a, b))) ∧
      (readSize (finish (fresh R pix L) (some (a, b))) (Real.pi * R)).map Prod.snd = some v₁ ∧
      (readSize s (Real.pi * R)).map Prod.snd = some v₂ ∧ v₁ < v₂ := by
  have hd : 0 < Real.pi * R - L - L := by linarith
  have hpow : 0 < (Real.pi * R - L) ^ b := Real.rpow_pos_of_pos (by linarith) _
  have hnot : ¬ Real.pi * R < L := by push Not; linarith
  set F := pix + a * (Real.pi * R - L) ^ b with hFdef
  have hFp : pix < F := by rw [hFdef]; linarith [mul_pos ha hpow]
  have hF : (finish (fresh R pix L) (some (a, b))).factor = some F := by
    show some (sizeAt pix L a b (Real.pi * R)) = _
    rw [sizeAt_out hnot]
  have hs : readSlope { fresh R pix L with factor := some F } = some ((pix * F - pix) / (Real.pi * R - L - L)) :=
    slope_eq hd.ne'
  refine ⟨F, { fresh R pix L with factor := some F }, F,
    pix + (pix * F - pix) / (Real.pi * R - L - L) * (Real.pi * R - L), hF, ?_, ?_, ?_, ?_, ?_⟩
  · simp only [setFactor]; rw [if_neg (by push Not; linarith)]
  · simp only [identity]; rw [hF]; rfl
  · show some (sizeAt pix L a b (Real.pi * R)) = _
    rw [sizeAt_out hnot]
  · simp only [readSize, hs, Option.map_some]
    show some (sizeAt pix L ((pix * F - pix) / (Real.pi * R - L - L)) 1 (Real.pi * R)) = _
    rw [sizeAt_out hnot, Real.rpow_one]
  · have h1 : pix * F - pix < (pix * F - pix) / (Real.pi * R - L - L) * (Real.pi * R - L) := by
      rw [div_mul_eq_mul_div, lt_div_iff₀ hd]
      apply mul_lt_mul_of_pos_left (by linarith)
      nlinarith
    nlinarith

/-- A local region of 50 km with 100 m pixels on the Moon meets the hypotheses. -/
example : (1 : ℝ) ≤ 100 ∧ 2 * (50000 : ℝ) < Real.pi * 1737400 ∧ (1 : ℝ) ≤ 5000 ∧ (0.05 : ℝ) ≤ 1737400 :=
  ⟨by norm_num, by nlinarith [Real.pi_gt_three], by norm_num, by norm_num⟩

end Verif.Superdomain
