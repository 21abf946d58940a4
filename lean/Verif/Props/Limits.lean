import Verif.Model.Limits
import Verif.Props.FaceBins
import Mathlib.Tactic.IntervalCases

/-! Properties C69, C104, C105: diameter limits. -/

namespace Verif.Limits

open Verif.SurfaceData

/-! ### C69, C105 -/

theorem binIndex_mono {mn a b : ℝ} (hmn : 0 < mn) (ha : 0 < a) (h : a ≤ b) : binIndex mn a ≤ binIndex mn b :=
  Nat.floor_mono (Real.logb_le_logb_of_le (by norm_num) (by positivity) (div_le_div_of_nonneg_right h hmn.le))

/-- Faces of an earlier bin are smaller than those of a later one. -/
theorem faceBins_ascending (areas : List ℝ) (hpos : ∀ a ∈ areas, 0 < a) (bins : List (List ℕ))
    (h : faceBins areas = some bins) :
    bins.Pairwise fun b c => ∀ f ∈ b, ∀ k ∈ c, areas.getD f 0 < areas.getD k 0 := by
  unfold faceBins at h
  rcases hmn : areas.min? with _ | mn
  · rw [hmn] at h; simp at h
  rcases hmx : areas.max? with _ | mx
  · rw [hmn, hmx] at h; simp at h
  rw [hmn, hmx] at h
  simp only [Option.map_eq_some_iff] at h
  obtain ⟨b, hb, rfl⟩ := h
  obtain ⟨mn_mem, mn_le⟩ := min_spec hmn
  have mn_pos := hpos mn mn_mem
  set N := ⌈Real.logb 2 (mx / mn)⌉₊ with hN
  have hall : ∀ a ∈ areas, binIndex mn a < (List.replicate N ([] : List ℕ)).length := by
    by_contra hc
    push Not at hc
    have := (place_eq mn areas 0 (List.replicate N [])).1 hc
    rw [this] at hb
    cases hb
  obtain ⟨b', hb', hlen, hget⟩ := (place_eq mn areas 0 (List.replicate N [])).2 hall
  rw [hb'] at hb
  cases hb
  have hmap : b = (List.range N).map fun i => hits mn i areas 0 := by
    apply List.ext_getElem?
    intro i
    rw [hget i]
    by_cases hi : i < N
    · simp [hi]
    · simp [hi]
  apply List.Pairwise.filter
  rw [hmap, List.pairwise_map]
  refine List.Pairwise.imp ?_ (List.pairwise_lt_range (n := N))
  intro i j hij f hf k hk
  obtain ⟨p, a, e1, e2, e3⟩ := mem_hits.mp hf
  obtain ⟨q, a', f1, f2, f3⟩ := mem_hits.mp hk
  have hp : f = p := by omega
  have hq : k = q := by omega
  subst hp hq
  rw [List.getD_eq_getElem?_getD, List.getD_eq_getElem?_getD, e1, f1]
  simp only [Option.getD_some]
  by_contra hc
  have := binIndex_mono mn_pos (hpos a' (List.mem_of_getElem? f1)) (not_lt.mp hc)
  omega

/-- The size of a face. -/
noncomputable def faceSize (areas : List ℝ) (f : ℕ) : ℝ := Real.sqrt (areas.getD f 0)

/-- `s` is the size of the smallest face of a bin. -/
def IsSmallest (areas : List ℝ) (bin : List ℕ) (s : ℝ) : Prop :=
  (∃ f ∈ bin, faceSize areas f = s) ∧ ∀ f ∈ bin, s ≤ faceSize areas f

theorem binMin_spec (areas : List ℝ) (bin : List ℕ) (hne : bin ≠ []) :
    IsSmallest areas bin (((bin.map fun i => Real.sqrt (areas.getD i 0)).min?).getD 0) := by
  rcases hm : (bin.map fun i => Real.sqrt (areas.getD i 0)).min? with _ | m
  · rw [List.min?_eq_none_iff, List.map_eq_nil_iff] at hm
    exact absurd hm hne
  · obtain ⟨h1, h2⟩ := min_spec hm
    obtain ⟨f, hf, rfl⟩ := List.mem_map.mp h1
    exact ⟨⟨f, hf, rfl⟩, fun f' hf' => h2 _ (List.mem_map.mpr ⟨f', hf', rfl⟩)⟩

theorem IsSmallest.unique {areas : List ℝ} {bin : List ℕ} {s t : ℝ} (hs : IsSmallest areas bin s)
    (ht : IsSmallest areas bin t) : s = t := by
  obtain ⟨⟨f, hf, rfl⟩, h1⟩ := hs
  obtain ⟨⟨k, hk, rfl⟩, h2⟩ := ht
  exact le_antisymm (h1 k hk) (h2 f hf)

theorem binRanges_length (g : ℝ → ℝ) (dmax : ℝ) (ss : List ℝ) (dmin : ℝ) :
    (binRanges g dmax ss dmin).length = ss.length := by
  induction ss generalizing dmin with
  | nil => rfl
  | cons s ss ih => simp [binRanges, ih]

theorem binRanges_bounds (g : ℝ → ℝ) (dmax : ℝ) (ss : List ℝ) (dmin : ℝ) (i : ℕ) (r : ℝ × ℝ) (s : ℝ)
    (hr : (binRanges g dmax ss dmin)[i]? = some r) (hs : ss[i]? = some s) :
    r.2 = dmax ∧ dmin ≤ r.1 ∧ g s ≤ r.1 := by
  induction ss generalizing dmin i with
  | nil => simp at hs
  | cons x ss ih =>
    rcases i with _ | i
    · simp only [binRanges, List.getElem?_cons_zero, Option.some.injEq] at hr hs
      subst hr hs
      exact ⟨rfl, le_max_right _ _, le_max_left _ _⟩
    · simp only [binRanges, List.getElem?_cons_succ] at hr hs
      obtain ⟨h1, h2, h3⟩ := ih _ i hr hs
      exact ⟨h1, (le_max_right _ _).trans h2, h3⟩

theorem binRanges_exact (g : ℝ → ℝ) (dmax : ℝ) (ss : List ℝ) (dmin : ℝ)
    (hasc : ss.Pairwise fun s t => g s ≤ g t) :
    binRanges g dmax ss dmin = ss.map fun s => (max (g s) dmin, dmax) := by
  induction ss generalizing dmin with
  | nil => rfl
  | cons x ss ih =>
    rw [List.pairwise_cons] at hasc
    simp only [binRanges, List.map_cons]
    rw [ih _ hasc.2]
    congr 1
    apply List.map_congr_left
    intro s hs
    have := hasc.1 s hs
    simp only [Prod.mk.injEq, and_true]
    rw [← max_assoc, max_eq_left this]

theorem validRange_some {r q : ℝ × ℝ} (h : validRange r = some q) : q = r ∧ 0 < r.1 ∧ r.1 ≤ r.2 := by
  unfold validRange at h
  split_ifs at h with h1 h2
  exact ⟨(Option.some.inj h).symm, not_le.mp h1, not_lt.mp h2⟩

theorem mapM_valid (L R : List (ℝ × ℝ)) : L.mapM validRange = some R ↔ R = L ∧ ∀ r ∈ L, 0 < r.1 ∧ r.1 ≤ r.2 := by
  induction L generalizing R with
  | nil => simp [eq_comm]
  | cons r L ih =>
    rw [List.mapM_cons]
    simp only [Option.bind_eq_bind, Option.bind_eq_some_iff, Option.pure_def, Option.some.injEq]
    constructor
    · rintro ⟨q, hq, R', hR', rfl⟩
      obtain ⟨rfl, h1⟩ := validRange_some hq
      obtain ⟨rfl, h2⟩ := (ih R').mp hR'
      refine ⟨rfl, ?_⟩
      intro x hx
      rcases List.mem_cons.mp hx with rfl | hx
      · exact h1
      · exact h2 x hx
    · rintro ⟨rfl, h⟩
      refine ⟨r, ?_, L, (ih L).mpr ⟨rfl, fun x hx => h x (by simp [hx])⟩, rfl⟩
      obtain ⟨h1, h2⟩ := h r (by simp)
      unfold validRange
      rw [if_neg (not_le.mpr h1), if_neg (not_lt.mpr h2)]

theorem populate_some {g : ℝ → ℝ} {dmin dmax : ℝ} {areas : List ℝ} {sample : ℕ → ℝ × ℝ → List ℝ} {bins : List (List ℕ)}
    {out : List (List ℝ)} (hb : faceBins areas = some bins) :
    populate g dmin dmax areas sample = some out ↔
    (∀ r ∈ binRanges g dmax (binMinSizes areas bins) dmin, 0 < r.1 ∧ r.1 ≤ r.2) ∧
      out = (binRanges g dmax (binMinSizes areas bins) dmin).mapIdx fun i r => sample i r := by
  unfold populate
  rw [hb]
  simp only [Option.map_eq_some_iff, mapM_valid]
  constructor
  · rintro ⟨R, ⟨rfl, h⟩, rfl⟩
    exact ⟨h, rfl⟩
  · rintro ⟨h, rfl⟩
    exact ⟨_, ⟨rfl, h⟩, rfl⟩

theorem minSizes_get {areas : List ℝ} {bins : List (List ℕ)} (hne : [] ∉ bins) {i : ℕ} {bin : List ℕ}
    (hi : bins[i]? = some bin) {s : ℝ} (hs : IsSmallest areas bin s) : (binMinSizes areas bins)[i]? = some s := by
  have hb : bin ≠ [] := fun h => hne (h ▸ List.mem_of_getElem? hi)
  unfold binMinSizes
  rw [List.getElem?_map, hi, Option.map_some, (binMin_spec areas bin hb).unique hs]

/-- Craters sampled for a bin lie between the limits requested, and are at least the limit given by the smallest face of the
bin, whatever sampling does within the range it is given.  No monotonicity of the conversion is needed. -/
theorem C69_limits (g : ℝ → ℝ) (dmin dmax : ℝ) (areas : List ℝ) (hpos : ∀ a ∈ areas, 0 < a)
    (sample : ℕ → ℝ × ℝ → List ℝ) (hsample : ∀ i r, ∀ d ∈ sample i r, r.1 ≤ d ∧ d ≤ r.2)
    (bins : List (List ℕ)) (hb : faceBins areas = some bins) (out : List (List ℝ))
    (h : populate g dmin dmax areas sample = some out) :
    out.length = bins.length ∧ ∀ (i : ℕ) bin craters s, bins[i]? = some bin → out[i]? = some craters →
      IsSmallest areas bin s → ∀ d ∈ craters, dmin ≤ d ∧ d ≤ dmax ∧ g s ≤ d := by
  obtain ⟨_, hne, _⟩ := C34_partition_partial areas hpos bins hb
  obtain ⟨hv, rfl⟩ := (populate_some hb).mp h
  refine ⟨by simp [binRanges_length, binMinSizes], ?_⟩
  intro i bin craters s hi ho hs d hd
  rw [List.getElem?_mapIdx, Option.map_eq_some_iff] at ho
  obtain ⟨r, hr, rfl⟩ := ho
  obtain ⟨e1, e2, e3⟩ := binRanges_bounds g dmax _ dmin i r s hr (minSizes_get hne hi hs)
  obtain ⟨d1, d2⟩ := hsample i r d hd
  exact ⟨e2.trans d1, d2.trans e1.le, e3.trans d1⟩

/-- No more than that is cut off: the range sampled for a bin is bounded below by the larger of the requested limit and the
bin's own limit, in spite of the limit being carried from one bin to the next. -/
theorem C69_exact (g : ℝ → ℝ) (hg : Monotone g) (dmin dmax : ℝ) (areas : List ℝ) (hpos : ∀ a ∈ areas, 0 < a)
    (sample : ℕ → ℝ × ℝ → List ℝ) (bins : List (List ℕ)) (hb : faceBins areas = some bins) (out : List (List ℝ))
    (h : populate g dmin dmax areas sample = some out) :
    ∀ (i : ℕ) bin s, bins[i]? = some bin → IsSmallest areas bin s →
      out[i]? = some (sample i (max (g s) dmin, dmax)) := by
  obtain ⟨_, hne, _⟩ := C34_partition_partial areas hpos bins hb
  have hasc := faceBins_ascending areas hpos bins hb
  obtain ⟨hv, rfl⟩ := (populate_some hb).mp h
  have hp : (binMinSizes areas bins).Pairwise fun s t => g s ≤ g t := by
    unfold binMinSizes
    rw [List.pairwise_map]
    refine List.Pairwise.imp_of_mem ?_ hasc
    intro b c hbm hcm hlt
    apply hg
    obtain ⟨⟨f, hf, e⟩, _⟩ := binMin_spec areas b (fun h => hne (h ▸ hbm))
    obtain ⟨⟨k, hk, e'⟩, _⟩ := binMin_spec areas c (fun h => hne (h ▸ hcm))
    rw [← e, ← e']
    exact Real.sqrt_le_sqrt (hlt f hf k hk).le
  intro i bin s hi hs
  rw [binRanges_exact g dmax _ dmin hp, List.getElem?_mapIdx, List.getElem?_map, minSizes_get hne hi hs]
  rfl

/-- Populating raises exactly when the requested limits exclude each other or some bin only has faces larger than the
largest crater (only the converse part of the property holds). -/
theorem C105_populate_iff_partial (g : ℝ → ℝ) (hg : Monotone g) (dmin dmax : ℝ) (hd : 0 < dmin) (areas : List ℝ)
    (hpos : ∀ a ∈ areas, 0 < a) (sample : ℕ → ℝ × ℝ → List ℝ) (bins : List (List ℕ)) (hb : faceBins areas = some bins) :
    (populate g dmin dmax areas sample).isSome ↔ bins = [] ∨
      (dmin ≤ dmax ∧ ∀ bin ∈ bins, ∃ f ∈ bin, g (faceSize areas f) ≤ dmax) := by
  obtain ⟨_, hne, _⟩ := C34_partition_partial areas hpos bins hb
  rw [Option.isSome_iff_exists]
  constructor
  · rintro ⟨out, h⟩
    obtain ⟨hv, -⟩ := (populate_some hb).mp h
    rcases bins with _ | ⟨b0, bs⟩
    · exact .inl rfl
    right
    have key : ∀ (i : ℕ) bin, (b0 :: bs)[i]? = some bin → dmin ≤ dmax ∧ ∃ f ∈ bin, g (faceSize areas f) ≤ dmax := by
      intro i bin hi
      have hbne : bin ≠ [] := fun h => hne (h ▸ List.mem_of_getElem? hi)
      have hs := binMin_spec areas bin hbne
      have hms := minSizes_get hne hi hs
      have hlt : i < (binRanges g dmax (binMinSizes areas (b0 :: bs)) dmin).length := by
        rw [binRanges_length]
        exact (List.getElem?_eq_some_iff.mp hms).1
      obtain ⟨e1, e2, e3⟩ := binRanges_bounds g dmax _ dmin i _ _ (List.getElem?_eq_getElem hlt) hms
      obtain ⟨_, v2⟩ := hv _ (List.getElem_mem hlt)
      obtain ⟨⟨f, hf, hfe⟩, _⟩ := hs
      refine ⟨e2.trans (v2.trans e1.le), f, hf, ?_⟩
      rw [hfe]
      exact e3.trans (v2.trans e1.le)
    refine ⟨(key 0 b0 rfl).1, ?_⟩
    intro bin hbin
    obtain ⟨i, hi, rfl⟩ := List.getElem_of_mem hbin
    exact (key i _ (List.getElem?_eq_getElem hi)).2
  · intro h
    refine ⟨_, (populate_some hb).mpr ⟨?_, rfl⟩⟩
    rcases h with rfl | ⟨hd2, hbins⟩
    · simp [binMinSizes, binRanges]
    · have main : ∀ (ss : List ℝ) (d : ℝ), 0 < d → d ≤ dmax → (∀ s ∈ ss, g s ≤ dmax) →
          ∀ r ∈ binRanges g dmax ss d, 0 < r.1 ∧ r.1 ≤ r.2 := by
        intro ss
        induction ss with
        | nil => intro d _ _ _ r hr; simp [binRanges] at hr
        | cons x ss ih =>
          intro d hd hdm hss r hr
          have hx := hss x (by simp)
          rcases List.mem_cons.mp hr with rfl | hr
          · exact ⟨lt_of_lt_of_le hd (le_max_right _ _), max_le hx hdm⟩
          · exact ih _ (lt_of_lt_of_le hd (le_max_right _ _)) (max_le hx hdm) (fun s hs => hss s (by simp [hs])) r hr
      apply main _ _ hd hd2
      intro s hs
      unfold binMinSizes at hs
      obtain ⟨bin, hbin, rfl⟩ := List.mem_map.mp hs
      obtain ⟨f, hf, hle⟩ := hbins bin hbin
      obtain ⟨_, hmin⟩ := binMin_spec areas bin (fun h => hne (h ▸ hbin))
      exact (hg (hmin f hf)).trans hle

theorem bins_two : ∃ b, faceBins [1, 100] = some b ∧ b ≠ [] := by
  have h : (faceBins [1, 100]).isSome := by
    rw [Option.isSome_iff_ne_none, Ne, C34_error_iff [1, 100] (by simp) 1 100 (by simp) (by simp) (by simp) (by simp)]
    rintro ⟨k, hk⟩
    have hk' : (100 : ℕ) = 2 ^ k := by
      have : ((100 : ℕ) : ℝ) = ((2 ^ k : ℕ) : ℝ) := by push_cast; linarith
      exact_mod_cast this
    have h7 : k < 7 := by
      by_contra hc
      have : 2 ^ 7 ≤ 2 ^ k := Nat.pow_le_pow_right (by norm_num) (not_lt.mp hc)
      omega
    interval_cases k <;> omega
  obtain ⟨b, hb⟩ := Option.isSome_iff_exists.mp h
  refine ⟨b, hb, ?_⟩
  rintro rfl
  obtain ⟨hp, _, _⟩ := C34_partition_partial [1, 100] (by simp) [] hb
  simpa using hp.length_eq

/-- A single face whose area is at least twice the square of the largest crater makes populating raise, whatever the other faces are, instead of giving
no craters to the larger faces. -/
theorem C105_large_face_fails (dmin dmax : ℝ) (hd : 0 < dmin) (_hlt : dmin < dmax) (areas : List ℝ) (hpos : ∀ a ∈ areas, 0 < a)
    (hlarge : ∃ a ∈ areas, 2 * dmax ^ 2 ≤ a) (hbins : (faceBins areas).isSome) (sample : ℕ → ℝ × ℝ → List ℝ) :
    populate id dmin dmax areas sample = none := by
  obtain ⟨b, hb⟩ := Option.isSome_iff_exists.mp hbins
  rw [← Option.not_isSome_iff_eq_none, C105_populate_iff_partial id monotone_id dmin dmax hd areas hpos sample b hb]
  obtain ⟨hp, _, h2⟩ := C34_partition_partial areas hpos b hb
  obtain ⟨a, ha, hle⟩ := hlarge
  obtain ⟨k, hk, rfl⟩ := List.getElem_of_mem ha
  have hmem : k ∈ b.flatten := hp.mem_iff.mpr (by simpa using hk)
  obtain ⟨bin, hbin, h1⟩ := List.mem_flatten.mp hmem
  rintro (h | ⟨_, h⟩)
  · rw [h] at hbin
    exact absurd hbin (by simp)
  · obtain ⟨f, hf, hfe⟩ := h bin hbin
    have h3 := h2 bin hbin k h1 f hf
    have hk' : areas.getD k 0 = areas[k] := by simp [List.getElem?_eq_getElem hk]
    rw [hk'] at h3
    have h4 : dmax < faceSize areas f := by
      unfold faceSize
      exact Real.lt_sqrt_of_sq_lt (by linarith)
    exact absurd hfe (not_le.mpr h4)

/-- Two faces, of sizes 1 and 10: craters from 1 to 5 are asked for. -/
example (sample : ℕ → ℝ × ℝ → List ℝ) : populate id 1 5 [1, 100] sample = none := by
  obtain ⟨b, hb, _⟩ := bins_two
  exact C105_large_face_fails 1 5 (by norm_num) (by norm_num) [1, 100] (by simp) ⟨100, by simp, by norm_num⟩ (by rw [hb]; rfl) sample

/-- The hypotheses of C69 are met: two faces, craters from 1 to 50. -/
example : ∃ out, populate id 1 50 [1, 100] (fun _ r => [r.1]) = some out := by
  obtain ⟨b, hb, hbne⟩ := bins_two
  apply Option.isSome_iff_exists.mp
  rw [C105_populate_iff_partial id monotone_id 1 50 (by norm_num) [1, 100] (by simp) _ b hb]
  right
  refine ⟨by norm_num, ?_⟩
  intro bin hbin
  obtain ⟨hp, hne, _⟩ := C34_partition_partial [1, 100] (by simp) b hb
  obtain ⟨f, hf⟩ := List.exists_mem_of_ne_nil bin (fun h => hne (h ▸ hbin))
  have hlt : f < 2 := by
    have : f ∈ List.range [(1 : ℝ), 100].length := hp.mem_iff.mp (List.mem_flatten.mpr ⟨bin, hbin, hf⟩)
    simpa using this
  refine ⟨f, hf, ?_⟩
  have h100 : Real.sqrt 100 = 10 := by
    rw [show (100 : ℝ) = 10 ^ 2 by norm_num]
    exact Real.sqrt_sq (by norm_num)
  interval_cases f <;> simp [faceSize, h100] <;> norm_num

/-! ### C104 -/

/-- What a scaling relation satisfies: at each extreme, bigger craters need bigger projectiles and the two directions are
inverse to each other. -/
structure Scale.Good (c : Scale) : Prop where
  sm_mono : StrictMono c.sm
  lg_mono : StrictMono c.lg
  sm_inv : ∀ x, c.smInv (c.sm x) = x
  lg_inv : ∀ x, c.lgInv (c.lg x) = x
  /-- A fast vertical projectile makes a crater of the given size with a smaller diameter. -/
  lg_le_sm : ∀ x, 0 < x → c.lg x ≤ c.sm x
  pos : ∀ x, 0 < x → 0 < c.sm x ∧ 0 < c.lg x
  lgInv_mono : Monotone c.lgInv
  /-- A projectile that comes fast and vertically is smaller than its crater. -/
  lg_le : ∀ x, 0 < x → c.lg x ≤ x

/-- A simulation after initialisation and any assignments to the limits. -/
def Reachable (s : Sim) : Prop :=
  ∃ (s0 : Sim) (l : List Assign), s0.scale.Good ∧ 0 < s0.lo ∧ s0.lo ≤ s0.hi ∧ 0 ≤ s0.a ∧ 0 < s0.b ∧ s = l.foldl assign (initLimits s0)

/-- Within the range that the mesh and target allow. -/
def Within (s : Sim) : Prop :=
  s.scale.Good ∧ 0 < s.lo ∧ s.lo ≤ s.hi ∧
  (if s.projectile then s.scale.sm s.lo ≤ s.a ∧ s.b ≤ (s.scale.lg s.hi : ℝ) else s.lo ≤ s.a ∧ s.b ≤ (s.hi : ℝ))

theorem within_small (s : Sim) (h : Within s) (v : ℝ) : Within (setSmallestCrater s v) := by
  obtain ⟨h1, h2, h3, h4⟩ := h
  unfold setSmallestCrater
  rcases hp : s.projectile
  · rw [hp] at h4
    refine ⟨h1, h2, h3, ?_⟩
    simp only [Bool.false_eq_true, if_false]
    exact ⟨le_max_right _ _, min_le_right _ _⟩
  · rw [hp] at h4
    refine ⟨h1, h2, h3, ?_⟩
    simp only [if_true]
    exact ⟨h1.sm_mono.monotone (le_max_right _ _), (min_le_left _ _).trans h4.2⟩

theorem within_large (s : Sim) (h : Within s) (v : ℝ) : Within (setLargestCrater s v) := by
  obtain ⟨h1, h2, h3, h4⟩ := h
  unfold setLargestCrater
  rcases hp : s.projectile
  · rw [hp] at h4
    refine ⟨h1, h2, h3, ?_⟩
    simp only [Bool.false_eq_true, if_false]
    refine ⟨le_max_right _ _, ?_⟩
    exact_mod_cast min_le_right v s.hi
  · rw [hp] at h4
    refine ⟨h1, h2, h3, ?_⟩
    simp only [if_true]
    refine ⟨h4.1.trans (le_max_left _ _), ?_⟩
    exact_mod_cast h1.lg_mono.monotone (min_le_right v s.hi)

theorem within_smallProj (s : Sim) (h : Within s) (v : ℝ) : Within (setSmallestProjectile s v) := by
  obtain ⟨h1, h2, h3, h4⟩ := h
  unfold setSmallestProjectile
  rcases hp : s.projectile
  · rw [hp] at h4
    refine ⟨h1, h2, h3, ?_⟩
    simp only [Bool.false_eq_true, if_false] at h4 ⊢
    exact ⟨h4.1.trans (le_max_right _ _), min_le_right _ _⟩
  · rw [hp] at h4
    refine ⟨h1, h2, h3, ?_⟩
    simp only [if_true] at h4 ⊢
    refine ⟨?_, ?_⟩
    · have : s.scale.sm s.lo = smallP s s.lo := by unfold smallP; rw [max_self]
      rw [this]
      exact le_max_right _ _
    · refine (min_le_right _ _).trans ?_
      unfold largeP
      rw [min_self]

theorem within_largeProj (s : Sim) (h : Within s) (v : ℝ) : Within (setLargestProjectile s v) := by
  obtain ⟨h1, h2, h3, h4⟩ := h
  unfold setLargestProjectile
  rcases hp : s.projectile
  · rw [hp] at h4
    refine ⟨h1, h2, h3, ?_⟩
    simp only [Bool.false_eq_true, if_false] at h4 ⊢
    refine ⟨h4.1.trans (le_max_left _ _), ?_⟩
    have : s.scale.lg (min v s.hi) ≤ s.hi :=
      (h1.lg_mono.monotone (min_le_right _ _)).trans (h1.lg_le _ (h2.trans_le h3))
    exact_mod_cast this
  · rw [hp] at h4
    refine ⟨h1, h2, h3, ?_⟩
    simp only [if_true] at h4 ⊢
    refine ⟨h4.1.trans (le_max_left _ _), ?_⟩
    have : min v (largeP s s.hi) ≤ s.scale.lg s.hi := by
      refine (min_le_right _ _).trans ?_
      unfold largeP
      rw [min_self]
    exact_mod_cast this

theorem small_fields (s : Sim) (v : ℝ) : (setSmallestCrater s v).scale = s.scale ∧ (setSmallestCrater s v).lo = s.lo ∧
    (setSmallestCrater s v).hi = s.hi ∧ (setSmallestCrater s v).projectile = s.projectile := by
  unfold setSmallestCrater
  split_ifs <;> exact ⟨rfl, rfl, rfl, rfl⟩

/-- The first assignment of the constructor establishes the lower bound, the second the upper. -/
theorem within_init (s : Sim) (hg : s.scale.Good) (hlo : 0 < s.lo) (hle : s.lo ≤ s.hi) : Within (initLimits s) := by
  unfold initLimits
  have key : ∀ v w, Within (setLargestCrater (setSmallestCrater s v) w) := by
    intro v w
    rcases hp : s.projectile
    · have e : setLargestCrater (setSmallestCrater s v) w =
          { s with a := max (max v s.lo) s.lo, b := ((min w s.hi : ℝ) : WithTop ℝ) } := by
        simp [setLargestCrater, setSmallestCrater, hp]
      rw [e]
      refine ⟨hg, hlo, hle, ?_⟩
      simp only [hp, Bool.false_eq_true, if_false]
      exact ⟨le_max_right _ _, by exact_mod_cast min_le_right w s.hi⟩
    · have e : setLargestCrater (setSmallestCrater s v) w =
          { s with a := max (s.scale.sm (max v s.lo)) (s.scale.lg (min s.lo s.hi)), b := (s.scale.lg (min w s.hi) : ℝ) } := by
        simp [setLargestCrater, setSmallestCrater, smallP, largeP, hp]
      rw [e]
      refine ⟨hg, hlo, hle, ?_⟩
      simp only [hp, if_true]
      refine ⟨(hg.sm_mono.monotone (le_max_right _ _)).trans (le_max_left _ _), ?_⟩
      exact_mod_cast hg.lg_mono.monotone (min_le_right w s.hi)
  exact key _ _

theorem reachable_within {s : Sim} (h : Reachable s) : Within s := by
  obtain ⟨s0, l, hg, hlo, hle, _, _, rfl⟩ := h
  have : ∀ (l : List Assign) (t : Sim), Within t → Within (l.foldl assign t) := by
    intro l
    induction l with
    | nil => intro t ht; exact ht
    | cons x l ih =>
      intro t ht
      apply ih
      rcases x with v | v | v | v
      · exact within_small t ht v
      · exact within_large t ht v
      · exact within_smallProj t ht v
      · exact within_largeProj t ht v
  exact this l _ (within_init s0 hg hlo hle)

/-- After construction and any sequence of assignments, assigning the smallest crater reads back as the value assigned,
clamped to the smallest face, and does not change the largest crater. -/
theorem C104_smallest_partial (s : Sim) (h : Reachable s) (v : ℝ) :
    smallestCrater (setSmallestCrater s v) = max v s.lo ∧ largestCrater (setSmallestCrater s v) = largestCrater s := by
  obtain ⟨h1, h2, h3, h4⟩ := reachable_within h
  unfold setSmallestCrater smallestCrater largestCrater
  rcases hp : s.projectile
  · rw [hp] at h4
    simp only [Bool.false_eq_true, if_false] at h4 ⊢
    exact ⟨trivial, min_eq_left h4.2⟩
  · rw [hp] at h4
    simp only [if_true] at h4 ⊢
    have hpos : 0 < smallP s v := (h1.pos _ (lt_of_lt_of_le h2 (le_max_right _ _))).1
    refine ⟨?_, ?_⟩
    · rw [if_pos hpos]
      unfold smallP
      rw [h1.sm_inv, max_assoc, max_self]
    · have : s.b ≤ (smallP s s.hi : ℝ) := by
        refine h4.2.trans ?_
        unfold smallP
        rw [max_eq_left h3]
        exact_mod_cast h1.lg_le_sm _ (h2.trans_le h3)
      rw [min_eq_left this]

/-- Likewise for the largest crater, which is clamped to the target's diameter. -/
theorem C104_largest_partial (s : Sim) (h : Reachable s) (v : ℝ) :
    largestCrater (setLargestCrater s v) = ((min v s.hi : ℝ) : WithTop ℝ) ∧
      smallestCrater (setLargestCrater s v) = smallestCrater s := by
  obtain ⟨h1, h2, h3, h4⟩ := reachable_within h
  unfold setLargestCrater smallestCrater largestCrater
  rcases hp : s.projectile
  · rw [hp] at h4
    simp only [Bool.false_eq_true, if_false] at h4 ⊢
    exact ⟨trivial, max_eq_left h4.1⟩
  · rw [hp] at h4
    simp only [if_true] at h4 ⊢
    refine ⟨?_, ?_⟩
    · unfold largeP
      rw [h1.lg_inv, min_assoc, min_self]
    · have : largeP s s.lo ≤ s.a := by
        unfold largeP
        rw [min_eq_left h3]
        exact (h1.lg_le_sm _ h2).trans h4.1
      rw [max_eq_left this]

/-- With a projectile production function, after construction and any sequence of assignments, assigning the smallest
projectile reads back as the value assigned, but at least the projectile that can make the smallest allowed crater, and does
not change the largest projectile. -/
theorem C104_smallest_projectile_partial (s : Sim) (h : Reachable s) (hp : s.projectile = true) (v : ℝ) :
    smallestProjectile (setSmallestProjectile s v) = max v (s.scale.sm s.lo) ∧
      largestProjectile (setSmallestProjectile s v) = largestProjectile s := by
  obtain ⟨h1, h2, h3, h4⟩ := reachable_within h
  rw [hp] at h4
  simp only [if_true] at h4
  unfold setSmallestProjectile smallestProjectile largestProjectile smallP largeP
  simp only [hp, if_true, max_self, min_self]
  exact ⟨trivial, min_eq_left h4.2⟩

/-- Likewise for the largest projectile. -/
theorem C104_largest_projectile_partial (s : Sim) (h : Reachable s) (hp : s.projectile = true) (v : ℝ) :
    largestProjectile (setLargestProjectile s v) = ((min v (s.scale.lg s.hi) : ℝ) : WithTop ℝ) ∧
      smallestProjectile (setLargestProjectile s v) = smallestProjectile s := by
  obtain ⟨h1, h2, h3, h4⟩ := reachable_within h
  rw [hp] at h4
  simp only [if_true] at h4
  unfold setLargestProjectile smallestProjectile largestProjectile smallP largeP
  simp only [hp, if_true, max_self, min_self]
  exact ⟨trivial, max_eq_left h4.1⟩

/-- With a crater production function the limits that the projectiles read follow the limits of the craters: the projectile
limits are the projectiles of the smallest and the largest crater. -/
theorem C104_projectiles_of_craters (s : Sim) (h : Reachable s) (hp : s.projectile = false) :
    smallestProjectile s = s.scale.sm (smallestCrater s) ∧
      ∀ c : ℝ, largestCrater s = (c : WithTop ℝ) → largestProjectile s = ((s.scale.lg c : ℝ) : WithTop ℝ) := by
  obtain ⟨h1, h2, h3, h4⟩ := reachable_within h
  rw [hp] at h4
  simp only [Bool.false_eq_true, if_false] at h4
  unfold smallestProjectile smallestCrater largestCrater largestProjectile smallP largeP
  simp only [hp, Bool.false_eq_true, if_false]
  refine ⟨by rw [max_eq_left h4.1], ?_⟩
  intro c hc
  have h5 := h4.2
  rw [hc] at h5 ⊢
  have h6 : c ≤ s.hi := by exact_mod_cast h5
  simp only [min_eq_left h6]

/-- A scaling relation of the required kind, in which a crater is twice as large as a slow projectile and ten times as large
as a fast one. -/
noncomputable def linear : Scale := ⟨fun c => c / 2, fun p => 2 * p, fun c => c / 10, fun p => 10 * p⟩

theorem linear_good : linear.Good := by
  refine ⟨?_, ?_, ?_, ?_, ?_, ?_, ?_, ?_⟩
  · intro x y h; simp only [linear]; linarith
  · intro x y h; simp only [linear]; linarith
  · intro x; simp only [linear]; ring
  · intro x; simp only [linear]; ring
  · intro x h; simp only [linear]; linarith
  · intro x h; simp only [linear]; constructor <;> linarith
  · intro x y h; simp only [linear]; linarith
  · intro x h; simp only [linear]; linarith

/-- Reachable states exist for both kinds of production function. -/
example (p : Bool) : Reachable ([Assign.smallest 5, Assign.largestProj 6, Assign.smallestProj 2, Assign.largest 70].foldl assign
    (initLimits ⟨p, linear, 1, 100, 0, ⊤⟩)) :=
  ⟨_, _, linear_good, by norm_num, by norm_num, le_refl _, WithTop.coe_lt_top 0, rfl⟩

/-- Limiting the projectiles of a crater production function does not do what it says: any assignment of the largest
projectile makes the smallest crater as large as the target. -/
theorem C104_largest_projectile_fails (s : Sim) (hp : s.projectile = false) (v : ℝ) :
    s.hi ≤ smallestCrater (setLargestProjectile s v) := by
  unfold setLargestProjectile smallestCrater
  simp [hp]

/-- With a crater production function an assigned smallest projectile is never what is read back, as long as a projectile is smaller than
the crater it makes: the value assigned is taken as a crater diameter.  If it is at least as large as the smallest crater before and within
the allowed range of craters, the value read back is the smaller projectile that makes a crater of that size, and every crater smaller than
the value is dropped. -/
theorem C104_smallest_projectile_all_fails (s : Sim) (hp : s.projectile = false) (v : ℝ)
    (hs : ∀ d, 0 < d → s.scale.sm d < d) (hv : 0 < v) (ha : s.a ≤ v) (hl : s.lo ≤ v) :
    smallestProjectile (setSmallestProjectile s v) = s.scale.sm v ∧
    smallestProjectile (setSmallestProjectile s v) < v ∧
    smallestCrater (setSmallestProjectile s v) = v := by
  have h : smallestProjectile (setSmallestProjectile s v) = s.scale.sm v := by
    simp [setSmallestProjectile, smallestProjectile, smallP, hp, max_eq_left ha, max_eq_left hl]
  refine ⟨h, h ▸ hs v hv, ?_⟩
  simp [setSmallestProjectile, smallestCrater, hp, max_eq_left ha]

example : (∀ d, 0 < d → linear.sm d < d) := by
  intro d hd; simp only [linear]; linarith

/-- Assigning the smallest projectile of a crater production function takes the value as a crater diameter: with a slow
projectile making craters twice its size, asking for projectiles of at least 10 reads back as 5. -/
theorem C104_smallest_projectile_fails : ∃ s, Reachable s ∧ s.projectile = false ∧ s.scale.sm s.lo < 10 ∧ 10 < s.scale.lg s.hi ∧
    smallestProjectile (setSmallestProjectile s 10) = 5 := by
  refine ⟨[].foldl assign (initLimits ⟨false, linear, 1, 1000, 0, ⊤⟩),
    ⟨_, _, linear_good, by norm_num, by norm_num, le_refl _, WithTop.coe_lt_top 0, rfl⟩, ?_⟩
  simp [initLimits, setSmallestCrater, setLargestCrater, smallestCrater, setSmallestProjectile, smallestProjectile,
    smallP, linear]
  norm_num

/-- With a projectile production function, reachable limits can be contradictory even though the smallest crater is well
below the largest: every sample is then rejected. -/
theorem C104_contradiction_fails : ∃ s, Reachable s ∧ s.projectile = true ∧
    smallestCrater s = 5 ∧ largestCrater s = ((20 : ℝ) : WithTop ℝ) ∧ s.b < (s.a : ℝ) := by
  refine ⟨[Assign.smallest 5, Assign.largest 20].foldl assign (initLimits ⟨true, linear, 1, 100, 0, ⊤⟩),
    ⟨_, _, linear_good, by norm_num, by norm_num, le_refl _, WithTop.coe_lt_top 0, rfl⟩, ?_⟩
  simp [initLimits, setSmallestCrater, setLargestCrater, smallestCrater, largestCrater, smallP, largeP, linear, assign]
  norm_num
  have h : ((min (10 * 2) 100 : ℝ) : WithTop ℝ) = ((20 : ℝ) : WithTop ℝ) := by norm_num
  have e1 : (((10 * 2 : ℝ)) : WithTop ℝ) = 10 * 2 := by push_cast; rfl
  rw [WithTop.coe_min, e1] at h
  exact h

end Verif.Limits
