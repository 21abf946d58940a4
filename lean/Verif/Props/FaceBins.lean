import Verif.Model.SurfaceData
import Mathlib.Tactic.Linarith
import Mathlib.Tactic.Positivity
import Mathlib.Tactic.FieldSimp
import Mathlib.Data.List.Nodup
import Mathlib.Data.List.Perm.Basic
import Mathlib.Algebra.BigOperators.Group.List.Lemmas

/-! Property C34: the face size bins. -/

namespace Verif.SurfaceData

/-- The faces (numbered from `k`) that belong to bin `i`. -/
noncomputable def hits (mn : ℝ) (i : ℕ) : List ℝ → ℕ → List ℕ
  | [], _ => []
  | a :: as, k => if binIndex mn a = i then k :: hits mn i as (k + 1) else hits mn i as (k + 1)

theorem hits_sublist (mn : ℝ) (i : ℕ) (as : List ℝ) (k : ℕ) :
    (hits mn i as k).Sublist (List.range' k as.length) := by
  induction as generalizing k with
  | nil => simp [hits]
  | cons a as ih =>
    simp only [hits, List.length_cons, List.range'_succ]
    split_ifs
    · exact (ih (k + 1)).cons_cons k
    · exact (ih (k + 1)).cons k

theorem mem_hits {mn : ℝ} {i : ℕ} {as : List ℝ} {k f : ℕ} :
    f ∈ hits mn i as k ↔ ∃ j a, as[j]? = some a ∧ f = k + j ∧ binIndex mn a = i := by
  induction as generalizing k with
  | nil => simp [hits]
  | cons a as ih =>
    have key : (∃ j b, (a :: as)[j]? = some b ∧ f = k + j ∧ binIndex mn b = i) ↔
        (f = k ∧ binIndex mn a = i) ∨ ∃ j b, as[j]? = some b ∧ f = (k + 1) + j ∧ binIndex mn b = i := by
      constructor
      · rintro ⟨j, b, h1, h2, h3⟩
        rcases j with _ | j
        · left
          simp only [List.getElem?_cons_zero, Option.some.injEq] at h1
          subst h1
          exact ⟨by omega, h3⟩
        · right
          exact ⟨j, b, by simpa using h1, by omega, h3⟩
      · rintro (⟨h1, h2⟩ | ⟨j, b, h1, h2, h3⟩)
        · exact ⟨0, a, by simp, by omega, h2⟩
        · exact ⟨j + 1, b, by simpa using h1, by omega, h3⟩
    rw [key, ← ih]
    simp only [hits]
    split_ifs with h
    · simp [h]
    · simp [h]

theorem place_eq (mn : ℝ) (as : List ℝ) (k : ℕ) (bins : List (List ℕ)) :
    ((∃ a ∈ as, bins.length ≤ binIndex mn a) → place mn as k bins = none) ∧
    ((∀ a ∈ as, binIndex mn a < bins.length) → ∃ b, place mn as k bins = some b ∧ b.length = bins.length ∧
      ∀ i, b[i]? = bins[i]?.map (· ++ hits mn i as k)) := by
  induction as generalizing k bins with
  | nil =>
    refine ⟨by simp, fun _ => ⟨bins, rfl, rfl, ?_⟩⟩
    intro i
    simp [hits]
  | cons a as ih =>
    have len : (bins.modify (binIndex mn a) (· ++ [k])).length = bins.length := List.length_modify ..
    constructor
    · rintro ⟨x, hx, hl⟩
      unfold place
      split_ifs with h
      · rcases List.mem_cons.mp hx with rfl | hx
        · omega
        · exact (ih _ _).1 ⟨x, hx, by rw [len]; exact hl⟩
      · rfl
    · intro hall
      have h := hall a (by simp)
      obtain ⟨b, hb, hlen, hget⟩ := (ih (k + 1) (bins.modify (binIndex mn a) (· ++ [k]))).2
        (fun x hx => by rw [len]; exact hall x (by simp [hx]))
      refine ⟨b, by unfold place; rw [if_pos h]; exact hb, hlen.trans len, ?_⟩
      intro i
      rw [hget i, List.getElem?_modify]
      simp only [hits]
      by_cases hi : binIndex mn a = i
      · rw [if_pos hi]
        rcases bins[i]? with _ | l <;> simp [hi]
      · rw [if_neg hi]
        rcases bins[i]? with _ | l <;> simp [hi]

/-- Spec of a partition of the faces `0 .. n-1` into bins: every face is in exactly one bin, no bin is
empty, and two faces of the same bin differ in area by less than a factor of two. -/
def GoodBins (areas : List ℝ) (bins : List (List ℕ)) : Prop :=
  bins.flatten.Perm (List.range areas.length) ∧ [] ∉ bins ∧
  ∀ b ∈ bins, ∀ f ∈ b, ∀ g ∈ b, areas.getD f 0 < 2 * areas.getD g 0

theorem flatten_filter (L : List (List ℕ)) : (L.filter (fun b => b ≠ [])).flatten = L.flatten := by
  induction L with
  | nil => rfl
  | cons a L ih =>
    rcases a with _ | ⟨x, a⟩
    · simpa using ih
    · simpa using ih

theorem logb_nonneg_of {mn a : ℝ} (hmn : 0 < mn) (h : mn ≤ a) : 0 ≤ Real.logb 2 (a / mn) :=
  Real.logb_nonneg (by norm_num) ((one_le_div hmn).mpr h)

theorem eq_rpow {mn a : ℝ} (hmn : 0 < mn) (ha : 0 < a) : a = mn * (2 : ℝ) ^ Real.logb 2 (a / mn) := by
  rw [Real.rpow_logb (by norm_num) (by norm_num) (by positivity)]
  field_simp

theorem factor_two {mn a b : ℝ} (hmn : 0 < mn) (ha : mn ≤ a) (hb : mn ≤ b)
    (h : binIndex mn a = binIndex mn b) : a < 2 * b := by
  have h1 := Nat.lt_floor_add_one (Real.logb 2 (a / mn))
  have h2 := Nat.floor_le (logb_nonneg_of hmn hb)
  have h : ⌊Real.logb 2 (a / mn)⌋₊ = ⌊Real.logb 2 (b / mn)⌋₊ := h
  rw [h] at h1
  have h3 : Real.logb 2 (a / mn) < Real.logb 2 (b / mn) + 1 := by linarith
  have h4 : (2 : ℝ) ^ Real.logb 2 (a / mn) < (2 : ℝ) ^ (Real.logb 2 (b / mn) + 1) :=
    Real.rpow_lt_rpow_of_exponent_lt (by norm_num) h3
  rw [Real.rpow_add (by norm_num), Real.rpow_one] at h4
  have e1 := eq_rpow hmn (lt_of_lt_of_le hmn ha)
  have e2 := eq_rpow hmn (lt_of_lt_of_le hmn hb)
  calc a = mn * (2 : ℝ) ^ Real.logb 2 (a / mn) := e1
    _ < mn * ((2 : ℝ) ^ Real.logb 2 (b / mn) * 2) := mul_lt_mul_of_pos_left h4 hmn
    _ = 2 * (mn * (2 : ℝ) ^ Real.logb 2 (b / mn)) := by ring
    _ = 2 * b := by rw [← e2]

theorem min_spec {l : List ℝ} {x : ℝ} (h : l.min? = some x) : x ∈ l ∧ ∀ y ∈ l, x ≤ y :=
  List.min?_eq_some_iff.mp h

theorem max_spec {l : List ℝ} {x : ℝ} (h : l.max? = some x) : x ∈ l ∧ ∀ y ∈ l, y ≤ x :=
  List.max?_eq_some_iff.mp h

/-- Whenever the binning succeeds, the bins are a partition of all faces into non-empty bins of areas
within a factor of two. -/
theorem C34_partition_partial (areas : List ℝ) (hpos : ∀ a ∈ areas, 0 < a) (bins : List (List ℕ))
    (h : faceBins areas = some bins) : GoodBins areas bins := by
  unfold faceBins at h
  rcases hmn : areas.min? with _ | mn
  · rw [hmn] at h; simp at h
  rcases hmx : areas.max? with _ | mx
  · rw [hmn, hmx] at h; simp at h
  rw [hmn, hmx] at h
  simp only [Option.map_eq_some_iff] at h
  obtain ⟨b, hb, rfl⟩ := h
  obtain ⟨mn_mem, mn_le⟩ := min_spec hmn
  have mn_pos := hpos mn mn_mem
  set N := ⌈Real.logb 2 (mx / mn)⌉₊ with hN
  have hall : ∀ a ∈ areas, binIndex mn a < (List.replicate N ([] : List ℕ)).length := by
    by_contra hc
    push Not at hc
    have := (place_eq mn areas 0 (List.replicate N [])).1 hc
    rw [this] at hb
    cases hb
  obtain ⟨b', hb', hlen, hget⟩ := (place_eq mn areas 0 (List.replicate N [])).2 hall
  rw [hb'] at hb
  cases hb
  have hmap : b = (List.range N).map fun i => hits mn i areas 0 := by
    apply List.ext_getElem?
    intro i
    rw [hget i]
    by_cases hi : i < N
    · simp [hi]
    · simp [hi]
  refine ⟨?_, by simp, ?_⟩
  · rw [flatten_filter, hmap]
    rw [List.perm_ext_iff_of_nodup]
    · intro f
      simp only [List.mem_flatten, List.mem_map, List.mem_range]
      constructor
      · rintro ⟨l, ⟨i, _, rfl⟩, hf⟩
        obtain ⟨j, a, hj, rfl, _⟩ := mem_hits.mp hf
        have := (List.getElem?_eq_some_iff.mp hj).1
        omega
      · intro hf
        refine ⟨_, ⟨binIndex mn areas[f], ?_, rfl⟩, mem_hits.mpr ⟨f, areas[f], ?_, by omega, rfl⟩⟩
        · simpa using hall areas[f] (List.getElem_mem hf)
        · exact List.getElem?_eq_getElem hf
    · rw [List.nodup_flatten]
      refine ⟨?_, ?_⟩
      · intro l hl
        obtain ⟨i, _, rfl⟩ := List.mem_map.mp hl
        exact (hits_sublist mn i areas 0).nodup List.nodup_range'
      · rw [List.pairwise_map]
        refine List.Pairwise.imp_of_mem ?_ (List.nodup_range (n := N))
        intro i j _ _ hij
        rw [List.disjoint_left]
        intro f h1 h2
        obtain ⟨p, a, e1, e2, e3⟩ := mem_hits.mp h1
        obtain ⟨q, a', f1, f2, f3⟩ := mem_hits.mp h2
        have : p = q := by omega
        subst this
        rw [e1] at f1
        cases f1
        exact hij (e3.symm.trans f3)
    · exact List.nodup_range
  · intro l hl f hf g hg
    have hl := List.mem_of_mem_filter hl
    rw [hmap] at hl
    obtain ⟨i, _, rfl⟩ := List.mem_map.mp hl
    obtain ⟨p, a, e1, e2, e3⟩ := mem_hits.mp hf
    obtain ⟨q, a', f1, f2, f3⟩ := mem_hits.mp hg
    have hp : f = p := by omega
    have hq : g = q := by omega
    subst hp hq
    rw [List.getD_eq_getElem?_getD, List.getD_eq_getElem?_getD, e1, f1]
    exact factor_two mn_pos (mn_le a (List.mem_of_getElem? e1)) (mn_le a' (List.mem_of_getElem? f1))
      (e3.trans f3.symm)

/-- The binning fails exactly when the largest area is a power of two times the smallest, in particular
on every mesh whose faces all have the same area. -/
theorem C34_error_iff (areas : List ℝ) (hpos : ∀ a ∈ areas, 0 < a) (mn mx : ℝ)
    (hmn : mn ∈ areas) (hle : ∀ a ∈ areas, mn ≤ a) (hmx : mx ∈ areas) (hge : ∀ a ∈ areas, a ≤ mx) :
    faceBins areas = none ↔ ∃ k : ℕ, mx = mn * 2 ^ k := by
  have e1 : areas.min? = some mn := List.min?_eq_some_iff.mpr ⟨hmn, hle⟩
  have e2 : areas.max? = some mx := List.max?_eq_some_iff.mpr ⟨hmx, hge⟩
  have pmn := hpos mn hmn
  have pmx := hpos mx hmx
  unfold faceBins
  rw [e1, e2]
  simp only [Option.map_eq_none_iff]
  set x := Real.logb 2 (mx / mn) with hx
  have hx0 : 0 ≤ x := logb_nonneg_of pmn (hge mn hmn)
  have hxe : mx = mn * (2 : ℝ) ^ x := eq_rpow pmn pmx
  constructor
  · intro h
    have hex : ∃ a ∈ areas, ⌈x⌉₊ ≤ binIndex mn a := by
      by_contra hc
      push Not at hc
      obtain ⟨b, hb, _⟩ := (place_eq mn areas 0 (List.replicate ⌈x⌉₊ [])).2
        (fun a ha => by simpa using hc a ha)
      rw [h] at hb
      cases hb
    obtain ⟨a, ha, hc⟩ := hex
    have hax : Real.logb 2 (a / mn) ≤ x :=
      Real.logb_le_logb_of_le (by norm_num) (by have := hpos a ha; positivity)
        (div_le_div_of_nonneg_right (hge a ha) pmn.le)
    have h0 := logb_nonneg_of pmn (hle a ha)
    have h1 := Nat.floor_le h0
    have h2 : (⌈x⌉₊ : ℝ) ≤ (⌊Real.logb 2 (a / mn)⌋₊ : ℝ) := by exact_mod_cast hc
    have h3 := Nat.le_ceil x
    have h4 : x = (⌈x⌉₊ : ℝ) := by linarith
    refine ⟨⌈x⌉₊, ?_⟩
    rw [← Real.rpow_natCast, ← h4]
    exact hxe
  · rintro ⟨k, hk⟩
    have hxk : x = k := by
      rw [hx, hk, mul_div_cancel_left₀ _ pmn.ne', Real.logb_pow, Real.logb_self_eq_one (by norm_num)]
      simp
    apply (place_eq mn areas 0 (List.replicate ⌈x⌉₊ [])).1
    refine ⟨mx, hmx, ?_⟩
    have : binIndex mn mx = ⌊x⌋₊ := rfl
    rw [this, hxk]
    simp

/-- The binning of a mesh of equal faces fails. -/
theorem C34_uniform_fails (n : ℕ) (a : ℝ) (ha : 0 < a) : faceBins (List.replicate (n + 1) a) = none := by
  rw [C34_error_iff (List.replicate (n + 1) a) (by simp [ha]) a a (by simp) (by simp) (by simp) (by simp)]
  exact ⟨0, by simp⟩

/-- The areas of the bins add up to the area of the surface. -/
theorem C34_area (areas : List ℝ) (hpos : ∀ a ∈ areas, 0 < a) (bins : List (List ℕ))
    (h : faceBins areas = some bins) : (binAreas areas bins).sum = areas.sum := by
  obtain ⟨hp, _, _⟩ := C34_partition_partial areas hpos bins h
  have e : (binAreas areas bins).sum = (bins.flatten.map fun i => areas.getD i 0).sum := by
    unfold binAreas
    rw [List.map_flatten, List.sum_flatten, List.map_map]
    rfl
  rw [e, (hp.map _).sum_eq]
  congr 1
  apply List.ext_getElem?
  intro i
  by_cases hi : i < areas.length
  · simp [hi]
  · simp [hi]

example : (faceBins [1, 3]).isSome := by
  rw [Option.isSome_iff_ne_none, Ne, C34_error_iff [1, 3] (by simp) 1 3 (by simp) (by simp) (by simp)
    (by simp)]
  rintro ⟨k, hk⟩
  rcases k with _ | _ | k
  · norm_num at hk
  · norm_num at hk
  · have h1 : (1 : ℝ) ≤ 2 ^ k := one_le_pow₀ (by norm_num)
    rw [pow_add, pow_add] at hk
    linarith

end Verif.SurfaceData
