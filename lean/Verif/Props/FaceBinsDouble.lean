import Verif.Model.FaceBinsDouble
import Verif.Model.Parallel
import Verif.Props.DiffusionDouble
import Verif.Props.FaceBins
import Mathlib.Analysis.SpecialFunctions.Log.Basic
import Mathlib.Analysis.Complex.ExponentialBounds

/-! C234: the face size bins under rounding. -/

namespace Verif.FaceBinsDouble

open Verif.SurfaceData (flatten_filter min_spec max_spec)

/-- The faces (numbered from `k`) that belong to bin `i`. -/
noncomputable def hits (level : ℝ → ℝ) (i : ℕ) : List ℝ → ℕ → List ℕ
  | [], _ => []
  | a :: as, k => if ⌊level a⌋₊ = i then k :: hits level i as (k + 1) else hits level i as (k + 1)

theorem hits_sublist (level : ℝ → ℝ) (i : ℕ) (as : List ℝ) (k : ℕ) : (hits level i as k).Sublist (List.range' k as.length) := by
  induction as generalizing k with
  | nil => simp [hits]
  | cons a as ih =>
    simp only [hits, List.length_cons, List.range'_succ]
    split_ifs
    · exact (ih (k + 1)).cons_cons k
    · exact (ih (k + 1)).cons k

theorem mem_hits {level : ℝ → ℝ} {i : ℕ} {as : List ℝ} {k f : ℕ} :
    f ∈ hits level i as k ↔ ∃ j a, as[j]? = some a ∧ f = k + j ∧ ⌊level a⌋₊ = i := by
  induction as generalizing k with
  | nil => simp [hits]
  | cons a as ih =>
    have key : (∃ j b, (a :: as)[j]? = some b ∧ f = k + j ∧ ⌊level b⌋₊ = i) ↔
        (f = k ∧ ⌊level a⌋₊ = i) ∨ ∃ j b, as[j]? = some b ∧ f = (k + 1) + j ∧ ⌊level b⌋₊ = i := by
      constructor
      · rintro ⟨j, b, h1, h2, h3⟩
        rcases j with _ | j
        · left
          simp only [List.getElem?_cons_zero, Option.some.injEq] at h1
          subst h1
          exact ⟨by omega, h3⟩
        · right
          exact ⟨j, b, by simpa using h1, by omega, h3⟩
      · rintro (⟨h1, h2⟩ | ⟨j, b, h1, h2, h3⟩)
        · exact ⟨0, a, by simp, by omega, h2⟩
        · exact ⟨j + 1, b, by simpa using h1, by omega, h3⟩
    rw [key, ← ih]
    simp only [hits]
    split_ifs with h
    · simp [h]
    · simp [h]

theorem place_eq (level : ℝ → ℝ) (as : List ℝ) (k : ℕ) (bins : List (List ℕ)) :
    ((∃ a ∈ as, bins.length ≤ ⌊level a⌋₊) → place level as k bins = none) ∧
    ((∀ a ∈ as, ⌊level a⌋₊ < bins.length) → ∃ b, place level as k bins = some b ∧ b.length = bins.length ∧
      ∀ i, b[i]? = bins[i]?.map (· ++ hits level i as k)) := by
  induction as generalizing k bins with
  | nil =>
    refine ⟨by simp, fun _ => ⟨bins, rfl, rfl, ?_⟩⟩
    intro i
    simp [hits]
  | cons a as ih =>
    have len : (bins.modify ⌊level a⌋₊ (· ++ [k])).length = bins.length := List.length_modify ..
    constructor
    · rintro ⟨x, hx, hl⟩
      unfold place
      split_ifs with h
      · rcases List.mem_cons.mp hx with rfl | hx
        · omega
        · exact (ih _ _).1 ⟨x, hx, by rw [len]; exact hl⟩
      · rfl
    · intro hall
      have h := hall a (by simp)
      obtain ⟨b, hb, hlen, hget⟩ := (ih (k + 1) (bins.modify ⌊level a⌋₊ (· ++ [k]))).2
        (fun x hx => by rw [len]; exact hall x (by simp [hx]))
      refine ⟨b, by unfold place; rw [if_pos h]; exact hb, hlen.trans len, ?_⟩
      intro i
      rw [hget i, List.getElem?_modify]
      simp only [hits]
      by_cases hi : ⌊level a⌋₊ = i
      · rw [if_pos hi]
        rcases bins[i]? with _ | l <;> simp [hi]
      · rw [if_neg hi]
        rcases bins[i]? with _ | l <;> simp [hi]

/-- Spec: every one of the `n` faces is in exactly one bin, no bin is empty, and two faces of a bin differ in area by less than the factor `c`. -/
def GoodBins (areas : List ℝ) (c : ℝ) (bins : List (List ℕ)) : Prop :=
  bins.flatten.Perm (List.range areas.length) ∧ [] ∉ bins ∧ ∀ b ∈ bins, ∀ f ∈ b, ∀ g ∈ b, areas.getD f 0 < c * areas.getD g 0

/-- What is assumed of the computed division and logarithm for the areas of a mesh whose smallest is `mn`: larger areas do not get smaller levels, no level is negative, and
every level is within `δ` of the logarithm of the ratio. -/
structure Computed (areas : List ℝ) (level : ℝ → ℝ) (mn δ : ℝ) : Prop where
  mono : ∀ a ∈ areas, ∀ b ∈ areas, a ≤ b → level a ≤ level b
  nonneg : ∀ a ∈ areas, 0 ≤ level a
  near : ∀ a ∈ areas, |level a - Real.logb 2 (a / mn)| ≤ δ

/-- C234 The binning raises an error exactly when the computed level of the largest face is a whole number. -/
theorem C234_error_iff (quot : ℝ → ℝ → ℝ) (lg : ℝ → ℝ) (areas : List ℝ) (mn mx δ : ℝ) (hmn : mn ∈ areas) (hle : ∀ a ∈ areas, mn ≤ a)
    (hmx : mx ∈ areas) (hge : ∀ a ∈ areas, a ≤ mx) (h : Computed areas (fun a => lg (quot a mn)) mn δ) :
    faceBins quot lg areas = none ↔ ∃ k : ℕ, lg (quot mx mn) = k := by
  have e1 : areas.min? = some mn := List.min?_eq_some_iff.mpr ⟨hmn, hle⟩
  have e2 : areas.max? = some mx := List.max?_eq_some_iff.mpr ⟨hmx, hge⟩
  have hn := h.nonneg mx hmx
  unfold faceBins
  rw [e1, e2]
  simp only [Option.map_eq_none_iff]
  set level := fun a => lg (quot a mn) with hl
  have hp := place_eq level areas 0 (List.replicate ⌈lg (quot mx mn)⌉₊ [])
  rw [List.length_replicate] at hp
  constructor
  · intro hnone
    by_contra hk
    push Not at hk
    have : ∀ a ∈ areas, ⌊level a⌋₊ < ⌈lg (quot mx mn)⌉₊ := by
      intro a ha
      have h1 : ⌊level a⌋₊ ≤ ⌊lg (quot mx mn)⌋₊ := Nat.floor_le_floor (h.mono a ha mx hmx (hge a ha))
      have h2 : ⌊lg (quot mx mn)⌋₊ < ⌈lg (quot mx mn)⌉₊ := by
        rw [Nat.lt_ceil]
        exact lt_of_le_of_ne (Nat.floor_le hn) (fun e => hk _ e.symm)
      omega
    obtain ⟨b, hb, -⟩ := hp.2 this
    rw [hb] at hnone
    cases hnone
  · rintro ⟨k, hk⟩
    refine hp.1 ⟨mx, hmx, ?_⟩
    simp only [hl, hk, Nat.ceil_natCast, Nat.floor_natCast, le_refl]

/-- C234 Otherwise the bins are a partition of all faces, and the areas of two faces of a bin differ by less than a factor of two, up to the error of the levels. -/
theorem C234_partition_partial (quot : ℝ → ℝ → ℝ) (lg : ℝ → ℝ) (areas : List ℝ) (hpos : ∀ a ∈ areas, 0 < a) (mn mx δ : ℝ) (hmn : mn ∈ areas)
    (hle : ∀ a ∈ areas, mn ≤ a) (hmx : mx ∈ areas) (hge : ∀ a ∈ areas, a ≤ mx) (h : Computed areas (fun a => lg (quot a mn)) mn δ)
    (hk : ∀ k : ℕ, lg (quot mx mn) ≠ k) : ∃ bins, faceBins quot lg areas = some bins ∧ GoodBins areas (2 ^ (1 + 2 * δ)) bins := by
  have e1 : areas.min? = some mn := List.min?_eq_some_iff.mpr ⟨hmn, hle⟩
  have e2 : areas.max? = some mx := List.max?_eq_some_iff.mpr ⟨hmx, hge⟩
  have hn := h.nonneg mx hmx
  unfold faceBins
  rw [e1, e2]
  simp only [Option.map_eq_some_iff]
  set level := fun a => lg (quot a mn) with hl
  set N := ⌈lg (quot mx mn)⌉₊ with hN
  have hall : ∀ a ∈ areas, ⌊level a⌋₊ < N := by
    intro a ha
    have h1 : ⌊level a⌋₊ ≤ ⌊lg (quot mx mn)⌋₊ := Nat.floor_le_floor (h.mono a ha mx hmx (hge a ha))
    have h2 : ⌊lg (quot mx mn)⌋₊ < N := by
      rw [hN, Nat.lt_ceil]
      exact lt_of_le_of_ne (Nat.floor_le hn) (fun e => hk _ e.symm)
    omega
  obtain ⟨b, hb, hlen, hget⟩ := (place_eq level areas 0 (List.replicate N [])).2 (by simpa using hall)
  refine ⟨_, ⟨b, hb, rfl⟩, ?_⟩
  have hmap : b = (List.range N).map fun i => hits level i areas 0 := by
    apply List.ext_getElem?
    intro i
    rw [hget i]
    by_cases hi : i < N
    · simp [hi]
    · simp [hi]
  refine ⟨?_, by simp, ?_⟩
  · rw [flatten_filter, hmap]
    rw [List.perm_ext_iff_of_nodup]
    · intro f
      simp only [List.mem_flatten, List.mem_map, List.mem_range]
      constructor
      · rintro ⟨l, ⟨i, _, rfl⟩, hf⟩
        obtain ⟨j, a, hj, rfl, _⟩ := mem_hits.mp hf
        have := (List.getElem?_eq_some_iff.mp hj).1
        omega
      · intro hf
        refine ⟨_, ⟨⌊level areas[f]⌋₊, hall areas[f] (List.getElem_mem hf), rfl⟩, mem_hits.mpr ⟨f, areas[f], ?_, by omega, rfl⟩⟩
        exact List.getElem?_eq_getElem hf
    · rw [List.nodup_flatten]
      refine ⟨?_, ?_⟩
      · intro l hl
        obtain ⟨i, _, rfl⟩ := List.mem_map.mp hl
        exact (hits_sublist level i areas 0).nodup List.nodup_range'
      · rw [List.pairwise_map]
        refine List.Pairwise.imp_of_mem ?_ (List.nodup_range (n := N))
        intro i j _ _ hij
        rw [List.disjoint_left]
        intro f h1 h2
        obtain ⟨p, a, e1, e2, e3⟩ := mem_hits.mp h1
        obtain ⟨q, a', f1, f2, f3⟩ := mem_hits.mp h2
        have : p = q := by omega
        subst this
        rw [e1] at f1
        cases f1
        exact hij (e3.symm.trans f3)
    · exact List.nodup_range
  · intro l hl f hf g hg
    have hl := List.mem_of_mem_filter hl
    rw [hmap] at hl
    obtain ⟨i, _, rfl⟩ := List.mem_map.mp hl
    obtain ⟨p, a, e1, e2, e3⟩ := mem_hits.mp hf
    obtain ⟨q, a', f1, f2, f3⟩ := mem_hits.mp hg
    have hp : f = p := by omega
    have hq : g = q := by omega
    subst hp hq
    rw [List.getD_eq_getElem?_getD, List.getD_eq_getElem?_getD, e1, f1]
    have ha := List.mem_of_getElem? e1
    have ha' := List.mem_of_getElem? f1
    have mn_pos := hpos mn hmn
    have h1 := Nat.lt_floor_add_one (level a)
    have h2 := Nat.floor_le (h.nonneg a' ha')
    have h2' : ((⌊level a'⌋₊ : ℕ) : ℝ) ≤ level a' := h2
    rw [e3] at h1
    rw [f3] at h2'
    have n1 := (abs_le.mp (h.near a ha)).1
    have n2 := (abs_le.mp (h.near a' ha')).2
    have h3 : Real.logb 2 (a / mn) < Real.logb 2 (a' / mn) + (1 + 2 * δ) := by
      have n1' : -δ ≤ level a - Real.logb 2 (a / mn) := n1
      have n2' : level a' - Real.logb 2 (a' / mn) ≤ δ := n2
      linarith
    have h4 : (2 : ℝ) ^ Real.logb 2 (a / mn) < (2 : ℝ) ^ (Real.logb 2 (a' / mn) + (1 + 2 * δ)) := Real.rpow_lt_rpow_of_exponent_lt (by norm_num) h3
    rw [Real.rpow_add (by norm_num)] at h4
    have q1 := Verif.SurfaceData.eq_rpow mn_pos (hpos a ha)
    have q2 := Verif.SurfaceData.eq_rpow mn_pos (hpos a' ha')
    simp only [Option.getD_some]
    calc a = mn * (2 : ℝ) ^ Real.logb 2 (a / mn) := q1
      _ < mn * ((2 : ℝ) ^ Real.logb 2 (a' / mn) * 2 ^ (1 + 2 * δ)) := mul_lt_mul_of_pos_left h4 mn_pos
      _ = 2 ^ (1 + 2 * δ) * (mn * (2 : ℝ) ^ Real.logb 2 (a' / mn)) := by ring
      _ = 2 ^ (1 + 2 * δ) * a' := by rw [← q2]

example : ∃ bins, faceBins (fun a b => a / b) (Real.logb 2) [1, 3, 1.5] = some bins ∧ GoodBins [1, 3, 1.5] (2 ^ (1 + 2 * (0 : ℝ))) bins := by
  refine C234_partition_partial _ _ [1, 3, 1.5] (by simp; norm_num) 1 3 0 (by simp) (by simp; norm_num) (by simp) (by simp; norm_num) ⟨?_, ?_, ?_⟩ ?_
  · intro a ha b hb hab
    have : 0 < a := by simp at ha; rcases ha with rfl | rfl | rfl <;> norm_num
    exact Real.logb_le_logb_of_le (by norm_num) (by simpa using this) (by simpa using hab)
  · intro a ha
    have : 1 ≤ a := by simp at ha; rcases ha with rfl | rfl | rfl <;> norm_num
    exact Real.logb_nonneg (by norm_num) (by simpa using this)
  · intro a _; simp
  · intro k hk
    have h3 : (3 : ℝ) = 2 ^ (k : ℝ) := by
      rw [← hk]
      simp only [div_one]
      exact (Real.rpow_logb (by norm_num) (by norm_num) (by norm_num)).symm
    rw [Real.rpow_natCast] at h3
    have h3' : 3 = 2 ^ k := by exact_mod_cast h3
    rcases k with _ | _ | k
    · simp at h3'
    · simp at h3'
    · rw [pow_succ, pow_succ] at h3'; omega

open Verif.Parallel (double)

/-- C234 With rounding the error also occurs for areas that are not a power of two apart: a mesh whose largest face is, by one unit in the last place, less than 16 times
as large as its smallest, if the logarithm is the double next to the true one. -/
theorem C234_below_fails (lg : ℝ → ℝ) (hlg : ∀ (x : ℝ) (lo hi : ℚ), lo ≤ Real.logb 2 x → Real.logb 2 x ≤ hi → (double lo : ℝ) ≤ lg x ∧ lg x ≤ (double hi : ℝ))
    (quot : ℝ → ℝ → ℝ) (hq : ∀ a b : ℚ, quot a b = (double (a / b) : ℚ)) :
    faceBins quot lg [1, 16 - 1 / 2 ^ 49] = none ∧ (16 - 1 / 2 ^ 49 : ℝ) < 1 * 2 ^ 4 := by
  have q1 : quot 1 1 = 1 := by
    have := hq 1 1
    rw [show double (1 / 1) = 1 by decide +kernel] at this
    simpa using this
  have q2 : quot (16 - 1 / 2 ^ 49) 1 = 16 - 1 / 2 ^ 49 := by
    have := hq (16 - 1 / 2 ^ 49) 1
    rw [show double ((16 - 1 / 2 ^ 49) / 1) = 16 - 1 / 2 ^ 49 by decide +kernel] at this
    push_cast at this
    exact this
  have l2 : lg (16 - 1 / 2 ^ 49) = 4 := by
    have hup : Real.logb 2 (16 - 1 / 2 ^ 49) ≤ ((4 : ℚ) : ℝ) := by
      rw [Real.logb_le_iff_le_rpow (by norm_num) (by norm_num)]
      norm_num
    have hlow : ((4 - 1 / 2 ^ 52 : ℚ) : ℝ) ≤ Real.logb 2 (16 - 1 / 2 ^ 49) := by
      have e : (16 - 1 / 2 ^ 49 : ℝ) = 2 ^ (4 : ℝ) * (1 - 1 / 2 ^ 53) := by norm_num
      rw [e, Real.logb_mul (by norm_num) (by norm_num), Real.logb_rpow (by norm_num) (by norm_num)]
      have h1 := Real.one_sub_inv_le_log_of_pos (x := (1 - 1 / 2 ^ 53 : ℝ)) (by norm_num)
      have h2 := Real.log_two_gt_d9
      unfold Real.logb
      push_cast
      have h3 : -(1 / 2 ^ 52 : ℝ) ≤ Real.log (1 - 1 / 2 ^ 53) / Real.log 2 := by
        rw [le_div_iff₀ (by linarith)]
        have : -(1 / 2 ^ 52 : ℝ) * Real.log 2 ≤ -(1 / 2 ^ 52) * 0.6931471803 := by
          have : (0 : ℝ) < 1 / 2 ^ 52 := by positivity
          nlinarith
        refine this.trans (le_trans ?_ h1)
        norm_num
      linarith
    have := hlg (16 - 1 / 2 ^ 49) (4 - 1 / 2 ^ 52) 4 hlow hup
    rw [show double (4 - 1 / 2 ^ 52) = 4 by decide +kernel, show double 4 = 4 by decide +kernel] at this
    have h1 := this.1
    have h2 := this.2
    push_cast at h1 h2
    linarith
  have l1 : lg 1 = 0 := by
    have := hlg 1 0 0 (by simp) (by simp)
    rw [show double 0 = 0 by decide +kernel] at this
    have h1 := this.1
    have h2 := this.2
    push_cast at h1 h2
    linarith
  refine ⟨?_, by norm_num⟩
  have hmin : ([1, 16 - 1 / 2 ^ 49] : List ℝ).min? = some 1 := List.min?_eq_some_iff.mpr ⟨by simp, by simp; norm_num⟩
  have hmax : ([1, 16 - 1 / 2 ^ 49] : List ℝ).max? = some (16 - 1 / 2 ^ 49) := List.max?_eq_some_iff.mpr ⟨by simp, by simp; norm_num⟩
  unfold faceBins
  rw [hmin, hmax]
  simp only [place, q1, q2, l1, l2, Nat.floor_zero, List.length_replicate]
  norm_num

/-- There are such a quotient and such a logarithm. -/
example : ∃ (lg : ℝ → ℝ) (quot : ℝ → ℝ → ℝ),
    (∀ (x : ℝ) (lo hi : ℚ), lo ≤ Real.logb 2 x → Real.logb 2 x ≤ hi → (double lo : ℝ) ≤ lg x ∧ lg x ≤ (double hi : ℝ)) ∧
    ∀ a b : ℚ, quot a b = (double (a / b) : ℚ) := by
  classical
  refine ⟨fun x => sSup {y : ℝ | ∃ q : ℚ, (q : ℝ) ≤ Real.logb 2 x ∧ y = double q},
    fun a b => if h : ∃ p : ℚ × ℚ, a = p.1 ∧ b = p.2 then ((double (h.choose.1 / h.choose.2) : ℚ) : ℝ) else 0, ?_, ?_⟩
  · intro x lo hi h1 h2
    have hub : ∀ y ∈ {y : ℝ | ∃ q : ℚ, (q : ℝ) ≤ Real.logb 2 x ∧ y = double q}, y ≤ (double hi : ℝ) := by
      rintro y ⟨q, hq, rfl⟩
      have : q ≤ hi := by exact_mod_cast hq.trans h2
      exact_mod_cast Verif.DiffusionDouble.double_monotone this
    exact ⟨le_csSup ⟨_, hub⟩ ⟨lo, h1, rfl⟩, csSup_le ⟨_, lo, h1, rfl⟩ hub⟩
  · intro a b
    have h : ∃ p : ℚ × ℚ, (a : ℝ) = p.1 ∧ (b : ℝ) = p.2 := ⟨(a, b), rfl, rfl⟩
    simp only [dif_pos h]
    obtain ⟨e1, e2⟩ := h.choose_spec
    have e1' : a = h.choose.1 := by exact_mod_cast e1
    have e2' : b = h.choose.2 := by exact_mod_cast e2
    rw [← e1', ← e2']

end Verif.FaceBinsDouble
