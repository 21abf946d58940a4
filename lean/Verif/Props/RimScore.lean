import Verif.Model.RimScore
import Mathlib.Tactic.Linarith
import Mathlib.Tactic.NormNum
import Mathlib.Tactic.Positivity
import Mathlib.Tactic.IntervalCases

namespace Verif.RimScore

/-! ### Helpers -/

theorem foldl_max (l : List ℝ) (m : ℝ) :
    ∃ M, l.foldl maxOpt (some m) = some M ∧ m ≤ M ∧ (∀ x ∈ l, x ≤ M) ∧ (M = m ∨ M ∈ l) := by
  induction l generalizing m with
  | nil => exact ⟨m, rfl, le_refl _, by simp, Or.inl rfl⟩
  | cons a l ih =>
    obtain ⟨M, h1, h2, h3, h4⟩ := ih (max m a)
    refine ⟨M, h1, (le_max_left _ _).trans h2, ?_, ?_⟩
    · intro x hx
      rcases List.mem_cons.mp hx with rfl | hx
      · exact (le_max_right _ _).trans h2
      · exact h3 x hx
    · rcases h4 with h4 | h4
      · rcases max_choice m a with e | e
        · exact Or.inl (h4.trans e)
        · right; rw [h4, e]; simp
      · exact Or.inr (List.mem_cons_of_mem _ h4)

theorem nanmax_spec (l : List ℝ) (hl : l ≠ []) : ∃ M, nanmax l = some M ∧ M ∈ l ∧ ∀ x ∈ l, x ≤ M := by
  cases l with
  | nil => exact absurd rfl hl
  | cons a l =>
    obtain ⟨M, h1, h2, h3, h4⟩ := foldl_max l a
    refine ⟨M, h1, ?_, ?_⟩
    · rcases h4 with rfl | h4
      · simp
      · exact List.mem_cons_of_mem _ h4
    · intro x hx
      rcases List.mem_cons.mp hx with rfl | hx
      · exact h2
      · exact h3 x hx

theorem foldl_min (l : List ℝ) (m : ℝ) :
    ∃ M, l.foldl minOpt (some m) = some M ∧ M ≤ m ∧ (∀ x ∈ l, M ≤ x) ∧ (M = m ∨ M ∈ l) := by
  induction l generalizing m with
  | nil => exact ⟨m, rfl, le_refl _, by simp, Or.inl rfl⟩
  | cons a l ih =>
    obtain ⟨M, h1, h2, h3, h4⟩ := ih (min m a)
    refine ⟨M, h1, h2.trans (min_le_left _ _), ?_, ?_⟩
    · intro x hx
      rcases List.mem_cons.mp hx with rfl | hx
      · exact h2.trans (min_le_right _ _)
      · exact h3 x hx
    · rcases h4 with h4 | h4
      · rcases min_choice m a with e | e
        · exact Or.inl (h4.trans e)
        · right; rw [h4, e]; simp
      · exact Or.inr (List.mem_cons_of_mem _ h4)

theorem nanmin_spec (l : List ℝ) (hl : l ≠ []) : ∃ M, nanmin l = some M ∧ M ∈ l ∧ ∀ x ∈ l, M ≤ x := by
  cases l with
  | nil => exact absurd rfl hl
  | cons a l =>
    obtain ⟨M, h1, h2, h3, h4⟩ := foldl_min l a
    refine ⟨M, h1, ?_, ?_⟩
    · rcases h4 with rfl | h4
      · simp
      · exact List.mem_cons_of_mem _ h4
    · intro x hx
      rcases List.mem_cons.mp hx with rfl | hx
      · exact h2
      · exact h3 x hx

theorem mem_valuesOf {n : ℕ} {score : ℕ → Option ℝ} {p : ℕ → Bool} {v : ℝ} :
    v ∈ valuesOf n score p ↔ ∃ i < n, p i = true ∧ score i = some v := by
  unfold valuesOf
  rw [List.mem_filterMap]
  constructor
  · rintro ⟨i, hi, h⟩
    by_cases hp : p i
    · exact ⟨i, List.mem_range.mp hi, hp, by simpa [hp] using h⟩
    · simp [hp] at h
  · rintro ⟨i, hi, hp, h⟩
    exact ⟨i, List.mem_range.mpr hi, by simp [hp, h]⟩

theorem nanquantile_mem {l : List ℝ} {q t : ℝ} (h : nanquantile l q = some t) : t ∈ l := by
  unfold nanquantile at h
  exact (List.perm_insertionSort (· ≤ ·) l).mem_iff.mp (List.mem_of_getElem? h)

/-! ### nanquantile -/

/-- The quantile of a non-empty list is one of its values; at least the fraction `q` of the others is not larger, and
what is not smaller than it makes up at least the rest. -/
theorem C115_quantile (l : List ℝ) (q : ℝ) (hl : l ≠ []) (h0 : 0 ≤ q) (h1 : q ≤ 1) :
    ∃ t ∈ l, nanquantile l q = some t ∧
      (l.length : ℝ) - (l.length - 1) * q ≤ (l.filter fun x => decide (t ≤ x)).length ∧
      ((l.length : ℝ) - 1) * q < (l.filter fun x => decide (x ≤ t)).length := by
  classical
  set vals := l.insertionSort (· ≤ ·) with hv
  have hperm : vals.Perm l := List.perm_insertionSort (· ≤ ·) l
  have hlen : vals.length = l.length := hperm.length_eq
  have hpos : 0 < l.length := List.length_pos_iff.mpr hl
  have hq : max 0 (min q 1) = q := by rw [min_eq_left h1, max_eq_right h0]
  have hcast : ((l.length - 1 : ℕ) : ℝ) = (l.length : ℝ) - 1 := by
    rw [Nat.cast_sub hpos, Nat.cast_one]
  have hn1 : (0 : ℝ) ≤ (l.length : ℝ) - 1 := by
    rw [← hcast]; positivity
  set k := ⌊((l.length - 1 : ℕ) : ℝ) * max 0 (min q 1)⌋.toNat with hk
  have hfl : 0 ≤ ⌊((l.length - 1 : ℕ) : ℝ) * max 0 (min q 1)⌋ := by
    apply Int.floor_nonneg.mpr
    rw [hq]
    positivity
  have hkr : (k : ℝ) ≤ ((l.length : ℝ) - 1) * q ∧ ((l.length : ℝ) - 1) * q < k + 1 := by
    have e : ((k : ℤ) : ℝ) = (⌊((l.length - 1 : ℕ) : ℝ) * max 0 (min q 1)⌋ : ℝ) := by
      rw [hk, Int.toNat_of_nonneg hfl]
    have e1 : (k : ℝ) = (⌊((l.length - 1 : ℕ) : ℝ) * max 0 (min q 1)⌋ : ℝ) := by exact_mod_cast e
    have h2 := Int.floor_le (((l.length - 1 : ℕ) : ℝ) * max 0 (min q 1))
    have h3 := Int.lt_floor_add_one (((l.length - 1 : ℕ) : ℝ) * max 0 (min q 1))
    rw [← e1, hq, hcast] at h2 h3
    exact ⟨h2, h3⟩
  have hkl : k ≤ l.length - 1 := by
    have : (k : ℝ) ≤ ((l.length - 1 : ℕ) : ℝ) := by
      rw [hcast]
      refine hkr.1.trans ?_
      nlinarith
    exact_mod_cast this
  have hk' : k < vals.length := by omega
  have hval : nanquantile l q = some vals[k] := by
    unfold nanquantile
    simp only [← hv, ← hk]
    rw [min_eq_left hkl]
    exact List.getElem?_eq_getElem hk'
  have hsorted : vals.Pairwise (· ≤ ·) := List.pairwise_insertionSort (· ≤ ·) l
  refine ⟨vals[k], hperm.mem_iff.mp (List.getElem_mem hk'), hval, ?_, ?_⟩
  · have hc : l.length - k ≤ (l.filter fun x => decide (vals[k] ≤ x)).length := by
      rw [← (hperm.filter _).length_eq]
      have hsub : (vals.drop k).filter (fun x => decide (vals[k] ≤ x)) = vals.drop k := by
        rw [List.filter_eq_self]
        intro x hx
        obtain ⟨j, hj, rfl⟩ := List.mem_drop_iff_getElem.mp hx
        simp only [decide_eq_true_eq]
        rcases Nat.eq_zero_or_pos j with rfl | hj0
        · simp
        · exact List.pairwise_iff_getElem.mp hsorted k (k + j) hk' (by omega) (by omega)
      calc l.length - k = (vals.drop k).length := by rw [List.length_drop, hlen]
        _ = ((vals.drop k).filter (fun x => decide (vals[k] ≤ x))).length := by rw [hsub]
        _ ≤ (vals.filter (fun x => decide (vals[k] ≤ x))).length :=
          ((List.drop_sublist k vals).filter _).length_le
    have h2 : ((l.length - k : ℕ) : ℝ) ≤ (l.filter fun x => decide (vals[k] ≤ x)).length := by exact_mod_cast hc
    rw [Nat.cast_sub (by omega)] at h2
    linarith [hkr.1]
  · have hc : k + 1 ≤ (l.filter fun x => decide (x ≤ vals[k])).length := by
      rw [← (hperm.filter _).length_eq]
      have hsub : (vals.take (k + 1)).filter (fun x => decide (x ≤ vals[k])) = vals.take (k + 1) := by
        rw [List.filter_eq_self]
        intro x hx
        obtain ⟨j, hj, rfl⟩ := List.mem_take_iff_getElem.mp hx
        simp only [decide_eq_true_eq]
        rcases Nat.lt_or_ge j k with h | h
        · exact List.pairwise_iff_getElem.mp hsorted j k (by omega) hk' h
        · have : j = k := by omega
          subst this
          exact le_refl _
      calc k + 1 = (vals.take (k + 1)).length := by rw [List.length_take]; omega
        _ = ((vals.take (k + 1)).filter (fun x => decide (x ≤ vals[k]))).length := by rw [hsub]
        _ ≤ (vals.filter (fun x => decide (x ≤ vals[k]))).length :=
          ((List.take_sublist (k + 1) vals).filter _).length_le
    have h2 : ((k + 1 : ℕ) : ℝ) ≤ (l.filter fun x => decide (x ≤ vals[k])).length := by exact_mod_cast hc
    push_cast at h2
    linarith [hkr.2]

/-! ### The scores -/

theorem normed_spec {n : ℕ} {raw : ℕ → Option ℝ} {sec : ℕ → ℕ} {i : ℕ} (hi : i < n) {v : ℝ}
    (h : normed n raw sec i = some v) : 0 < v ∧ v ≤ 1 := by
  unfold normed at h
  obtain ⟨u, hu, h⟩ := Option.bind_eq_some_iff.mp h
  have hmem : u ∈ valuesOf n raw (fun j => decide (sec j = sec i)) := mem_valuesOf.mpr ⟨i, hi, by simp, hu⟩
  obtain ⟨M, h1, h2, h3⟩ := nanmax_spec _ (List.ne_nil_of_mem hmem)
  unfold normalise sectorMax at h
  rw [h1] at h
  simp only at h
  split_ifs at h with hc
  rw [Option.some.injEq] at h
  subst h
  exact ⟨div_pos hc.2 hc.1, (div_le_one hc.1).mpr (h3 u hmem)⟩

theorem kept_isSome {n : ℕ} {score : ℕ → Option ℝ} {sec : ℕ → ℕ} {q : ℝ} {i : ℕ} (h : kept n score sec q i = true) :
    ∃ v, score i = some v := by
  have key : ∀ t, atLeast t (score i) = true → ∃ v, score i = some v := by
    intro t ht
    unfold atLeast at ht
    cases hs : score i with
    | none => rw [hs] at ht; simp at ht
    | some v => exact ⟨v, rfl⟩
  unfold kept at h
  simp only at h
  split_ifs at h
  · exact Option.isSome_iff_exists.mp h
  · exact key _ h
  · exact key _ h

/-- The number of values is the number of faces that have one. -/
theorem length_valuesOf (n : ℕ) (score : ℕ → Option ℝ) :
    (valuesOf n score fun _ => true).length = ((List.range n).filter fun i => (score i).isSome).length := by
  unfold valuesOf
  generalize List.range n = l
  induction l with
  | nil => simp
  | cons a l ih =>
    cases h : score a <;> simp_all

theorem count_atLeast (n : ℕ) (score : ℕ → Option ℝ) (t : ℝ) :
    ((List.range n).filter fun i => atLeast (some t) (score i)).length =
      ((valuesOf n score fun _ => true).filter fun x => open Classical in decide (t ≤ x)).length := by
  unfold valuesOf
  generalize List.range n = l
  induction l with
  | nil => simp
  | cons a l ih =>
    cases h : score a with
    | none => simp_all [atLeast]
    | some v => by_cases hv : t ≤ v <;> simp_all [atLeast]

/-- At least `k` values are not below the `k`-th largest. -/
theorem kth_spec (n : ℕ) (score : ℕ → Option ℝ) (k : ℕ) (hk : 0 < k) (hkl : k ≤ (valuesOf n score fun _ => true).length) :
    ∃ t ∈ valuesOf n score (fun _ => true), kthLargest n score k = some t ∧
      k ≤ ((List.range n).filter fun i => atLeast (some t) (score i)).length := by
  classical
  set l := valuesOf n score fun _ => true with hl
  set vals := l.insertionSort (· ≥ ·) with hv
  have hperm : vals.Perm l := List.perm_insertionSort (· ≥ ·) l
  have hlen : vals.length = l.length := hperm.length_eq
  have hk' : k - 1 < vals.length := by omega
  have hsorted : vals.Pairwise (· ≥ ·) := List.pairwise_insertionSort (· ≥ ·) l
  refine ⟨vals[k - 1], hperm.mem_iff.mp (List.getElem_mem hk'), List.getElem?_eq_getElem hk', ?_⟩
  rw [count_atLeast, ← hl, ← (hperm.filter _).length_eq]
  have hsub : (vals.take k).filter (fun x => decide (vals[k - 1] ≤ x)) = vals.take k := by
    rw [List.filter_eq_self]
    intro x hx
    obtain ⟨j, hj, rfl⟩ := List.mem_take_iff_getElem.mp hx
    simp only [decide_eq_true_eq]
    rcases Nat.lt_or_ge j (k - 1) with h | h
    · exact List.pairwise_iff_getElem.mp hsorted j (k - 1) (by omega) hk' h
    · have : j = k - 1 := by omega
      subst this
      exact le_refl _
  calc k = (vals.take k).length := by rw [List.length_take]; omega
    _ = ((vals.take k).filter (fun x => decide (vals[k - 1] ≤ x))).length := by rw [hsub]
    _ ≤ (vals.filter (fun x => decide (vals[k - 1] ≤ x))).length := ((List.take_sublist k vals).filter _).length_le

theorem nSectors_bounds (n : ℕ) : 9 ≤ nSectors n ∧ nSectors n ≤ 18 := by
  unfold nSectors
  omega

/-- Enough faces are kept: three for each sector, or all that have a score. -/
theorem kept_enough (n : ℕ) (score : ℕ → Option ℝ) (sec : ℕ → ℕ) (q : ℝ) :
    min (3 * nSectors n) ((List.range n).filter fun i => (score i).isSome).length ≤
      ((List.range n).filter (kept n score sec q)).length := by
  by_cases h1 : ((List.range n).filter (highInSector n score sec q)).length < 3 * nSectors n
  · by_cases h2 : (valuesOf n score fun _ => true).length < 3 * nSectors n
    · have : kept n score sec q = fun i => (score i).isSome := by
        funext i
        unfold kept
        simp only [if_pos h1, if_pos h2]
      rw [this]
      exact min_le_right _ _
    · obtain ⟨t, _, e, hc⟩ := kth_spec n score (3 * nSectors n) (by have := (nSectors_bounds n).1; omega) (not_lt.mp h2)
      have : kept n score sec q = fun i => atLeast (some t) (score i) := by
        funext i
        unfold kept
        simp only [if_pos h1, if_neg h2, e]
      rw [this]
      exact (min_le_left _ _).trans hc
  · have : kept n score sec q = highInSector n score sec q := by
      funext i
      unfold kept
      simp only [if_neg h1]
    rw [this]
    exact (min_le_left _ _).trans (not_lt.mp h1)

/-- A face with the score 1, the largest there is, is kept. -/
theorem kept_top {n : ℕ} {score : ℕ → Option ℝ} {sec : ℕ → ℕ} {q : ℝ} {i : ℕ} (h : score i = some 1)
    (hle : ∀ j < n, ∀ v, score j = some v → v ≤ 1) : kept n score sec q i = true := by
  have hq : highInSector n score sec q i = true := by
    unfold highInSector atLeast
    rw [h]
    cases e : nanquantile (valuesOf n score fun j => decide (sec j = sec i)) q with
    | none => rfl
    | some t =>
      obtain ⟨j, hj, _, hs⟩ := mem_valuesOf.mp (nanquantile_mem e)
      simpa using hle j hj t hs
  unfold kept
  simp only
  split_ifs with h1 h2
  · rw [h]; rfl
  · obtain ⟨t, ht, e, _⟩ := kth_spec n score (3 * nSectors n) (by have := (nSectors_bounds n).1; omega) (not_lt.mp h2)
    obtain ⟨j, hj, _, hs⟩ := mem_valuesOf.mp ht
    rw [e, h]
    simpa [atLeast] using hle j hj t hs
  · exact hq

/-- Every bearing, also one outside the circle, is put into one of the sectors, and a bearing of the circle into the one of
equal width that holds it. -/
theorem C115_sectors (n : ℕ) (b : ℝ) :
    sector (nSectors n) b < nSectors n ∧
    (0 ≤ b → b < 360 → (sector (nSectors n) b : ℝ) * (360 / nSectors n) ≤ b ∧
      b < (sector (nSectors n) b + 1 : ℝ) * (360 / nSectors n)) := by
  have h9 : 9 ≤ nSectors n := by unfold nSectors; omega
  have hpos : (0 : ℝ) < nSectors n := by exact_mod_cast (by omega : 0 < nSectors n)
  have hw : (0 : ℝ) < 360 / nSectors n := by positivity
  constructor
  · unfold sector
    simp only
    split_ifs <;> omega
  · intro h0 h1
    have i0 : (0 : ℤ) ≤ ⌊b / (360 / nSectors n)⌋ := Int.floor_nonneg.mpr (div_nonneg h0 hw.le)
    have i1 : ⌊b / (360 / (nSectors n : ℝ))⌋ < nSectors n := by
      rw [Int.floor_lt, div_lt_iff₀ hw]
      push_cast
      rw [mul_div_cancel₀ _ hpos.ne']
      exact h1
    have hs : (sector (nSectors n) b : ℝ) = ((⌊b / (360 / (nSectors n : ℝ))⌋ : ℤ) : ℝ) := by
      unfold sector
      simp only
      rw [if_neg (by omega), if_neg (by omega)]
      exact_mod_cast congrArg (Int.cast (R := ℝ)) (Int.toNat_of_nonneg i0)
    rw [hs]
    exact ⟨(le_div_iff₀ hw).mp (Int.floor_le _), (div_lt_iff₀ hw).mp (Int.lt_floor_add_one _)⟩

example : sector (nSectors 500) 359.9 = 8 := by
  have : nSectors 500 = 9 := by decide
  rw [this]
  unfold sector
  have : ⌊(359.9 : ℝ) / (360 / ((9 : ℕ) : ℝ))⌋ = 8 := by
    rw [Int.floor_eq_iff]; norm_num
  rw [this]
  rfl

section

variable (n : ℕ) (raw : ℕ → Option ℝ) (bearing : ℕ → ℝ) (q : ℝ)

theorem scoreRim_isSome_iff (i : ℕ) :
    (scoreRim n raw bearing q i).isSome = kept n (normed n raw fun j => sector (nSectors n) (bearing j))
      (fun j => sector (nSectors n) (bearing j)) q i := by
  unfold scoreRim
  simp only
  by_cases h : kept n (normed n raw fun j => sector (nSectors n) (bearing j)) (fun j => sector (nSectors n) (bearing j)) q i
  · obtain ⟨v, hv⟩ := kept_isSome h
    simp [h, hv]
  · simp [h]

/-- Every score that is given lies between 0 and 1. -/
theorem C115_range (i : ℕ) (hi : i < n) (v : ℝ) (h : scoreRim n raw bearing q i = some v) : 0 ≤ v ∧ v ≤ 1 := by
  unfold scoreRim at h
  simp only at h
  split_ifs at h with hk
  obtain ⟨u, hu, rfl⟩ := Option.map_eq_some_iff.mp h
  have hb := normed_spec hi hu
  set sec := fun j => sector (nSectors n) (bearing j)
  set score := normed n raw sec
  set vals := valuesOf n score (kept n score sec q)
  have hmem : u ∈ vals := mem_valuesOf.mpr ⟨i, hi, hk, hu⟩
  obtain ⟨M, h1, h2, h3⟩ := nanmax_spec vals (List.ne_nil_of_mem hmem)
  obtain ⟨m, h4, h5, h6⟩ := nanmin_spec vals (List.ne_nil_of_mem hmem)
  rw [h1, h4]
  unfold rescale
  simp only
  split_ifs with hr
  · exact ⟨div_nonneg (by linarith [h6 u hmem]) hr.le, (div_le_one hr).mpr (by linarith [h3 u hmem])⟩
  · exact ⟨hb.1.le, hb.2⟩

/-- Of the faces with a positive score in a sector the best is always kept, and enough are kept altogether: three for each
of the 9 to 18 sectors, or all faces with a positive score if there are fewer. -/
theorem C115_enough :
    (∀ i < n, ∀ v, raw i = some v → 0 < v →
      (∀ j < n, sector (nSectors n) (bearing j) = sector (nSectors n) (bearing i) → ∀ w, raw j = some w → w ≤ v) →
      (scoreRim n raw bearing q i).isSome = true) ∧
    9 ≤ nSectors n ∧ nSectors n ≤ 18 ∧
    min (3 * nSectors n) ((List.range n).filter fun i => decide (∃ v, raw i = some v ∧ 0 < v)).length ≤
      ((List.range n).filter fun i => (scoreRim n raw bearing q i).isSome).length := by
  classical
  set sec := fun j => sector (nSectors n) (bearing j) with hsec
  have hpos : ∀ i < n, ∀ v, raw i = some v → 0 < v → ∃ M, sectorMax n raw sec (sec i) = some M ∧ v ≤ M ∧
      normed n raw sec i = some (v / M) ∧ (∀ u, (∀ j < n, sec j = sec i → ∀ w, raw j = some w → w ≤ u) → M ≤ u) := by
    intro i hi v hv h0
    have hmem : v ∈ valuesOf n raw (fun j => decide (sec j = sec i)) := mem_valuesOf.mpr ⟨i, hi, by simp, hv⟩
    obtain ⟨M, h1, h2, h3⟩ := nanmax_spec _ (List.ne_nil_of_mem hmem)
    have hM := h3 v hmem
    refine ⟨M, h1, hM, ?_, ?_⟩
    · unfold normed sectorMax normalise
      rw [hv, h1]
      simp only [Option.bind_some]
      rw [if_pos ⟨by linarith, h0⟩]
    · intro u hu
      obtain ⟨j, hj, hp, hr⟩ := mem_valuesOf.mp h2
      exact hu j hj (by simpa using hp) M hr
  refine ⟨?_, (nSectors_bounds n).1, (nSectors_bounds n).2, ?_⟩
  · intro i hi v hv h0 hbest
    rw [scoreRim_isSome_iff]
    obtain ⟨M, h1, h2, h3, h4⟩ := hpos i hi v hv h0
    have : M = v := le_antisymm (h4 v hbest) h2
    subst this
    rw [div_self h0.ne'] at h3
    exact kept_top h3 fun j hj w hw => (normed_spec hj hw).2
  · have e1 : ((List.range n).filter fun i => (scoreRim n raw bearing q i).isSome)
        = (List.range n).filter (kept n (normed n raw sec) sec q) := by
      congr 1
      funext i
      exact scoreRim_isSome_iff n raw bearing q i
    rw [e1]
    refine le_trans (min_le_min_left _ ?_) (kept_enough n (normed n raw sec) sec q)
    apply List.Sublist.length_le
    have : ((List.range n).filter fun i => decide (∃ v, raw i = some v ∧ 0 < v)) =
        ((List.range n).filter fun i => (normed n raw sec i).isSome).filter fun i => decide (∃ v, raw i = some v ∧ 0 < v) := by
      rw [List.filter_filter]
      apply List.filter_congr
      intro i hi
      by_cases h : ∃ v, raw i = some v ∧ 0 < v
      · obtain ⟨v, hv, h0⟩ := h
        obtain ⟨M, _, _, h3, _⟩ := hpos i (List.mem_range.mp hi) v hv h0
        rw [h3]
        simp
      · simp [h]
    rw [this]
    exact List.filter_sublist

/-- Better scores are not dropped for worse ones: in the sector of a face that is kept, every face that scores at least as
much is kept too, and the order of the scores is that of the input. -/
theorem C115_order (i j : ℕ) (a b : ℝ) (ha : raw i = some a) (hb : raw j = some b)
    (hab : a ≤ b) (hs : sector (nSectors n) (bearing i) = sector (nSectors n) (bearing j)) (u : ℝ)
    (hu : scoreRim n raw bearing q i = some u) : ∃ w, scoreRim n raw bearing q j = some w ∧ u ≤ w := by
  set sec := fun j => sector (nSectors n) (bearing j) with hsec
  have hs' : sec i = sec j := hs
  have hk : kept n (normed n raw sec) sec q i = true := by
    rw [← scoreRim_isSome_iff, hu]; rfl
  obtain ⟨v, hv⟩ := kept_isSome hk
  have hv' := hv
  unfold normed at hv'
  rw [ha, Option.bind_some] at hv'
  unfold normalise at hv'
  cases hm : sectorMax n raw sec (sec i) with
  | none => rw [hm] at hv'; simp at hv'
  | some M =>
    rw [hm] at hv'
    simp only at hv'
    split_ifs at hv' with hc
    rw [Option.some.injEq] at hv'
    have hw : normed n raw sec j = some (b / M) := by
      unfold normed normalise
      rw [hb, Option.bind_some, ← hs', hm]
      simp only
      rw [if_pos ⟨hc.1, by linarith [hc.2]⟩]
    have hle : v ≤ b / M := by
      rw [← hv']
      exact div_le_div_of_nonneg_right hab hc.1.le
    have hmono : ∀ t, atLeast t (normed n raw sec i) = true → atLeast t (normed n raw sec j) = true := by
      intro t ht
      rw [hv] at ht
      rw [hw]
      cases t with
      | none => rfl
      | some t =>
        simp only [atLeast, decide_eq_true_eq] at ht ⊢
        exact ht.trans hle
    have hkj : kept n (normed n raw sec) sec q j = true := by
      unfold kept at hk ⊢
      simp only at hk ⊢
      split_ifs at hk ⊢
      · rw [hw]; rfl
      · exact hmono _ hk
      · unfold highInSector at hk ⊢
        rw [← hs']
        exact hmono _ hk
    unfold scoreRim at hu ⊢
    simp only at hu ⊢
    rw [if_pos hk, hv, Option.map_some, Option.some.injEq] at hu
    rw [if_pos hkj, hw]
    refine ⟨_, rfl, ?_⟩
    rw [← hu]
    unfold rescale
    split
    · split_ifs with hr
      · exact div_le_div_of_nonneg_right (by linarith) hr.le
      · exact hle
    · exact hle

end

/-- Two faces in different sectors with scores 1 and 2, and one without a score. -/
example : (scoreRim 3 (fun i => if i = 0 then some 1 else if i = 1 then some 2 else none) (fun i => 100 * i) 0.95 0).isSome
    = true := by
  refine (C115_enough 3 _ _ 0.95).1 0 (by norm_num) 1 (by simp) (by norm_num) ?_
  intro j hj hs w hw
  interval_cases j
  · simp at hw; linarith
  · exfalso
    have h0 : sector (nSectors 3) (100 * ((0 : ℕ) : ℝ)) = 0 := by
      simp [sector, nSectors]
    have h1 : sector (nSectors 3) (100 * ((1 : ℕ) : ℝ)) = 2 := by
      have e : ⌊(100 : ℝ) / (360 / 9)⌋ = 2 := by
        rw [Int.floor_eq_iff]; norm_num
      simp [sector, nSectors, e]
    rw [h0, h1] at hs
    norm_num at hs
  · simp at hw

end Verif.RimScore
