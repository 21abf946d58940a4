import Verif.Model.Sampling
import Mathlib.Data.List.TakeWhile
import Mathlib.MeasureTheory.Measure.Lebesgue.Basic
import Mathlib.Analysis.Convex.Hull
import Mathlib.Data.List.Chain
import Mathlib.Geometry.Euclidean.Angle.Unoriented.Affine
import Mathlib.Analysis.InnerProductSpace.PiL2
import Mathlib.Tactic.Linarith

/-! Properties C56-C59, C74, C77, C78: random sampling. -/

namespace Verif.Sampling

open MeasureTheory

/-! ### Binary search -/

theorem takeWhile_all {α : Type} (p : α → Bool) (l : List α) (j : ℕ) (hj : j < (l.takeWhile p).length) :
    ∃ x, l[j]? = some x ∧ p x = true := by
  induction l generalizing j with
  | nil => simp at hj
  | cons a l ih =>
    rw [List.takeWhile_cons] at hj
    by_cases h : p a = true
    · rw [if_pos h] at hj
      cases j with
      | zero => exact ⟨a, rfl, h⟩
      | succ j => exact ih j (by simpa using hj)
    · rw [if_neg h] at hj; simp at hj

theorem takeWhile_stop {α : Type} (p : α → Bool) (l : List α) (x : α)
    (h : l[(l.takeWhile p).length]? = some x) : p x = false := by
  induction l with
  | nil => simp at h
  | cons a l ih =>
    rw [List.takeWhile_cons] at h
    by_cases hp : p a = true
    · rw [if_pos hp] at h; exact ih (by simpa using h)
    · rw [if_neg hp] at h
      simp only [List.length_nil, List.getElem?_cons_zero, Option.some.injEq] at h
      subst h; simpa using hp

theorem searchRight_lt {a : List ℝ} {u x : ℝ} {j : ℕ} (hj : j < searchRight a u)
    (hx : a[j]? = some x) : x ≤ u := by
  classical
  obtain ⟨y, h1, h2⟩ := takeWhile_all _ a j hj
  rw [hx] at h1; cases h1; simpa using h2

theorem searchRight_at {a : List ℝ} {u x : ℝ} (hx : a[searchRight a u]? = some x) : u < x := by
  classical
  have := takeWhile_stop _ a x hx
  simpa using this

theorem searchLeft_lt {a : List ℝ} {u x : ℝ} {j : ℕ} (hj : j < searchLeft a u)
    (hx : a[j]? = some x) : x < u := by
  classical
  obtain ⟨y, h1, h2⟩ := takeWhile_all _ a j hj
  rw [hx] at h1; cases h1; simpa using h2

theorem searchLeft_at {a : List ℝ} {u x : ℝ} (hx : a[searchLeft a u]? = some x) : u ≤ x := by
  classical
  have := takeWhile_stop _ a x hx
  simpa using this

theorem searchRight_le (a : List ℝ) (u : ℝ) : searchRight a u ≤ a.length := by
  classical
  exact (List.takeWhile_sublist _).length_le

theorem searchLeft_le (a : List ℝ) (u : ℝ) : searchLeft a u ≤ a.length := by
  classical
  exact (List.takeWhile_sublist _).length_le

/-! ### C57: sizes -/

/-- A usable table in the order of decreasing diameter: at least two entries, positive diameters and
numbers, numbers that do not decrease, and more craters at the small end than at the large end. -/
structure Table (l : List Entry) (first last : Entry) : Prop where
  two : 2 ≤ l.length
  head : l.head? = some first
  tail : l.getLast? = some last
  dpos : ∀ e ∈ l, 0 < e.diam
  npos : ∀ e ∈ l, 0 < e.num
  desc : l.Pairwise (fun a b => b.diam ≤ a.diam)
  incr : l.Pairwise (fun a b => a.num ≤ b.num)
  some : first.num < last.num

/-- The same as an index statement. -/
theorem pairwise_get {α : Type} {R : α → α → Prop} {l : List α} (h : l.Pairwise R) {i j : ℕ} {a b : α}
    (hij : i < j) (ha : l[i]? = some a) (hb : l[j]? = some b) : R a b := by
  obtain ⟨hi, rfl⟩ := List.getElem?_eq_some_iff.mp ha
  obtain ⟨hj, rfl⟩ := List.getElem?_eq_some_iff.mp hb
  exact List.pairwise_iff_getElem.mp h i j hi hj hij

theorem interp_bounds {d0 d1 n0 n1 u : ℝ} (hd1 : 0 < d1) (hd : d1 ≤ d0) (h0 : n0 ≤ u) (h1 : u < n1) :
    d1 ≤ interpolate d0 d1 n0 n1 u 0 ∧ interpolate d0 d1 n0 n1 u 0 ≤ d0 := by
  have hd0 : 0 < d0 := lt_of_lt_of_le hd1 hd
  have hl : Real.log d1 ≤ Real.log d0 := Real.log_le_log hd1 hd
  have hn : 0 < n1 - n0 := by linarith
  have t0 : 0 ≤ (u - n0) / (n1 - n0) := div_nonneg (by linarith) hn.le
  have t1 : (u - n0) / (n1 - n0) ≤ 1 := by rw [div_le_one hn]; linarith
  simp only [interpolate, mul_zero, add_zero, mul_one]
  constructor
  · rw [← Real.log_le_iff_le_exp hd1]
    nlinarith
  · rw [← Real.le_log_iff_exp_le hd0]
    nlinarith

theorem interp_anti {d0 d1 n0 n1 u v : ℝ} (hd1 : 0 < d1) (hd : d1 ≤ d0) (hn : n0 < n1) (h : u ≤ v) :
    interpolate d0 d1 n0 n1 v 0 ≤ interpolate d0 d1 n0 n1 u 0 := by
  have hl : Real.log d1 ≤ Real.log d0 := Real.log_le_log hd1 hd
  simp only [interpolate, mul_zero, add_zero, mul_one]
  apply Real.exp_le_exp.mpr
  have : (u - n0) / (n1 - n0) ≤ (v - n0) / (n1 - n0) := by
    apply div_le_div_of_nonneg_right _ (by linarith); linarith
  nlinarith

/-- What a draw does: it falls between two consecutive entries. -/
theorem size_segment {l : List Entry} {first last : Entry} (t : Table l first last) {u : ℝ}
    (h0 : first.num / last.num ≤ u) (h1 : u < 1) (r : ℝ) :
    ∃ k e0 e1, l[k]? = some e0 ∧ l[k + 1]? = some e1 ∧ e0.num / last.num ≤ u ∧
      u < e1.num / last.num ∧
      k + 1 = searchRight ((normalise l).map Real.log) (Real.log u) ∧
      randomSize l u r = .ok (interpolate e0.diam e1.diam (Real.log (e0.num / last.num))
        (Real.log (e1.num / last.num)) (Real.log u) r) := by
  classical
  have hlast : last ∈ l := List.mem_of_getLast? t.tail
  have hfirst : first ∈ l := List.mem_of_head? t.head
  have hlp := t.npos _ hlast
  have hfp := t.npos _ hfirst
  have hu : 0 < u := lt_of_lt_of_le (div_pos hfp hlp) h0
  have hnorm : normalise l = l.map fun e => e.num / last.num := by simp [normalise, t.tail]
  set logs := (normalise l).map Real.log with hlogs
  have hget : ∀ (j : ℕ) (e : Entry), l[j]? = some e → logs[j]? = some (Real.log (e.num / last.num)) := by
    intro j e he
    rw [hlogs, hnorm]
    simp [List.getElem?_map, he]
  have hlen : logs.length = l.length := by simp [hlogs, hnorm]
  set i := searchRight logs (Real.log u) with hi
  have hi_le : i ≤ l.length := hlen ▸ searchRight_le logs _
  have hpos : 0 < i := by
    by_contra hc
    have hi0 : i = 0 := by omega
    have hf : l[0]? = some first := by rw [← List.head?_eq_getElem?]; exact t.head
    have hx := searchRight_at (a := logs) (u := Real.log u)
      (x := Real.log (first.num / last.num)) (by rw [← hi, hi0]; exact hget 0 first hf)
    exact absurd hx (not_lt.mpr (Real.log_le_log (div_pos hfp hlp) h0))
  have hlt : i < l.length := by
    by_contra hc
    have hie : i = l.length := by omega
    have hl : l[l.length - 1]? = some last := by rw [← List.getLast?_eq_getElem?]; exact t.tail
    have hx := searchRight_lt (a := logs) (u := Real.log u) (j := l.length - 1)
      (x := Real.log (last.num / last.num)) (by rw [← hi]; omega) (hget _ _ hl)
    rw [div_self hlp.ne', Real.log_one] at hx
    exact absurd (Real.log_neg hu h1) (not_lt.mpr hx)
  obtain ⟨k, hk⟩ : ∃ k, i = k + 1 := ⟨i - 1, by omega⟩
  have g0 : l[k]? = some l[k] := List.getElem?_eq_getElem (by omega)
  have g1 : l[k + 1]? = some l[k + 1] := List.getElem?_eq_getElem (by omega)
  set e0 := l[k]
  set e1 := l[k + 1]
  have he0 : e0 ∈ l := List.mem_of_getElem? g0
  have he1 : e1 ∈ l := List.mem_of_getElem? g1
  have a0 := searchRight_lt (a := logs) (u := Real.log u) (j := k)
    (by rw [← hi]; omega) (hget _ _ g0)
  have a1 := searchRight_at (a := logs) (u := Real.log u) (by rw [← hi, hk]; exact hget _ _ g1)
  refine ⟨k, e0, e1, g0, g1, ?_, ?_, hk.symm, ?_⟩
  · exact (Real.log_le_log_iff (div_pos (t.npos _ he0) hlp) hu).mp a0
  · exact (Real.log_lt_log_iff hu (div_pos (t.npos _ he1) hlp)).mp a1
  · have c1 : ¬ l.length < 2 := by have := t.two; omega
    have c2 : ¬ ∃ e ∈ l, e.diam ≤ 0 := by
      rintro ⟨e, he, h⟩; exact absurd (t.dpos e he) (not_lt.mpr h)
    have c3 : ¬ ∃ e ∈ l, e.num ≤ 0 := by
      rintro ⟨e, he, h⟩; exact absurd (t.npos e he) (not_lt.mpr h)
    have c4 : ¬ ¬ l.IsChain (fun a b => a.num ≤ b.num) := not_not.mpr t.incr.isChain
    have hi' : searchRight (List.map Real.log (normalise l)) (Real.log u) = k + 1 := hk
    unfold randomSize
    rw [if_neg c1, if_neg c2, if_neg c3, if_neg c4]
    simp only [hi', Nat.add_sub_cancel, g0, g1]
    have q0 := hget _ _ g0
    have q1 := hget _ _ g1
    rw [hlogs] at q0 q1
    simp only [q0, q1]

/-- Without the noise, a draw `u` gives a crater not larger than an entry whose normalised number is
at most `u`, and not smaller than an entry whose normalised number exceeds it: the fraction of
craters larger than a tabulated diameter is its normalised number. -/
theorem C57_quantile {l : List Entry} {first last : Entry} (t : Table l first last) {u : ℝ}
    (h0 : first.num / last.num ≤ u) (h1 : u < 1) :
    ∃ d, randomSize l u 0 = .ok d ∧ ∀ e ∈ l,
      (e.num / last.num ≤ u → d ≤ e.diam) ∧ (u < e.num / last.num → e.diam ≤ d) := by
  obtain ⟨k, e0, e1, g0, g1, b0, b1, -, hr⟩ := size_segment t h0 h1 0
  have hlast : last ∈ l := List.mem_of_getLast? t.tail
  have hlp := t.npos _ hlast
  have hfp := t.npos _ (List.mem_of_head? t.head)
  have hu : 0 < u := lt_of_lt_of_le (div_pos hfp hlp) h0
  have m0 := List.mem_of_getElem? g0
  have m1 := List.mem_of_getElem? g1
  have hd : e1.diam ≤ e0.diam := pairwise_get t.desc (Nat.lt_succ_self k) g0 g1
  have hb := interp_bounds (d0 := e0.diam) (n0 := Real.log (e0.num / last.num))
    (n1 := Real.log (e1.num / last.num)) (u := Real.log u) (t.dpos _ m1) hd
    (Real.log_le_log (div_pos (t.npos _ m0) hlp) b0) (Real.log_lt_log hu b1)
  refine ⟨_, hr, ?_⟩
  intro e he
  obtain ⟨j, hj⟩ := List.getElem?_of_mem he
  constructor
  · intro hle
    have hjk : j ≤ k := by
      by_contra hc
      have hn : e1.num ≤ e.num := by
        rcases Nat.lt_or_ge (k + 1) j with h | h
        · exact pairwise_get t.incr h g1 hj
        · have : j = k + 1 := by omega
          subst this; rw [g1] at hj; cases hj; exact le_rfl
      have := div_le_div_of_nonneg_right hn hlp.le
      linarith
    have : e0.diam ≤ e.diam := by
      rcases Nat.lt_or_ge j k with h | h
      · exact pairwise_get t.desc h hj g0
      · have : j = k := by omega
        subst this; rw [g0] at hj; cases hj; exact le_rfl
    linarith [hb.2]
  · intro hlt
    have hjk : k < j := by
      by_contra hc
      have hn : e.num ≤ e0.num := by
        rcases Nat.lt_or_ge j k with h | h
        · exact pairwise_get t.incr h hj g0
        · have : j = k := by omega
          subst this; rw [g0] at hj; cases hj; exact le_rfl
      have := div_le_div_of_nonneg_right hn hlp.le
      linarith
    have : e.diam ≤ e1.diam := by
      rcases Nat.lt_or_ge (k + 1) j with h | h
      · exact pairwise_get t.desc h g1 hj
      · have : j = k + 1 := by omega
        subst this; rw [g1] at hj; cases hj; exact le_rfl
    linarith [hb.1]

theorem interp_noise (d0 d1 n0 n1 u r : ℝ) :
    interpolate d0 d1 n0 n1 u r = interpolate d0 d1 n0 n1 u 0 * (1 + 1e-8 * r) := by
  simp [interpolate]

/-- Sampled diameters lie between the smallest and the largest tabulated diameter, the latter
exceeded by at most the relative noise of 1e-8. -/
theorem C57_range {l : List Entry} {first last : Entry} (t : Table l first last) {u r : ℝ}
    (h0 : first.num / last.num ≤ u) (h1 : u < 1) (hr0 : 0 ≤ r) (hr1 : r < 1) :
    ∃ d, randomSize l u r = .ok d ∧ last.diam ≤ d ∧ d < first.diam * (1 + 1e-8) := by
  obtain ⟨d0, hd0, hq⟩ := C57_quantile t h0 h1
  obtain ⟨k, e0, e1, g0, g1, b0, b1, -, hr⟩ := size_segment t h0 h1 r
  obtain ⟨k', f0, f1, g0', g1', _, _, hk', hr'⟩ := size_segment t h0 h1 0
  obtain ⟨k2, f2, f3, g2, g3, _, _, hk2, hr2⟩ := size_segment t h0 h1 r
  have hlast : last ∈ l := List.mem_of_getLast? t.tail
  have hfirst : first ∈ l := List.mem_of_head? t.head
  have hkk : k' = k2 := by omega
  subst hkk
  rw [g0'] at g2; rw [g1'] at g3
  cases g2; cases g3
  rw [hr'] at hd0
  injection hd0 with hd0
  refine ⟨_, hr2, ?_, ?_⟩
  · rw [interp_noise, hd0]
    have h1' := (hq last hlast).2 (by rw [div_self (t.npos _ hlast).ne']; exact h1)
    have := t.dpos _ hlast
    nlinarith
  · rw [interp_noise, hd0]
    have h1' := (hq first hfirst).1 h0
    have hf := t.dpos _ hfirst
    have hd : 0 < d0 := lt_of_lt_of_le (t.dpos _ hlast)
      ((hq last hlast).2 (by rw [div_self (t.npos _ hlast).ne']; exact h1))
    nlinarith

/-- A larger draw never gives a larger crater. -/
theorem C57_monotone {l : List Entry} {first last : Entry} (t : Table l first last) {u v d d' : ℝ}
    (h0 : first.num / last.num ≤ u) (huv : u ≤ v) (h1 : v < 1)
    (hu : randomSize l u 0 = .ok d) (hv : randomSize l v 0 = .ok d') : d' ≤ d := by
  obtain ⟨k, e0, e1, g0, g1, b0, b1, hk, hr⟩ := size_segment t h0 (lt_of_le_of_lt huv h1) 0
  obtain ⟨m, f0, f1, p0, p1, q0, q1, hm, hr'⟩ := size_segment t (h0.trans huv) h1 0
  rw [hu] at hr; rw [hv] at hr'
  injection hr with hr; injection hr' with hr'
  have hlast : last ∈ l := List.mem_of_getLast? t.tail
  have hlp := t.npos _ hlast
  have hup : 0 < u :=
    lt_of_lt_of_le (div_pos (t.npos _ (List.mem_of_head? t.head)) hlp) h0
  rcases lt_trichotomy k m with h | h | h
  · -- later segment
    obtain ⟨c, hc, hcq⟩ := C57_quantile t h0 (lt_of_le_of_lt huv h1)
    obtain ⟨c', hc', hcq'⟩ := C57_quantile t (h0.trans huv) h1
    rw [hu] at hc; rw [hv] at hc'
    cases hc; cases hc'
    have a1 := (hcq e1 (List.mem_of_getElem? g1)).2 b1
    have a2 := (hcq' f0 (List.mem_of_getElem? p0)).1 q0
    have : f0.diam ≤ e1.diam := by
      rcases Nat.lt_or_ge (k + 1) m with h' | h'
      · exact pairwise_get t.desc h' g1 p0
      · have : k + 1 = m := by omega
        subst this; rw [g1] at p0; cases p0; exact le_rfl
    linarith
  · subst h
    rw [g0] at p0; rw [g1] at p1
    cases p0; cases p1
    rw [hr, hr']
    apply interp_anti (t.dpos _ (List.mem_of_getElem? g1))
      (pairwise_get t.desc (Nat.lt_succ_self k) g0 g1)
    · apply Real.log_lt_log (div_pos (t.npos _ (List.mem_of_getElem? g0)) hlp)
      linarith
    · exact Real.log_le_log hup huv
  · exfalso
    have hn : f1.num ≤ e0.num := by
      rcases Nat.lt_or_ge (m + 1) k with h' | h'
      · exact pairwise_get t.incr h' p1 g0
      · have : m + 1 = k := by omega
        subst this; rw [p1] at g0; cases g0; exact le_rfl
    have := div_le_div_of_nonneg_right hn hlp.le
    linarith

example : Table [⟨100, 1⟩, ⟨10, 20⟩, ⟨1, 300⟩] ⟨100, 1⟩ ⟨1, 300⟩ := by
  constructor <;> norm_num

/-- The sampling is not defined for every table the checks accept: if all numbers are equal, the
only possible draw is 1 and the search runs off the end of the table (IndexError). -/
theorem C57_constant_fails (l : List Entry) (c r : ℝ) (hc : 0 < c) (h2 : 2 ≤ l.length) (hd : ∀ e ∈ l, 0 < e.diam)
    (hn : ∀ e ∈ l, e.num = c) : (∀ x ∈ normalise l, x = 1) ∧ randomSize l 1 r = .error .index := by
  classical
  have hlast : (l.getLast?.map Entry.num).getD 1 = c := by
    rcases hl : l.getLast? with _ | e
    · rw [List.getLast?_eq_none_iff] at hl; subst hl; simp at h2
    · simp [hn e (List.mem_of_getLast? hl)]
  have hone : ∀ x ∈ normalise l, x = 1 := by
    intro x hx
    simp only [normalise, List.mem_map] at hx
    obtain ⟨e, he, rfl⟩ := hx
    rw [hlast, hn e he, div_self hc.ne']
  refine ⟨hone, ?_⟩
  unfold randomSize
  rw [if_neg (by omega), if_neg (by push Not; exact hd), if_neg (by push Not; intro e he; rw [hn e he]; exact hc), if_neg]
  · have : searchRight ((normalise l).map Real.log) (Real.log 1) = l.length := by
      have ht : ((normalise l).map Real.log).takeWhile (fun x => decide (x ≤ Real.log 1)) = (normalise l).map Real.log := by
        rw [List.takeWhile_eq_self_iff]
        intro x hx
        obtain ⟨y, hy, rfl⟩ := List.mem_map.1 hx
        simp [hone y hy]
      unfold searchRight
      rw [ht]
      simp [normalise]
    simp only [this]
    have hnone : l[l.length]? = none := by simp
    rw [hnone]
    rcases l[l.length - 1]? with _ | e <;> rfl
  · rw [not_not]
    refine List.Pairwise.isChain ?_
    refine List.pairwise_of_forall_mem_list ?_
    intro a ha b hb
    rw [hn a ha, hn b hb]

/-- Two sizes with the same cumulative number. -/
example : randomSize [⟨2, 1⟩, ⟨1, 1⟩] 1 0 = .error .index :=
  (C57_constant_fails [⟨2, 1⟩, ⟨1, 1⟩] 1 0 one_pos (by simp) (by simp) (by simp)).2

/-! ### C58: times -/

theorem grid_mono (te ts : ℝ) (h : te ≤ ts) (n i j : ℕ) (hij : i ≤ j) :
    grid te ts n i ≤ grid te ts n j := by
  unfold grid
  have : ((i : ℕ) : ℝ) ≤ j := by exact_mod_cast hij
  have h2 : (0 : ℝ) ≤ ts - te := by linarith
  gcongr

theorem grid_zero (te ts : ℝ) (n : ℕ) : grid te ts n 0 = te := by simp [grid]

theorem grid_last (te ts : ℝ) (n : ℕ) (hn : 2 ≤ n) : grid te ts n (n - 1) = ts := by
  unfold grid
  have : ((n - 1 : ℕ) : ℝ) ≠ 0 := by
    have : n - 1 ≠ 0 := by omega
    exact_mod_cast this
  field_simp
  ring

theorem drawTime_mem (N : ℝ → ℝ) (te ts : ℝ) (h : te ≤ ts) (n : ℕ) (hn : 2 ≤ n) (u r : ℝ)
    (h0 : 0 ≤ r) (h1 : r ≤ 1) : te ≤ drawTime N te ts n u r ∧ drawTime N te ts n u r ≤ ts := by
  have hj : chosen N te ts n u + 1 ≤ n - 1 := by
    have : chosen N te ts n u ≤ n - 2 := min_le_right _ _
    omega
  have a := grid_mono te ts h n 0 (chosen N te ts n u) (Nat.zero_le _)
  have b := grid_mono te ts h n (chosen N te ts n u) (chosen N te ts n u + 1) (Nat.le_succ _)
  have c := grid_mono te ts h n _ _ hj
  rw [grid_zero] at a
  rw [grid_last te ts n hn] at c
  unfold drawTime
  constructor <;> nlinarith

/-- One time per crater is returned, all inside the window, from oldest to youngest. -/
theorem C58_times (te ts : ℝ) (h : te ≤ ts) (cs : List ((ℝ → ℝ) × ℝ × ℝ))
    (hr : ∀ c ∈ cs, 0 ≤ c.2.2 ∧ c.2.2 < 1) :
    (computeTime te ts cs).length = cs.length ∧
    (∀ t ∈ computeTime te ts cs, te ≤ t ∧ t ≤ ts) ∧
    (computeTime te ts cs).Pairwise (fun a b => b ≤ a) := by
  classical
  refine ⟨by simp [computeTime], ?_, ?_⟩
  · intro t ht
    unfold computeTime at ht
    rw [List.mem_mergeSort] at ht
    obtain ⟨c, hc, rfl⟩ := List.mem_map.mp ht
    exact drawTime_mem c.1 te ts h _ (by decide) _ _ (hr c hc).1 (hr c hc).2.le
  · have h := List.pairwise_mergeSort (le := fun a b : ℝ => decide (b ≤ a))
      (fun a b c h1 h2 => by simp only [decide_eq_true_eq] at *; linarith)
      (fun a b => by simp only [Bool.or_eq_true, decide_eq_true_eq]; exact le_total _ _)
      (cs.map fun c => drawTime c.1 te ts gridPoints c.2.1 c.2.2)
    refine h.imp ?_
    intro a b hab; simpa using hab

example : ∀ c ∈ [((fun t : ℝ => t), (0.3 : ℝ), (0.5 : ℝ)), ((fun t : ℝ => t ^ 2), 0.7, 0)],
    0 ≤ c.2.2 ∧ c.2.2 < 1 := by
  simp; norm_num

/-! ### C74: distribution of the times -/

theorem gridMin_eq (N : ℝ → ℝ) (hN : Monotone N) (te ts : ℝ) (h : te ≤ ts) (n : ℕ) :
    gridMin N te ts n = N te := by
  unfold gridMin
  have : ∀ l : List ℕ, l.foldr (fun j m => min (N (grid te ts n j)) m) (N (grid te ts n 0)) = N te := by
    intro l
    induction l with
    | nil => simp [grid_zero]
    | cons a l ih =>
      simp only [List.foldr_cons, ih]
      apply min_eq_right
      apply hN
      have := grid_mono te ts h n 0 a (Nat.zero_le _)
      rwa [grid_zero] at this
  exact this _

/-- Cumulative weight up to and including index `k`. -/
noncomputable def cum (N : ℝ → ℝ) (te ts : ℝ) (n k : ℕ) : ℝ :=
  ((List.range (k + 1)).map fun j => rawWeight N te ts n j / weightSum N te ts n).sum

theorem cum_succ (N : ℝ → ℝ) (te ts : ℝ) (n k : ℕ) :
    cum N te ts n (k + 1) = cum N te ts n k + rawWeight N te ts n (k + 1) / weightSum N te ts n := by
  unfold cum
  rw [List.range_succ, List.map_append, List.sum_append]
  simp

theorem sum_map_div (l : List ℕ) (f : ℕ → ℝ) (s : ℝ) : (l.map fun j => f j / s).sum = (l.map f).sum / s := by
  induction l with
  | nil => simp
  | cons a l ih => simp [ih, add_div]

section dist
variable (N : ℝ → ℝ) (te ts : ℝ) (n : ℕ)

theorem raw_nonneg (hN : Monotone N) (h : te ≤ ts) (j : ℕ) : 0 ≤ rawWeight N te ts n j := by
  unfold rawWeight
  rw [gridMin_eq N hN te ts h]
  have := grid_mono te ts h n 0 j (Nat.zero_le _)
  rw [grid_zero] at this
  linarith [hN this]

theorem cum_mono (hN : Monotone N) (h : te ≤ ts) (hS : 0 < weightSum N te ts n) {i j : ℕ} (hij : i ≤ j) :
    cum N te ts n i ≤ cum N te ts n j := by
  induction hij with
  | refl => exact le_rfl
  | @step m _ ih =>
    rw [cum_succ]
    have := div_nonneg (raw_nonneg N te ts n hN h (m + 1)) hS.le
    exact ih.trans (by linarith)

theorem cum_zero (hN : Monotone N) (h : te ≤ ts) : cum N te ts n 0 = 0 := by
  simp [cum, rawWeight, gridMin_eq N hN te ts h, grid_zero]

theorem cum_last (hn : 2 ≤ n) (hS : 0 < weightSum N te ts n) : cum N te ts n (n - 2) = 1 := by
  unfold cum
  rw [sum_map_div, show n - 2 + 1 = n - 1 by omega]
  exact div_self hS.ne'

theorem timeCdf_get {k : ℕ} (hk : k < n - 1) : (timeCdf N te ts n)[k]? = some (cum N te ts n k) := by
  unfold timeCdf
  rw [List.getElem?_map, List.getElem?_range hk]
  rfl

/-- The subinterval chosen by a draw. -/
theorem chosen_iff (hN : Monotone N) (h : te ≤ ts) (hn : 2 ≤ n) (hS : 0 < weightSum N te ts n) (u : ℝ)
    (h0 : 0 ≤ u) (h1 : u < 1) (j : ℕ) :
    chosen N te ts n u = j ↔ j + 1 < n - 1 ∧ cum N te ts n j ≤ u ∧ u < cum N te ts n (j + 1) := by
  set i := searchRight (timeCdf N te ts n) u with hi
  have hlen : (timeCdf N te ts n).length = n - 1 := by simp [timeCdf]
  have hle : i ≤ n - 1 := hlen ▸ searchRight_le _ _
  have hpos : 0 < i := by
    by_contra hc
    have hi0 : i = 0 := by omega
    have := searchRight_at (a := timeCdf N te ts n) (u := u) (x := cum N te ts n 0)
      (by rw [← hi, hi0]; exact timeCdf_get N te ts n (by omega))
    rw [cum_zero N te ts n hN h] at this
    linarith
  have hlt : i < n - 1 := by
    by_contra hc
    have := searchRight_lt (a := timeCdf N te ts n) (u := u) (j := n - 2) (x := cum N te ts n (n - 2))
      (by rw [← hi]; omega) (timeCdf_get N te ts n (by omega))
    rw [cum_last N te ts n hn hS] at this
    linarith
  have hch : chosen N te ts n u = i - 1 := by
    unfold chosen; rw [← hi]; omega
  have l1 : cum N te ts n (i - 1) ≤ u :=
    searchRight_lt (a := timeCdf N te ts n) (j := i - 1) (by rw [← hi]; omega)
      (timeCdf_get N te ts n (by omega))
  have l2 : u < cum N te ts n i :=
    searchRight_at (a := timeCdf N te ts n) (by rw [← hi]; exact timeCdf_get N te ts n hlt)
  rw [hch]
  constructor
  · rintro rfl
    have e : i - 1 + 1 = i := by omega
    rw [e]; exact ⟨hlt, l1, l2⟩
  · rintro ⟨hj, a, b⟩
    by_contra hne
    rcases Nat.lt_or_ge j (i - 1) with hlt' | hge
    · have := cum_mono N te ts n hN h hS (i := j + 1) (j := i - 1) (by omega)
      linarith
    · have := cum_mono N te ts n hN h hS (i := i) (j := j) (by omega)
      linarith

/-- The draws that give a time in the `j`-th part of the window. -/
def drawsInto (j : ℕ) (r : ℝ) : Set ℝ :=
  {u | 0 ≤ u ∧ u < 1 ∧ grid te ts n j ≤ drawTime N te ts n u r ∧
    drawTime N te ts n u r < grid te ts n (j + 1)}

theorem grid_lt (h : te < ts) (hn : 2 ≤ n) {i j : ℕ} (hij : i < j) : grid te ts n i < grid te ts n j := by
  unfold grid
  have h1 : ((i : ℕ) : ℝ) < j := by exact_mod_cast hij
  have h2 : (0 : ℝ) < ((n - 1 : ℕ) : ℝ) := by
    have : 0 < n - 1 := by omega
    exact_mod_cast this
  have h3 : 0 < ts - te := by linarith
  gcongr

theorem time_in_part (h : te < ts) (hn : 2 ≤ n) (u r : ℝ) (h0 : 0 ≤ r) (h1 : r < 1) (j : ℕ) :
    (grid te ts n j ≤ drawTime N te ts n u r ∧ drawTime N te ts n u r < grid te ts n (j + 1)) ↔
      chosen N te ts n u = j := by
  set c := chosen N te ts n u with hc
  have g := grid_lt te ts n h hn (Nat.lt_succ_self c)
  have lo : grid te ts n c ≤ drawTime N te ts n u r := by
    unfold drawTime; rw [← hc]; nlinarith
  have hi : drawTime N te ts n u r < grid te ts n (c + 1) := by
    unfold drawTime; rw [← hc]; nlinarith
  constructor
  · rintro ⟨a, b⟩
    by_contra hne
    rcases Nat.lt_or_ge c j with hlt | hge
    · have := grid_mono te ts h.le n (c + 1) j hlt
      linarith
    · have := grid_mono te ts h.le n (j + 1) c (by omega)
      linarith
  · rintro rfl; exact ⟨lo, hi⟩

/-- The actual probability that a crater gets a time in the `j`-th of the `n - 1` parts of the
window: the cumulative number at the end of that part over the sum of all these, and zero for the
oldest part. -/
theorem C74_actual_partial (hN : Monotone N) (h : te < ts) (hn : 2 ≤ n) (hS : 0 < weightSum N te ts n)
    (r : ℝ) (h0 : 0 ≤ r) (h1 : r < 1) (j : ℕ) :
    volume (drawsInto N te ts n j r) =
      if j + 1 < n - 1 then
        ENNReal.ofReal ((N (grid te ts n (j + 1)) - N te) / weightSum N te ts n)
      else 0 := by
  have hset : drawsInto N te ts n j r =
      {u | 0 ≤ u ∧ u < 1 ∧ (j + 1 < n - 1 ∧ cum N te ts n j ≤ u ∧ u < cum N te ts n (j + 1))} := by
    ext u
    simp only [drawsInto, Set.mem_ofPred_eq]
    constructor
    · rintro ⟨a, b, c⟩
      exact ⟨a, b, (chosen_iff N te ts n hN h.le hn hS u a b j).mp
        ((time_in_part N te ts n h hn u r h0 h1 j).mp c)⟩
    · rintro ⟨a, b, c⟩
      exact ⟨a, b, (time_in_part N te ts n h hn u r h0 h1 j).mpr
        ((chosen_iff N te ts n hN h.le hn hS u a b j).mpr c)⟩
  rw [hset]
  by_cases hj : j + 1 < n - 1
  · rw [if_pos hj]
    have hco : {u : ℝ | 0 ≤ u ∧ u < 1 ∧ (j + 1 < n - 1 ∧ cum N te ts n j ≤ u ∧ u < cum N te ts n (j + 1))}
        = Set.Ico (cum N te ts n j) (cum N te ts n (j + 1)) := by
      ext u
      simp only [Set.mem_ofPred_eq, Set.mem_Ico]
      constructor
      · rintro ⟨_, _, _, a, b⟩; exact ⟨a, b⟩
      · rintro ⟨a, b⟩
        have c0 := cum_mono N te ts n hN h.le hS (Nat.zero_le j)
        rw [cum_zero N te ts n hN h.le] at c0
        have c1 := cum_mono N te ts n hN h.le hS (i := j + 1) (j := n - 2) (by omega)
        rw [cum_last N te ts n hn hS] at c1
        exact ⟨by linarith, by linarith, hj, a, b⟩
    rw [hco, Real.volume_Ico, cum_succ]
    congr 1
    rw [rawWeight, gridMin_eq N hN te ts h.le]
    ring
  · rw [if_neg hj]
    have : {u : ℝ | 0 ≤ u ∧ u < 1 ∧ (j + 1 < n - 1 ∧ cum N te ts n j ≤ u ∧ u < cum N te ts n (j + 1))} = ∅ := by
      ext u; simp [hj]
    rw [this]; simp

/-- Four grid points from 0 to 3 and a constant rate. -/
example : Monotone (fun t : ℝ => t) ∧ 0 < weightSum (fun t => t) 0 3 4 := by
  refine ⟨fun _ _ h => h, ?_⟩
  norm_num [weightSum, rawWeight, gridMin, grid, List.range_succ]

end dist

theorem weightSum_id : 0 < weightSum (fun t => t) 0 999 gridPoints := by
  unfold weightSum
  have hm : Monotone (fun t : ℝ => t) := monotone_id
  have : (List.range (gridPoints - 1)) = 0 :: 1 :: ((List.range (gridPoints - 1)).drop 2) := by
    decide +kernel
  rw [this, List.map_cons, List.map_cons, List.sum_cons, List.sum_cons]
  have r0 := raw_nonneg (fun t => t) 0 999 gridPoints hm (by norm_num) 0
  have r1 : 0 < rawWeight (fun t => t) 0 999 gridPoints 1 := by
    unfold rawWeight
    rw [gridMin_eq _ hm 0 999 (by norm_num)]
    norm_num [grid, gridPoints]
  have r2 : 0 ≤ (((List.range (gridPoints - 1)).drop 2).map
      (rawWeight (fun t => t) 0 999 gridPoints)).sum := by
    apply List.sum_nonneg
    intro x hx
    obtain ⟨j, _, rfl⟩ := List.mem_map.mp hx
    exact raw_nonneg (fun t => t) 0 999 gridPoints hm (by norm_num) j
  linarith

/-- Full statement: the probability of a part of the window is the fraction of the expected craters
that form in it.  False already for a constant rate: the oldest of the 999 parts gets no crater,
although a fraction 1/999 of all craters is expected there. -/
theorem C74_follows_chronology_fails :
    ¬ ∀ (N : ℝ → ℝ) (te ts r : ℝ) (j : ℕ), Monotone N → te < ts → N te < N ts → 0 ≤ r → r < 1 →
      j + 1 < gridPoints →
      volume (drawsInto N te ts gridPoints j r) =
        ENNReal.ofReal ((N (grid te ts gridPoints (j + 1)) - N (grid te ts gridPoints j)) /
          (N ts - N te)) := by
  intro h
  have h1 := h (fun t => t) 0 999 0 998 monotone_id (by norm_num) (by norm_num) le_rfl (by norm_num)
    (by decide)
  rw [C74_actual_partial (fun t => t) 0 999 gridPoints monotone_id (by norm_num) (by decide)
    weightSum_id 0 le_rfl (by norm_num) 998] at h1
  rw [if_neg (by decide)] at h1
  have h2 := h1.symm
  rw [ENNReal.ofReal_eq_zero] at h2
  norm_num [grid, gridPoints] at h2

/-! ### C59: velocities -/

/-- With a mean above the escape velocity every impact velocity is at least the escape velocity. -/
theorem C59_above (v vesc : ℝ) : vesc ≤ withEscape v vesc := by
  unfold withEscape
  apply Real.le_sqrt_of_sq_le
  nlinarith [sq_nonneg v]

theorem redraw_length (vesc : ℝ) (vs ds : List ℝ) : (redraw vesc vs ds).length = vs.length := by
  induction vs generalizing ds with
  | nil => rfl
  | cons v vs ih =>
    unfold redraw
    split_ifs
    · cases ds <;> simp [ih]
    · simp [ih]

/-- Otherwise, if sampling ends, as many velocities as asked for are returned, all below the escape
velocity. -/
theorem C59_below (vesc : ℝ) (vs : List ℝ) (draws : List (List ℝ)) (out : List ℝ)
    (h : truncated vesc vs draws = some out) : out.length = vs.length ∧ ∀ v ∈ out, v < vesc := by
  induction draws generalizing vs with
  | nil => simp [truncated] at h
  | cons ds rest ih =>
    unfold truncated at h
    simp only at h
    split_ifs at h with hc
    · simp only [Option.some.injEq] at h
      subst h
      exact ⟨redraw_length _ _ _, hc⟩
    · obtain ⟨a, b⟩ := ih _ h
      exact ⟨by rw [a, redraw_length], b⟩

/-- All the values in the result were drawn, or were below the escape velocity to begin with. -/
theorem C59_from_draws (vesc : ℝ) (vs : List ℝ) (draws : List (List ℝ)) (out : List ℝ)
    (h : truncated vesc vs draws = some out) : ∀ v ∈ out, v ∈ vs ∨ ∃ ds ∈ draws, v ∈ ds := by
  have key : ∀ (vs ds : List ℝ), ∀ v ∈ redraw vesc vs ds, v ∈ vs ∨ v ∈ ds := by
    intro vs
    induction vs with
    | nil => intro ds v hv; simp [redraw] at hv
    | cons a vs ih =>
      intro ds v hv
      unfold redraw at hv
      split_ifs at hv
      · cases ds with
        | nil =>
          rcases List.mem_cons.mp hv with rfl | hv
          · simp
          · rcases ih [] v hv with h | h
            · simp [h]
            · simp at h
        | cons d ds =>
          rcases List.mem_cons.mp hv with rfl | hv
          · simp
          · rcases ih ds v hv with h | h <;> simp [h]
      · rcases List.mem_cons.mp hv with rfl | hv
        · simp
        · rcases ih ds v hv with h | h <;> simp [h]
  induction draws generalizing vs with
  | nil => simp [truncated] at h
  | cons ds rest ih =>
    unfold truncated at h
    simp only at h
    split_ifs at h
    · simp only [Option.some.injEq] at h
      subst h
      intro v hv
      rcases key vs ds v hv with h | h
      · exact .inl h
      · exact .inr ⟨ds, by simp, h⟩
    · intro v hv
      rcases ih _ h v hv with h | ⟨d, hd, h⟩
      · rcases key vs ds v h with h | h
        · exact .inl h
        · exact .inr ⟨ds, by simp, h⟩
      · exact .inr ⟨d, by simp [hd], h⟩

example : truncated 10 [20, 20] [[12, 3], [7]] = some [7, 3] := by
  norm_num [truncated, redraw]

/-- A value that is already below the escape velocity is never drawn again: it is returned at its own
place, whatever the other places and the new draws. -/
theorem C59_kept (vesc : ℝ) (vs : List ℝ) (draws : List (List ℝ)) (out : List ℝ)
    (h : truncated vesc vs draws = some out) (i : ℕ) (v : ℝ) (hv : vs[i]? = some v) (hlt : v < vesc) :
    out[i]? = some v := by
  have key : ∀ (vs ds : List ℝ) (i : ℕ), vs[i]? = some v → (redraw vesc vs ds)[i]? = some v := by
    intro vs
    induction vs with
    | nil => intro ds i hi; simp at hi
    | cons a vs ih =>
      intro ds i hi
      unfold redraw
      cases i with
      | zero =>
        simp only [List.getElem?_cons_zero, Option.some.injEq] at hi
        subst hi
        rw [if_neg (not_lt.mpr hlt.le)]
        rfl
      | succ i =>
        rw [List.getElem?_cons_succ] at hi
        split_ifs
        · cases ds with
          | nil => rw [List.getElem?_cons_succ]; exact ih _ _ hi
          | cons d ds => rw [List.getElem?_cons_succ]; exact ih _ _ hi
        · rw [List.getElem?_cons_succ]; exact ih _ _ hi
  induction draws generalizing vs with
  | nil => simp [truncated] at h
  | cons ds rest ih =>
    unfold truncated at h
    simp only at h
    split_ifs at h with hc
    · simp only [Option.some.injEq] at h
      subst h
      exact key _ _ _ hv
    · exact ih _ h (key _ _ _ hv)

/-- Non-vacuity: the second of two values is drawn again, the first is kept. -/
example : truncated 10 [5, 20] [[7]] = some [5, 7] ∧ [(5 : ℝ), 20][0]? = some 5 ∧ (5 : ℝ) < 10 := by
  have e : redraw 10 [5, 20] [7] = [5, 7] := by
    unfold redraw
    rw [if_neg (by norm_num)]
    unfold redraw
    rw [if_pos (by norm_num)]
    simp [redraw]
  refine ⟨?_, rfl, by norm_num⟩
  unfold truncated
  simp only [e]
  rw [if_pos]
  intro v hv
  simp only [List.mem_cons, List.not_mem_nil, or_false] at hv
  rcases hv with rfl | rfl <;> norm_num

/-- Sampling need not end even with good draws: once a draw equals the escape velocity it is neither
replaced nor accepted, whatever is drawn later.  In particular an escape velocity of zero loops for
ever, the initial value being twice the escape velocity. -/
theorem C59_equal_never_ends_fails (vesc : ℝ) (vs : List ℝ) (h : vesc ∈ vs) (draws : List (List ℝ)) :
    truncated vesc vs draws = none := by
  have key : ∀ (vs ds : List ℝ), vesc ∈ vs → vesc ∈ redraw vesc vs ds := by
    intro vs
    induction vs with
    | nil => intro ds h; simp at h
    | cons a vs ih =>
      intro ds h
      unfold redraw
      rcases List.mem_cons.mp h with rfl | h
      · simp
      · split_ifs
        · cases ds <;> simp [ih _ h]
        · simp [ih _ h]
  induction draws generalizing vs with
  | nil => rfl
  | cons ds rest ih =>
    unfold truncated
    have hk := key vs ds h
    simp only
    rw [if_neg (fun hc => lt_irrefl _ (hc _ hk))]
    exact ih _ hk

/-! ### C77: impact angles -/

/-- Impact angles lie between 0 and 90 degrees, and the probability of an angle of at most `θ` is
`sin² θ` (so the median is 45 degrees). -/
theorem C77_angle (u : ℝ) (_h0 : 0 ≤ u) (h1 : u < 1) :
    0 ≤ impactAngle u ∧ impactAngle u < 90 ∧
    ∀ θ, 0 ≤ θ → θ ≤ 90 → (impactAngle u ≤ θ ↔ u ≤ Real.sin (θ * (Real.pi / 180)) ^ 2) := by
  have hpi := Real.pi_pos
  have hs0 := Real.sqrt_nonneg u
  have hs1 : Real.sqrt u < 1 := by rw [Real.sqrt_lt' one_pos]; simpa using h1
  unfold impactAngle
  refine ⟨mul_nonneg (Real.arcsin_nonneg.mpr hs0) (by positivity), ?_, ?_⟩
  · have : Real.arcsin (Real.sqrt u) < Real.pi / 2 := Real.arcsin_lt_pi_div_two.mpr hs1
    have h2 : 0 < 180 / Real.pi := by positivity
    calc Real.arcsin (Real.sqrt u) * (180 / Real.pi) < Real.pi / 2 * (180 / Real.pi) := by gcongr
      _ = 90 := by field_simp; norm_num
  · intro θ ht0 ht1
    have hx0 : 0 ≤ θ * (Real.pi / 180) := by positivity
    have hx1 : θ * (Real.pi / 180) ≤ Real.pi / 2 := by nlinarith
    have e : Real.arcsin (Real.sqrt u) * (180 / Real.pi) ≤ θ ↔
        Real.arcsin (Real.sqrt u) ≤ θ * (Real.pi / 180) := by
      constructor
      · intro h
        have := mul_le_mul_of_nonneg_right h (by positivity : (0 : ℝ) ≤ Real.pi / 180)
        have e2 : Real.arcsin (Real.sqrt u) * (180 / Real.pi) * (Real.pi / 180) =
            Real.arcsin (Real.sqrt u) := by field_simp
        linarith
      · intro h
        have := mul_le_mul_of_nonneg_right h (by positivity : (0 : ℝ) ≤ 180 / Real.pi)
        have e2 : θ * (Real.pi / 180) * (180 / Real.pi) = θ := by field_simp
        linarith
    rw [e, Real.arcsin_le_iff_le_sin ⟨by linarith, hs1.le⟩ ⟨by linarith, hx1⟩]
    have hsin := Real.sin_nonneg_of_nonneg_of_le_pi hx0 (by linarith)
    rw [Real.sqrt_le_left hsin]

example : impactAngle (1 / 2) ≤ 45 := by
  rw [(C77_angle (1 / 2) (by norm_num) (by norm_num)).2.2 45 (by norm_num) (by norm_num),
    show (45 : ℝ) * (Real.pi / 180) = Real.pi / 4 by ring, Real.sin_pi_div_four, div_pow, Real.sq_sqrt (by norm_num)]
  norm_num

/-! ### C78: uniform locations -/

/-- Random longitudes lie in [-180, 180) and random latitudes in [-90, 90], and the probability of a
latitude of at most `φ` is the fraction of the sphere south of `φ`. -/
theorem C78_location (u v : ℝ) (hu0 : 0 ≤ u) (hu1 : u < 1) (hv0 : 0 ≤ v) (hv1 : v < 1) :
    -180 ≤ (randomLocation u v).1 ∧ (randomLocation u v).1 < 180 ∧
    -90 ≤ (randomLocation u v).2 ∧ (randomLocation u v).2 ≤ 90 ∧
    ∀ φ, -90 ≤ φ → φ ≤ 90 →
      ((randomLocation u v).2 ≤ φ ↔ 1 - v ≤ (1 + Real.sin (φ * (Real.pi / 180))) / 2) := by
  have hpi := Real.pi_pos
  have k : 0 < 180 / Real.pi := by positivity
  have c1 : (2 * Real.pi * u - Real.pi) * (180 / Real.pi) = 360 * u - 180 := by field_simp; ring
  have c2 : (Real.arccos (2 * v - 1) - Real.pi / 2) * (180 / Real.pi) =
      -(Real.arcsin (2 * v - 1) * (180 / Real.pi)) := by rw [Real.arccos]; ring
  have a1 := Real.neg_pi_div_two_le_arcsin (2 * v - 1)
  have a2 := Real.arcsin_le_pi_div_two (2 * v - 1)
  have e90 : Real.pi / 2 * (180 / Real.pi) = 90 := by field_simp; norm_num
  unfold randomLocation
  simp only [c1, c2]
  refine ⟨by linarith, by linarith, ?_, ?_, ?_⟩
  · have := mul_le_mul_of_nonneg_right a2 k.le; linarith
  · have := mul_le_mul_of_nonneg_right a1 k.le; linarith
  · intro φ h1 h2
    have hx1 : -(Real.pi / 2) ≤ φ * (Real.pi / 180) := by nlinarith
    have hx2 : φ * (Real.pi / 180) ≤ Real.pi / 2 := by nlinarith
    have e : -(Real.arcsin (2 * v - 1) * (180 / Real.pi)) ≤ φ ↔
        -(φ * (Real.pi / 180)) ≤ Real.arcsin (2 * v - 1) := by
      constructor
      · intro h
        have := mul_le_mul_of_nonneg_right h (by positivity : (0 : ℝ) ≤ Real.pi / 180)
        have e2 : -(Real.arcsin (2 * v - 1) * (180 / Real.pi)) * (Real.pi / 180) =
            -Real.arcsin (2 * v - 1) := by field_simp
        linarith
      · intro h
        have := mul_le_mul_of_nonneg_right h k.le
        have e2 : -(φ * (Real.pi / 180)) * (180 / Real.pi) = -φ := by field_simp
        linarith
    rw [e, Real.le_arcsin_iff_sin_le ⟨by linarith, by linarith⟩ ⟨by linarith, by linarith⟩,
      Real.sin_neg]
    constructor <;> intro h <;> linarith

example : (randomLocation 0.3 (3 / 4)).2 ≤ 0 := by
  rw [(C78_location 0.3 (3 / 4) (by norm_num) (by norm_num) (by norm_num) (by norm_num)).2.2.2.2 0 (by norm_num) (by norm_num)]
  norm_num

/-! ### C56: location on a face -/

/-- The point chosen in a triangle lies in the triangle. -/
theorem trianglePoint_mem (t : Vec × Vec × Vec) (r1 r2 : ℝ) (h1 : 0 ≤ r1) (h1' : r1 ≤ 1)
    (h2 : 0 ≤ r2) (h2' : r2 ≤ 1) (s : Set Vec) (a : t.1 ∈ s) (b : t.2.1 ∈ s) (c : t.2.2 ∈ s) :
    trianglePoint t r1 r2 ∈ convexHull ℝ s := by
  have key : ∀ q1 q2 : ℝ, 0 ≤ q1 → 0 ≤ q2 → q1 + q2 ≤ 1 →
      (1 - q1 - q2) • t.1 + q1 • t.2.1 + q2 • t.2.2 ∈ convexHull ℝ s := by
    intro q1 q2 p1 p2 p3
    have hc := convex_convexHull ℝ s
    have ma := subset_convexHull ℝ s a
    have mb := subset_convexHull ℝ s b
    have mc := subset_convexHull ℝ s c
    have := hc.sum_mem (t := (Finset.univ : Finset (Fin 3))) (w := ![1 - q1 - q2, q1, q2])
      (z := ![t.1, t.2.1, t.2.2])
      (by
        intro i _
        fin_cases i
        · change 0 ≤ 1 - q1 - q2; linarith
        · exact p1
        · exact p2)
      (by simp [Fin.sum_univ_three]; ring)
      (by
        intro i _
        fin_cases i
        · exact ma
        · exact mb
        · exact mc)
    simpa [Fin.sum_univ_three] using this
  unfold trianglePoint
  simp only
  split_ifs with h
  · exact key _ _ (by linarith) (by linarith) (by linarith)
  · exact key _ _ h1 h2 (by linarith)

theorem fan_mem (nodes : List Vec) (t : Vec × Vec × Vec) (h : t ∈ fan nodes) :
    t.1 ∈ nodes ∧ t.2.1 ∈ nodes ∧ t.2.2 ∈ nodes := by
  cases nodes with
  | nil => simp [fan] at h
  | cons v0 rest =>
    simp only [fan, List.mem_map] at h
    obtain ⟨p, hp, rfl⟩ := h
    have h1 := List.of_mem_zip hp
    refine ⟨by simp, by simp [h1.1], ?_⟩
    have := List.mem_of_mem_tail h1.2
    simp [this]

theorem normV_nonneg (a : Vec) : 0 ≤ normV a := Real.sqrt_nonneg _

theorem cumAreas_get (areas : List ℝ) (k : ℕ) (hk : k < areas.length) :
    (cumAreas areas)[k]? = some (((areas.take (k + 1)).sum) / areas.sum) := by
  unfold cumAreas
  rw [List.getElem?_map, List.getElem?_range hk]
  simp only [Option.map_some, Option.some.injEq]
  have : ∀ l : List ℝ, (l.map (· / areas.sum)).sum = l.sum / areas.sum := by
    intro l; induction l with
    | nil => simp
    | cons a l ih => simp [ih, add_div]
  exact this _

/-- The total area of the fan triangles of a polygon. -/
noncomputable def totalArea (nodes : List Vec) : ℝ :=
  ((fan nodes).map fun t => fanArea t.1 t.2.1 t.2.2).sum

/-- A point is always found, and it lies in the convex hull of the nodes of the face. -/
theorem C56_inside (nodes : List Vec) (hA : 0 < totalArea nodes) (r0 r1 r2 : ℝ) (h0' : r0 < 1)
    (h1 : 0 ≤ r1) (h1' : r1 < 1) (h2 : 0 ≤ r2) (h2' : r2 < 1) :
    ∃ p, locationOnFace nodes r0 r1 r2 = some p ∧ p ∈ convexHull ℝ {v | v ∈ nodes} := by
  set areas := (fan nodes).map fun t => fanArea t.1 t.2.1 t.2.2 with ha
  have hlen : areas.length = (fan nodes).length := by simp [ha]
  have hne : 0 < areas.length := by
    by_contra hc
    have : areas = [] := List.eq_nil_of_length_eq_zero (by omega)
    unfold totalArea at hA
    rw [← ha, this] at hA
    simp at hA
  have hlt : searchLeft (cumAreas areas) r0 < (fan nodes).length := by
    by_contra hc
    have hx := searchLeft_lt (a := cumAreas areas) (u := r0) (j := areas.length - 1)
      (by omega) (cumAreas_get areas _ (by omega))
    rw [show areas.length - 1 + 1 = areas.length by omega, List.take_length,
      div_self (show areas.sum ≠ 0 from hA.ne')] at hx
    linarith
  refine ⟨trianglePoint ((fan nodes)[searchLeft (cumAreas areas) r0]) r1 r2, ?_, ?_⟩
  · simp only [locationOnFace]
    rw [← ha, List.getElem?_eq_getElem hlt]
    rfl
  · obtain ⟨a, b, c⟩ := fan_mem nodes _ (List.getElem_mem hlt)
    exact trianglePoint_mem _ r1 r2 h1 h1'.le h2 h2'.le _ a b c

/-- The `k`-th triangle is chosen with probability equal to its share of the area. -/
theorem C56_area_weighted (nodes : List Vec) (hA : 0 < totalArea nodes) (k : ℕ)
    (hk : k < (fan nodes).length) :
    let areas := (fan nodes).map fun t => fanArea t.1 t.2.1 t.2.2
    volume {r : ℝ | 0 < r ∧ r < 1 ∧ searchLeft (cumAreas areas) r = k} =
      ENNReal.ofReal (fanArea (fan nodes)[k].1 (fan nodes)[k].2.1 (fan nodes)[k].2.2 /
        totalArea nodes) := by
  intro areas
  have hlen : areas.length = (fan nodes).length := by simp [areas]
  have hS : areas.sum = totalArea nodes := rfl
  have hnn : ∀ x ∈ areas, 0 ≤ x := by
    intro x hx
    obtain ⟨t, _, rfl⟩ := List.mem_map.mp hx
    unfold fanArea
    have := normV_nonneg (crossV (t.2.1 - t.1) (t.2.2 - t.1))
    linarith
  set c : ℕ → ℝ := fun j => (areas.take j).sum / areas.sum with hc
  have cmono : ∀ i j, i ≤ j → c i ≤ c j := by
    intro i j hij
    have : (areas.take i).sum ≤ (areas.take j).sum := by
      obtain ⟨d, rfl⟩ := Nat.exists_eq_add_of_le hij
      rw [List.take_add, List.sum_append]
      have : 0 ≤ ((areas.drop i).take d).sum := by
        apply List.sum_nonneg
        intro x hx
        exact hnn x (List.mem_of_mem_drop (List.mem_of_mem_take hx))
      linarith
    exact div_le_div_of_nonneg_right this (hS ▸ hA.le)
  have c0 : c 0 = 0 := by simp [hc]
  have cl : c areas.length = 1 := by
    simp only [hc, List.take_length]; exact div_self (hS ▸ hA.ne')
  have hset : {r : ℝ | 0 < r ∧ r < 1 ∧ searchLeft (cumAreas areas) r = k} ⊆ Set.Ioc (c k) (c (k + 1)) := by
    rintro r ⟨h0, h1, hs⟩
    constructor
    · cases k with
      | zero => rw [c0]; exact h0
      | succ m =>
        exact searchLeft_lt (a := cumAreas areas) (j := m) (by rw [hs]; omega)
          (cumAreas_get areas m (by omega))
    · exact searchLeft_at (a := cumAreas areas) (by rw [hs]; exact cumAreas_get areas k (by omega))
  have hset2 : Set.Ioo (c k) (c (k + 1)) ⊆ {r : ℝ | 0 < r ∧ r < 1 ∧ searchLeft (cumAreas areas) r = k} := by
    rintro r ⟨a, b⟩
    have l0 := cmono 0 k (Nat.zero_le _)
    have l1 := cmono (k + 1) areas.length (by omega)
    rw [c0] at l0; rw [cl] at l1
    refine ⟨by linarith, by linarith, ?_⟩
    have hle : searchLeft (cumAreas areas) r ≤ (cumAreas areas).length := searchLeft_le _ _
    have hcl : (cumAreas areas).length = areas.length := by simp [cumAreas]
    rcases lt_trichotomy (searchLeft (cumAreas areas) r) k with h | h | h
    · have hx : r ≤ c (searchLeft (cumAreas areas) r + 1) :=
        searchLeft_at (a := cumAreas areas) (cumAreas_get areas _ (by omega))
      have := cmono _ k h
      linarith
    · exact h
    · have hx : c (k + 1) < r := searchLeft_lt (a := cumAreas areas) (j := k) h
        (cumAreas_get areas k (by omega))
      linarith
  have hlen2 : c (k + 1) - c k = fanArea (fan nodes)[k].1 (fan nodes)[k].2.1 (fan nodes)[k].2.2 /
        totalArea nodes := by
    have hk' : k < areas.length := by omega
    simp only [hc]
    rw [List.take_succ_eq_append_getElem hk', List.sum_append, ← sub_div, hS]
    simp [areas]
  apply le_antisymm
  · calc _ ≤ volume (Set.Ioc (c k) (c (k + 1))) := measure_mono hset
      _ = _ := by rw [Real.volume_Ioc, hlen2]
  · calc _ = volume (Set.Ioo (c k) (c (k + 1))) := by rw [Real.volume_Ioo, hlen2]
      _ ≤ _ := measure_mono hset2

example : 0 < totalArea [![0, 0, 0], ![1, 0, 0], ![0, 1, 0]] := by
  have h2 : ∀ a b c : ℝ, (![a, b, c] : Vec) 2 = c := fun _ _ _ => rfl
  simp only [totalArea, fan, fanArea, normV, crossV, List.tail, List.zip, List.zipWith, List.map,
    List.sum_cons, List.sum_nil, Pi.sub_apply, h2, Matrix.cons_val_zero, Matrix.cons_val_one]
  norm_num

/-- The vertex as a point of Euclidean space. -/
noncomputable def point (v : Vec) : EuclideanSpace ℝ (Fin 3) := WithLp.toLp 2 v

/-- The triangles are those between the first corner and two neighbouring other ones, and their areas are half the
product of two sides and the sine of the angle between them. -/
theorem C56_triangles (nodes : List Vec) :
    (fan nodes).length = nodes.length - 2 ∧
    (∀ (k : ℕ) (h : k + 2 < nodes.length), (fan nodes)[k]? = some (nodes[0], nodes[k + 1], nodes[k + 2])) ∧
    ∀ a b c : Vec, fanArea a b c =
      dist (point b) (point a) * dist (point c) (point a) *
        Real.sin (EuclideanGeometry.angle (point b) (point a) (point c)) / 2 := by
  refine ⟨?_, ?_, ?_⟩
  · cases nodes with
    | nil => rfl
    | cons v rest => simp [fan]
  · intro k h
    cases nodes with
    | nil => simp at h
    | cons v rest =>
      simp only [List.length_cons] at h
      have h1 : k < rest.length := by omega
      have h2 : k + 1 < rest.length := by omega
      have hz : (rest.zip rest.tail)[k]? = some (rest[k], rest[k + 1]) := by
        rw [List.getElem?_zip_eq_some]
        simp [h1, h2]
      simp [fan, hz]
  · intro a b c
    have key := InnerProductGeometry.sin_angle_mul_norm_mul_norm (point b - point a) (point c - point a)
    have e : dist (point b) (point a) * dist (point c) (point a) *
        Real.sin (EuclideanGeometry.angle (point b) (point a) (point c)) =
        Real.sin (InnerProductGeometry.angle (point b - point a) (point c - point a)) *
          (‖point b - point a‖ * ‖point c - point a‖) := by
      rw [dist_eq_norm, dist_eq_norm, EuclideanGeometry.angle, vsub_eq_sub, vsub_eq_sub]; ring
    rw [e, key, fanArea, normV]
    have g : ∀ x y : ℝ, x = y → 0.5 * Real.sqrt x = Real.sqrt y / 2 := by rintro x _ rfl; ring
    apply g
    simp only [point, PiLp.inner_apply, Fin.sum_univ_three, crossV, PiLp.sub_apply, Pi.sub_apply, RCLike.inner_apply, conj_trivial,
      Matrix.cons_val_zero, Matrix.cons_val_one, Matrix.cons_val_two, Matrix.head_cons, Matrix.tail_cons]
    ring

end Verif.Sampling
