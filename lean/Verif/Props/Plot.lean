import Verif.Model.Plot
import Mathlib.Geometry.Euclidean.Angle.Unoriented.TriangleInequality
import Mathlib.Analysis.SpecialFunctions.Trigonometric.Bounds
import Mathlib.Tactic.Linarith
import Mathlib.Tactic.Ring
import Mathlib.Tactic.FieldSimp
import Mathlib.Tactic.IntervalCases

/-!
# Pictures of a surface: C178, C179, C180, C181, C182
-/

namespace Verif.Plot

/-! ### C178: a plot of an interval shows the saved state -/

/-- The saved states: their numbers increase. -/
def Ordered {D : Type} (fs : List (ℤ × D)) : Prop := fs.Pairwise fun a b => a.1 < b.1

theorem lookup_of_mem {D : Type} {fs : List (ℤ × D)} (h : Ordered fs) {k : ℤ} {d : D} (hm : (k, d) ∈ fs) :
    fs.lookup k = some d := by
  induction fs with
  | nil => simp at hm
  | cons a l ih =>
    obtain ⟨ha, hl⟩ := List.pairwise_cons.mp h
    rcases List.mem_cons.mp hm with rfl | hm'
    · simp [List.lookup]
    · have := ha _ hm'
      have hne : (k == a.1) = false := by
        simp only [beq_eq_false_iff_ne]; omega
      rw [show List.lookup k (a :: l) = List.lookup k l by
        obtain ⟨x, y⟩ := a; simp only at hne; simp [List.lookup, hne]]
      exact ih hl hm'

theorem mem_of_lookup {D : Type} {fs : List (ℤ × D)} {k : ℤ} {d : D} (h : fs.lookup k = some d) : (k, d) ∈ fs := by
  induction fs with
  | nil => simp at h
  | cons a l ih =>
    obtain ⟨x, y⟩ := a
    by_cases e : k = x
    · subst e; simp [List.lookup] at h; subst h; simp
    · have : (k == x) = false := by simpa using e
      simp only [List.lookup, this] at h
      exact List.mem_cons_of_mem _ (ih h)

/-- **C178** (proved part).  Without an interval a plot shows the data in memory, and its file carries no number.  For a number of a
saved state it shows that state, under that number — provided the number is not the last one, or the data in memory is what was saved
last. -/
theorem C178_interval_partial {D : Type} (current : D) (fs : List (ℤ × D)) (h : Ordered fs) :
    shown current fs none = some (none, current) ∧
    ∀ k d, 0 ≤ k → (k, d) ∈ fs → ((∃ p ∈ fs, k < p.1) ∨ current = d) → shown current fs (some k) = some (some k, d) := by
  refine ⟨rfl, fun k d hk hm hc => ?_⟩
  simp only [shown]
  cases hl : fs.getLast? with
  | none => rw [List.getLast?_eq_none_iff] at hl; subst hl; simp at hm
  | some last =>
    dsimp only
    obtain ⟨init, rfl⟩ := List.getLast?_eq_some_iff.mp hl
    have hlast : ∀ p ∈ init ++ [last], p.1 ≤ last.1 := by
      intro p hp
      rcases List.mem_append.mp hp with hp | hp
      · exact (List.pairwise_append.mp h |>.2.2 p hp last (by simp)).le
      · simp at hp; rw [hp]
    by_cases e : k = last.1
    · rw [if_pos e]
      rcases hc with ⟨p, hp, hkp⟩ | rfl
      · have := hlast p hp; omega
      · rfl
    · rw [if_neg e]
      simp [readState, not_lt.mpr hk, lookup_of_mem h hm]

/-- The states numbered 0, 3 and 7, with something else in memory: interval 3 is drawn as saved. -/
example : shown (D := String) "memory" [(0, "a"), (3, "b"), (7, "c")] (some 3) = some (some 3, "b") :=
  (C178_interval_partial _ _ (by unfold Ordered; decide)).2 3 "b" (by decide) (by decide) (Or.inl ⟨(7, "c"), by decide, by decide⟩)

/-- **C178** (proved part).  A negative interval counts back from the last saved state, and is drawn as saved, under its own number;
this includes the last one. -/
theorem C178_negative_partial {D : Type} (current : D) (fs : List (ℤ × D)) (h : ∀ p ∈ fs, 0 ≤ p.1) (i : ℕ) (hi : i < fs.length) :
    shown current fs (some (-(i + 1 : ℤ))) = some (some (fs.reverse[i]'(by simpa using hi)).1, (fs.reverse[i]'(by simpa using hi)).2) := by
  simp only [shown]
  cases hl : fs.getLast? with
  | none => rw [List.getLast?_eq_none_iff] at hl; subst hl; simp at hi
  | some last =>
    dsimp only
    have hm : last ∈ fs := List.mem_of_getLast? hl
    have := h last hm
    rw [if_neg (by omega)]
    have h1 : (-(-(i + 1 : ℤ))).toNat = i + 1 := by omega
    simp only [readState, h1]
    rw [if_pos (by omega), if_pos (by omega), List.getElem_reverse]
    rw [List.getElem?_eq_getElem (by omega)]
    have h2 : fs.length - (i + 1) = fs.length - 1 - i := by omega
    simp [h2]

/-- The last and the first of three states. -/
example : shown (D := String) "memory" [(0, "a"), (3, "b"), (7, "c")] (some (-1)) = some (some 7, "c") ∧
    shown (D := String) "memory" [(0, "a"), (3, "b"), (7, "c")] (some (-3)) = some (some 0, "a") :=
  ⟨C178_negative_partial _ _ (by decide) 0 (by decide), C178_negative_partial _ _ (by decide) 2 (by decide)⟩

/-- **C178** (proved part).  A number that is not that of a saved state is refused, and so is every interval if nothing is saved or if it
counts back too far. -/
theorem C178_refused_partial {D : Type} (current : D) (fs : List (ℤ × D)) (k : ℤ)
    (h : (0 ≤ k ∧ ∀ p ∈ fs, p.1 ≠ k) ∨ (k < 0 ∧ (fs.length : ℤ) < -k ∧ ∀ p ∈ fs, 0 ≤ p.1)) : shown current fs (some k) = none := by
  simp only [shown]
  cases hl : fs.getLast? with
  | none => rfl
  | some last =>
    dsimp only
    have hm : last ∈ fs := List.mem_of_getLast? hl
    rcases h with ⟨hk, hn⟩ | ⟨hk, hlen, hn⟩
    · rw [if_neg (fun e => hn _ hm e.symm)]
      have : fs.lookup k = none := by
        cases e : fs.lookup k with
        | none => rfl
        | some d => exact absurd rfl (hn _ (mem_of_lookup e))
      simp [readState, not_lt.mpr hk, this]
    · rw [if_neg (by have := hn _ hm; omega)]
      simp only [readState, if_pos hk]
      rw [if_neg (by omega)]; rfl

example : shown (D := String) "memory" [(0, "a"), (3, "b")] (some 2) = none ∧ shown (D := String) "memory" [] (some 0) = none ∧
    shown (D := String) "memory" [(0, "a"), (3, "b")] (some (-3)) = none :=
  ⟨C178_refused_partial _ _ _ (Or.inl ⟨by decide, by decide⟩), C178_refused_partial _ _ _ (Or.inl ⟨by decide, by simp⟩),
    C178_refused_partial _ _ _ (Or.inr ⟨by decide, by decide, by decide⟩)⟩

/-- **C178 fails** for the last number: whatever is in memory is drawn, under the number of the saved state.  A plot of the last saved
interval after more craters have been emplaced (and not saved) shows the new craters, and is filed as that interval; asked for as `-1` the
same interval is drawn as saved. -/
theorem C178_last_fails {D : Type} (current : D) (fs : List (ℤ × D)) (k : ℤ) (d : D) (hk : 0 ≤ k) (hl : fs.getLast? = some (k, d)) :
    shown current fs (some k) = some (some k, current) ∧ shown current fs (some (-1)) = some (some k, d) := by
  refine ⟨by simp [shown, hl], ?_⟩
  obtain ⟨init, rfl⟩ := List.getLast?_eq_some_iff.mp hl
  simp only [shown, hl]
  rw [if_neg (by omega)]
  simp [readState]

example : shown (D := String) "changed since" [(0, "a"), (3, "b"), (7, "c")] (some 7) = some (some 7, "changed since") :=
  (C178_last_fails _ _ 7 "c" (by decide) (by decide)).1

/-- **C178 fails** without a minimum width, which the documentation gives as the way to turn the minimum off: every such plot raises. -/
theorem C178_width_fails (width : ℝ) : dpi none width = none := rfl

/-- With a minimum width the picture is at least that wide and at least one dot per pixel of the raster, and no larger than the larger of
both. -/
theorem C178_width_partial (m width : ℝ) :
    ∃ w, dpi (some m) width = some w ∧ m ≤ w ∧ width ≤ w ∧ (w = m ∨ w = width) := by
  refine ⟨max m width, rfl, le_max_left _ _, le_max_right _ _, ?_⟩
  rcases le_total m width with h | h
  · exact Or.inr (max_eq_right h)
  · exact Or.inl (max_eq_left h)

example : ∃ w, dpi (some 800) 250 = some w ∧ (800 : ℝ) ≤ w :=
  let ⟨w, h, h1, _⟩ := C178_width_partial 800 250
  ⟨w, h, h1⟩

/-! ### C179: the scale bar -/

/-- The number of metres a text states. -/
def metres (t : ℕ × String) : ℕ := if t.2 = "km" then 1000 * t.1 else t.1

theorem scaleLength_spec {R : ℝ} {len : ℕ} (h : scaleLength R = some len) :
    len ∈ nice ∧ (len : ℝ) ≤ R / 2 / Real.sqrt 2 ∧ ∀ m ∈ nice, (m : ℝ) ≤ R / 2 / Real.sqrt 2 → m ≤ len := by
  classical
  unfold scaleLength at h
  rw [List.max?_eq_some_iff] at h
  obtain ⟨h1, h2⟩ := h
  rw [List.mem_filter] at h1
  refine ⟨h1.1, by simpa using h1.2, fun m hm hR => h2 m ?_⟩
  rw [List.mem_filter]
  exact ⟨hm, by simpa using hR⟩

/-- **C179** (proved part).  The text at the scale bar states the length of the bar; the bar lies inside the picture, which reaches from
`-R` to `R` in both directions, and outside the disc of radius `R` around its centre — so it covers nothing of the region; and it is the
longest of the lengths the code chooses from that is at most `R / (2 √2)`. -/
theorem C179_bar_partial (R : ℝ) (len : ℕ) (h : scaleLength R = some len) :
    metres (barText len) = len ∧ (bar (-R) R (-R) R len).w = len ∧
    (∀ x y, (bar (-R) R (-R) R len).x ≤ x → x ≤ (bar (-R) R (-R) R len).x + (bar (-R) R (-R) R len).w →
      (bar (-R) R (-R) R len).y ≤ y → y ≤ (bar (-R) R (-R) R len).y + (bar (-R) R (-R) R len).h →
      -R ≤ x ∧ x ≤ R ∧ -R ≤ y ∧ y ≤ R ∧ R ^ 2 < x ^ 2 + y ^ 2) ∧
    len ∈ [1, 10, 100, 200, 500, 1000, 2000, 5000, 10000, 20000, 50000, 100000] ∧
    (∀ m ∈ ([1, 10, 100, 200, 500, 1000, 2000, 5000, 10000, 20000, 50000, 100000] : List ℕ), (m : ℝ) ≤ R / (2 * Real.sqrt 2) ↔ m ≤ len) := by
  obtain ⟨h1, h2, h3⟩ := scaleLength_spec h
  have hs : (1.4142 : ℝ) < Real.sqrt 2 := Real.lt_sqrt_of_sq_lt (by norm_num)
  have hpos : (0 : ℝ) < Real.sqrt 2 := by linarith
  have hl1 : (1 : ℝ) ≤ len := by
    have : 1 ≤ len := by
      simp only [nice, List.mem_cons, List.not_mem_nil, or_false] at h1
      omega
    exact_mod_cast this
  have hR : (len : ℝ) * (2 * Real.sqrt 2) ≤ R := by
    rw [div_div, le_div_iff₀ (by positivity)] at h2; exact h2
  have hR2 : (len : ℝ) * 2.8284 ≤ R := le_trans (by nlinarith) hR
  refine ⟨?_, rfl, ?_, h1, ?_⟩
  · simp only [nice, List.mem_cons, List.not_mem_nil, or_false] at h1
    rcases h1 with rfl | rfl | rfl | rfl | rfl | rfl | rfl | rfl | rfl | rfl | rfl | rfl <;> decide
  · intro x y hx hx' hy hy'
    simp only [bar] at hx hx' hy hy'
    norm_num at hx hx' hy hy'
    refine ⟨by linarith, by linarith, by linarith, by linarith, ?_⟩
    have a1 : 0.5964 * R ≤ x := by norm_num; linarith
    have a2 : y ≤ -(0.8085 * R) := by norm_num; linarith
    have a3 : 0 < R := by linarith
    have b1 : (0.5964 * R) ^ 2 ≤ x ^ 2 := by apply pow_le_pow_left₀ (by positivity) a1
    have b2 : (0.8085 * R) ^ 2 ≤ (-y) ^ 2 := by apply pow_le_pow_left₀ (by positivity); linarith
    nlinarith [mul_pos a3 a3]
  · intro m hm
    constructor
    · intro hm'
      exact h3 m hm (by rw [div_div]; exact hm')
    · intro hm'
      rw [← div_div]
      exact le_trans (by exact_mod_cast hm') h2

/-- There is a scale bar exactly if the picture reaches at least `2 √2` metres from its centre. -/
theorem C179_exists_partial (R : ℝ) : (∃ len, scaleLength R = some len) ↔ 2 * Real.sqrt 2 ≤ R := by
  classical
  have hpos : (0 : ℝ) < Real.sqrt 2 := by positivity
  constructor
  · rintro ⟨len, h⟩
    obtain ⟨h1, h2, -⟩ := scaleLength_spec h
    have : 1 ≤ len := by
      simp only [nice, List.mem_cons, List.not_mem_nil, or_false] at h1
      omega
    have : (1 : ℝ) ≤ len := by exact_mod_cast this
    rw [div_div, le_div_iff₀ (by positivity)] at h2
    nlinarith
  · intro h
    unfold scaleLength
    cases e : (nice.filter fun (n : ℕ) => (n : ℝ) ≤ R / 2 / Real.sqrt 2).max? with
    | some len => exact ⟨len, rfl⟩
    | none =>
      rw [List.max?_eq_none_iff, List.filter_eq_nil_iff] at e
      exfalso
      have := e 1 (by simp [nice])
      apply this
      rw [decide_eq_true_eq, div_div, le_div_iff₀ (by positivity)]
      simpa using h

/-- A picture that reaches 10 km from its centre has a bar of 2 km: 5 km would be too long. -/
example : ∃ len, scaleLength 10000 = some len ∧ metres (barText len) = 2000 := by
  have hs : Real.sqrt 2 < 2 := by
    rw [Real.sqrt_lt' (by norm_num)]; norm_num
  have hs' : (1.4 : ℝ) < Real.sqrt 2 := Real.lt_sqrt_of_sq_lt (by norm_num)
  obtain ⟨len, h⟩ := (C179_exists_partial 10000).mpr (by linarith)
  obtain ⟨h1, -, -, h2, h3⟩ := C179_bar_partial _ _ h
  refine ⟨len, h, ?_⟩
  have a := (h3 2000 (by simp)).mp (by rw [le_div_iff₀ (by positivity)]; push_cast; linarith)
  have b : ¬ 5000 ≤ len := fun hb => by
    have := (h3 5000 (by simp)).mpr hb
    rw [le_div_iff₀ (by positivity)] at this
    push_cast at this; linarith
  rw [h1]
  simp only [List.mem_cons, List.not_mem_nil, or_false] at h2
  omega

/-- **C179 fails** for regions smaller than about three metres: there is no length to choose, and the plot raises unless the scale bar is
turned off. -/
theorem C179_small_fails (R : ℝ) (hR : R ≤ 2.8) : scaleLength R = none := by
  cases e : scaleLength R with
  | none => rfl
  | some len =>
    have h := (C179_exists_partial R).mp ⟨len, e⟩
    have hs' : (1.4 : ℝ) < Real.sqrt 2 := Real.lt_sqrt_of_sq_lt (by norm_num)
    linarith

/-! ### C182: rasters -/

theorem burn_append {P : Type} (touches : ℕ → P → Bool) (l : List (ℕ × ℝ)) (s : ℕ × ℝ) (p : P) :
    burn touches (l ++ [s]) p = if touches s.1 p then some s.2 else burn touches l p := by
  simp [burn, List.foldl_append]

/-- The number of a pixel is that of the last face that touches it and is drawn. -/
theorem burn_range {P : Type} (touches : ℕ → P → Bool) (v : ℕ → Option ℝ) (p : P) (n : ℕ) (x : ℝ) :
    burn touches ((List.range n).filterMap fun f => (v f).map fun x => (f, x)) p = some x ↔
    ∃ f < n, touches f p = true ∧ v f = some x ∧ ∀ g < n, f < g → touches g p = true → v g = none := by
  induction n with
  | zero => simp [burn]
  | succ n ih =>
    rw [List.range_succ, List.filterMap_append]
    have skip : ∀ (_ : touches n p = true → v n = none),
        ((∃ f < n, touches f p = true ∧ v f = some x ∧ ∀ g < n, f < g → touches g p = true → v g = none) ↔
        ∃ f < n + 1, touches f p = true ∧ v f = some x ∧ ∀ g < n + 1, f < g → touches g p = true → v g = none) := by
      intro hn
      constructor
      · rintro ⟨f, hf, ht, hv, hg⟩
        refine ⟨f, by omega, ht, hv, fun g hg1 hg2 hg3 => ?_⟩
        rcases Nat.lt_succ_iff_lt_or_eq.mp hg1 with h | rfl
        · exact hg g h hg2 hg3
        · exact hn hg3
      · rintro ⟨f, hf, ht, hv, hg⟩
        rcases Nat.lt_succ_iff_lt_or_eq.mp hf with h | rfl
        · exact ⟨f, h, ht, hv, fun g hg1 => hg g (by omega)⟩
        · rw [hn ht] at hv; simp at hv
    cases e : v n with
    | none =>
      simp only [List.filterMap_cons, e, Option.map_none, List.filterMap_nil, List.append_nil]
      rw [ih]; exact skip fun _ => e
    | some y =>
      simp only [List.filterMap_cons, e, Option.map_some, List.filterMap_nil]
      rw [burn_append]
      by_cases ht : touches n p = true
      · rw [if_pos ht]
        constructor
        · intro h
          rw [← h] at *
          exact ⟨n, by omega, ht, by simpa using e, fun g hg1 hg2 => by omega⟩
        · rintro ⟨f, hf, ht', hv, hg⟩
          rcases Nat.lt_succ_iff_lt_or_eq.mp hf with h | rfl
          · have := hg n (by omega) h ht; rw [e] at this; simp at this
          · rw [e] at hv; exact hv
      · rw [if_neg ht, ih]; exact skip fun h => absurd h ht

/-- The shapes of a region, or of a surface with the faces across the antimeridian dropped. -/
theorem shapes_array (n : ℕ) (isGlobal : Bool) (periodic : ℕ → Bool) (elev v : ℕ → Option ℝ) :
    shapes n isGlobal periodic elev (.array v) = some ((List.range n).filterMap fun f =>
      ((if isGlobal && periodic f then none else v f) : Option ℝ).map fun x => (f, x)) := by
  simp only [shapes, Option.some.injEq]
  congr 1
  funext f
  split_ifs <;> rfl

/-- **C182** (proved part).  The raster of an array on the faces of a region: a pixel that shows a number shows the value of a face that
touches it, and the last such face with a value; a pixel shows none exactly if no face with a value touches it. -/
theorem C182_region_partial {P : Type} (n : ℕ) (periodic : ℕ → Bool) (elev v : ℕ → Option ℝ) (touches : ℕ → P → Bool) (p : P) :
    ∃ l, shapes n false periodic elev (.array v) = some l ∧
    (∀ x, burn touches l p = some x ↔
      ∃ f < n, touches f p = true ∧ v f = some x ∧ ∀ g < n, f < g → touches g p = true → v g = none) ∧
    (burn touches l p = none ↔ ∀ f < n, touches f p = true → v f = none) := by
  refine ⟨_, shapes_array n false periodic elev v, ?_⟩
  simp only [Bool.false_and, Bool.false_eq_true, if_false]
  have key := burn_range touches v p n
  refine ⟨key, ?_⟩
  constructor
  · intro h f
    by_contra hc
    rw [Classical.not_imp, Classical.not_imp] at hc
    obtain ⟨hf, ht, hv⟩ := hc
    classical
    have hex : ∃ g, g < n ∧ touches g p = true ∧ v g ≠ none := ⟨f, hf, ht, hv⟩
    let s := (Finset.range n).filter fun g => touches g p = true ∧ v g ≠ none
    have hs : s.Nonempty := ⟨f, by simp [s, hf, ht, hv]⟩
    have hm := s.max'_mem hs
    simp only [s, Finset.mem_filter, Finset.mem_range] at hm
    obtain ⟨x, hx⟩ := Option.ne_none_iff_exists'.mp hm.2.2
    have := (key x).mpr ⟨_, hm.1, hm.2.1, hx, fun g hg hlt htg => by
      by_contra hne
      have := s.le_max' g (by simp [s, hg, htg, hne])
      exact absurd hlt (not_lt.mpr this)⟩
    rw [h] at this; simp at this
  · intro h
    cases e : burn touches _ p with
    | none => rfl
    | some x =>
      obtain ⟨f, hf, ht, hv, -⟩ := (key x).mp e
      rw [h f hf ht] at hv; simp at hv

/-- Three faces, of which the second has no value; the third touches the second pixel only. -/
example : ∃ l, shapes 3 false (fun _ => false) (fun _ => none) (.array fun f => if f = 1 then none else some f) = some l ∧
    burn (fun f (p : Bool) => f < 2 || p) l false = some 0 ∧ burn (fun f (p : Bool) => f < 2 || p) l true = some 2 := by
  obtain ⟨l, h, h1, -⟩ := C182_region_partial (P := Bool) 3 (fun _ => false) (fun _ => none)
    (fun f => if f = 1 then none else some f) (fun f p => f < 2 || p) false
  obtain ⟨l', h', h1', -⟩ := C182_region_partial (P := Bool) 3 (fun _ => false) (fun _ => none)
    (fun f => if f = 1 then none else some f) (fun f p => f < 2 || p) true
  rw [h] at h'; cases h'
  refine ⟨l, h, (h1 0).mpr ⟨0, by simp, by simp, by simp, ?_⟩, (h1' 2).mpr ⟨2, by simp, by simp, by simp, ?_⟩⟩
  · intro g hg hlt ht; interval_cases g <;> simp_all
  · intro g hg hlt; omega

/-- **C182 fails** for the method of the surface: it passes on the name of the variable where the values are expected, so that it
raises for every variable of every surface. -/
theorem C182_surface_fails (n : ℕ) (periodic : ℕ → Bool) (elev : ℕ → Option ℝ) (name : String) :
    surfaceRaster n periodic elev name = none := rfl

/-- **C182 fails** for whole surfaces even when values are given: a pixel that is touched only by faces across the antimeridian is left
empty, whatever their values. -/
theorem C182_antimeridian_fails {P : Type} (n : ℕ) (periodic : ℕ → Bool) (elev v : ℕ → Option ℝ) (touches : ℕ → P → Bool) (p : P)
    (h : ∀ f < n, touches f p = true → periodic f = true) :
    ∃ l, shapes n true periodic elev (.array v) = some l ∧ burn touches l p = none := by
  refine ⟨_, shapes_array n true periodic elev v, ?_⟩
  cases e : burn touches _ p with
  | none => rfl
  | some x =>
    obtain ⟨f, hf, ht, hv, -⟩ := (burn_range touches _ p n x).mp e
    simp [h f hf ht] at hv

/-- Of two faces with values the second crosses the antimeridian, and the pixel is on the second. -/
example : ∃ l, shapes 2 true (fun f => f == 1) (fun _ => none) (.array fun f => some f) = some l ∧
    burn (fun f (_ : Unit) => f == 1) l () = none :=
  C182_antimeridian_fails 2 _ _ _ _ () (by intro f _ h; simpa using h)

/-! ### C180: the view in three dimensions -/

open InnerProductGeometry RealInnerProductSpace

/-- The numbers behind the view: a centre `c` and a point `P` on the body, and the camera. -/
theorem camera_facts {view r R : ℝ} (hv : 0 < view) (hv' : view < Real.pi) (hr : 0 < r) (hR : 0 < R) (c : Space) :
    ∃ m : ℝ, 1 < m ∧ camera view r R c = m • c ∧ R * (m - 1) * Real.tan (view / 2) = 1.2 * r := by
  have htan : 0 < Real.tan (view / 2) := Real.tan_pos_of_pos_of_lt_pi_div_two (by linarith) (by linarith)
  refine ⟨1 + 1.2 * r / Real.tan (view / 2) / R, ?_, rfl, ?_⟩
  · have : 0 < 1.2 * r / Real.tan (view / 2) / R := by positivity
    linarith
  · field_simp; ring

/-- A point within 1.2 times the radius of the region from the centre (along the surface) lies in the cone of the camera. -/
theorem in_cone {view r R : ℝ} (hv : 0 < view) (hv' : view < Real.pi) (hr : 0 < r) (hR : 0 < R) (c P : Space)
    (hc : ‖c‖ = R) (hP : ‖P‖ = R) (hd : R * angle c P ≤ 1.2 * r) :
    angle (c - camera view r R c) (P - camera view r R c) ≤ view / 2 := by
  have hcos : 0 < Real.cos (view / 2) := Real.cos_pos_of_mem_Ioo ⟨by linarith [Real.pi_pos], by linarith⟩
  have hsin : 0 < Real.sin (view / 2) := Real.sin_pos_of_pos_of_lt_pi (by linarith) (by linarith)
  obtain ⟨m, hm1, hcam, hmR⟩ := camera_facts hv hv' hr hR c
  rw [hcam]
  obtain ⟨θ, hθ⟩ : ∃ θ, θ = angle c P := ⟨_, rfl⟩
  have hθ0 : 0 ≤ θ := hθ ▸ angle_nonneg c P
  have hθ1 : θ ≤ Real.pi := hθ ▸ angle_le_pi c P
  have hin : ⟪c, P⟫ = R * R * Real.cos θ := by
    rw [hθ, ← cos_angle_mul_norm_mul_norm c P, hc, hP]; ring
  have hcc : ⟪c, c⟫ = R * R := by rw [real_inner_self_eq_norm_mul_norm, hc]
  have hPP : ⟪P, P⟫ = R * R := by rw [real_inner_self_eq_norm_mul_norm, hP]
  rw [← hθ] at hd
  have hA : ⟪c - m • c, P - m • c⟫ = (m - 1) * (R * R) * (m - Real.cos θ) := by
    simp only [inner_sub_left, inner_sub_right, inner_smul_left, inner_smul_right, hin, hcc, conj_trivial]
    ring
  have hN1 : ‖c - m • c‖ = (m - 1) * R := by
    rw [show c - m • c = (1 - m) • c by rw [sub_smul, one_smul], norm_smul, hc, Real.norm_eq_abs, abs_of_neg (by linarith)]
    ring
  have hN2 : ‖P - m • c‖ ^ 2 = R ^ 2 * ((m - Real.cos θ) ^ 2 + Real.sin θ ^ 2) := by
    rw [← real_inner_self_eq_norm_sq]
    simp only [inner_sub_left, inner_sub_right, inner_smul_left, inner_smul_right, real_inner_comm c P, hin, hcc, hPP,
      conj_trivial]
    rw [Real.sin_sq θ]; ring
  have hmc : m - 1 ≤ m - Real.cos θ := by linarith [Real.cos_le_one θ]
  have hlat : Real.cos (view / 2) * Real.sin θ ≤ Real.sin (view / 2) * (m - Real.cos θ) := by
    have h1 : Real.sin θ ≤ θ := Real.sin_le hθ0
    have h2 : R * θ ≤ R * ((m - 1) * Real.tan (view / 2)) := by rw [← mul_assoc, hmR]; exact hd
    have h3 : θ ≤ (m - 1) * Real.tan (view / 2) := le_of_mul_le_mul_left h2 hR
    have h4 : Real.cos (view / 2) * Real.tan (view / 2) = Real.sin (view / 2) := by
      rw [mul_comm]; exact Real.tan_mul_cos hcos.ne'
    calc Real.cos (view / 2) * Real.sin θ ≤ Real.cos (view / 2) * ((m - 1) * Real.tan (view / 2)) := by
          apply mul_le_mul_of_nonneg_left _ hcos.le; linarith
      _ = Real.sin (view / 2) * (m - 1) := by rw [← h4]; ring
      _ ≤ _ := by apply mul_le_mul_of_nonneg_left hmc hsin.le
  have hsθ : 0 ≤ Real.sin θ := Real.sin_nonneg_of_nonneg_of_le_pi hθ0 hθ1
  have hN2' : Real.cos (view / 2) * ‖P - m • c‖ ≤ R * (m - Real.cos θ) := by
    refine (pow_le_pow_iff_left₀ (by positivity) (by apply mul_nonneg hR.le; linarith) two_ne_zero).mp ?_
    rw [mul_pow, hN2]
    have h5 : (Real.cos (view / 2) * Real.sin θ) ^ 2 ≤ (Real.sin (view / 2) * (m - Real.cos θ)) ^ 2 :=
      pow_le_pow_left₀ (mul_nonneg hcos.le hsθ) hlat 2
    have h6 := Real.sin_sq_add_cos_sq (view / 2)
    have h7 : Real.cos (view / 2) ^ 2 * ((m - Real.cos θ) ^ 2 + Real.sin θ ^ 2) ≤ (m - Real.cos θ) ^ 2 := by
      have : (m - Real.cos θ) ^ 2 = (Real.sin (view / 2) ^ 2 + Real.cos (view / 2) ^ 2) * (m - Real.cos θ) ^ 2 := by rw [h6, one_mul]
      nlinarith
    nlinarith [mul_le_mul_of_nonneg_left h7 (sq_nonneg R)]
  by_contra hlt
  rw [not_le] at hlt
  have h8 := Real.cos_lt_cos_of_nonneg_of_le_pi (by linarith) (angle_le_pi _ _) hlt
  have hpos : 0 < ‖P - m • c‖ := by
    rcases (norm_nonneg (P - m • c)).lt_or_eq with h | h
    · exact h
    · rw [← h] at hN2
      have : 0 < R ^ 2 * ((m - Real.cos θ) ^ 2 + Real.sin θ ^ 2) := by
        have : 0 < m - Real.cos θ := by linarith
        positivity
      rw [← hN2] at this; simp at this
  rw [cos_angle, hA, hN1, div_lt_iff₀ (by apply mul_pos _ hpos; apply mul_pos _ hR; linarith)] at h8
  have h9 := mul_le_mul_of_nonneg_left hN2' (show 0 ≤ (m - 1) * R by apply mul_nonneg _ hR.le; linarith)
  nlinarith

/-- Nothing of the body lies between the camera and a point within 1.2 times the radius of the region from the centre, if that is at most
the radius of the body and the angle of view at most a right angle. -/
theorem not_hidden {view r R : ℝ} (hv : 0 < view) (hv' : view ≤ Real.pi / 2) (hr : 0 < r) (hR : 0 < R) (c P : Space)
    (hc : ‖c‖ = R) (hP : ‖P‖ = R) (hd : R * angle c P ≤ 1.2 * r) (hrR : 1.2 * r ≤ R) (u : ℝ) (hu : 0 ≤ u) :
    R ≤ ‖P + u • (camera view r R c - P)‖ := by
  have hpi := Real.pi_pos
  obtain ⟨m, hm1, hcam, hmR⟩ := camera_facts hv (by linarith) hr hR c
  rw [hcam]
  obtain ⟨θ, hθ⟩ : ∃ θ, θ = angle c P := ⟨_, rfl⟩
  have hθ0 : 0 ≤ θ := hθ ▸ angle_nonneg c P
  rw [← hθ] at hd
  have hin : ⟪P, c⟫ = R * R * Real.cos θ := by
    rw [real_inner_comm, hθ, ← cos_angle_mul_norm_mul_norm c P, hc, hP]; ring
  have hPP : ⟪P, P⟫ = R * R := by rw [real_inner_self_eq_norm_mul_norm, hP]
  have htan0 : 0 < Real.tan (view / 2) := Real.tan_pos_of_pos_of_lt_pi_div_two (by linarith) (by linarith)
  have htan : Real.tan (view / 2) ≤ 1 := by
    rw [← Real.tan_pi_div_four]
    rcases hv'.lt_or_eq with h | h
    · exact (Real.tan_lt_tan_of_lt_of_lt_pi_div_two (by linarith) (by linarith) (by linarith)).le
    · rw [h]; apply le_of_eq; congr 1; ring
  have hm2 : 1.2 * r ≤ R * (m - 1) := by
    rw [← hmR]
    have : 0 ≤ R * (m - 1) := by apply mul_nonneg hR.le; linarith
    nlinarith
  have hθm : θ ≤ m - 1 := by
    have : R * θ ≤ R * (m - 1) := le_trans hd hm2
    exact le_of_mul_le_mul_left this hR
  have hθ1 : θ ≤ 1 := by
    have : R * θ ≤ R * 1 := by rw [mul_one]; exact le_trans hd hrR
    exact le_of_mul_le_mul_left this hR
  have hcosθ : 1 - θ ^ 2 / 2 ≤ Real.cos θ := Real.one_sub_sq_div_two_le_cos
  have hkey : 1 ≤ m * Real.cos θ := by
    have : (1 + θ) * (1 - θ ^ 2 / 2) ≤ m * Real.cos θ := by
      apply mul_le_mul (by linarith) hcosθ (by nlinarith) (by linarith)
    nlinarith [mul_nonneg hθ0 (mul_nonneg hθ0 hθ0), mul_nonneg hθ0 (sub_nonneg.mpr hθ1)]
  have hinner : 0 ≤ ⟪P, m • c - P⟫ := by
    rw [inner_sub_right, inner_smul_right, hin, hPP]
    nlinarith [mul_pos hR hR]
  have hsq : R ^ 2 ≤ ‖P + u • (m • c - P)‖ ^ 2 := by
    rw [norm_add_sq_real, inner_smul_right, hP]
    nlinarith [mul_nonneg hu hinner, sq_nonneg ‖u • (m • c - P)‖]
  exact (pow_le_pow_iff_left₀ hR.le (norm_nonneg _) two_ne_zero).mp hsq

/-- **C180**.  The camera looks at the region so that all of it is in the picture: let `p` be the centre of the region and `c` that of its
face, all on a body of radius `R`.  If the centre of the face is within a fifth of the radius `r` of the region from `p`, every point `P` within `r` of
`p` along the surface is seen at an angle of at most half the angle of view from the centre of the picture. -/
theorem C180_in_view_partial {view r R : ℝ} (hv : 0 < view) (hv' : view < Real.pi) (hr : 0 < r) (hR : 0 < R) (p c P : Space)
    (hc : ‖c‖ = R) (hP : ‖P‖ = R) (hcp : R * angle c p ≤ 0.2 * r) (hpP : R * angle p P ≤ r) :
    EuclideanGeometry.angle c (camera view r R c) P ≤ view / 2 := by
  have h := angle_le_angle_add_angle c p P
  have hd : R * angle c P ≤ 1.2 * r := by
    have := mul_le_mul_of_nonneg_left h hR.le
    rw [mul_add] at this; linarith
  exact in_cone hv hv' hr hR c P hc hP hd

/-- **C180**.  None of these points is hidden behind the body, if the region is at most five sixths of the radius of the body and the angle of view at most a
right angle (it is 30 degrees unless changed): the line from the point to the camera stays outside the body. -/
theorem C180_visible_partial {view r R : ℝ} (hv : 0 < view) (hv' : view ≤ Real.pi / 2) (hr : 0 < r) (hR : 0 < R) (p c P : Space)
    (hc : ‖c‖ = R) (hP : ‖P‖ = R) (hcp : R * angle c p ≤ 0.2 * r) (hpP : R * angle p P ≤ r) (hrR : 1.2 * r ≤ R) :
    ∀ Q ∈ segment ℝ P (camera view r R c), R ≤ ‖Q‖ := by
  have h := angle_le_angle_add_angle c p P
  have hd : R * angle c P ≤ 1.2 * r := by
    have := mul_le_mul_of_nonneg_left h hR.le
    rw [mul_add] at this; linarith
  intro Q hQ
  rw [segment_eq_image'] at hQ
  obtain ⟨u, hu, rfl⟩ := hQ
  exact not_hidden hv hv' hr hR c P hc hP hd hrR u hu.1

/-- Two directions at a right angle. -/
theorem axes_angle : angle (EuclideanSpace.single 0 1 : Space) (EuclideanSpace.single 1 1) = Real.pi / 2 := by
  rw [← inner_eq_zero_iff_angle_eq_pi_div_two, EuclideanSpace.inner_single_left]
  simp

/-- A region with a radius of one on a body with a radius of two, seen at 30 degrees: the centre and every point within a distance of one
are in the picture. -/
example (P : Space) (hP : ‖P‖ = 2) (h : 2 * angle ((2 : ℝ) • (EuclideanSpace.single 0 1 : Space)) P ≤ 1) :
    EuclideanGeometry.angle ((2 : ℝ) • (EuclideanSpace.single 0 1 : Space))
      (camera (Real.pi / 6) 1 2 ((2 : ℝ) • (EuclideanSpace.single 0 1 : Space))) P ≤ Real.pi / 6 / 2 ∧
    ∀ Q ∈ segment ℝ P (camera (Real.pi / 6) 1 2 ((2 : ℝ) • (EuclideanSpace.single 0 1 : Space))), 2 ≤ ‖Q‖ := by
  have hc : ‖(2 : ℝ) • (EuclideanSpace.single 0 1 : Space)‖ = 2 := by simp [norm_smul]
  have h0 : (2 : ℝ) * angle ((2 : ℝ) • (EuclideanSpace.single 0 1 : Space)) ((2 : ℝ) • (EuclideanSpace.single 0 1 : Space)) ≤ 0.2 * 1 := by
    rw [angle_self (by rw [← norm_ne_zero_iff, hc]; norm_num)]; norm_num
  have hpi := Real.pi_pos
  exact ⟨C180_in_view_partial (by linarith) (by linarith) (by norm_num) (by norm_num) _ _ P hc hP h0 h,
    C180_visible_partial (by linarith) (by linarith) (by norm_num) (by norm_num) _ _ P hc hP h0 h (by norm_num)⟩

/-- **C180 fails** for regions of the size of a hemisphere: a point a quarter of the way round from the centre belongs to the region, but the
body is in front of it, however wide the view. -/
theorem C180_hidden_fails (view : ℝ) (hv : 0 < view) (hv' : view < Real.pi) :
    ∃ (r R : ℝ) (c P : Space), 0 < r ∧ 0 < R ∧ ‖c‖ = R ∧ ‖P‖ = R ∧ R * angle c P ≤ r ∧
      ∃ Q ∈ segment ℝ P (camera view r R c), ‖Q‖ < R := by
  have hpi := Real.pi_pos
  refine ⟨Real.pi / 2, 1, EuclideanSpace.single 0 1, EuclideanSpace.single 1 1, by positivity, one_pos, by simp, by simp, ?_, ?_⟩
  · rw [axes_angle]; linarith
  · obtain ⟨m, hm1, hcam, -⟩ := camera_facts (r := Real.pi / 2) hv hv' (by positivity) one_pos (EuclideanSpace.single 0 1)
    rw [hcam]
    have hu0 : 0 < 1 / (1 + m ^ 2) := by positivity
    have hu1 : 1 / (1 + m ^ 2) ≤ 1 := by rw [div_le_one (by positivity)]; nlinarith
    refine ⟨(EuclideanSpace.single 1 1 : Space) + (1 / (1 + m ^ 2)) • (m • EuclideanSpace.single 0 1 - EuclideanSpace.single 1 1),
      by rw [segment_eq_image']; exact ⟨_, ⟨hu0.le, hu1⟩, rfl⟩, ?_⟩
    obtain ⟨u, hu⟩ : ∃ u, u = 1 / (1 + m ^ 2) := ⟨_, rfl⟩
    have hum : u * (1 + m ^ 2) = 1 := by rw [hu]; field_simp
    rw [← hu] at hu0 hu1 ⊢
    rw [EuclideanSpace.norm_eq, Real.sqrt_lt' one_pos]
    simp [Fin.sum_univ_three]
    nlinarith

example : (0 : ℝ) < Real.pi / 6 ∧ Real.pi / 6 < Real.pi := by constructor <;> linarith [Real.pi_pos]

/-! ### C181: the key that cycles through the variables -/

/-- Pressing the key a number of times, starting from what is shown; `none` once an error has been raised. -/
def presses (vars : List String) (start : Option String) : ℕ → Option (Option String)
  | 0 => some start
  | k + 1 => (presses vars start k).bind (press vars)

/-- What is shown at a place in the cycle: the plain surface at 0, then the variables. -/
def place (vars : List String) (i : ℕ) : Option String := if i = 0 then none else vars[i - 1]?

theorem press_place (vars : List String) (hne : vars ≠ []) (hnd : vars.Nodup) (hemp : "" ∉ vars) (i : ℕ) (hi : i ≤ vars.length) :
    press vars (place vars i) = some (place vars ((i + 1) % (vars.length + 1))) := by
  have hlen : 0 < vars.length := List.length_pos_iff.mpr hne
  cases i with
  | zero =>
    simp only [place, if_true, press]
    rw [Nat.mod_eq_of_lt (by omega)]
    simp [hlen]
  | succ i =>
    have hi' : i < vars.length := by omega
    have hp : place vars (i + 1) = some vars[i] := by simp [place, hi']
    rw [hp]
    simp only [press]
    have hx : ("" :: vars).idxOf vars[i] = i + 1 := by
      have hne' : "" ≠ vars[i] := fun e => hemp (e ▸ List.getElem_mem hi')
      rw [List.idxOf_cons_ne _ hne'.symm.symm, List.Nodup.idxOf_getElem hnd i hi']
    rw [hx]
    by_cases e : i + 1 = vars.length
    · rw [if_pos (by simp [e]), e, Nat.mod_self]
      simp [place]
    · rw [if_neg (by simp; omega), Nat.mod_eq_of_lt (by omega)]
      have h2 : i + 1 < vars.length := by omega
      have hne' : vars[i + 1] ≠ "" := fun e => hemp (e ▸ List.getElem_mem h2)
      simp [place, h2, hne']

/-- **C181** (proved part).  If there are variables on the faces, pressing the key goes round: the plain surface, then every variable in
order, then the plain surface again.  From any place `i` of this round `k` presses lead `k` places on. -/
theorem C181_cycle_partial (vars : List String) (hne : vars ≠ []) (hnd : vars.Nodup) (hemp : "" ∉ vars) (i : ℕ) (hi : i ≤ vars.length) (k : ℕ) :
    presses vars ((none :: vars.map some)[i]'(by simp; omega)) k =
      some ((none :: vars.map some)[(i + k) % (vars.length + 1)]'(by
        have := Nat.mod_lt (i + k) (show 0 < vars.length + 1 by omega); simpa using this)) := by
  have hpl : ∀ j (hj : j < (none :: vars.map some).length), (none :: vars.map some)[j] = place vars j := by
    intro j hj
    cases j with
    | zero => rfl
    | succ j => simp at hj; simp [place, hj]
  rw [hpl, hpl]
  induction k with
  | zero => rw [Nat.add_zero, Nat.mod_eq_of_lt (by omega)]; rfl
  | succ k ih =>
    simp only [presses, ih, Option.bind_some]
    rw [press_place vars hne hnd hemp _ (by have := Nat.mod_lt (i + k) (show 0 < vars.length + 1 by omega); omega)]
    rw [Nat.mod_add_mod, Nat.add_assoc]

/-- Every variable is reached from every place, within one round. -/
theorem C181_reached_partial (vars : List String) (hne : vars ≠ []) (hnd : vars.Nodup) (hemp : "" ∉ vars)
    (start target : Option String) (hs : ∀ v, start = some v → v ∈ vars) (ht : ∀ v, target = some v → v ∈ vars) :
    ∃ k ≤ vars.length, presses vars start k = some target := by
  have hmem : ∀ t : Option String, (∀ v, t = some v → v ∈ vars) → ∃ i, ∃ h : i < (none :: vars.map some).length,
      (none :: vars.map some)[i] = t := by
    intro t h
    rw [← List.mem_iff_getElem]
    cases t with
    | none => simp
    | some v => simp [h v rfl]
  obtain ⟨i, hi, rfl⟩ := hmem start hs
  obtain ⟨j, hj, rfl⟩ := hmem target ht
  simp only [List.length_cons, List.length_map] at hi hj
  refine ⟨(j + (vars.length + 1) - i) % (vars.length + 1), by
    have := Nat.mod_lt (j + (vars.length + 1) - i) (show 0 < vars.length + 1 by omega); omega, ?_⟩
  rw [C181_cycle_partial vars hne hnd hemp i (by omega)]
  have : (i + (j + (vars.length + 1) - i) % (vars.length + 1)) % (vars.length + 1) = j := by
    rw [Nat.add_mod_mod, show i + (j + (vars.length + 1) - i) = j + (vars.length + 1) by omega, Nat.add_mod_right,
      Nat.mod_eq_of_lt (by omega)]
  simp only [this]

/-- Two variables: after three presses the plain surface is shown again. -/
example : presses ["face_elevation", "ejecta_thickness"] none 3 = some none ∧
    presses ["ejecta_thickness", "face_elevation"] (some "ejecta_thickness") 1 = some (some "face_elevation") :=
  ⟨C181_cycle_partial _ (by decide) (by decide) (by decide) 0 (by decide) 3,
    C181_cycle_partial _ (by decide) (by decide) (by decide) 1 (by decide) 1⟩

/-- **C181 fails** without variables on the faces: the first press raises. -/
theorem C181_empty_fails : presses [] none 1 = none := rfl

end Verif.Plot
