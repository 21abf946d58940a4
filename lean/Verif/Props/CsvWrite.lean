import Verif.Model.CsvWrite
import Mathlib.Tactic.Linarith
import Mathlib.Tactic.Ring
import Mathlib.Tactic.NormNum

/-!
# C84: a CSV row holds the whole crater (the file written by the export)
-/

namespace Verif.CsvWrite

noncomputable section

/-- The names of the size columns. -/
def sizeNames : List String :=
  ["id", "semimajor_axis", "semiminor_axis", "diameter", "measured_diameter", "measured_semimajor_axis",
    "measured_semiminor_axis"]

/-- A crater as the code makes them: positive axes, and other columns with different names, none of them that of a
size column. -/
structure Crater.Wf (c : Crater) : Prop where
  a : 0 < c.a
  b : 0 < c.b
  measured : ∀ p, c.measured = some p → 0 < p.1 ∧ 0 < p.2
  nodup : (c.other.map Prod.fst).Nodup
  names : ∀ k ∈ c.other.map Prod.fst, k ∉ sizeNames

/-- What a reader finds in a line under a column: nothing when the file has no such column or the cell is empty. -/
def under (header : List String) (row : List (Option Cell)) (k : String) : Option Cell :=
  ((header.zip row).lookup k).join

/-- The axes a reader finds in a line: those written, or a circle of the diameter written. -/
def axes (header : List String) (row : List (Option Cell)) : Option (ℝ × ℝ) :=
  match under header row "semimajor_axis", under header row "semiminor_axis", under header row "diameter" with
  | some (.num a), some (.num b), _ => some (a, b)
  | _, _, some (.num d) => some (d / 2, d / 2)
  | _, _, _ => none

/-! ### Dictionaries -/

theorem lookup_isSome (d : ODict) (k : String) : (d.lookup k).isSome ↔ k ∈ d.map Prod.fst := by
  induction d with
  | nil => simp
  | cons e d ih =>
    rcases e with ⟨j, v⟩
    by_cases h : k = j
    · subst h; simp
    · have hb : (k == j) = false := by simpa using h
      rw [List.lookup_cons, hb]
      simp only [List.map_cons, List.mem_cons, h, false_or]
      exact ih

theorem lookup_none (d : ODict) (k : String) : d.lookup k = none ↔ k ∉ d.map Prod.fst := by
  rw [← lookup_isSome]; cases d.lookup k <;> simp

theorem lookup_pop (d : ODict) (k j : String) : (d.pop k).lookup j = if j = k then none else d.lookup j := by
  induction d with
  | nil => simp [ODict.pop]
  | cons e d ih =>
    rcases e with ⟨i, v⟩
    unfold ODict.pop at ih ⊢
    by_cases hi : i = k
    · subst hi
      rw [List.filter_cons_of_neg (by simp), ih]
      split_ifs with hj
      · rfl
      · have hb : (j == i) = false := by simpa using hj
        rw [List.lookup_cons, hb]
    · rw [List.filter_cons_of_pos (by simpa using hi)]
      by_cases hj : j = i
      · subst hj; simp [hi]
      · have hb : (j == i) = false := by simpa using hj
        rw [List.lookup_cons, List.lookup_cons, hb]
        exact ih

theorem lookup_put (d : ODict) (k : String) (v : Cell) (j : String) :
    (d.put k v).lookup j = if j = k then some v else d.lookup j := by
  unfold ODict.put
  split_ifs with h hj hj
  · subst hj
    induction d with
    | nil => simp at h
    | cons e d ih =>
      rcases e with ⟨i, w⟩
      by_cases hi : i = j
      · subst hi; simp
      · have hb : (j == i) = false := by simpa using (fun e => hi e.symm)
        simp only [List.map_cons, if_neg hi, List.lookup_cons, hb]
        apply ih
        simpa [hi] using h
  · induction d with
    | nil => simp at h
    | cons e d ih =>
      rcases e with ⟨i, w⟩
      have key : (d.map (fun e => if e.1 = k then (k, v) else e)).lookup j = d.lookup j := by
        clear ih h
        induction d with
        | nil => rfl
        | cons e d ih =>
          rcases e with ⟨i, w⟩
          by_cases hi : i = k
          · subst hi
            have hb : (j == i) = false := by simpa using hj
            simp only [List.map_cons, if_true, List.lookup_cons, hb]
            exact ih
          · simp only [List.map_cons, if_neg hi, List.lookup_cons]
            cases j == i
            · exact ih
            · rfl
      by_cases hi : i = k
      · subst hi
        have hb : (j == i) = false := by simpa using hj
        simp only [List.map_cons, if_true, List.lookup_cons, hb]
        exact key
      · simp only [List.map_cons, if_neg hi, List.lookup_cons]
        cases j == i
        · exact key
        · rfl
  · subst hj
    rw [List.lookup_append]
    have : d.lookup j = none := by
      rw [lookup_none]
      intro hm
      apply h
      obtain ⟨e, he, rfl⟩ := List.mem_map.1 hm
      simp only [List.any_eq_true, decide_eq_true_eq]
      exact ⟨e, he, rfl⟩
    rw [this]; simp
  · rw [List.lookup_append]
    have hb : (j == k) = false := by simpa using hj
    simp [List.lookup_cons, hb]

theorem lookup_update (items d : ODict) (hn : (items.map Prod.fst).Nodup) (j : String) :
    (ODict.update d items).lookup j = (items.lookup j).or (d.lookup j) := by
  unfold ODict.update
  induction items generalizing d with
  | nil => simp
  | cons e items ih =>
    rcases e with ⟨i, v⟩
    rw [List.map_cons, List.nodup_cons] at hn
    rw [List.foldl_cons, ih _ hn.2, lookup_put]
    by_cases hj : j = i
    · subst hj
      have : items.lookup j = none := (lookup_none _ _).2 hn.1
      rw [this]; simp
    · have hb : (j == i) = false := by simpa using hj
      rw [if_neg hj, List.lookup_cons, hb]

theorem pop_nodup (d : ODict) (k : String) (h : (d.map Prod.fst).Nodup) : ((d.pop k).map Prod.fst).Nodup := by
  unfold ODict.pop
  exact h.sublist (List.Sublist.map _ List.filter_sublist)

/-- The columns of a circle: the axes are gone, and the diameter stands there even if it was not an entry before. -/
theorem circular_eq (M m D : String) (v : Cell) (t : ODict) (x : ℝ) (hn : ((("id", v) :: t).map Prod.fst).Nodup)
    (hM : List.lookup M (("id", v) :: t) = some (.num x)) (hm : List.lookup m (("id", v) :: t) = some (.num x))
    (h1 : "id" ≠ M) (h2 : "id" ≠ m) (hDM : D ≠ M) (hDm : D ≠ m) (h3 : D ≠ "id") (k : String) :
    (circular M m D (("id", v) :: t)).lookup k =
      if k = M ∨ k = m then none else if k = D then (List.lookup D t).or (some (.num (2 * x)))
        else List.lookup k (("id", v) :: t) := by
  unfold circular
  rw [hM, hm]
  simp only [if_true]
  have hr : (ODict.pop (("id", v) :: t) M).pop m = ("id", v) :: (ODict.pop t M).pop m := by
    unfold ODict.pop
    rw [List.filter_cons_of_pos (by simpa using h1), List.filter_cons_of_pos (by simpa using h2)]
  rw [hr]
  rw [List.map_cons, List.nodup_cons] at hn
  rw [List.tail_cons, lookup_update _ _ (pop_nodup _ _ (pop_nodup _ _ hn.2)), lookup_pop, lookup_pop]
  have hid : List.lookup "id" t = none := (lookup_none _ _).2 hn.1
  by_cases e1 : k = M
  · subst e1
    have b1 : (k == "id") = false := by simpa using (fun e => h1 e.symm)
    have b2 : (k == D) = false := by simpa using (fun e => hDM e.symm)
    simp [List.lookup_cons, b1, b2]
  by_cases e2 : k = m
  · subst e2
    have b1 : (k == "id") = false := by simpa using (fun e => h2 e.symm)
    have b2 : (k == D) = false := by simpa using (fun e => hDm e.symm)
    simp [List.lookup_cons, b1, b2]
  rw [if_neg e2, if_neg e1, if_neg (by tauto)]
  by_cases e3 : k = "id"
  · subst e3
    rw [hid, if_neg (fun e => h3 e.symm)]
    simp
  have b1 : (k == "id") = false := by simpa using e3
  rw [List.lookup_cons, b1, List.lookup_cons]
  by_cases e4 : k = D
  · subst e4
    simp
  · have b2 : (k == D) = false := by simpa using e4
    rw [if_neg e4]
    simp [List.lookup_cons, b1, b2]

theorem under_map (header : List String) (f : String → Option Cell) (k : String) :
    under header (header.map f) k = if k ∈ header then f k else none := by
  unfold under
  induction header with
  | nil => simp
  | cons h t ih =>
    rw [List.map_cons, List.zip_cons_cons]
    by_cases e : k = h
    · subst e; simp
    · have hb : (k == h) = false := by simpa using e
      rw [List.lookup_cons, hb, ih]
      simp [e]

/-! ### The columns of a crater -/

theorem other_lookup (c : Crater) (hc : c.Wf) (k : String) (hk : k ∈ sizeNames) : c.other.lookup k = none := by
  rw [lookup_none]
  exact fun h => hc.names k h hk

theorem measured_keys (p : Option (ℝ × ℝ)) (k : String) (hk : k ∈ (measuredEntries p).map Prod.fst) :
    k = "measured_diameter" ∨ k = "measured_semimajor_axis" ∨ k = "measured_semiminor_axis" := by
  rcases p with _ | ⟨a, b⟩
  · simp [measuredEntries] at hk
  · simp only [measuredEntries] at hk
    split_ifs at hk
    · left; simpa using hk
    · right; simpa using hk

theorem measured_nodup (p : Option (ℝ × ℝ)) : ((measuredEntries p).map Prod.fst).Nodup := by
  rcases p with _ | ⟨a, b⟩
  · simp [measuredEntries]
  · simp only [measuredEntries]
    split_ifs <;> simp

theorem asDict_nodup (c : Crater) (hc : c.Wf) : ((asDict c).map Prod.fst).Nodup := by
  have ho : ∀ k ∈ sizeNames, k ∉ c.other.map Prod.fst := fun k hk h => hc.names k h hk
  have hm : ∀ k, k ≠ "measured_diameter" → k ≠ "measured_semimajor_axis" → k ≠ "measured_semiminor_axis" →
      k ∉ (measuredEntries c.measured).map Prod.fst := fun k a b d h => by
    rcases measured_keys _ _ h with e | e | e <;> contradiction
  simp only [asDict, List.map_cons, List.map_append]
  have hdis : (c.other.map Prod.fst).Disjoint ((measuredEntries c.measured).map Prod.fst) := by
    intro k h1 h2
    apply hc.names k h1
    rcases measured_keys _ _ h2 with e | e | e <;> subst e <;> decide +kernel
  have base : (c.other.map Prod.fst ++ (measuredEntries c.measured).map Prod.fst).Nodup :=
    List.Nodup.append hc.nodup (measured_nodup _) hdis
  have no : ∀ k ∈ sizeNames, k ≠ "measured_diameter" → k ≠ "measured_semimajor_axis" → k ≠ "measured_semiminor_axis" →
      k ∉ c.other.map Prod.fst ++ (measuredEntries c.measured).map Prod.fst := by
    intro k hk a b d h
    rcases List.mem_append.1 h with h | h
    · exact ho k hk h
    · exact hm k a b d h
  rw [List.nodup_cons, List.nodup_cons, List.nodup_cons, List.nodup_cons]
  refine ⟨?_, ?_, ?_, ?_, base⟩
  · simp only [List.mem_cons, not_or]
    exact ⟨by decide +kernel, by decide +kernel, by decide +kernel,
      no _ (by decide +kernel) (by decide +kernel) (by decide +kernel) (by decide +kernel)⟩
  · simp only [List.mem_cons, not_or]
    exact ⟨by decide +kernel, by decide +kernel,
      no _ (by decide +kernel) (by decide +kernel) (by decide +kernel) (by decide +kernel)⟩
  · simp only [List.mem_cons, not_or]
    exact ⟨by decide +kernel,
      no _ (by decide +kernel) (by decide +kernel) (by decide +kernel) (by decide +kernel)⟩
  · exact no _ (by decide +kernel) (by decide +kernel) (by decide +kernel) (by decide +kernel)

/-- The step for the measured axes never does anything: `as_dict` has replaced equal axes already. -/
theorem measured_step (c : Crater) (hc : c.Wf) :
    circular "measured_semimajor_axis" "measured_semiminor_axis" "measured_diameter" (asDict c) = asDict c := by
  have l1 : List.lookup "measured_semimajor_axis" (asDict c) =
      (measuredEntries c.measured).lookup "measured_semimajor_axis" := by
    simp only [asDict, List.lookup_cons, List.lookup_append, other_lookup c hc "measured_semimajor_axis" (by decide +kernel)]
    simp
  have l2 : List.lookup "measured_semiminor_axis" (asDict c) =
      (measuredEntries c.measured).lookup "measured_semiminor_axis" := by
    simp only [asDict, List.lookup_cons, List.lookup_append, other_lookup c hc "measured_semiminor_axis" (by decide +kernel)]
    simp
  unfold circular
  rw [l1, l2]
  rcases hp : c.measured with _ | ⟨a, b⟩
  · simp [measuredEntries]
  · have pos := hc.measured _ hp
    simp only [measuredEntries]
    by_cases h : Real.sqrt (a * b) = a
    · rw [if_pos h]; simp [List.lookup_cons]
    · have hab : a ≠ b := by
        rintro rfl
        exact h (Real.sqrt_mul_self pos.1.le)
      rw [if_neg h]
      simp [List.lookup_cons, hab]

theorem columns_ellipse (c : Crater) (hc : c.Wf) (h : c.a ≠ c.b) : columns (asDict c) = asDict c := by
  unfold columns
  rw [measured_step c hc]
  simp [circular, asDict, List.lookup_cons, h]

theorem columns_circle (c : Crater) (hc : c.Wf) (h : c.a = c.b) (k : String) :
    (columns (asDict c)).lookup k =
      if k = "semimajor_axis" ∨ k = "semiminor_axis" then none else (asDict c).lookup k := by
  unfold columns
  rw [measured_step c hc]
  have := circular_eq "semimajor_axis" "semiminor_axis" "diameter" (.num c.id) (asDict c).tail c.a
    (asDict_nodup c hc) (by simp [asDict, List.lookup_cons]) (by simp [asDict, List.lookup_cons, h])
    (by decide +kernel) (by decide +kernel) (by decide +kernel) (by decide +kernel) (by decide +kernel) k
  have e : asDict c = ("id", .num c.id) :: (asDict c).tail := rfl
  rw [e, this]
  split_ifs with h1 h2
  · rfl
  · subst h2
    simp [asDict, List.lookup_cons]
  · rfl

/-- The columns of a crater. -/
theorem columns_lookup (c : Crater) (hc : c.Wf) (k : String) :
    (columns (asDict c)).lookup k =
      if c.a = c.b ∧ (k = "semimajor_axis" ∨ k = "semiminor_axis") then none else (asDict c).lookup k := by
  by_cases h : c.a = c.b
  · rw [columns_circle c hc h]; simp [h]
  · rw [columns_ellipse c hc h]; simp [h]

theorem line_under (c₀ c : Crater) (k : String) :
    under ((columns (asDict c₀)).map Prod.fst) (((columns (asDict c₀)).map Prod.fst).map (cellOf (columns (asDict c)))) k =
      if ((columns (asDict c₀)).lookup k).isSome then cellOf (columns (asDict c)) k else none := by
  rw [under_map]
  simp only [lookup_isSome]

theorem diameter_lookup (c : Crater) (hc : c.Wf) :
    (columns (asDict c)).lookup "diameter" = some (.num (2 * Real.sqrt (c.a * c.b))) := by
  rw [columns_lookup c hc, if_neg (fun e => by rcases e.2 with e | e <;> exact absurd e (by decide +kernel))]
  simp [asDict, List.lookup_cons]

/-! ### The claims -/

/-- The file has a header, the names of the columns of the first crater, one line for each crater in the order of the
list, and each line has one cell for each column.  Without craters the file is empty. -/
theorem C84_table (cs : List Crater) :
    ((toCsv cs).1 = none ↔ cs = []) ∧ (toCsv cs).2.length = cs.length ∧
    ∀ header row, (toCsv cs).1 = some header → row ∈ (toCsv cs).2 → row.length = header.length := by
  rcases cs with _ | ⟨c, cs⟩
  · simp [toCsv, file]
  · refine ⟨by simp [toCsv, file], by simp [toCsv, file], ?_⟩
    intro header row hh hr
    simp only [toCsv, file, List.map_cons, Option.some.injEq] at hh hr
    subst hh
    rcases List.mem_cons.1 hr with rfl | hr
    · simp
    · obtain ⟨e, _, rfl⟩ := List.mem_map.1 hr
      simp

theorem line_get (c₀ : Crater) (cs : List Crater) (i : ℕ) (c : Crater) (h : (c₀ :: cs)[i]? = some c) :
    (toCsv (c₀ :: cs)).2[i]? = some (((columns (asDict c₀)).map Prod.fst).map (cellOf (columns (asDict c)))) := by
  have e : (toCsv (c₀ :: cs)).2 = ((c₀ :: cs).map asDict).map
      fun e => ((columns (asDict c₀)).map Prod.fst).map (cellOf (columns e)) := rfl
  rw [e, List.getElem?_map, List.getElem?_map, h]
  rfl

theorem lookup_of_mem (d : ODict) (hn : (d.map Prod.fst).Nodup) (k : String) (v : Cell) (h : (k, v) ∈ d) :
    d.lookup k = some v := by
  induction d with
  | nil => simp at h
  | cons e d ih =>
    rcases e with ⟨j, w⟩
    rw [List.map_cons, List.nodup_cons] at hn
    rcases List.mem_cons.1 h with e | h'
    · cases e; simp
    · have : k ≠ j := by
        rintro rfl
        exact hn.1 (List.mem_map.2 ⟨_, h', rfl⟩)
      have hb : (k == j) = false := by simpa using this
      rw [List.lookup_cons, hb]
      exact ih hn.2 h'

theorem asDict_other (c : Crater) (k : String) (hk : k ∉ sizeNames) : (asDict c).lookup k = c.other.lookup k := by
  simp only [sizeNames, List.mem_cons, List.not_mem_nil, or_false, not_or] at hk
  obtain ⟨h1, h2, h3, h4, h5, h6, h7⟩ := hk
  have b1 : (k == "id") = false := by simpa using h1
  have b2 : (k == "semimajor_axis") = false := by simpa using h2
  have b3 : (k == "semiminor_axis") = false := by simpa using h3
  have b4 : (k == "diameter") = false := by simpa using h4
  have hm : (measuredEntries c.measured).lookup k = none := by
    rw [lookup_none]
    intro h
    rcases measured_keys _ _ h with e | e | e <;> contradiction
  simp only [asDict, List.lookup_cons, b1, b2, b3, b4, List.lookup_append, hm]
  simp

theorem columns_other (c : Crater) (hc : c.Wf) (k : String) (hk : k ∉ sizeNames) :
    (columns (asDict c)).lookup k = c.other.lookup k := by
  rw [columns_lookup c hc, if_neg, asDict_other c k hk]
  rintro ⟨_, rfl | rfl⟩ <;> exact hk (by decide +kernel)

/-- Each line has the id and the diameter of its crater, and every other attribute for which the first crater has a
column. -/
theorem C84_attributes_partial (c₀ : Crater) (cs : List Crater) (hw : ∀ c ∈ c₀ :: cs, c.Wf) (i : ℕ) (c : Crater)
    (h : (c₀ :: cs)[i]? = some c) :
    ∃ header row, (toCsv (c₀ :: cs)).1 = some header ∧ (toCsv (c₀ :: cs)).2[i]? = some row ∧
      under header row "id" = some (.num c.id) ∧
      under header row "diameter" = some (.num (2 * Real.sqrt (c.a * c.b))) ∧
      ∀ k ∈ c₀.other.map Prod.fst,
        (∀ x, (k, .num x) ∈ c.other → under header row k = some (.num x)) ∧
        (∀ s, (k, .text s) ∈ c.other → under header row k = some (.text s)) ∧
        (k ∉ c.other.map Prod.fst → under header row k = none) := by
  have w₀ := hw c₀ (by simp)
  have w := hw c (List.mem_of_getElem? h)
  refine ⟨_, _, rfl, line_get c₀ cs i c h, ?_, ?_, ?_⟩
  · rw [line_under]
    have idl : ∀ d : Crater, d.Wf → (columns (asDict d)).lookup "id" = some (.num d.id) := by
      intro d hd
      rw [columns_lookup d hd, if_neg (fun e => by rcases e.2 with e | e <;> exact absurd e (by decide +kernel))]
      simp [asDict]
    rw [idl _ w₀]
    simp [cellOf, idl _ w]
  · rw [line_under, diameter_lookup _ w₀]
    simp [cellOf, diameter_lookup _ w]
  · intro k hk
    have hs := w₀.names k hk
    rw [line_under, columns_other _ w₀ k hs, if_pos ((lookup_isSome _ _).2 hk)]
    unfold cellOf
    rw [columns_other _ w k hs]
    refine ⟨fun x hx => ?_, fun s hx => ?_, fun hx => ?_⟩
    · rw [lookup_of_mem _ w.nodup _ _ hx]
    · rw [lookup_of_mem _ w.nodup _ _ hx]
    · rw [(lookup_none _ _).2 hx]

theorem axis_lookup (c : Crater) (hc : c.Wf) :
    (columns (asDict c)).lookup "semimajor_axis" = (if c.a = c.b then none else some (.num c.a)) ∧
    (columns (asDict c)).lookup "semiminor_axis" = (if c.a = c.b then none else some (.num c.b)) := by
  rw [columns_lookup c hc, columns_lookup c hc]
  by_cases h : c.a = c.b <;> simp [h, asDict, List.lookup_cons]

/-- If the first crater is an ellipse, the size and shape of every crater can be read from its line. -/
theorem C84_shape_partial (c₀ : Crater) (cs : List Crater) (hw : ∀ c ∈ c₀ :: cs, c.Wf) (he : c₀.a ≠ c₀.b) (i : ℕ)
    (c : Crater) (h : (c₀ :: cs)[i]? = some c) :
    ∃ header row, (toCsv (c₀ :: cs)).1 = some header ∧ (toCsv (c₀ :: cs)).2[i]? = some row ∧
      axes header row = some (c.a, c.b) := by
  have w₀ := hw c₀ (by simp)
  have w := hw c (List.mem_of_getElem? h)
  refine ⟨_, _, rfl, line_get c₀ cs i c h, ?_⟩
  unfold axes
  rw [line_under, line_under, line_under, (axis_lookup _ w₀).1, (axis_lookup _ w₀).2, diameter_lookup _ w₀, if_neg he,
    if_neg he]
  simp only [Option.isSome_some, if_true, cellOf, (axis_lookup _ w).1, (axis_lookup _ w).2, diameter_lookup _ w]
  by_cases hab : c.a = c.b
  · simp only [hab, if_true]
    rw [Real.sqrt_mul_self w.b.le]
    simp
  · simp only [hab, if_false]

/-- If the first crater is a circle, the file has no column for the axes, and the line of every ellipse is the line of
the circle of the same area: its shape is lost. -/
theorem C84_shape_fails (c₀ c : Crater) (w₀ : c₀.Wf) (w : c.Wf) (hc : c₀.a = c₀.b) (he : c.a ≠ c.b) :
    ∃ c' : Crater, c'.Wf ∧ (c'.a, c'.b) ≠ (c.a, c.b) ∧ toCsv [c₀, c'] = toCsv [c₀, c] := by
  have hpos : 0 < c.a * c.b := mul_pos w.a w.b
  have hs : 0 < Real.sqrt (c.a * c.b) := Real.sqrt_pos.2 hpos
  let c' : Crater := { c with a := Real.sqrt (c.a * c.b), b := Real.sqrt (c.a * c.b) }
  have w' : c'.Wf := ⟨hs, hs, w.measured, w.nodup, w.names⟩
  refine ⟨c', w', ?_, ?_⟩
  · intro e
    have e1 := congrArg Prod.fst e
    have e2 := congrArg Prod.snd e
    exact he (e1.symm.trans e2)
  · have key : ∀ k ∈ (columns (asDict c₀)).map Prod.fst, cellOf (columns (asDict c')) k = cellOf (columns (asDict c)) k := by
      intro k hk
      rw [← lookup_isSome, columns_lookup _ w₀] at hk
      have hn : ¬ (k = "semimajor_axis" ∨ k = "semiminor_axis") := by
        intro e; rw [if_pos ⟨hc, e⟩] at hk; simp at hk
      unfold cellOf
      rw [columns_lookup _ w', columns_lookup _ w, if_neg (fun e => hn e.2), if_neg (fun e => hn e.2)]
      have : (asDict c').lookup k = (asDict c).lookup k := by
        push Not at hn
        have b2 : (k == "semimajor_axis") = false := by simpa using hn.1
        have b3 : (k == "semiminor_axis") = false := by simpa using hn.2
        have hsq : Real.sqrt (c'.a * c'.b) = Real.sqrt (c.a * c.b) := Real.sqrt_mul_self hs.le
        simp only [asDict, List.lookup_cons, b2, b3, hsq]
        rfl
      rw [this]
    simp only [toCsv, file, List.map_cons, List.map_nil]
    congr 3
    exact List.map_congr_left key

theorem measured_lookup (c : Crater) (hc : c.Wf) (k : String)
    (hk : k = "measured_diameter" ∨ k = "measured_semimajor_axis" ∨ k = "measured_semiminor_axis") :
    (columns (asDict c)).lookup k = (measuredEntries c.measured).lookup k := by
  have hs : k ∈ sizeNames := by rcases hk with e | e | e <;> subst e <;> decide +kernel
  have n0 : k ≠ "semimajor_axis" ∧ k ≠ "semiminor_axis" ∧ k ≠ "id" ∧ k ≠ "diameter" := by
    rcases hk with e | e | e <;> subst e <;> decide +kernel
  have b1 : (k == "id") = false := by simpa using n0.2.2.1
  have b2 : (k == "semimajor_axis") = false := by simpa using n0.1
  have b3 : (k == "semiminor_axis") = false := by simpa using n0.2.1
  have b4 : (k == "diameter") = false := by simpa using n0.2.2.2
  rw [columns_lookup c hc, if_neg (by tauto), asDict, List.lookup_cons, b1]
  dsimp only
  rw [List.lookup_cons, b2]
  dsimp only
  rw [List.lookup_cons, b3]
  dsimp only
  rw [List.lookup_cons, b4]
  dsimp only
  rw [List.lookup_append, other_lookup c hc k hs, Option.none_or]

/-- When a crater and the first crater of the list have been measured, both as circles or both as ellipses, the measured size is in the
file: the measured diameter of a circle, twice its radius, or both measured axes.  Missing for the full property: craters measured while the
first is not (next theorem), or measured as another shape than the first. -/
theorem C84_measured_partial (c₀ : Crater) (cs : List Crater) (hw : ∀ c ∈ c₀ :: cs, c.Wf) (p₀ p : ℝ × ℝ) (i : ℕ) (c : Crater)
    (h : (c₀ :: cs)[i]? = some c) (h₀ : c₀.measured = some p₀) (hp : c.measured = some p) (hsame : p₀.1 = p₀.2 ↔ p.1 = p.2) :
    ∃ header row, (toCsv (c₀ :: cs)).1 = some header ∧ (toCsv (c₀ :: cs)).2[i]? = some row ∧
      (p.1 = p.2 → under header row "measured_diameter" = some (.num (2 * p.1)) ∧
        "measured_semimajor_axis" ∉ header ∧ "measured_semiminor_axis" ∉ header) ∧
      (p.1 ≠ p.2 → under header row "measured_semimajor_axis" = some (.num p.1) ∧
        under header row "measured_semiminor_axis" = some (.num p.2) ∧ "measured_diameter" ∉ header) := by
  have w₀ := hw c₀ (by simp)
  have wc := hw c (List.mem_of_getElem? h)
  have iff : ∀ q : ℝ × ℝ, 0 < q.1 ∧ 0 < q.2 → (Real.sqrt (q.1 * q.2) = q.1 ↔ q.1 = q.2) := by
    intro q hq
    constructor
    · intro e
      have := Real.mul_self_sqrt (mul_pos hq.1 hq.2).le
      rw [e] at this
      exact mul_left_cancel₀ hq.1.ne' this
    · intro e
      rw [← e]
      exact Real.sqrt_mul_self hq.1.le
  have e₀ := iff p₀ (w₀.measured _ h₀)
  have ec := iff p (wc.measured _ hp)
  refine ⟨(columns (asDict c₀)).map Prod.fst,
    ((columns (asDict c₀)).map Prod.fst).map (cellOf (columns (asDict c))), rfl, line_get c₀ cs i c h, ?_, ?_⟩
  · intro hc
    have hc₀ := e₀.2 (hsame.2 hc)
    have hc' := ec.2 hc
    refine ⟨?_, ?_, ?_⟩
    · rw [line_under, measured_lookup c₀ w₀ _ (Or.inl rfl), h₀]
      unfold cellOf
      rw [measured_lookup c wc _ (Or.inl rfl), hp]
      simp only [measuredEntries, if_pos hc₀, if_pos hc']
      simp [hc']
    · rw [← lookup_isSome, measured_lookup c₀ w₀ _ (Or.inr (Or.inl rfl)), h₀]
      simp only [measuredEntries, if_pos hc₀]
      simp [List.lookup_cons]
    · rw [← lookup_isSome, measured_lookup c₀ w₀ _ (Or.inr (Or.inr rfl)), h₀]
      simp only [measuredEntries, if_pos hc₀]
      simp [List.lookup_cons]
  · intro hc
    have hc₀ : ¬ Real.sqrt (p₀.1 * p₀.2) = p₀.1 := fun e => hc (hsame.1 (e₀.1 e))
    have hc' : ¬ Real.sqrt (p.1 * p.2) = p.1 := fun e => hc (ec.1 e)
    refine ⟨?_, ?_, ?_⟩
    · rw [line_under, measured_lookup c₀ w₀ _ (Or.inr (Or.inl rfl)), h₀]
      unfold cellOf
      rw [measured_lookup c wc _ (Or.inr (Or.inl rfl)), hp]
      simp only [measuredEntries, if_neg hc₀, if_neg hc']
      simp
    · rw [line_under, measured_lookup c₀ w₀ _ (Or.inr (Or.inr rfl)), h₀]
      unfold cellOf
      rw [measured_lookup c wc _ (Or.inr (Or.inr rfl)), hp]
      simp only [measuredEntries, if_neg hc₀, if_neg hc']
      simp [List.lookup_cons]
    · rw [← lookup_isSome, measured_lookup c₀ w₀ _ (Or.inl rfl), h₀]
      simp only [measuredEntries, if_neg hc₀]
      simp [List.lookup_cons]

/-- If the first crater has not been measured, the measured sizes of all others are left out. -/
theorem C84_measured_fails (c₀ c : Crater) (w₀ : c₀.Wf) (w : c.Wf) (hc : c₀.measured = none) (p : ℝ × ℝ)
    (hp : 0 < p.1 ∧ 0 < p.2) : toCsv [c₀, { c with measured := some p }] = toCsv [c₀, c] := by
  have w' : ({ c with measured := some p } : Crater).Wf :=
    ⟨w.a, w.b, fun q hq => by cases hq; exact hp, w.nodup, w.names⟩
  have key : ∀ k ∈ (columns (asDict c₀)).map Prod.fst,
      cellOf (columns (asDict { c with measured := some p })) k = cellOf (columns (asDict c)) k := by
    intro k hk
    rw [← lookup_isSome, columns_lookup _ w₀] at hk
    have hn : ∀ q, (measuredEntries q).lookup k = none := by
      intro q
      rw [lookup_none]
      intro hm
      have h3 := measured_keys _ _ hm
      have hsz : k ∈ sizeNames := by rcases h3 with e | e | e <;> subst e <;> decide +kernel
      have hl : (asDict c₀).lookup k = none := by
        have ho := other_lookup c₀ w₀ k hsz
        rw [lookup_none] at ho ⊢
        simp only [asDict, hc, measuredEntries, List.append_nil, List.map_cons, List.mem_cons, not_or]
        rcases h3 with e | e | e <;> subst e <;>
          exact ⟨by decide +kernel, by decide +kernel, by decide +kernel, by decide +kernel, ho⟩
      rw [hl] at hk
      split_ifs at hk <;> simp at hk
    unfold cellOf
    have hl : (asDict { c with measured := some p }).lookup k = (asDict c).lookup k := by
      simp only [asDict, List.lookup_cons, List.lookup_append, hn]
    rw [columns_lookup _ w', columns_lookup _ w, hl]
  simp only [toCsv, file, List.map_cons, List.map_nil]
  congr 3
  exact List.map_congr_left key

/-- A crater that meets the conditions: an ellipse with a time, and a circle. -/
def anEllipse : Crater := ⟨7, 2, 1, some (3, 1), [("time", .num 4), ("morphology_type", .text "simple")]⟩

/-- A circle that has not been measured. -/
def aCircle : Crater := ⟨8, 2, 2, none, [("time", .num 5), ("morphology_type", .text "simple")]⟩

example : anEllipse.Wf ∧ anEllipse.a ≠ anEllipse.b := by
  refine ⟨⟨by norm_num [anEllipse], by norm_num [anEllipse], ?_, by decide +kernel, by decide +kernel⟩, by norm_num [anEllipse]⟩
  intro p hp
  cases hp
  norm_num

/-- Both measured as ellipses. -/
example : anEllipse.measured = some (3, 1) ∧ ({ anEllipse with id := 9, measured := some (5, 4) } : Crater).measured = some (5, 4) ∧
    (((3, 1) : ℝ × ℝ).1 = ((3, 1) : ℝ × ℝ).2 ↔ ((5, 4) : ℝ × ℝ).1 = ((5, 4) : ℝ × ℝ).2) := by
  refine ⟨rfl, rfl, ?_⟩
  norm_num

example : aCircle.Wf ∧ aCircle.a = aCircle.b ∧ aCircle.measured = none := by
  refine ⟨⟨by norm_num [aCircle], by norm_num [aCircle], ?_, by decide +kernel, by decide +kernel⟩, rfl, rfl⟩
  intro p hp
  cases hp

end

end Verif.CsvWrite
