import Verif.Model.CsvRead
import Mathlib.Tactic.Linarith

/-!
# C143: reading a table of craters
-/

namespace Verif.CsvRead

/-! ### Specification -/

/-- The cell of a column holds text (is neither absent, short of the line, nor empty). -/
def Filled (row : Row) (c s : String) : Prop := row c = some (some s) ∧ s ≠ ""

/-- The names that denote tuples. -/
def isTuple (k : String) : Prop :=
  k = "location" ∨ k = "measured_location" ∨ k = "production_ND" ∨ k = "production_time"

theorem tuples_none {row : Row} {k : String} (h : ¬ isTuple k) : tuples row k = none := by
  unfold isTuple at h
  push Not at h
  unfold tuples
  rw [if_neg h.1, if_neg h.2.1, if_neg h.2.2.1, if_neg h.2.2.2]

/-- C143 (numbers): a filled cell with a number gives that number under the column's name, for every
column other than the integer columns and the tuples; the integer columns give the integer; an empty
or missing cell gives nothing. -/
theorem C143_cells_partial (P : Parse) (row : Row) (k : String) (hk : ¬ isTuple k) :
    (∀ s x, Filled row k s → k ≠ "id" → k ≠ "production_sequence" → P.float s = some x →
      readKey P row k = some (some (.float x))) ∧
    (∀ s n, Filled row k s → (k = "id" ∨ k = "production_sequence") → P.int s = some n →
      readKey P row k = some (some (.int n))) ∧
    (∀ s, Filled row k s → k ≠ "id" → k ≠ "production_sequence" → P.float s = none →
      readKey P row k = some (some (.text s))) ∧
    ((¬ ∃ s, Filled row k s) → readKey P row k = some none) := by
  have ht := tuples_none (row := row) hk
  refine ⟨?_, ?_, ?_, ?_⟩
  · rintro s x ⟨h1, h2⟩ h3 h4 hx
    simp [readKey, ht, h1, h2, h3, h4, hx]
  · rintro s n ⟨h1, h2⟩ h3 hn
    simp [readKey, ht, h1, h2, h3, hn]
  · rintro s ⟨h1, h2⟩ h3 h4 hx
    simp [readKey, ht, h1, h2, h3, h4, hx]
  · intro h
    rcases hr : row k with _ | _ | s
    · simp [readKey, ht, hr]
    · simp [readKey, ht, hr]
    · have : s = "" := by
        by_contra hs
        exact h ⟨s, hr, hs⟩
      simp [readKey, ht, hr, this]

/-- C143 (pairs): a location is read exactly as the two numbers in its two columns. -/
theorem C143_location (P : Parse) (row : Row) (a b : String) (x y : ℝ)
    (ha : Filled row "longitude" a) (hb : Filled row "latitude" b)
    (hx : P.float a = some x) (hy : P.float b = some y) :
    readKey P row "location" = some (some (.list [x, y])) := by
  simp [readKey, tuples, gather, ha.1, hb.1, item, floats, ha.2, hb.2, hx, hy]

/-- C143 (pairs): the same for the measured location. -/
theorem C143_measured_location (P : Parse) (row : Row) (a b : String) (x y : ℝ)
    (ha : Filled row "measured_longitude" a) (hb : Filled row "measured_latitude" b)
    (hx : P.float a = some x) (hy : P.float b = some y) :
    readKey P row "measured_location" = some (some (.list [x, y])) := by
  have h1 : ("measured_location" : String) ≠ "location" := by decide +kernel
  simp [readKey, tuples, gather, ha.1, hb.1, item, floats, ha.2, hb.2, hx, hy, h1]

/-- C143 (times): a production time is read with the spread that is written, or with spread 0 when the
column of the spread is absent, short of the line or empty. -/
theorem C143_time (P : Parse) (row : Row) (a : String) (x : ℝ)
    (ha : Filled row "production_time" a) (hx : P.float a = some x) :
    (∀ b y, Filled row "production_time_stdev" b → P.float b = some y →
      readKey P row "production_time" = some (some (.list [x, y]))) ∧
    ((¬ ∃ b, Filled row "production_time_stdev" b) →
      readKey P row "production_time" = some (some (.list [x, 0]))) := by
  have h1 : ("production_time" : String) ≠ "location" := by decide +kernel
  have h2 : ("production_time" : String) ≠ "measured_location" := by decide +kernel
  have h3 : ("production_time" : String) ≠ "production_ND" := by decide +kernel
  constructor
  · rintro b y hb hy
    simp [readKey, tuples, timePair, ha.1, hb.1, item, spread, floats, ha.2, hb.2, hx, hy, h1, h2, h3]
  · intro h
    have hs : spread (row "production_time_stdev") = .zero := by
      rcases hr : row "production_time_stdev" with _ | _ | s
      · rfl
      · rfl
      · have : s = "" := by
          by_contra hs
          exact h ⟨s, hr, hs⟩
        simp [spread, this]
    simp [readKey, tuples, timePair, ha.1, item, hs, floats, ha.2, hx, h1, h2, h3]

/-- C143 (numbers of craters): the same for an N(D) value, with its diameter, number and spread. -/
theorem C143_number (P : Parse) (row : Row) (d n : String) (D N : ℝ)
    (hd : Filled row "production_D" d) (hn : Filled row "production_N" n)
    (hD : P.float d = some D) (hN : P.float n = some N) :
    (∀ b y, Filled row "production_N_stdev" b → P.float b = some y →
      readKey P row "production_ND" = some (some (.list [D, N, y]))) ∧
    ((¬ ∃ b, Filled row "production_N_stdev" b) →
      readKey P row "production_ND" = some (some (.list [D, N, 0]))) := by
  have h1 : ("production_ND" : String) ≠ "location" := by decide +kernel
  have h2 : ("production_ND" : String) ≠ "measured_location" := by decide +kernel
  constructor
  · rintro b y hb hy
    simp [readKey, tuples, numberPair, hd.1, hn.1, hb.1, item, spread, floats, hd.2, hn.2, hb.2, hD, hN, hy,
      h1, h2]
  · intro h
    have hs : spread (row "production_N_stdev") = .zero := by
      rcases hr : row "production_N_stdev" with _ | _ | s
      · rfl
      · rfl
      · have : s = "" := by
          by_contra hs
          exact h ⟨s, hr, hs⟩
        simp [spread, this]
    simp [readKey, tuples, numberPair, hd.1, hn.1, item, hs, floats, hd.2, hn.2, hD, hN, h1, h2]

/-- C143 (order): a file that is read gives one crater for each row, the i-th from the i-th row. -/
theorem C143_rows {C : Type} (P : Parse) (keys : List String) (maker : List (String × Value) → Option C)
    (rows : List Row) (cs : List C) (h : readFile P keys maker rows = some cs) :
    cs.length = rows.length ∧
      ∀ (i : ℕ) (hi : i < rows.length), ∃ args, readRow P keys rows[i] = some args ∧
        maker args = cs[i]? := by
  induction rows generalizing cs with
  | nil =>
    simp only [readFile, Option.some.injEq] at h
    subst h
    simp
  | cons r rs ih =>
    simp only [readFile, Option.bind_eq_some_iff, Option.map_eq_some_iff] at h
    obtain ⟨c, ⟨args, h1, h2⟩, cs', h3, rfl⟩ := h
    obtain ⟨hl, hi⟩ := ih cs' h3
    refine ⟨by simp [hl], ?_⟩
    intro i hi'
    cases i with
    | zero => exact ⟨args, by simpa using h1, by simpa using h2⟩
    | succ j =>
      obtain ⟨a, ha, hb⟩ := hi j (by simpa using hi')
      exact ⟨a, by simpa using ha, by simpa using hb⟩

/-- C143 (columns): the arguments of a row are exactly the values of its columns. -/
theorem C143_arguments (P : Parse) (keys : List String) (row : Row) (args : List (String × Value))
    (h : readRow P keys row = some args) (k : String) (v : Value) :
    (k, v) ∈ args ↔ k ∈ keys ∧ readKey P row k = some (some v) := by
  induction keys generalizing args with
  | nil =>
    simp only [readRow, Option.some.injEq] at h
    subst h
    simp
  | cons a as ih =>
    have h' : ((readKey P row a).bind fun v => (readRow P as row).map fun l =>
      (v.map fun x => (a, x)).toList ++ l) = some args := h
    rw [Option.bind_eq_some_iff] at h'
    obtain ⟨w, hw, h'⟩ := h'
    rw [Option.map_eq_some_iff] at h'
    obtain ⟨l, hl, he⟩ := h'
    have := ih l hl
    cases w with
    | none =>
      simp only [Option.map_none, Option.map_some, Option.toList_none, Option.toList_some, List.nil_append, List.singleton_append] at he
      subst he
      rw [this, List.mem_cons]
      constructor
      · rintro ⟨h1, h2⟩
        exact ⟨Or.inr h1, h2⟩
      · rintro ⟨h1 | h1, h2⟩
        · rw [h1, hw] at h2
          simp at h2
        · exact ⟨h1, h2⟩
    | some x =>
      simp only [Option.map_none, Option.map_some, Option.toList_none, Option.toList_some, List.nil_append, List.singleton_append] at he
      subst he
      rw [List.mem_cons, this, List.mem_cons]
      constructor
      · rintro (h1 | ⟨h1, h2⟩)
        · cases h1
          exact ⟨Or.inl rfl, hw⟩
        · exact ⟨Or.inr h1, h2⟩
      · rintro ⟨h1 | h1, h2⟩
        · subst h1
          rw [hw] at h2
          simp only [Option.some.injEq] at h2
          exact Or.inl (by rw [h2])
        · exact Or.inr ⟨h1, h2⟩

/-- C143 refuted (text): a name that reads like a number, such as that of the asteroid or crater
"1054", does not come back as the text that was written: every such name is turned into a number. -/
theorem C143_name_fails (P : Parse) (row : Row) (s : String) (x : ℝ)
    (h : Filled row "name" s) (hx : P.float s = some x) :
    readKey P row "name" = some (some (.float x)) ∧ readKey P row "name" ≠ some (some (.text s)) := by
  have hk : ¬ isTuple "name" := by unfold isTuple; decide +kernel
  have h1 : ("name" : String) ≠ "id" := by decide +kernel
  have h2 : ("name" : String) ≠ "production_sequence" := by decide +kernel
  have e := (C143_cells_partial P row "name" hk).1 s x h h1 h2 hx
  exact ⟨e, by rw [e]; simp⟩

/-- A cell that is not a number in either column of a location makes reading fail, also when the other column does not exist. -/
theorem C143_unreadable (P : Parse) (row : Row) (c a : String) (hc : c = "longitude" ∨ c = "latitude")
    (ha : Filled row c a) (hx : P.float a = none) : readKey P row "location" = none := by
  have hf : ∀ l : List Item, Item.txt a ∈ l → floats P l = none := by
    intro l
    induction l with
    | nil => simp
    | cons x l ih =>
      intro h
      rcases List.mem_cons.mp h with h | h
      · subst h
        simp [floats, ha.2, hx]
      · have := ih h
        cases x <;> simp [floats, this]
  have ht : ∃ l, tuples row "location" = some l ∧ Item.txt a ∈ l := by
    refine ⟨["longitude", "latitude"].map fun c => item (row c), ?_, ?_⟩
    · rcases hc with rfl | rfl <;> simp [tuples, gather, ha.1]
    · rcases hc with rfl | rfl <;> simp [ha.1, item]
  obtain ⟨l, h1, h2⟩ := ht
  simp [readKey, h1, hf l h2]

/-- C143 refuted (pairs): a row with a longitude and an empty latitude is accepted without an error,
and the longitude is dropped: the crater gets no location from the file. -/
theorem C143_incomplete_fails (P : Parse) (row : Row) (a : String) (x : ℝ)
    (ha : Filled row "longitude" a) (hx : P.float a = some x) (hb : row "latitude" = some (some "")) :
    readKey P row "location" = some none := by
  simp [readKey, tuples, gather, ha.1, hb, item, floats, ha.2, hx]

/-- C143 refuted (integers): a sequence number in a cell that `int` rejects (for instance `3.0`, as
spreadsheets may write it) makes reading the whole file fail, whatever
the other rows hold. -/
theorem C143_integer_fails {C : Type} (P : Parse) (keys : List String)
    (maker : List (String × Value) → Option C) (row : Row) (s : String)
    (hk : "production_sequence" ∈ keys) (h : Filled row "production_sequence" s) (hn : P.int s = none)
    (before after : List Row) : readFile P keys maker (before ++ row :: after) = none := by
  have hr : readKey P row "production_sequence" = none := by
    have hk : ¬ isTuple "production_sequence" := by unfold isTuple; decide +kernel
    simp [readKey, tuples_none hk, h.1, h.2, hn]
  have hrow : readRow P keys row = none := by
    clear before after
    induction keys with
    | nil => simp at hk
    | cons a as ih =>
      show ((readKey P row a).bind fun v => (readRow P as row).map fun l =>
        (v.map fun x => (a, x)).toList ++ l) = none
      rcases List.mem_cons.1 hk with hk | hk
      · rw [← hk, hr]; rfl
      · rw [ih hk]
        cases readKey P row a <;> rfl
  induction before with
  | nil => simp [readFile, hrow]
  | cons b bs ih =>
    show (((readRow P keys b).bind maker).bind fun c =>
      (readFile P keys maker (bs ++ row :: after)).map (c :: ·)) = none
    rw [ih]
    cases (readRow P keys b).bind maker <;> rfl

/-! ### Non-vacuity -/

/-- A parser that knows a few texts. -/
noncomputable def sampleParse : Parse where
  int s := if s = "7" then some 7 else none
  float s := if s = "7" then some 7 else if s = "1054" then some 1054 else if s = "3.5" then some (7/2) else none

/-- A row with a name that is a number, a sequence number, a location and a time without spread. -/
def sampleRow : Row := fun c =>
  if c = "name" then some (some "1054") else if c = "production_sequence" then some (some "7")
  else if c = "longitude" then some (some "3.5") else if c = "latitude" then some (some "7")
  else if c = "production_time" then some (some "3.5")
  else if c = "morphology_type" then some (some "simple") else none

example : Filled sampleRow "name" "1054" ∧ sampleParse.float "1054" = some 1054 := by
  refine ⟨⟨?_, by decide +kernel⟩, ?_⟩
  · simp [sampleRow]
  · simp [sampleParse]

example : readKey sampleParse sampleRow "location" = some (some (.list [7/2, 7])) :=
  C143_location _ _ "3.5" "7" _ _ ⟨by simp [sampleRow], by decide +kernel⟩
    ⟨by simp [sampleRow], by decide +kernel⟩ (by simp [sampleParse]) (by simp [sampleParse])

example : readKey sampleParse sampleRow "production_time" = some (some (.list [7/2, 0])) :=
  (C143_time _ _ "3.5" _ ⟨by simp [sampleRow], by decide +kernel⟩ (by simp [sampleParse])).2
    (by rintro ⟨b, hb⟩; simp [Filled, sampleRow] at hb)

example : readKey sampleParse sampleRow "morphology_type" = some (some (.text "simple")) :=
  (C143_cells_partial _ _ _ (by unfold isTuple; decide +kernel)).2.2.1 "simple"
    ⟨by simp [sampleRow], by decide +kernel⟩ (by decide +kernel) (by decide +kernel) (by simp [sampleParse])

example : ∃ l, readFile sampleParse ["production_sequence", "location"] some [sampleRow, sampleRow] = some l ∧
    l.length = 2 := by
  have h1 : readKey sampleParse sampleRow "location" = some (some (.list [7/2, 7])) :=
    C143_location _ _ "3.5" "7" _ _ ⟨by simp [sampleRow], by decide +kernel⟩
      ⟨by simp [sampleRow], by decide +kernel⟩ (by simp [sampleParse]) (by simp [sampleParse])
  have h2 : readKey sampleParse sampleRow "production_sequence" = some (some (.int 7)) :=
    (C143_cells_partial _ _ _ (by unfold isTuple; decide +kernel)).2.1 "7" 7
      ⟨by simp [sampleRow], by decide +kernel⟩ (Or.inr rfl) (by simp [sampleParse])
  simp [readFile, readRow, h1, h2]

end Verif.CsvRead
