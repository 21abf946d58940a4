import Verif.Model.Shapefile
import Mathlib.Data.List.Nodup
import Mathlib.Tactic.Linarith

/-! C161: columns of exported vector files. -/

namespace Verif.Shapefile

/-- None of the long names occurs in a name. -/
def Plain (k : Name) : Prop := ∀ p ∈ altNames, ¬ p.1 <:+: k

/-- No upper-case letters. -/
def NoUpper (k : Name) : Prop := ∀ c ∈ k, c.isUpper = false

theorem replaceAll_plain (pat rep : Name) (n : ℕ) (l : Name) (h : ¬ pat <:+: l) : replaceAll pat rep n l = l := by
  induction n generalizing l with
  | zero => rfl
  | succ n ih =>
    cases l with
    | nil => rfl
    | cons c l =>
      unfold replaceAll
      rw [if_neg, ih l fun hc => h (hc.trans (List.suffix_cons c l).isInfix)]
      intro hc
      exact h (List.isPrefixOf_iff_prefix.mp hc).isInfix

theorem shpKeyFix_plain (k : Name) (h : Plain k) : shpKeyFix k = upper (k.take 10) := by
  unfold shpKeyFix
  congr 2
  have : ∀ l : List (Name × Name), (∀ p ∈ l, ¬ p.1 <:+: k) →
      l.foldl (fun k p => replaceAll p.1 p.2 k.length k) k = k := by
    intro l hl
    induction l with
    | nil => rfl
    | cons p l ih =>
      rw [List.foldl_cons, replaceAll_plain _ _ _ _ (hl p (by simp))]
      exact ih fun q hq => hl q (List.mem_cons_of_mem _ hq)
  exact this altNames h

theorem lower_upper (c : Char) (h : c.isUpper = false) : c.toUpper.toLower = c := by
  by_cases h1 : 'a'.val ≤ c.val ∧ c.val ≤ 'z'.val
  · have e : c.toUpper.val = c.val + ('A'.val - 'a'.val) := by
      unfold Char.toUpper; rw [dif_pos h1]
    apply Char.ext
    obtain ⟨ha, hb⟩ := h1
    have ha' : 97 ≤ c.val.toNat := ha
    have hb' : c.val.toNat ≤ 122 := hb
    have e1 : c.toUpper.val.toNat = c.val.toNat - 32 := by
      rw [e, UInt32.toNat_add]
      have : ('A'.val - 'a'.val).toNat = 4294967264 := by decide
      rw [this]; omega
    have h2 : c.toUpper.val ≥ 'A'.val ∧ c.toUpper.val ≤ 'Z'.val := by
      constructor
      · show 65 ≤ c.toUpper.val.toNat; omega
      · show c.toUpper.val.toNat ≤ 90; omega
    have e2 : c.toUpper.toLower.val = c.toUpper.val + ('a'.val - 'A'.val) := by
      conv_lhs => unfold Char.toLower
      rw [dif_pos h2]
    rw [e2]
    apply UInt32.toNat_inj.mp
    rw [UInt32.toNat_add, e1]
    have : ('a'.val - 'A'.val).toNat = 32 := by decide
    rw [this]; omega
  · have e : c.toUpper = c := by unfold Char.toUpper; rw [dif_neg h1]
    rw [e]
    unfold Char.toLower
    rw [dif_neg]
    intro h2
    unfold Char.isUpper at h
    rw [decide_eq_false_iff_not] at h
    exact h h2

theorem upper_inj (a b : Name) (ha : NoUpper a) (hb : NoUpper b) (h : upper a = upper b) : a = b := by
  have e : ∀ l : Name, NoUpper l → (upper l).map Char.toLower = l := by
    intro l hl
    unfold upper
    rw [List.map_map]
    conv_rhs => rw [← List.map_id l]
    apply List.map_congr_left
    intro c hc
    exact lower_upper c (hl c hc)
  rw [← e a ha, ← e b hb, h]

theorem sublist_flatMap (p : Var → Bool) (l : List Var) :
    ((l.filter p).flatMap expand).Sublist (l.flatMap expand) := by
  induction l with
  | nil => exact List.Sublist.refl _
  | cons v l ih =>
    rw [List.filter_cons]
    split_ifs
    · rw [List.flatMap_cons, List.flatMap_cons]
      exact (List.Sublist.refl _).append ih
    · rw [List.flatMap_cons]
      exact ih.trans (List.sublist_append_right _ _)

/-- Names in lower case with at most ten characters that contain none of the long names keep columns of their
own, whatever their number. -/
theorem C161_short_partial (driver : String) (vars : List Var)
    (hnd : ("geometry".toList :: vars.flatMap expand).Nodup)
    (hshort : ∀ k ∈ vars.flatMap expand, k.length ≤ 10) (hplain : ∀ k ∈ vars.flatMap expand, Plain k)
    (hlow : ∀ k ∈ vars.flatMap expand, NoUpper k) : (columns driver vars).Nodup := by
  unfold columns
  split_ifs with h
  · have hsub : ((vars.filter fun v => !("id".toList.isPrefixOf v.name)).flatMap expand).Sublist (vars.flatMap expand) :=
      sublist_flatMap _ _
    have hgeo : "geometry".toList.length ≤ 10 ∧ Plain "geometry".toList ∧ NoUpper "geometry".toList := by
      refine ⟨by decide +kernel, ?_, ?_⟩
      · unfold Plain; decide +kernel
      · unfold NoUpper; decide +kernel
    have hall : ∀ k ∈ "geometry".toList :: (vars.filter fun v => !("id".toList.isPrefixOf v.name)).flatMap expand,
        k.length ≤ 10 ∧ Plain k ∧ NoUpper k := by
      intro k hk
      rcases List.mem_cons.mp hk with rfl | hk
      · exact hgeo
      · exact ⟨hshort k (hsub.subset hk), hplain k (hsub.subset hk), hlow k (hsub.subset hk)⟩
    have hnd' := hnd.sublist (hsub.cons_cons "geometry".toList)
    refine (List.nodup_map_iff_inj_on hnd').mpr ?_
    intro a ha b hb e
    obtain ⟨a1, a2, a3⟩ := hall a ha
    obtain ⟨b1, b2, b3⟩ := hall b hb
    rw [shpKeyFix_plain a a2, shpKeyFix_plain b b2, List.take_of_length_le a1, List.take_of_length_le b1] at e
    exact upper_inj a b a3 b3 e
  · exact hnd

/-- Non-vacuity: two variables without layers and one with three. -/
example : let vars : List Var := [⟨"slope".toList, none⟩, ⟨"albedo".toList, none⟩, ⟨"tag".toList, some 3⟩]
    ("geometry".toList :: vars.flatMap expand).Nodup ∧ (∀ k ∈ vars.flatMap expand, k.length ≤ 10) ∧
    (∀ k ∈ vars.flatMap expand, Plain k) ∧ ∀ k ∈ vars.flatMap expand, NoUpper k := by
  unfold Plain NoUpper
  decide +kernel

theorem twoDigits_head (k : ℕ) (hk : k < 10) : ∃ l, twoDigits k = '0' :: l := by
  unfold twoDigits
  rw [if_pos hk]
  exact ⟨_, rfl⟩

/-- The layers of a variable whose name has nine characters or more all get the same column in a shapefile:
what tells them apart is cut off. -/
theorem C161_layers_fails (name : Name) (h9 : 9 ≤ name.length) (j k : ℕ) (hj : j < 10) (hk : k < 10)
    (pj : Plain (name ++ twoDigits j)) (pk : Plain (name ++ twoDigits k)) :
    shpKeyFix (name ++ twoDigits j) = shpKeyFix (name ++ twoDigits k) := by
  rw [shpKeyFix_plain _ pj, shpKeyFix_plain _ pk]
  obtain ⟨a, ea⟩ := twoDigits_head j hj
  obtain ⟨b, eb⟩ := twoDigits_head k hk
  congr 1
  rw [ea, eb]
  have e : ∀ l : Name, (name ++ '0' :: l).take 10 = (name ++ ['0']).take 10 := by
    intro l
    rw [show name ++ '0' :: l = (name ++ ['0']) ++ l by simp]
    rw [List.take_append_of_le_length (by simp; omega)]
  rw [e a, e b]

/-- In particular those of the ids of the craters that a surface carries as soon as craters are counted: with
two layers or more the columns of a shapefile are never distinct.  The rule that leaves out variables whose
names start with `id` does not apply to `crater_id`. -/
theorem C161_crater_id_fails (driver : String) (hd : driverName driver = "ESRI Shapefile") (vars : List Var) (n : ℕ)
    (hn : 2 ≤ n) (h : (⟨"crater_id".toList, some n⟩ : Var) ∈ vars) : ¬ (columns driver vars).Nodup := by
  unfold columns
  rw [if_pos hd]
  intro hnd
  rw [List.map_cons, List.nodup_cons] at hnd
  have h1 := hnd.2
  have hid : (!("id".toList.isPrefixOf "crater_id".toList)) = true := by decide +kernel
  have hm : (⟨"crater_id".toList, some n⟩ : Var) ∈ vars.filter fun v => !("id".toList.isPrefixOf v.name) :=
    List.mem_filter.mpr ⟨h, hid⟩
  obtain ⟨l1, l2, e⟩ := List.append_of_mem hm
  rw [e, List.flatMap_append, List.flatMap_cons, List.map_append, List.map_append] at h1
  have h2 := (List.nodup_append.mp (List.nodup_append.mp h1).2.1).1
  unfold expand at h2
  dsimp only at h2
  rw [List.map_map] at h2
  have h3 := List.inj_on_of_nodup_map h2 (List.mem_range.mpr (by omega : 0 < n)) (List.mem_range.mpr (by omega : 1 < n))
    (C161_layers_fails "crater_id".toList (by decide +kernel) 0 1 (by norm_num) (by norm_num)
      (by unfold Plain; decide +kernel) (by unfold Plain; decide +kernel))
  exact absurd h3 (by decide)

/-- Non-vacuity: the alias, and the eight layers of the default. -/
example : driverName "shp" = "ESRI Shapefile" ∧
    (columns "shp" [⟨"face_elevation".toList, none⟩, ⟨"crater_id".toList, some 8⟩]).map String.ofList =
      ["GEOMETRY", "FACEELEV", "CRATER_ID0", "CRATER_ID0", "CRATER_ID0", "CRATER_ID0", "CRATER_ID0", "CRATER_ID0",
        "CRATER_ID0", "CRATER_ID0"] := by
  decide +kernel

theorem upper_no_lower (l : Name) (c : Char) (hc : c ∈ upper l) : c.isLower = false := by
  unfold upper at hc
  rw [List.mem_map] at hc
  obtain ⟨d, _, rfl⟩ := hc
  by_cases h1 : 'a'.val ≤ d.val ∧ d.val ≤ 'z'.val
  · have e : d.toUpper.val = d.val + ('A'.val - 'a'.val) := by
      unfold Char.toUpper; rw [dif_pos h1]
    have ha' : 97 ≤ d.val.toNat := h1.1
    have hb' : d.val.toNat ≤ 122 := h1.2
    have e1 : d.toUpper.val.toNat = d.val.toNat - 32 := by
      rw [e, UInt32.toNat_add]
      have : ('A'.val - 'a'.val).toNat = 4294967264 := by decide
      rw [this]; omega
    unfold Char.isLower
    rw [Bool.and_eq_false_iff]
    left
    rw [decide_eq_false_iff_not]
    intro h2
    have h2' : 97 ≤ d.toUpper.val.toNat := h2
    omega
  · have e : d.toUpper = d := by unfold Char.toUpper; rw [dif_neg h1]
    rw [e]
    unfold Char.isLower
    rw [Bool.and_eq_false_iff, decide_eq_false_iff_not, decide_eq_false_iff_not]
    by_contra hc
    push Not at hc
    exact h1 ⟨hc.1, hc.2⟩

/-- The column of the geometry is renamed as well: in a shapefile's table no column is called `geometry`, for
any variables. -/
theorem C161_geometry_fails (driver : String) (hd : driverName driver = "ESRI Shapefile") (vars : List Var) :
    "geometry".toList ∉ columns driver vars := by
  unfold columns
  rw [if_pos hd]
  intro h
  rw [List.mem_map] at h
  obtain ⟨k, _, e⟩ := h
  have := upper_no_lower ((altNames.foldl (fun k p => replaceAll p.1 p.2 k.length k) k).take 10) 'g' (by
    have e' : upper ((altNames.foldl (fun k p => replaceAll p.1 p.2 k.length k) k).take 10) = "geometry".toList := e
    rw [e']
    decide +kernel)
  exact absurd this (by decide)

/-- The limit of ten characters is kept, whatever the names. -/
theorem C161_ten (driver : String) (hd : driverName driver = "ESRI Shapefile") (vars : List Var) :
    ∀ k ∈ columns driver vars, k.length ≤ 10 ∧ ∀ c ∈ k, c.isLower = false := by
  unfold columns
  rw [if_pos hd]
  intro k hk
  rw [List.mem_map] at hk
  obtain ⟨a, _, rfl⟩ := hk
  constructor
  · unfold shpKeyFix upper
    rw [List.length_map, List.length_take]
    omega
  · exact fun c hc => upper_no_lower _ c hc

/-- The limit is not kept for any other spelling of the driver, which is accepted as well: all names are written as they are. -/
theorem C161_spelling_fails (driver : String) (hu : driver.toUpper = "ESRI SHAPEFILE") (hn : driver ≠ "ESRI Shapefile") (vars : List Var) :
    columns driver vars = "geometry".toList :: vars.flatMap expand := by
  have h : driverName driver ≠ "ESRI Shapefile" := by
    unfold driverName
    rw [hu]
    simpa using hn
  unfold columns
  rw [if_neg h]

/-- Such a spelling, and a name that is too long. -/
example : "esri shapefile".toUpper = "ESRI SHAPEFILE" ∧ "esri shapefile" ≠ "ESRI Shapefile" ∧
    columns "esri shapefile" [⟨"face_elevation".toList, none⟩] = ["geometry".toList, "face_elevation".toList] := by
  decide +kernel

/-- The names of the usual variables, longer than ten characters. -/
def standard : List Name :=
  ["face_elevation".toList, "face_distance".toList, "face_bearing".toList, "face_indices".toList]

/-- The columns of the usual variables in a shapefile, for every spelling of the driver: the documented short names in capitals, and the others in the
same order without change of their selection. -/
theorem C161_names (driver : String) (hd : driverName driver = "ESRI Shapefile") (names : List Name) (hs : ∀ k ∈ names, k ∈ standard) :
    columns driver (names.map fun k => ⟨k, none⟩) = "GEOMETRY".toList :: names.map fun k =>
      if k = "face_elevation".toList then "FACEELEV".toList else if k = "face_distance".toList then "FACEDIS".toList
      else if k = "face_bearing".toList then "FACEBEARNG".toList else "FACEINDX".toList := by
  have hid : ∀ k ∈ standard, "id".toList.isPrefixOf k = false := by decide +kernel
  have hname : ∀ k ∈ standard, shpKeyFix k = if k = "face_elevation".toList then "FACEELEV".toList
      else if k = "face_distance".toList then "FACEDIS".toList
      else if k = "face_bearing".toList then "FACEBEARNG".toList else "FACEINDX".toList := by decide +kernel
  have hgeo : shpKeyFix "geometry".toList = "GEOMETRY".toList := by decide +kernel
  unfold columns
  rw [if_pos hd, List.map_cons, hgeo]
  congr 1
  induction names with
  | nil => rfl
  | cons a l ih =>
    have ha := hs a (by simp)
    rw [List.map_cons, List.map_cons, ← hname a ha, ← ih fun k hk => hs k (List.mem_cons_of_mem _ hk),
      List.filter_cons_of_pos (by simp only [hid a ha]; rfl), List.flatMap_cons, List.map_append]
    rfl

/-- The usual variables on the faces keep different columns, in any selection and order.  Missing for the full property: other long names,
see the theorems above. -/
theorem C161_standard_partial (driver : String) (names : List Name) (hn : names.Nodup) (hs : ∀ k ∈ names, k ∈ standard) :
    (columns driver (names.map fun k => ⟨k, none⟩)).Nodup ∧
      (columns driver (names.map fun k => ⟨k, none⟩)).length = names.length + 1 := by
  have hflat : (names.map fun k => (⟨k, none⟩ : Var)).flatMap expand = names := by
    induction names with
    | nil => rfl
    | cons a l ih =>
      rw [List.map_cons, List.flatMap_cons, ih (List.nodup_cons.1 hn).2 fun k hk => hs k (List.mem_cons_of_mem _ hk)]
      rfl
  have hid : ∀ k ∈ standard, "id".toList.isPrefixOf k = false := by decide +kernel
  have hgeo : "geometry".toList ∉ standard := by decide +kernel
  have hinj : ∀ j ∈ "geometry".toList :: standard, ∀ k ∈ "geometry".toList :: standard, shpKeyFix j = shpKeyFix k → j = k := by
    decide +kernel
  have hfilter : (names.map fun k => (⟨k, none⟩ : Var)).filter (fun v => !("id".toList.isPrefixOf v.name)) =
      names.map fun k => (⟨k, none⟩ : Var) := by
    rw [List.filter_eq_self]
    intro v hv
    obtain ⟨k, hk, rfl⟩ := List.mem_map.1 hv
    simp only [hid k (hs k hk), Bool.not_false]
  have hall : ("geometry".toList :: names).Nodup := List.nodup_cons.2 ⟨fun h => hgeo (hs _ h), hn⟩
  unfold columns
  split_ifs with hd
  · rw [hfilter, hflat]
    refine ⟨List.Nodup.map_on ?_ hall, by simp⟩
    intro j hj k hk h
    have up : ∀ x ∈ "geometry".toList :: names, x ∈ "geometry".toList :: standard := by
      intro x hx
      rcases List.mem_cons.1 hx with e | e
      · rw [e]; exact List.mem_cons_self
      · exact List.mem_cons_of_mem _ (hs x e)
    exact hinj j (up j hj) k (up k hk) h
  · rw [hflat]
    exact ⟨hall, by simp⟩

example : (["face_bearing".toList, "face_elevation".toList] : List Name).Nodup ∧
    ∀ k ∈ (["face_bearing".toList, "face_elevation".toList] : List Name), k ∈ standard := by decide +kernel

/-- The short name of the format works in capitals or small letters. -/
theorem C161_alias (driver : String) (h : driver.toUpper = "SHP") (vars : List Var) :
    columns driver vars = columns "ESRI Shapefile" vars := by
  have h1 : driverName driver = "ESRI Shapefile" := by unfold driverName; rw [if_pos h]
  have h2 : driverName "ESRI Shapefile" = "ESRI Shapefile" := by
    unfold driverName
    split_ifs <;> rfl
  unfold columns
  rw [h1, h2]

example : "Shp".toUpper = "SHP" := by decide +kernel

end Verif.Shapefile
