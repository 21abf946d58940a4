import Verif.Model.Export
import Mathlib.Data.String.Basic
import Mathlib.Tactic.Linarith

/-! Properties C121-C124: exporting crater lists and loading crater files. -/

namespace Verif.Export

variable {K : Type}

/-! ### Exported files -/

/-- The formats that are written. -/
def Format (driver : String) : Prop := driver.toUpper ∈ ["SCC", "VTK", "VTP", "CSV"]

theorem lookup_mem {l : List (ℤ × List K)} (hd : (l.map Prod.fst).Nodup) {i : ℤ} {cs : List K} (h : (i, cs) ∈ l) :
    l.lookup i = some cs := by
  induction l with
  | nil => simp at h
  | cons e l ih =>
    obtain ⟨j, ds⟩ := e
    simp only [List.map_cons, List.nodup_cons] at hd
    rcases List.mem_cons.mp h with h | h'
    · simp only [Prod.mk.injEq] at h
      obtain ⟨rfl, rfl⟩ := h
      simp [List.lookup]
    · have hne : i ≠ j := by
        rintro rfl
        exact hd.1 (List.mem_map_of_mem (f := Prod.fst) h')
      rw [List.lookup_cons]
      have : (i == j) = false := by simpa using hne
      simp [this, ih hd.2 h']

theorem writeOne_format {driver : String} (hd : Format driver) (kind : Kind) (l : List (ℤ × List K)) (i : ℤ) :
    writeOne driver.toUpper kind (.intervals l) i = [⟨kind, i, (l.lookup i).getD []⟩] := by
  have h : (driver.toUpper = "SCC" ∨ driver.toUpper = "VTK" ∨ driver.toUpper = "VTP" ∨ driver.toUpper = "CSV") := by
    unfold Format at hd
    simpa using hd
  unfold writeOne
  rcases h with h | h | h | h <;> simp [h, Read.there, cratersOf]

/-- The files of an export of one list. -/
theorem exportKind_format {driver : String} (hd : Format driver) (kind : Kind) (l : List (ℤ × List K))
    (hn : (l.map Prod.fst).Nodup) (interval : Option ℤ) :
    (exportKind driver.toUpper kind (.intervals l) interval).1 = l.map fun e => ⟨kind, e.1, e.2⟩ := by
  unfold exportKind numbers
  simp only
  rw [List.flatMap_map]
  have : ∀ e ∈ l, writeOne driver.toUpper kind (.intervals l) e.1 = [⟨kind, e.1, e.2⟩] := by
    intro e he
    rw [writeOne_format hd, lookup_mem hn he]
    rfl
  have h2 : ∀ m : List (ℤ × List K), (∀ e ∈ m, writeOne driver.toUpper kind (.intervals l) e.1 = [⟨kind, e.1, e.2⟩]) →
      m.flatMap (fun e => writeOne driver.toUpper kind (.intervals l) e.1) = m.map fun e => ⟨kind, e.1, e.2⟩ := by
    intro m
    induction m with
    | nil => simp
    | cons e m ih =>
      intro h
      rw [List.flatMap_cons, h e (by simp), ih (fun e he => h e (by simp [he]))]
      rfl
  exact h2 l this

/-- **C121, part.**  With an SCC, VTK, VTP or CSV driver, in any spelling, an export writes for every list asked for and every saved
interval of it one file with exactly the craters of that interval, and leaves the asking mode as it was.  Missing: the vector
formats, see `C121_vector_fails`, and the asking mode after an error, see `C121_asking_fails`. -/
theorem C121_files_partial (ask : Bool) (askArg : Option Bool) (driver : String) (hd : Format driver) (ks : List Kind)
    (saved : Kind → List (ℤ × List K)) (hn : ∀ k, ((saved k).map Prod.fst).Nodup) (interval : Option ℤ) :
    exportAll ask askArg driver (some ks) (fun k => .intervals (saved k)) interval =
      (.files (ks.flatMap fun k => (saved k).map fun e => ⟨k, e.1, e.2⟩), ask) := by
  have hv : driver.toUpper ∈ validDrivers := by
    unfold validDrivers
    exact List.mem_append_left _ hd
  unfold exportAll
  rw [if_neg (by simpa using hv)]
  simp only
  have key : ∀ (ks : List Kind) (acc : List (Written K) × Option ℤ),
      (ks.foldl (fun (acc : List (Written K) × Option ℤ) k =>
        (acc.1 ++ (exportKind driver.toUpper k (.intervals (saved k)) acc.2).1,
          (exportKind driver.toUpper k (.intervals (saved k)) acc.2).2)) acc).1 =
      acc.1 ++ ks.flatMap fun k => (saved k).map fun e => ⟨k, e.1, e.2⟩ := by
    intro ks
    induction ks with
    | nil => simp
    | cons k ks ih =>
      intro acc
      rw [List.foldl_cons, ih, exportKind_format hd k _ (hn k), List.flatMap_cons, List.append_assoc]
  rw [key]
  simp

example : Format "csv" ∧ Format "SCC" ∧ ¬ Format "GPKG" := by
  refine ⟨?_, ?_, ?_⟩ <;> · unfold Format; decide +kernel

/-- **C121 fails** for the vector formats: the driver is listed as valid, the export ends without an error, and nothing is written. -/
theorem C121_vector_fails (ask : Bool) (askArg : Option Bool) (driver : String) (hv : driver.toUpper ∈ validDrivers)
    (hd : ¬ Format driver) (ks : List Kind) (read : Kind → Read K) (interval : Option ℤ) :
    exportAll ask askArg driver (some ks) read interval = (.files [], ask) := by
  have hw : ∀ (k : Kind) (r : Read K) (i : ℤ), writeOne driver.toUpper k r i = [] := by
    intro k r i
    unfold Format at hd
    simp only [List.mem_cons, List.not_mem_nil, or_false, not_or] at hd
    unfold writeOne
    simp [hd.1, hd.2.1, hd.2.2.1, hd.2.2.2]
  have hk : ∀ (k : Kind) (r : Read K) (i : Option ℤ), (exportKind driver.toUpper k r i).1 = [] := by
    intro k r i
    unfold exportKind
    simp [hw]
  unfold exportAll
  rw [if_neg (by simpa using hv)]
  simp only
  have key : ∀ (ks : List Kind) (acc : List (Written K) × Option ℤ),
      (ks.foldl (fun (acc : List (Written K) × Option ℤ) k =>
        (acc.1 ++ (exportKind driver.toUpper k (read k) acc.2).1, (exportKind driver.toUpper k (read k) acc.2).2)) acc).1 =
      acc.1 := by
    intro ks
    induction ks with
    | nil => simp
    | cons k ks ih =>
      intro acc
      rw [List.foldl_cons, ih, hk, List.append_nil]
  rw [key]

example : ("gpkg".toUpper ∈ validDrivers ∧ ¬ Format "gpkg") := by
  constructor
  · decide +kernel
  · unfold Format; decide +kernel

/-- When nothing was saved, an SCC export nevertheless writes a file without craters for every list asked for, with the number of
the interval asked for or zero; the other formats write nothing. -/
theorem C121_nothing (ask : Bool) (askArg : Option Bool) (driver : String) (hd : Format driver) (ks : List Kind)
    (interval : Option ℤ) :
    exportAll (K := K) ask askArg driver (some ks) (fun _ => .nothing) interval =
      (.files (if driver.toUpper = "SCC" then ks.map fun k => ⟨k, interval.getD 0, []⟩ else []), ask) := by
  have hv : driver.toUpper ∈ validDrivers := by
    unfold validDrivers
    exact List.mem_append_left _ hd
  have hw : ∀ (k : Kind) (i : ℤ), writeOne driver.toUpper k (.nothing : Read K) i =
      if driver.toUpper = "SCC" then [⟨k, i, []⟩] else [] := by
    intro k i
    simp [writeOne, Read.there, cratersOf]
  have hk : ∀ (k : Kind) (i : Option ℤ), (exportKind driver.toUpper k (.nothing : Read K) i).1 =
      (if driver.toUpper = "SCC" then [⟨k, i.getD 0, []⟩] else []) ∧
      (exportKind driver.toUpper k (.nothing : Read K) i).2.getD 0 = i.getD 0 := by
    intro k i
    unfold exportKind
    cases i <;> simp [numbers, hw]
  unfold exportAll
  rw [if_neg (by simpa using hv)]
  simp only
  have key : ∀ (ks : List Kind) (acc : List (Written K) × Option ℤ),
      (ks.foldl (fun (acc : List (Written K) × Option ℤ) k =>
        (acc.1 ++ (exportKind driver.toUpper k .nothing acc.2).1,
          (exportKind driver.toUpper k (.nothing : Read K) acc.2).2)) acc).1 =
      acc.1 ++ if driver.toUpper = "SCC" then ks.map fun k => ⟨k, acc.2.getD 0, []⟩ else [] := by
    intro ks
    induction ks with
    | nil => simp
    | cons k ks ih =>
      intro acc
      rw [List.foldl_cons, ih, (hk k acc.2).1, (hk k acc.2).2]
      split_ifs <;> simp
  rw [key]
  simp

/-- When the first of two lists was saved and the second was not, an SCC export writes the files of the first and a file without
craters for the second, whose number is the last interval of the first. -/
theorem C121_second (ask : Bool) (askArg : Option Bool) (driver : String) (hd : driver.toUpper = "SCC") (a b : Kind) (hab : a ≠ b)
    (l : List (ℤ × List K)) (hn : (l.map Prod.fst).Nodup) (last : ℤ × List K) (hl : last.1 ∉ l.map Prod.fst) (interval : Option ℤ) :
    exportAll ask askArg driver (some [a, b]) (fun k => if k = a then .intervals (l ++ [last]) else .nothing) interval =
      (.files ((l.map fun e => ⟨a, e.1, e.2⟩) ++ [⟨a, last.1, last.2⟩, ⟨b, last.1, []⟩]), ask) := by
  have hf : Format driver := by unfold Format; rw [hd]; simp
  have hv : driver.toUpper ∈ validDrivers := by
    unfold validDrivers
    exact List.mem_append_left _ hf
  have hn' : ((l ++ [last]).map Prod.fst).Nodup := by
    rw [List.map_append, List.nodup_append]
    refine ⟨hn, by simp, ?_⟩
    intro x hx y hy e
    simp only [List.map_cons, List.map_nil, List.mem_singleton] at hy
    exact hl (by rw [← hy, ← e]; exact hx)
  have h1 := exportKind_format hf a (l ++ [last]) hn' interval
  unfold exportAll
  rw [if_neg (by simpa using hv)]
  simp only [List.foldl_cons, List.foldl_nil, if_true, if_neg hab.symm, List.nil_append, h1]
  have h2 : (exportKind driver.toUpper a (.intervals (l ++ [last])) interval).2 = some last.1 := by
    simp [exportKind, numbers]
  rw [h2]
  simp [exportKind, numbers, writeOne, hd, cratersOf]

example : ∃ (l : List (ℤ × List ℕ)) (last : ℤ × List ℕ), (l.map Prod.fst).Nodup ∧ last.1 ∉ l.map Prod.fst ∧ l ≠ [] :=
  ⟨[(0, [1]), (1, [1, 2])], (2, [2]), by decide, by decide, by decide⟩

/-- **C121 fails** after an error: an unknown crater type is reported only after the asking mode has been set to the one asked for
in the call, which then stays. -/
theorem C121_asking_fails (read : Kind → Read K) (interval : Option ℤ) :
    ∃ ask askArg, exportAll (K := K) ask askArg "CSV" none read interval = (.valueError, !ask) := by
  refine ⟨true, some false, ?_⟩
  unfold exportAll
  rw [if_neg (by decide +kernel)]
  rfl

/-- With every driver that the guides name, an unknown crater type is an error and writes nothing. -/
theorem C121_type (ask : Bool) (askArg : Option Bool) (driver : String)
    (h : driver.toUpper ∈ ["SCC", "VTK", "VTP", "CSV", "GPKG", "ESRI SHAPEFILE", "GEOJSON", "KML", "GML"]) (read : Kind → Read K) (interval : Option ℤ) :
    (exportAll ask askArg driver none read interval).1 = .valueError := by
  have hv : driver.toUpper ∈ validDrivers := by
    revert h
    generalize driver.toUpper = u
    intro h
    simp only [List.mem_cons, List.not_mem_nil, or_false] at h
    rcases h with rfl | rfl | rfl | rfl | rfl | rfl | rfl | rfl | rfl <;> decide
  unfold exportAll
  rw [if_neg (by simpa using hv)]

/-- A driver listed in mixed case can never be asked for: names are compared in upper case. -/
theorem C121_mixed_case_fails : ("SQLite" ∈ validDrivers ∧ "PMTiles" ∈ validDrivers) ∧
    "SQLite".toUpper ∉ validDrivers ∧ "PMTiles".toUpper ∉ validDrivers := by
  decide +kernel

/-! ### The list to write -/

/-- **C122, part.**  Craters are written exactly for a list of craters, for a dataset, and without an argument for the emplaced
list; and then they are those given, in the same order.  Missing: the other documented forms, see `C122_fails`. -/
theorem C122_partial (current : Kind → List K) (kind : Kind) (g : Given K) (cs : List K) :
    check current kind g = .craters cs ↔
      g = .list cs ∨ g = .dataset cs ∨ g = .absent ∧ kind = .emplaced ∧ cs = current .emplaced := by
  unfold check
  cases g with
  | absent =>
    cases kind with
    | observed => cases current .observed <;> simp
    | emplaced => simp [eq_comm]
  | byId l => cases l <;> simp
  | byInterval l => cases l <;> simp
  | dataset l => simp
  | list l => simp
  | other => simp

/-- **C122 fails** for the current observed craters and for dictionaries, which are among the documented forms: whatever craters they
hold, none of them is written.  A dictionary of craters, such as the observed list, ends in an error about an unset variable; from
a dictionary of datasets the datasets come back in place of craters. -/
theorem C122_fails (current : Kind → List K) (kind : Kind) (l : List K) (m : List (ℕ × List K)) :
    (∀ cs, check current .observed .absent ≠ .craters cs) ∧ (∀ cs, check current kind (.byId l) ≠ .craters cs) ∧
    (∀ cs, check current kind (.byInterval m) ≠ .craters cs) := by
  refine ⟨?_, ?_, ?_⟩
  · intro cs
    unfold check
    cases current .observed <;> simp
  · intro cs
    unfold check
    cases l <;> simp
  · intro cs
    unfold check
    cases m <;> simp

/-! ### Style -/

/-- **C123, part.**  With the default style and measured properties the file holds the mesh asked for. -/
theorem C123_partial {M S : Type} (mesh : List K → S → Bool → M) (dflt : S) (cs : List K) :
    vtkFile mesh dflt cs dflt true = mesh cs dflt true := rfl

/-- **C123 fails.**  Whatever style is asked for, the file is the same; so wherever the style matters, some request is not
honoured. -/
theorem C123_fails {M S : Type} (mesh : List K → S → Bool → M) (dflt : S) (cs : List K)
    (h : ∃ style measured, mesh cs style measured ≠ mesh cs dflt true) :
    ∃ style measured, vtkFile mesh dflt cs style measured ≠ mesh cs style measured := by
  obtain ⟨style, measured, h⟩ := h
  exact ⟨style, measured, fun e => h e.symm⟩

example : ∃ (style : Bool) (measured : Bool), (fun (_ : List ℕ) (s : Bool) (m : Bool) => (s, m)) [] style measured ≠ (true, true) :=
  ⟨false, true, by simp⟩

/-! ### Loading by extension -/

/-- **C124, part.**  A file is read in the format of its extension, whatever the case of `nc` and `csv` and for `scc` in lower case. -/
theorem C124_partial (suffix : String) :
    (suffix.toLower = "nc" → fromFile suffix = .fromNetcdf) ∧ (suffix.toLower = "csv" → fromFile suffix = .fromCsv) ∧
    fromFile "scc" = .fromScc := by
  refine ⟨?_, ?_, by decide +kernel⟩
  · intro h; simp [fromFile, h]
  · intro h; simp [fromFile, h]

example : "NC".toLower = "nc" ∧ "Csv".toLower = "csv" := by decide +kernel

/-- **C124 fails.**  A crater count file in another spelling is refused although the extension was recognised, and for any other
extension an unset variable is returned, not an error about the format. -/
theorem C124_fails : fromFile "SCC" = .notScc ∧
    ∀ suffix : String, suffix.toLower ∉ ["nc", "csv", "scc"] → fromFile suffix = .unbound := by
  refine ⟨by decide +kernel, ?_⟩
  intro s h
  simp only [List.mem_cons, List.not_mem_nil, or_false, not_or] at h
  simp [fromFile, h.1, h.2.1, h.2.2]

example : "shp".toLower ∉ ["nc", "csv", "scc"] := by decide +kernel

end Verif.Export
