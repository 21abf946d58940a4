import Verif.Model.SurfaceExport
import Mathlib.Analysis.Real.Pi.Bounds
import Mathlib.Tactic.Linarith
import Mathlib.Tactic.FieldSimp
import Mathlib.Tactic.Positivity

/-! Properties C133 (exports leave saved states alone) and C134 (resolution of rasters). -/

namespace Verif.SurfaceExport

/-! ### Files -/

/-- The content of the file of an interval. -/
def content {D T : Type} (fs : Files D T) (k : ℤ) : Option (D × Option T) := (fs.lookup k).map fun s => (s.data, s.times)

/-- The intervals are in increasing order. -/
def Ordered {D T : Type} (fs : Files D T) : Prop := (fs.map Prod.fst).Pairwise (· < ·)

theorem lookup_put_self {D T : Type} (k : ℤ) (s : Snap D T) (fs : Files D T) : (put k s fs).lookup k = some s := by
  induction fs with
  | nil => simp [put]
  | cons p rest ih =>
    obtain ⟨i, t⟩ := p
    unfold put
    split_ifs with h1 h2
    · simp
    · simp
    · rw [List.lookup_cons]
      have : (k == i) = false := by simp [h2]
      rw [this]
      exact ih

theorem lookup_put_ne {D T : Type} (k j : ℤ) (s : Snap D T) (fs : Files D T) (h : j ≠ k) :
    (put k s fs).lookup j = fs.lookup j := by
  induction fs with
  | nil => simp [put, h]
  | cons p rest ih =>
    obtain ⟨i, t⟩ := p
    unfold put
    split_ifs with h1 h2
    · rw [List.lookup_cons]
      have : (j == k) = false := by simp [h]
      rw [this]
    · subst h2
      rw [List.lookup_cons, List.lookup_cons]
      have : (j == k) = false := by simp [h]
      rw [this]
    · rw [List.lookup_cons, List.lookup_cons]
      cases j == i with
      | true => rfl
      | false => exact ih

theorem mem_put {D T : Type} (k : ℤ) (s : Snap D T) (fs : Files D T) (p : ℤ × Snap D T) (h : p ∈ put k s fs) :
    p = (k, s) ∨ p ∈ fs := by
  induction fs with
  | nil => left; simpa [put] using h
  | cons q rest ih =>
    obtain ⟨i, t⟩ := q
    unfold put at h
    split_ifs at h with h1 h2
    · rcases List.mem_cons.mp h with h | h
      · exact Or.inl h
      · exact Or.inr h
    · rcases List.mem_cons.mp h with h | h
      · exact Or.inl h
      · exact Or.inr (List.mem_cons_of_mem _ h)
    · rcases List.mem_cons.mp h with h | h
      · exact Or.inr (h ▸ List.mem_cons_self)
      · rcases ih h with h | h
        · exact Or.inl h
        · exact Or.inr (List.mem_cons_of_mem _ h)

theorem ordered_put {D T : Type} (k : ℤ) (s : Snap D T) (fs : Files D T) (h : Ordered fs) : Ordered (put k s fs) := by
  induction fs with
  | nil => simp [Ordered, put]
  | cons p rest ih =>
    obtain ⟨i, t⟩ := p
    unfold Ordered at h ih ⊢
    rw [List.map_cons, List.pairwise_cons] at h
    unfold put
    split_ifs with h1 h2
    · rw [List.map_cons, List.map_cons, List.pairwise_cons, List.pairwise_cons]
      refine ⟨?_, h⟩
      intro j hj
      rcases List.mem_cons.mp hj with rfl | hj
      · exact h1
      · exact lt_trans h1 (h.1 j hj)
    · subst h2
      rw [List.map_cons, List.pairwise_cons]
      exact h
    · rw [List.map_cons, List.pairwise_cons]
      refine ⟨?_, ih h.2⟩
      intro j hj
      obtain ⟨p, hp, rfl⟩ := List.mem_map.mp hj
      rcases mem_put k s rest p hp with rfl | hp
      · show i < k
        omega
      · exact h.1 _ (List.mem_map_of_mem hp)

/-- C133 (all intervals): exporting without naming an interval changes no saved state, writes every saved state with its own data, and
leaves the asking mode as it was. -/
theorem C133_all_partial {D T : Type} (current : D) (fs : Files D T) (ask : Bool) (askArg : Option Bool) (driver : String)
    (hd : driver.toUpper ∈ knownDrivers) :
    (exportSurface current fs ask askArg driver none false).files = fs ∧
    (exportSurface current fs ask askArg driver none false).written = fs.map (fun p => (p.1, p.2.data)) ∧
    (exportSurface current fs ask askArg driver none false).ask = ask := by
  simp [exportSurface, hd, read]

/-- C133 (the present interval): exporting a simulation without naming an interval writes the present state under the present interval
number, and saves that state with its times; all other saved states stay as they were. -/
theorem C133_latest_partial {D T : Type} (current : D) (times : T) (now : ℤ) (hnow : 0 ≤ now) (fs : Files D T) (ask : Bool)
    (askArg : Option Bool) (driver : String) (hd : (surfaceDriver driver).toUpper ∈ knownDrivers) :
    (exportSim current times now fs ask askArg driver (some (-1))).written = [(now, current)] ∧
    content (exportSim current times now fs ask askArg driver (some (-1))).files now = some (current, some times) ∧
    (∀ k, k ≠ now → content (exportSim current times now fs ask askArg driver (some (-1))).files k = content fs k) ∧
    (exportSim current times now fs ask askArg driver (some (-1))).ask = ask := by
  have hi : now + 1 + -1 = now := by ring
  have hn : ¬ now < 0 := by omega
  have hfiles : (exportSim current times now fs ask askArg driver (some (-1))).files =
      save current none now (save current (some times) now fs) := by
    simp [exportSim, exportSurface, hd, hi]
  have h1 : ((save current (some times) now fs).lookup now) = some (merge ⟨current, some times⟩ (fs.lookup now)) :=
    lookup_put_self _ _ _
  have hm : merge (⟨current, some times⟩ : Snap D T) (fs.lookup now) = ⟨current, some times⟩ := by
    cases fs.lookup now <;> simp [merge]
  rw [hm] at h1
  have h2 : ((save current none now (save current (some times) now fs)).lookup now) = some ⟨current, some times⟩ := by
    rw [save, lookup_put_self, h1]
    simp [merge]
  refine ⟨?_, ?_, ?_, ?_⟩
  · simp [exportSim, exportSurface, hd, hi, read, hn, h2]
  · rw [hfiles, content, h2]
    rfl
  · intro k hk
    rw [hfiles, content, content, save, lookup_put_ne _ _ _ _ hk, save, lookup_put_ne _ _ _ _ hk]
  · simp [exportSim, exportSurface, hd, hi]

/-- C133 (an interval named): the saved states of the other intervals stay as they were; if the surface is in the state that was saved
for the interval, so does that one, and the export is made of it. -/
theorem C133_same_partial {D T : Type} (current : D) (fs : Files D T) (ask : Bool) (askArg : Option Bool) (driver : String)
    (hd : driver.toUpper ∈ knownDrivers) (k : ℤ) (hk : 0 ≤ k) :
    (∀ j, j ≠ k → content (exportSurface current fs ask askArg driver (some k) false).files j = content fs j) ∧
    (∀ t, content fs k = some (current, t) → content (exportSurface current fs ask askArg driver (some k) false).files k = content fs k ∧
      (exportSurface current fs ask askArg driver (some k) false).written = [(k, current)]) := by
  have hn : ¬ k < 0 := by omega
  have hfiles : (exportSurface current fs ask askArg driver (some k) false).files = save current none k fs := by
    simp [exportSurface, hd]
  refine ⟨?_, ?_⟩
  · intro j hj
    rw [hfiles, content, content, save, lookup_put_ne _ _ _ _ hj]
  · intro t ht
    have hl : ∃ s : Snap D T, fs.lookup k = some s ∧ s.data = current ∧ s.times = t := by
      unfold content at ht
      cases h : fs.lookup k with
      | none => rw [h] at ht; simp at ht
      | some s =>
        rw [h] at ht
        simp only [Option.map_some, Option.some.injEq, Prod.mk.injEq] at ht
        exact ⟨s, rfl, ht.1, ht.2⟩
    obtain ⟨s, hs, hsd, hst⟩ := hl
    have h2 : (save current none k fs).lookup k = some ⟨current, t⟩ := by
      rw [save, lookup_put_self, hs]
      simp [merge, hst]
    refine ⟨?_, ?_⟩
    · rw [hfiles, ht, content, h2]
      rfl
    · simp [exportSurface, hd, read, hn, h2]

/-- C133 (an earlier interval is lost): exporting an earlier interval by its number first saves the present surface under that number.
The saved state of the interval is gone, its times stay, and what is exported is the present surface. -/
theorem C133_overwrites_fails {D T : Type} (old current : D) (hne : old ≠ current) (t : Option T) (fs : Files D T) (ask : Bool)
    (askArg : Option Bool) (driver : String) (hd : driver.toUpper ∈ knownDrivers) (k : ℤ) (hk : 0 ≤ k)
    (h : content fs k = some (old, t)) :
    content (exportSurface current fs ask askArg driver (some k) false).files k = some (current, t) ∧
    content (exportSurface current fs ask askArg driver (some k) false).files k ≠ content fs k ∧
    (exportSurface current fs ask askArg driver (some k) false).written = [(k, current)] := by
  have hn : ¬ k < 0 := by omega
  obtain ⟨s, hs, hst⟩ : ∃ s : Snap D T, fs.lookup k = some s ∧ s.times = t := by
    unfold content at h
    cases h' : fs.lookup k with
    | none => rw [h'] at h; simp at h
    | some s =>
      rw [h'] at h
      simp only [Option.map_some, Option.some.injEq, Prod.mk.injEq] at h
      exact ⟨s, rfl, h.2⟩
  have h2 : (save current none k fs).lookup k = some ⟨current, t⟩ := by
    rw [save, lookup_put_self, hs]
    simp [merge, hst]
  have hc : content (exportSurface current fs ask askArg driver (some k) false).files k = some (current, t) := by
    have hfiles : (exportSurface current fs ask askArg driver (some k) false).files = save current none k fs := by
      simp [exportSurface, hd]
    rw [hfiles, content, h2]
    rfl
  refine ⟨hc, ?_, ?_⟩
  · rw [hc, h]
    intro he
    simp only [Option.some.injEq, Prod.mk.injEq, and_true] at he
    exact hne he.symm
  · simp [exportSurface, hd, read, hn, h2]

theorem put_first {D T : Type} (k : ℤ) (s : Snap D T) (fs : Files D T) (h : ∀ p ∈ fs, k < p.1) : put k s fs = (k, s) :: fs := by
  cases fs with
  | nil => rfl
  | cons p rest => simp [put, h p List.mem_cons_self]

theorem lookup_first {D T : Type} (k : ℤ) (fs : Files D T) (h : ∀ p ∈ fs, k < p.1) : fs.lookup k = none := by
  rw [List.lookup_eq_none_iff]
  intro p hp
  have := h p hp
  simp only [bne_iff_ne, ne_eq]
  omega

/-- C133 (a negative interval makes a new state): given to the surface, a negative number does not only count from the end: the present
surface is also saved as an interval of that number, which comes before all others. -/
theorem C133_negative_fails {D T : Type} (current : D) (fs : Files D T) (hfs : ∀ p ∈ fs, 0 ≤ p.1) (m : ℕ) (hm : 1 ≤ m) (hle : m ≤ fs.length)
    (ask : Bool) (askArg : Option Bool) (driver : String) (hd : driver.toUpper ∈ knownDrivers) :
    (exportSurface current fs ask askArg driver (some (-(m : ℤ))) false).files = (-(m : ℤ), ⟨current, none⟩) :: fs ∧
    ∃ p, fs[fs.length - m]? = some p ∧ (exportSurface current fs ask askArg driver (some (-(m : ℤ))) false).written = [(p.1, p.2.data)] := by
  have hlt : ∀ p ∈ fs, -(m : ℤ) < p.1 := fun p hp => by have := hfs p hp; omega
  have hs : save current none (-(m : ℤ)) fs = (-(m : ℤ), ⟨current, none⟩) :: fs := by
    rw [save, lookup_first _ _ hlt, put_first _ _ _ hlt]
    rfl
  constructor
  · simp [exportSurface, hd, hs]
  · have hi : fs.length - m < fs.length := by omega
    refine ⟨fs[fs.length - m], List.getElem?_eq_getElem hi, ?_⟩
    have hpos : 0 < m := hm
    have hle' : m ≤ fs.length + 1 := by omega
    have hidx : fs.length + 1 - m = (fs.length - m) + 1 := by omega
    simp [exportSurface, hd, hs, read, hpos, hle', hidx, List.getElem?_eq_getElem hi]

/-- Two saved states, and the last one asked for. -/
example : (exportSurface (D := ℕ) (T := ℕ) 12 [(0, ⟨10, some 9⟩), (1, ⟨11, some 8⟩)] true none "GPKG" (some (-1)) false).files.map Prod.fst = [-1, 0, 1] := by
  have h := (C133_negative_fails (D := ℕ) (T := ℕ) 12 [(0, ⟨10, some 9⟩), (1, ⟨11, some 8⟩)] (by simp) 1 le_rfl (by simp) true none "GPKG" (by decide +kernel)).1
  simp only [Nat.cast_one] at h
  rw [h]
  rfl

/-- C133 (an error changes the asking mode): if the writer raises an error, the asking mode given for one export stays. -/
theorem C133_ask_fails {D T : Type} (current : D) (fs : Files D T) (interval : Option ℤ) (ask given : Bool) (driver : String)
    (hd : driver.toUpper ∈ knownDrivers) : (exportSurface current fs ask (some given) driver interval true).ask = given := by
  simp [exportSurface, hd]

/-- An export with the default driver. -/
example : "GPKG".toUpper ∈ knownDrivers := by decide +kernel

/-- The drivers that can be named, as they are usually spelt: VTK, GeoTIFF, and those of the table of vector formats but two. -/
def drivers : List String :=
  ["VTK", "VTP", "GeoTIFF", "GTiff", "TIFF", "TIF", "PCIDSK", "PDS4", "PDF", "MBTiles", "ESRI Shapefile", "MapInfo File", "S57", "DGN", "CSV", "GML", "GPX",
   "KML", "GeoJSON", "GeoJSONSeq", "OGR_GMT", "GPKG", "WAsP", "OpenFileGDB", "DXF", "FlatGeobuf", "PGDump", "GPSBabel", "ODS", "XLSX", "JML", "VDV", "MVT",
   "JSONFG", "MiraMonVector"]

/-- C133 (names of drivers): the name of a driver is accepted in any mixture of upper and lower case, and then all saved states are exported. -/
theorem C133_names_partial {D T : Type} (current : D) (fs : Files D T) (ask : Bool) (askArg : Option Bool) (driver name : String)
    (hn : name ∈ drivers) (hd : driver.toUpper = name.toUpper) :
    (exportSurface current fs ask askArg driver none false).written = fs.map (fun p => (p.1, p.2.data)) := by
  have h : ∀ n ∈ drivers, n.toUpper ∈ knownDrivers := by decide +kernel
  exact (C133_all_partial current fs ask askArg driver (by rw [hd]; exact h name hn)).2.1

/-- A driver in lower case. -/
example : "GeoTIFF" ∈ drivers ∧ "geotiff".toUpper = "GeoTIFF".toUpper := by decide +kernel

/-- C133 (silence): a driver that is none of these writes nothing, reports nothing and is no error, although with an interval given the present surface is
saved.  The names of two drivers of the table are not in upper case, and the short name for shapefiles, which `to_vector_file` accepts, is not in the table. -/
theorem C133_silent_fails {D T : Type} (current : D) (fs : Files D T) (ask : Bool) (askArg : Option Bool) (raises : Bool) :
    (∀ driver interval, driver.toUpper ∉ knownDrivers → (exportSurface current fs ask askArg driver interval raises).written = []) ∧
    ∀ driver ∈ ["SQLite", "PMTiles", "SHP"], ∀ interval, (exportSurface current fs ask askArg driver interval raises).written = [] ∧
      ∀ k, interval = some k → content (exportSurface current fs ask askArg driver interval raises).files k =
        some (current, (content fs k).bind Prod.snd) := by
  have key : ∀ driver ∈ ["SQLite", "PMTiles", "SHP"], driver.toUpper ∉ knownDrivers := by decide +kernel
  refine ⟨fun driver interval h => by simp [exportSurface, h], fun driver hd interval => ⟨by simp [exportSurface, key driver hd], ?_⟩⟩
  rintro k rfl
  simp only [exportSurface, key driver hd, if_false, content, save, lookup_put_self, Option.map_some, merge]
  cases fs.lookup k <;> simp

/-- C133 (rasters replace files): the default export of a simulation writes a raster, and an existing raster is overwritten whatever the
user answers. -/
theorem C133_raster_fails (check : Bool) : overwritten (surfaceDriver "OpenCraterTool") check = true ∧
    overwritten "GPKG" false = false := by
  have h1 : (surfaceDriver "OpenCraterTool").toUpper ∈ ["GEOTIFF", "GTIFF", "TIFF", "TIF"] := by decide +kernel
  have h2 : "GPKG".toUpper ∉ ["GEOTIFF", "GTIFF", "TIFF", "TIF"] := by decide +kernel
  exact ⟨by simp only [overwritten, h1, if_true], by simp only [overwritten, h2, if_false]⟩

/-- The order of the files is kept by saving. -/
theorem ordered_save {D T : Type} (current : D) (times : Option T) (k : ℤ) (fs : Files D T) (h : Ordered fs) :
    Ordered (save current times k fs) := ordered_put _ _ _ h

/-- Three saved states; the simulation is in interval 2. -/
example : (exportSim (D := ℕ) (T := ℕ) 12 7 2 [(0, ⟨10, some 9⟩), (1, ⟨11, some 8⟩)] true none "OpenCraterTool" (some (-1))).written =
    [(2, 12)] :=
  (C133_latest_partial 12 7 2 (by decide) _ true none "OpenCraterTool" (by decide +kernel)).1

/-- An export of the first interval loses it. -/
example : content (exportSurface (D := ℕ) (T := ℕ) 12 [(0, ⟨10, some 9⟩), (1, ⟨11, some 8⟩)] true none "GPKG" (some 0) false).files 0 =
    some (12, some 9) :=
  (C133_overwrites_fails 10 12 (by decide) (some 9) _ true none "GPKG" (by decide +kernel) 0 le_rfl rfl).1

/-! ### Rasters -/

theorem globalDims_eq (n : ℕ) (hn : 0 < n) (r : ℝ) (hr : 0 < r) :
    globalDims n r = (⌈Real.sqrt (Real.pi * n)⌉₊, ⌈Real.sqrt (Real.pi * n) / 2⌉₊) := by
  have hn' : (0 : ℝ) < n := by exact_mod_cast hn
  have hpi := Real.pi_pos
  have hs : Real.sqrt (4 * Real.pi * r ^ 2 / n) = 2 * Real.pi * r / Real.sqrt (Real.pi * n) := by
    rw [show 4 * Real.pi * r ^ 2 / (n : ℝ) = (2 * Real.pi * r) ^ 2 / (Real.pi * n) by field_simp; ring,
      Real.sqrt_div (by positivity), Real.sqrt_sq (by positivity)]
  have hq : 0 < Real.sqrt (Real.pi * n) := by positivity
  unfold globalDims
  simp only [hs]
  have e1 : (180 - (-180)) / (180 * (2 * Real.pi * r / Real.sqrt (Real.pi * n)) / (Real.pi * r)) = Real.sqrt (Real.pi * n) := by
    field_simp
    norm_num
  have e2 : (90 - (-90)) / (180 * (2 * Real.pi * r / Real.sqrt (Real.pi * n)) / (Real.pi * r)) = Real.sqrt (Real.pi * n) / 2 := by
    field_simp
    norm_num
  rw [e1, e2]

/-- C134 (the whole body): the raster of a surface has more pixels than the surface has faces; along the equator and along a meridian
no pixel is wider than the side of a square of the mean area of a face, and they are at least as high as they are wide. -/
theorem C134_global (n : ℕ) (hn : 0 < n) (r : ℝ) (hr : 0 < r) :
    n < (globalDims n r).1 * (globalDims n r).2 ∧
    (globalPixel n r).1 * (Real.pi / 180 * r) ≤ Real.sqrt (4 * Real.pi * r ^ 2 / n) ∧
    (globalPixel n r).2 * (Real.pi / 180 * r) ≤ Real.sqrt (4 * Real.pi * r ^ 2 / n) ∧
    (globalDims n r).1 ≤ 2 * (globalDims n r).2 := by
  have hn' : (1 : ℝ) ≤ n := by exact_mod_cast hn
  have hpi := Real.pi_gt_three
  have hs : Real.sqrt (4 * Real.pi * r ^ 2 / n) = 2 * Real.pi * r / Real.sqrt (Real.pi * n) := by
    rw [show 4 * Real.pi * r ^ 2 / (n : ℝ) = (2 * Real.pi * r) ^ 2 / (Real.pi * n) by field_simp; ring,
      Real.sqrt_div (by positivity), Real.sqrt_sq (by positivity)]
  have hq : 0 < Real.sqrt (Real.pi * n) := by positivity
  have hW := Nat.le_ceil (Real.sqrt (Real.pi * n))
  have hH := Nat.le_ceil (Real.sqrt (Real.pi * n) / 2)
  have hW0 : 0 < ⌈Real.sqrt (Real.pi * n)⌉₊ := Nat.ceil_pos.mpr hq
  have hH0 : 0 < ⌈Real.sqrt (Real.pi * n) / 2⌉₊ := Nat.ceil_pos.mpr (by positivity)
  unfold globalPixel
  rw [globalDims_eq n hn r hr, hs]
  simp only
  refine ⟨?_, ?_, ?_, ?_⟩
  · have hsq : Real.sqrt (Real.pi * n) * Real.sqrt (Real.pi * n) = Real.pi * n := Real.mul_self_sqrt (by positivity)
    have : (n : ℝ) < (⌈Real.sqrt (Real.pi * n)⌉₊ : ℝ) * (⌈Real.sqrt (Real.pi * n) / 2⌉₊ : ℝ) := by
      calc (n : ℝ) < Real.sqrt (Real.pi * n) * (Real.sqrt (Real.pi * n) / 2) := by nlinarith
        _ ≤ _ := mul_le_mul hW hH (by positivity) (Nat.cast_nonneg _)
    exact_mod_cast this
  · have h0 : (0 : ℝ) < ⌈Real.sqrt (Real.pi * n)⌉₊ := by exact_mod_cast hW0
    rw [show 360 / (⌈Real.sqrt (Real.pi * n)⌉₊ : ℝ) * (Real.pi / 180 * r) = 2 * Real.pi * r / ⌈Real.sqrt (Real.pi * n)⌉₊ by
      field_simp; norm_num]
    exact div_le_div_of_nonneg_left (by positivity) hq hW
  · have h0 : (0 : ℝ) < ⌈Real.sqrt (Real.pi * n) / 2⌉₊ := by exact_mod_cast hH0
    rw [show 180 / (⌈Real.sqrt (Real.pi * n) / 2⌉₊ : ℝ) * (Real.pi / 180 * r) =
      2 * Real.pi * r / (2 * ⌈Real.sqrt (Real.pi * n) / 2⌉₊) by field_simp]
    exact div_le_div_of_nonneg_left (by positivity) hq (by linarith)
  · rw [Nat.ceil_le]
    push_cast
    linarith

/-- C134 (regions): a pixel of the raster of a region is at most wider than a face by the part four faces have of the radius of the
region. -/
theorem C134_region_partial (region pix : ℝ) (hr : 0 < region) (hp : 0 < pix) :
    localPixel region pix ≤ pix * (1 + 4 * pix / region) := by
  have h1 : 2 * region / pix ≤ localDim region pix := by
    have := Nat.le_ceil (2 * region / pix)
    have h2 : ((⌈2 * region / pix⌉₊ : ℕ) : ℝ) ≤ (localDim region pix : ℝ) := by exact_mod_cast le_max_right _ _
    linarith
  have h0 : 0 < 2 * region / pix := by positivity
  unfold localPixel
  rw [div_le_iff₀ (by linarith)]
  calc 2 * (region + 4 * pix) = pix * (1 + 4 * pix / region) * (2 * region / pix) := by field_simp
    _ ≤ _ := mul_le_mul_of_nonneg_left h1 (by positivity)

/-- C134 (regions are blurred): the border of four faces is added to the extent of the raster but not to its number of pixels, so that
every pixel is wider than a face whenever the region is a whole number of faces across; for a region ten faces across it is 1.8 faces
wide. -/
theorem C134_border_fails (m : ℕ) (hm : 0 < m) (pix : ℝ) (hp : 0 < pix) :
    localPixel (m * pix / 2) pix = pix * (1 + 8 / m) ∧ pix < localPixel (m * pix / 2) pix := by
  have hm' : (0 : ℝ) < m := by exact_mod_cast hm
  have hd : localDim (m * pix / 2) pix = m := by
    unfold localDim
    rw [show 2 * (m * pix / 2) / pix = (m : ℝ) by field_simp, Nat.ceil_natCast]
    omega
  have he : localPixel (m * pix / 2) pix = pix * (1 + 8 / m) := by
    unfold localPixel
    rw [hd]
    field_simp
    ring
  refine ⟨he, ?_⟩
  rw [he]
  have : 0 < 8 / (m : ℝ) := by positivity
  nlinarith

example : localPixel 500 100 = 180 := by
  have := (C134_border_fails 10 (by norm_num) 100 (by norm_num)).1
  norm_num at this
  exact this

end Verif.SurfaceExport
