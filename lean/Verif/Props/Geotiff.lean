import Verif.Model.Geotiff
import Verif.Props.Files

/-!
# C201, C202: raster files
-/

namespace Verif.Geotiff

open Files

theorem fileName_inj {a b : Bool} {j k : ℕ} (h : fileName a j = fileName b k) : a = b ∧ j = k := by
  cases a <;> cases b
  · exact ⟨rfl, C03_filename_injective _ _ _ _ _ h⟩
  · exfalso
    have := congrArg List.head? h
    simp [fileName, outputFilename] at this
  · exfalso
    have := congrArg List.head? h
    simp [fileName, outputFilename] at this
  · exact ⟨rfl, C03_filename_injective _ _ _ _ _ h⟩

theorem fold_spec {D R : Type} (isLocal : Bool) (f : (List Char → Option D) → R) (l : Saved D) (hl : (l.map Prod.fst).Nodup) :
    ∀ d : Disk R, (∀ p ∈ l, l.foldl (fun d p => put d (fileName isLocal p.1) (f p.2)) d (fileName isLocal p.1) = some (f p.2)) ∧
      ∀ n, (∀ p ∈ l, n ≠ fileName isLocal p.1) → l.foldl (fun d p => put d (fileName isLocal p.1) (f p.2)) d n = d n := by
  induction l with
  | nil => intro d; exact ⟨by simp, by simp⟩
  | cons x l ih =>
    intro d
    rw [List.map_cons, List.nodup_cons] at hl
    obtain ⟨h1, h2⟩ := ih hl.2 (put d (fileName isLocal x.1) (f x.2))
    refine ⟨?_, ?_⟩
    · intro p hp
      rcases List.mem_cons.1 hp with rfl | hp
      · rw [List.foldl_cons, h2 _ fun q hq hn => hl.1 (List.mem_map.2 ⟨q, hq, ((fileName_inj hn).2).symm⟩)]
        simp [put]
      · exact h1 p hp
    · intro n hn
      rw [List.foldl_cons, h2 n fun q hq => hn q (by simp [hq])]
      simp [put, hn x (by simp)]

/-- The states that a call means: all of them, the one of the number, or the one at that place from the end. -/
def Means {D : Type} (saved : Saved D) : Option ℤ → ℕ × (List Char → Option D) → Prop
  | none, p => p ∈ saved
  | some k, p => if k < 0 then ∃ i : ℕ, saved[i]? = some p ∧ (i : ℤ) = saved.length + k else p ∈ saved ∧ (p.1 : ℤ) = k

theorem lookup_mem {A : Type} (l : List (ℕ × A)) (k : ℕ) (s : A) (h : l.lookup k = some s) : (k, s) ∈ l := by
  induction l with
  | nil => cases h
  | cons x l ih =>
    obtain ⟨i, t⟩ := x
    rw [List.lookup_cons] at h
    by_cases hk : k = i
    · subst hk; simp at h; subst h; simp
    · have : (k == i) = false := by simp [hk]
      rw [this] at h
      exact List.mem_cons_of_mem _ (ih h)

theorem lookup_of_mem {A : Type} (l : List (ℕ × A)) (hl : (l.map Prod.fst).Nodup) (k : ℕ) (s : A) (h : (k, s) ∈ l) : l.lookup k = some s := by
  induction l with
  | nil => cases h
  | cons x l ih =>
    obtain ⟨i, t⟩ := x
    rw [List.map_cons, List.nodup_cons] at hl
    rw [List.lookup_cons]
    rcases List.mem_cons.1 h with h | h
    · cases h; simp
    · have : k ≠ i := fun e => hl.1 (List.mem_map.2 ⟨_, h, e⟩)
      have hb : (k == i) = false := by simp [this]
      rw [hb]
      exact ih hl.2 h

theorem select_means {D : Type} (saved : Saved D) (hs : (saved.map Prod.fst).Nodup) (interval : Option ℤ) (l : Saved D)
    (h : select saved interval = .ok l) : (∀ p, p ∈ l ↔ Means saved interval p) ∧ (l.map Prod.fst).Nodup := by
  cases interval with
  | none => cases h; exact ⟨fun p => Iff.rfl, hs⟩
  | some k =>
    by_cases hk : k < 0
    · simp only [select, if_pos hk] at h
      cases hp : pyIndex saved k with
      | none => rw [hp] at h; cases h
      | some p =>
        rw [hp] at h; cases h
        refine ⟨fun q => ?_, by simp⟩
        simp only [Means, if_pos hk, List.mem_singleton]
        unfold pyIndex at hp
        rw [if_neg (not_le.2 hk)] at hp
        split_ifs at hp with h1
        constructor
        · rintro rfl
          exact ⟨_, hp, by omega⟩
        · rintro ⟨i, hi, he⟩
          have : (↑saved.length + k).toNat = i := by omega
          rw [this, hi] at hp
          exact (Option.some.inj hp)
    · simp only [select, if_neg hk] at h
      cases hp : saved.lookup k.toNat with
      | none => rw [hp] at h; cases h
      | some s =>
        rw [hp] at h; cases h
        refine ⟨fun q => ?_, by simp⟩
        simp only [Means, if_neg hk, List.mem_singleton]
        constructor
        · rintro rfl
          exact ⟨lookup_mem _ _ _ hp, by simp; omega⟩
        · rintro ⟨h1, h2⟩
          have h3 : q.1 = k.toNat := by omega
          have := lookup_of_mem saved hs q.1 q.2 h1
          rw [h3, hp] at this
          cases this
          exact Prod.ext h3 rfl

/-- A raster export of a view writes, for every interval that is meant, a file that holds the raster of the variable asked for in the state saved for that
interval, and changes no other file.
Missing from the full statement: the export of a whole surface by its own method (`C201_method_fails`), and the files of other variables, which are
replaced (`C201_replaced_fails`). -/
theorem C201_file_partial {D R : Type} (isLocal : Bool) (raster : D → R) (blank : D) (saved : Saved D) (hs : (saved.map Prod.fst).Nodup)
    (interval : Option ℤ) (var : List Char) (disk disk' : Disk R) (h : toGeotiffFile isLocal raster blank saved interval var disk = .ok disk') :
    (∀ k s x, Means saved interval (k, s) → s var = some x → disk' (fileName isLocal k) = some (raster x)) ∧
      ∀ n, (∀ k s, Means saved interval (k, s) → n ≠ fileName isLocal k) → disk' n = disk n := by
  unfold toGeotiffFile at h
  cases hl : select saved interval with
  | error e => rw [hl] at h; cases h
  | ok l =>
    rw [hl] at h
    simp only at h
    split_ifs at h with hv
    cases h
    obtain ⟨hm, hn⟩ := select_means saved hs interval l hl
    obtain ⟨h1, h2⟩ := fold_spec isLocal (fun s => raster ((s var).getD blank)) l hn disk
    refine ⟨fun k s x hk hx => ?_, fun n hn => h2 n fun p hp => hn p.1 p.2 ((hm p).1 hp)⟩
    have := h1 (k, s) ((hm _).2 hk)
    simpa [hx] using this

/-- The files of the whole surface are called `surface` and the number of the interval, those of a region `local_surface` and the same
number, so that neither replaces the other. -/
theorem C201_names (k j : ℕ) :
    (∃ digits, pyInt digits = some k ∧ fileName false k = "surface".toList ++ digits ++ ".tif".toList ∧
      fileName true k = "local_surface".toList ++ digits ++ ".tif".toList) ∧ fileName false k ≠ fileName true j := by
  refine ⟨⟨pad6 k, ?_, ?_, ?_⟩, ?_⟩
  · exact pyInt_pad6 k
  · simp [fileName, outputFilename]
  · simp [fileName, outputFilename]
  · intro h
    simp [fileName, outputFilename] at h

/-- The export succeeds exactly when the interval is meant by a saved state and one of the states meant has the variable. -/
theorem C201_succeeds {D R : Type} (isLocal : Bool) (raster : D → R) (blank : D) (saved : Saved D) (hs : (saved.map Prod.fst).Nodup)
    (interval : Option ℤ) (var : List Char) (disk : Disk R) :
    (∃ disk', toGeotiffFile isLocal raster blank saved interval var disk = .ok disk') ↔
      ∃ k s x, Means saved interval (k, s) ∧ s var = some x := by
  unfold toGeotiffFile
  cases hl : select saved interval with
  | error e =>
    refine ⟨(by rintro ⟨_, h⟩; cases h), fun ⟨k, s, x, hk, hx⟩ => ?_⟩
    exfalso
    cases interval with
    | none => cases hl
    | some j =>
      by_cases hj : j < 0
      · simp only [Means, if_pos hj] at hk
        obtain ⟨i, hi, he⟩ := hk
        have hlt : i < saved.length := by
          by_contra hc
          rw [List.getElem?_eq_none (not_lt.1 hc)] at hi
          cases hi
        have h1 : pyIndex saved j = some (k, s) := by
          unfold pyIndex
          rw [if_neg (not_le.2 hj), if_pos (by omega)]
          have : (↑saved.length + j).toNat = i := by omega
          rw [this, hi]
        simp only [select, if_pos hj, h1] at hl
        cases hl
      · simp only [Means, if_neg hj] at hk
        have h3 : j.toNat = k := by omega
        simp only [select, if_neg hj, h3, lookup_of_mem saved hs k s hk.1] at hl
        cases hl
  | ok l =>
    obtain ⟨hm, _⟩ := select_means saved hs interval l hl
    simp only
    split_ifs with hv
    · refine ⟨(by rintro ⟨_, h⟩; cases h), fun ⟨k, s, x, hk, hx⟩ => ?_⟩
      have := List.all_eq_true.1 hv (k, s) ((hm _).2 hk)
      simp [hx] at this
    · refine ⟨fun _ => ?_, fun _ => ⟨_, rfl⟩⟩
      rw [List.all_eq_true] at hv
      push Not at hv
      obtain ⟨p, hp, hpv⟩ := hv
      cases hx : p.2 var with
      | none => rw [hx] at hpv; simp at hpv
      | some x => exact ⟨p.1, p.2, x, (hm p).1 hp, hx⟩

/-- Two saved states; the last one is exported. -/
example : ∃ disk', toGeotiffFile true (fun x : ℕ => x + 1) 0 [(0, fun _ => some 10), (3, fun _ => some 20)] (some (-1)) "face_elevation".toList
    (fun _ => none) = .ok disk' ∧ disk' (fileName true 3) = some 21 ∧ disk' (fileName true 0) = none := by
  have hs : (([(0, fun _ => some 10), (3, fun _ => some 20)] : Saved ℕ).map Prod.fst).Nodup := by simp
  have hm : Means ([(0, fun _ => some 10), (3, fun _ => some 20)] : Saved ℕ) (some (-1)) (3, fun _ => some 20) := by
    simp only [Means]
    rw [if_pos (by decide)]
    exact ⟨1, rfl, by simp⟩
  obtain ⟨d, hd⟩ := (C201_succeeds true (fun x : ℕ => x + 1) 0 _ hs (some (-1)) "face_elevation".toList fun _ => none).2 ⟨3, _, 20, hm, rfl⟩
  obtain ⟨h1, h2⟩ := C201_file_partial true _ 0 _ hs _ _ _ _ hd
  refine ⟨d, hd, h1 3 _ 20 hm rfl, h2 _ fun k s hk hn => ?_⟩
  simp only [Means] at hk
  rw [if_pos (by decide)] at hk
  obtain ⟨i, hi, he⟩ := hk
  have : i = 1 := by simp at he; omega
  subst this
  have hk0 := (fileName_inj hn).2
  simp at hi
  omega

/-- Exporting a second variable replaces the file of the first: the name of the file does not tell the variable. -/
theorem C201_replaced_fails {D R : Type} (isLocal : Bool) (raster : D → R) (blank : D) (saved : Saved D) (hs : (saved.map Prod.fst).Nodup)
    (interval : Option ℤ) (v w : List Char) (disk disk1 disk2 : Disk R)
    (h1 : toGeotiffFile isLocal raster blank saved interval v disk = .ok disk1)
    (h2 : toGeotiffFile isLocal raster blank saved interval w disk1 = .ok disk2) (k : ℕ) (s : List Char → Option D) (x y : D)
    (hk : Means saved interval (k, s)) (hx : s v = some x) (hy : s w = some y) :
    disk1 (fileName isLocal k) = some (raster x) ∧ disk2 (fileName isLocal k) = some (raster y) ∧
      ∀ n, (∀ k s, Means saved interval (k, s) → n ≠ fileName isLocal k) → disk2 n = disk n := by
  obtain ⟨a1, a2⟩ := C201_file_partial isLocal raster blank saved hs interval v disk disk1 h1
  obtain ⟨b1, b2⟩ := C201_file_partial isLocal raster blank saved hs interval w disk1 disk2 h2
  exact ⟨a1 k s x hk hx, b1 k s y hk hy, fun n hn => (b2 n hn).trans (a2 n hn)⟩

example : ∃ disk1 disk2, toGeotiffFile false (fun x : ℕ => x) 0 [(2, fun v => if v = ['a'] then some 1 else some 5)] none ['a'] (fun _ => none) = .ok disk1 ∧
    toGeotiffFile false (fun x : ℕ => x) 0 [(2, fun v => if v = ['a'] then some 1 else some 5)] none ['b'] disk1 = .ok disk2 :=
  ⟨_, _, rfl, rfl⟩

/-- The method of the surface itself never writes a file: it calls a method of the view that does not exist. -/
theorem C201_method_fails {D R : Type} (known : List (List Char)) (raster : D → R) (blank : D) (saved : Saved D) (interval : Option ℤ)
    (var : List Char) (disk : Disk R) : ∃ e, surfaceGeotiff known raster blank saved interval var disk = .error e := by
  unfold surfaceGeotiff callView
  rw [if_neg (by decide +kernel)]
  split_ifs
  · exact ⟨_, rfl⟩
  · exact ⟨_, rfl⟩

/-- The method of the view under its own name does write: a call by that name gives what the method gives. -/
theorem C201_by_name {R : Type} (known : List (List Char)) (result : Except Err R) :
    callView known "to_geotiff_file".toList result = result := by
  unfold callView
  rw [if_pos (by decide +kernel)]

/-! ### C202 -/

/-- A face that can be shown at the pixel: it has a polygon that reaches the pixel and a value, and is not left out. -/
def ShownAt {G P : Type} (reaches : G → P → Bool) (isGlobal : Bool) (p : P) (f : Face G) (v : ℝ) : Prop :=
  (∃ g, f.polygon = some g ∧ reaches g p = true) ∧ f.value = some v ∧ (isGlobal = true → f.crosses = false)

theorem toRaster_append {G P : Type} (reaches : G → P → Bool) (isGlobal : Bool) (fs : List (Face G)) (f : Face G) (p : P) :
    toRaster reaches isGlobal (fs ++ [f]) p =
      (shapes isGlobal [f]).foldl (fun acc s => if reaches s.1 p then some s.2 else acc) (toRaster reaches isGlobal fs p) := by
  simp only [toRaster, shapes, List.filter_append, List.filterMap_append, List.foldl_append]

theorem toRaster_snoc {G P : Type} (reaches : G → P → Bool) (isGlobal : Bool) (fs : List (Face G)) (f : Face G) (p : P) :
    (∀ v, ShownAt reaches isGlobal p f v → toRaster reaches isGlobal (fs ++ [f]) p = some v) ∧
      ((∀ v, ¬ ShownAt reaches isGlobal p f v) → toRaster reaches isGlobal (fs ++ [f]) p = toRaster reaches isGlobal fs p) := by
  rw [toRaster_append]
  generalize toRaster reaches isGlobal fs p = acc
  obtain ⟨poly, val, cr⟩ := f
  constructor
  · rintro v ⟨⟨g, hg, hr⟩, hv, hc⟩
    simp only at hg hv hc
    subst hg hv
    cases isGlobal
    · cases cr <;> simp [shapes, hr]
    · rw [hc rfl]; simp [shapes, hr]
  · intro h
    cases poly with
    | none => cases isGlobal <;> cases cr <;> simp [shapes]
    | some g =>
      cases val with
      | none => cases isGlobal <;> cases cr <;> simp [shapes]
      | some v =>
        have hr : isGlobal = true ∧ cr = true ∨ reaches g p = false := by
          by_contra hr
          push Not at hr
          refine h v ⟨⟨g, rfl, by simpa using hr.2⟩, rfl, fun hi => by simpa using hr.1 hi⟩
        rcases hr with ⟨rfl, rfl⟩ | hr
        · simp [shapes]
        · cases isGlobal <;> cases cr <;> simp [shapes, hr]

/-- A pixel of a raster shows the value of a face that reaches it, the last one of these, and it is blank only if there is none, faces across the
antimeridian in the raster of the whole surface apart.
Missing from the full statement: those faces (`C202_seam_fails`). -/
theorem C202_pixel_partial {G P : Type} (reaches : G → P → Bool) (isGlobal : Bool) (faces : List (Face G)) (p : P) :
    (toRaster reaches isGlobal faces p = none ∧ ∀ f ∈ faces, ∀ v, ¬ ShownAt reaches isGlobal p f v) ∨
      ∃ before f later v, faces = before ++ f :: later ∧ ShownAt reaches isGlobal p f v ∧
        (∀ x ∈ later, ∀ w, ¬ ShownAt reaches isGlobal p x w) ∧ toRaster reaches isGlobal faces p = some v := by
  induction faces using List.reverseRecOn with
  | nil => left; exact ⟨rfl, by simp⟩
  | append_singleton fs f ih =>
    obtain ⟨h1, h2⟩ := toRaster_snoc reaches isGlobal fs f p
    by_cases hf : ∃ v, ShownAt reaches isGlobal p f v
    · obtain ⟨v, hv⟩ := hf
      right
      exact ⟨fs, f, [], v, rfl, hv, by simp, h1 v hv⟩
    · have hf' : ∀ v, ¬ ShownAt reaches isGlobal p f v := fun v hv => hf ⟨v, hv⟩
      rw [h2 hf']
      rcases ih with ⟨ha, hb⟩ | ⟨b, x, l, v, hl, hx, hlater, hr⟩
      · left
        refine ⟨ha, fun y hy => ?_⟩
        rcases List.mem_append.1 hy with hy | hy
        · exact hb y hy
        · rw [List.mem_singleton] at hy; subst hy; exact hf'
      · right
        refine ⟨b, x, l ++ [f], v, by rw [hl]; simp, hx, fun y hy => ?_, hr⟩
        rcases List.mem_append.1 hy with hy | hy
        · exact hlater y hy
        · rw [List.mem_singleton] at hy; subst hy; exact hf'

/-- Where the faces do not overlap, the pixel inside a single face shows that face. -/
theorem C202_inside {G P : Type} (reaches : G → P → Bool) (isGlobal : Bool) (faces : List (Face G)) (p : P) (f : Face G) (v : ℝ) (hf : f ∈ faces)
    (hv : ShownAt reaches isGlobal p f v) (hone : ∀ x ∈ faces, ∀ w, ShownAt reaches isGlobal p x w → w = v) :
    toRaster reaches isGlobal faces p = some v := by
  rcases C202_pixel_partial reaches isGlobal faces p with ⟨_, h⟩ | ⟨b, x, l, w, hl, hx, _, hr⟩
  · exact absurd hv (h f hf v)
  · rw [hr, hone x (by rw [hl]; simp) w hx]

/-- In the raster of the whole surface a pixel that only faces across the antimeridian reach is blank, although they have values. -/
theorem C202_seam_fails {G P : Type} (reaches : G → P → Bool) (faces : List (Face G)) (p : P)
    (h : ∀ f ∈ faces, ∀ g, f.polygon = some g → reaches g p = true → f.crosses = true) : toRaster reaches true faces p = none := by
  rcases C202_pixel_partial reaches true faces p with ⟨h1, _⟩ | ⟨b, x, l, w, hl, ⟨⟨g, hg, hr⟩, _, hc⟩, _, _⟩
  · exact h1
  · have := h x (by rw [hl]; simp) g hg hr
    rw [hc rfl] at this
    cases this

/-- Three pixels in a row and two faces that share the middle one; the pixels of the second face show it, the other pixel shows the first. -/
example : let reaches : ℕ → ℕ → Bool := fun g p => p = g ∨ p = g + 1
    (List.range 3).map (toRaster reaches false [⟨some 0, some 5, false⟩, ⟨some 1, some 7, true⟩]) = [some 5, some 7, some 7] ∧
      (List.range 3).map (toRaster reaches true [⟨some 0, some 5, false⟩, ⟨some 1, some 7, true⟩]) = [some 5, some 5, none] := by
  constructor <;> rfl

end Verif.Geotiff
