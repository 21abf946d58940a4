import Verif.Model.DemFiles
import Mathlib.Tactic.Linarith
import Mathlib.Tactic.FieldSimp
import Mathlib.Tactic.NormNum

/-! Files with elevations for the local region of a data surface (C204). -/

namespace Verif.DemFiles

/-- Specification: `p` is the smallest of the numbers `l`. -/
def Smallest (p : ℝ) (l : List ℝ) : Prop := p ∈ l ∧ ∀ x ∈ l, p ≤ x

theorem least_smallest (l : List ℝ) : ∀ a, Smallest (least a l) (a :: l) := by
  induction l with
  | nil => intro a; simp [least, Smallest]
  | cons b bs ih =>
    intro a
    obtain ⟨h1, h2⟩ := ih (min a b)
    simp only [least]
    have hm := h2 _ List.mem_cons_self
    refine ⟨?_, ?_⟩
    · rcases List.mem_cons.1 h1 with h | h
      · rw [h]
        rcases min_choice a b with h' | h' <;> rw [h'] <;> simp
      · simp [h]
    · intro x hx
      rcases List.mem_cons.1 hx with rfl | hx
      · exact hm.trans (min_le_left _ _)
      rcases List.mem_cons.1 hx with rfl | hx
      · exact hm.trans (min_le_right _ _)
      · exact h2 x (List.mem_cons_of_mem _ hx)

/-- Specification: the files named, as strings or paths, in this order. -/
def Names (l : List Item) (names : List String) : Prop :=
  List.Forall₂ (fun i n => i = .name n ∨ i = .path n) l names

theorem Names.all {l : List Item} {names : List String} (h : Names l names) : l.all Item.isFile = true := by
  induction h with
  | nil => rfl
  | cons h _ ih => rcases h with rfl | rfl <;> simpa [Item.isFile, Item.file] using ih

theorem Names.opened {l : List Item} {names : List String} (h : Names l names) (disk : String → Option Raster) :
    l.mapM (openItem disk) = names.mapM disk := by
  induction h with
  | nil => rfl
  | cons h _ ih => rcases h with rfl | rfl <;> simp [List.mapM_cons, ih, openItem, Item.file]

theorem mapM_some {disk : String → Option Raster} {names : List String} {rasters : List Raster}
    (h : List.Forall₂ (fun n r => disk n = some r) names rasters) : names.mapM disk = some rasters := by
  induction h with
  | nil => rfl
  | cons h _ ih => simp [List.mapM_cons, h, ih]

theorem mapM_none {disk : String → Option Raster} {names : List String} {n : String} (hn : n ∈ names) (h : disk n = none) :
    names.mapM disk = none := by
  induction names with
  | nil => simp at hn
  | cons m ms ih =>
    rcases List.mem_cons.1 hn with rfl | hn
    · simp [List.mapM_cons, h]
    · simp only [List.mapM_cons, ih hn]
      cases disk m <;> rfl

/-- **C204, part.**  With a list of one or more files that can all be opened, the faces of the local region get the size of the finest
pixels among these files, whatever size was asked for before, and the list is kept as given.  The size is the number written in the
file.  Missing: a single file that is not in a list (`C204_single_fails`), files measured in degrees (`C204_degrees_fails`), lists that
cannot be read (`C204_unreadable_fails`). -/
theorem C204_smallest_partial (disk : String → Option Raster) (choose : ℝ → Option (List String × ℝ)) (localRadius : ℝ)
    (l : List Item) (names : List String) (rasters : List Raster) (hl : Names l names)
    (hd : List.Forall₂ (fun n r => disk n = some r) names rasters) (hne : l ≠ []) (s : State) :
    ∃ p, assign disk choose localRadius (.list l) s = (⟨some p, .list l⟩, none) ∧ Smallest p (rasters.map Raster.res) := by
  cases rasters with
  | nil =>
    cases hd
    cases hl
    exact absurd rfl hne
  | cons r rs =>
    refine ⟨least r.res (rs.map Raster.res), ?_, least_smallest _ _⟩
    simp [assign, hl.all, store, entries, hl.opened, mapM_some hd]

example : ∃ p, assign (fun n => if n = "a" then some ⟨5, 1⟩ else some ⟨2, 1⟩) (fun _ => none) 1000 (.list [.name "a", .path "b"])
    ⟨some 100, .nothing⟩ = (⟨some p, .list [.name "a", .path "b"]⟩, none) ∧ Smallest p [5, 2] :=
  C204_smallest_partial _ _ _ _ ["a", "b"] [⟨5, 1⟩, ⟨2, 1⟩] (by simp [Names]) (by simp) (by simp) _

/-- Specification: the size files are looked up for.  It is the size given, or the one at which the area of the region is 10^6
squares. -/
def Asked (pix : Option ℝ) (localRadius a : ℝ) : Prop :=
  pix = some a ∨ pix = none ∧ 0 ≤ a ∧ 1000000 * a ^ 2 = Real.pi * localRadius ^ 2

/-- **C204.**  Without files, files are looked up for the size given, or when none is given for the size at which the area of the local
region is 10^6 squares; the faces then get the size of the finest pixels among the files found. -/
theorem C204_automatic (disk : String → Option Raster) (choose : ℝ → Option (List String × ℝ)) (localRadius a : ℝ)
    (pix : Option ℝ) (ha : Asked pix localRadius a) (before : Given) (names : List String) (q : ℝ) (rasters : List Raster)
    (hc : choose a = some (names, q)) (hd : List.Forall₂ (fun n r => disk n = some r) names rasters) (hne : names ≠ []) :
    ∃ p, assign disk choose localRadius .nothing ⟨pix, before⟩ = (⟨some p, .list (names.map .name)⟩, none) ∧
      Smallest p (rasters.map Raster.res) := by
  have hp : pix.getD (defaultPix localRadius) = a := by
    rcases ha with rfl | ⟨rfl, h0, h⟩
    · rfl
    · simp only [Option.getD_none, defaultPix]
      rw [← Real.sqrt_sq h0]
      congr 1
      linarith
  cases rasters with
  | nil =>
    cases hd
    exact absurd rfl hne
  | cons r rs =>
    refine ⟨least r.res (rs.map Raster.res), ?_, least_smallest _ _⟩
    have hn : Names (names.map .name) names := by
      clear hne hd hc
      induction names with
      | nil => exact List.Forall₂.nil
      | cons n ns ih => exact List.Forall₂.cons (Or.inl rfl) ih
    simp [assign, hp, hc, store, entries, hn.opened, mapM_some hd]

example : ∃ p, assign (fun _ => some ⟨2, 1⟩) (fun a => if a = Real.sqrt Real.pi then some (["x"], 7) else none) 1000 .nothing
    ⟨none, .nothing⟩ = (⟨some p, .list (["x"].map .name)⟩, none) ∧ Smallest p [2] :=
  C204_automatic _ _ 1000 (Real.sqrt Real.pi) none
    (Or.inr ⟨rfl, Real.sqrt_nonneg _, by rw [Real.sq_sqrt Real.pi_pos.le]; ring⟩) .nothing ["x"] 7 [⟨2, 1⟩] (by simp)
    (by simp) (by simp)

/-- **C204.**  Something that is neither None, a file name nor a list is refused with TypeError, a list with an entry that is no file
name with ValueError; nothing changes then. -/
theorem C204_refused (disk : String → Option Raster) (choose : ℝ → Option (List String × ℝ)) (localRadius : ℝ) (s : State) :
    assign disk choose localRadius .other s = (s, some .type) ∧
      ∀ l, Item.other ∈ l → assign disk choose localRadius (.list l) s = (s, some .value) := by
  refine ⟨rfl, fun l hl => ?_⟩
  have : l.all Item.isFile = false := by
    rw [List.all_eq_false]
    exact ⟨_, hl, by simp [Item.isFile, Item.file]⟩
  simp [assign, this]

example : Item.other ∈ [Item.name "a", .other] := by simp

/-- **C204 fails** for one file that is not in a list, though it is not refused by the check: for a string the files named by its
single characters are opened, and a `Path` raises TypeError.  In both cases it has been stored. -/
theorem C204_single_fails (disk : String → Option Raster) (choose : ℝ → Option (List String × ℝ)) (localRadius : ℝ) (s : State) :
    (∀ (t : String) (c : Char), c ∈ t.toList → disk (String.singleton c) = none →
      assign disk choose localRadius (.text t) s = (⟨s.pix, .text t⟩, some .opening)) ∧
    ∀ t, assign disk choose localRadius (.path t) s = (⟨s.pix, .path t⟩, some .type) := by
  refine ⟨fun t c hc hd => ?_, fun t => rfl⟩
  have hn : Names (t.toList.map fun c => Item.name (String.singleton c)) (t.toList.map String.singleton) := by
    generalize t.toList = l
    induction l with
    | nil => exact List.Forall₂.nil
    | cons n ns ih => exact List.Forall₂.cons (Or.inl rfl) ih
  have := mapM_none (disk := disk) (List.mem_map_of_mem hc) hd
  simp only [assign, store, entries, hn.opened, this]

example : ∃ s, (assign (fun n => if n = "dem.tif" then some ⟨5, 1⟩ else none) (fun _ => none) 1000 (.text "dem.tif") ⟨some 9, .nothing⟩)
    = (s, some .opening) :=
  ⟨_, (C204_single_fails _ _ _ _).1 "dem.tif" 'd' (by decide +kernel) (by rw [if_neg (by decide +kernel)])⟩

/-- **C204 fails** when a file of the list cannot be opened, or the list is empty: an error is raised, but the list is kept and the size
is the one from before. -/
theorem C204_unreadable_fails (disk : String → Option Raster) (choose : ℝ → Option (List String × ℝ)) (localRadius : ℝ) (s : State) :
    (∀ l names n, Names l names → n ∈ names → disk n = none →
      assign disk choose localRadius (.list l) s = (⟨s.pix, .list l⟩, some .opening)) ∧
    assign disk choose localRadius (.list []) s = (⟨s.pix, .list []⟩, some .value) := by
  refine ⟨fun l names n hl hn hd => ?_, by simp [assign, store, entries]⟩
  simp [assign, hl.all, store, entries, hl.opened, mapM_none hn hd]

example : Names [.name "a", .path "b"] ["a", "b"] ∧ "b" ∈ ["a", "b"] := by simp [Names]

/-- **C204 fails** for the unit: for every file whose coordinates are not in metres (degrees for instance, as in most files with
longitudes and latitudes) the size of the faces is not the width of a pixel in metres. -/
theorem C204_degrees_fails (disk : String → Option Raster) (choose : ℝ → Option (List String × ℝ)) (localRadius : ℝ) (s : State)
    (n : String) (r : Raster) (hd : disk n = some r) (h0 : 0 < r.res) (hm : r.metres ≠ 1) :
    ∃ p, assign disk choose localRadius (.list [.name n]) s = (⟨some p, .list [.name n]⟩, none) ∧ p ≠ r.res * r.metres := by
  refine ⟨r.res, by simp [assign, store, entries, Item.isFile, Item.file, openItem, hd, least], fun h => hm ?_⟩
  have : r.res * (r.metres - 1) = 0 := by linarith
  rcases mul_eq_zero.1 this with h | h <;> linarith

example : (0:ℝ) < (⟨1 / 128, 30300⟩ : Raster).res ∧ (⟨1 / 128, 30300⟩ : Raster).metres ≠ 1 := by norm_num

end Verif.DemFiles
