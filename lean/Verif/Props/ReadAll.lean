import Verif.Model.ReadAll
import Verif.Props.SurfaceSave

/-!
C240: reading all saved intervals of a surface at once.
-/

namespace Verif.ReadAll

open Verif.SurfaceSave

variable {α : Type}

/-! ### Specification -/

/-- Every variable of the data is of the kind that belongs to its name. -/
def Kinds (kinds : String → Kind) (d : Data α) : Prop := ∀ e ∈ d, e.2.kind = kinds e.1

/-- The same for what an operation brings in; a time variable has one value for each interval. -/
def OpKinds (kinds : String → Kind) : Op α → Prop
  | .change d => Kinds kinds d
  | .save _ time => ∀ e ∈ time, kinds e.1 = .once
  | .add n v _ => v.kind = kinds n

/-- The intervals that have a file, in order. -/
def Saved (disk : Disk α) (saved : List ℕ) : Prop :=
  saved.Pairwise (· < ·) ∧ ∀ i, i ∈ saved ↔ (disk (.interval i)).isSome

/-! ### Files hold their own interval -/

/-- The file of an interval holds this interval only, and variables of the kinds of their names. -/
def Own (kinds : String → Kind) (k : Disk α) : Prop :=
  ∀ i f, k (.interval i) = some f →
    f.intervals = [i] ∧ ∀ e ∈ f.vars, e.2.kind = kinds e.1 ∧ ∀ j, j ≠ i → e.2.at_ j = none

theorem own_fileOf {kinds : String → Kind} {d : Data α} (hd : Kinds kinds d) (i : ℕ) :
    (fileOf i d).intervals = [i] ∧
      ∀ e ∈ (fileOf i d).vars, e.2.kind = kinds e.1 ∧ ∀ j, j ≠ i → e.2.at_ j = none := by
  refine ⟨rfl, ?_⟩
  intro e he
  simp only [fileOf, List.mem_map] at he
  obtain ⟨x, hx, rfl⟩ := he
  exact ⟨hd x hx, fun j hj => by simp [hj]⟩

theorem own_saveData {kinds : String → Kind} {k k' : Disk α} {d : Data α} {i : ℕ} (hk : Own kinds k)
    (hd : Kinds kinds d) (h : saveData k d i none = some k') : Own kinds k' := by
  simp only [saveData] at h
  have hnew := own_fileOf hd i
  cases ho : k (nameOf i none) with
  | none =>
    rw [ho] at h
    simp only [Option.some.injEq] at h
    subst h
    intro j f hf
    by_cases hj : j = i
    · subst hj
      simp only [nameOf, Function.update_self, Option.some.injEq] at hf
      rw [← hf]; exact hnew
    · rw [Function.update_of_ne (by simpa [nameOf] using hj)] at hf
      exact hk j f hf
  | some old =>
    rw [ho] at h
    simp only at h
    cases hm : merge (fileOf i d) old with
    | none => rw [hm] at h; cases h
    | some g =>
      rw [hm] at h
      simp only [Option.some.injEq] at h
      subst h
      intro j f hf
      by_cases hj : j = i
      · subst hj
        simp only [nameOf, Function.update_self, Option.some.injEq] at hf
        subst hf
        have hold := hk j old ho
        simp only [merge] at hm
        split at hm
        · cases hm
        · simp only [Option.some.injEq] at hm
          subst hm
          refine ⟨by simp [hnew.1, hold.1], ?_⟩
          intro e he
          rcases List.mem_append.1 he with he | he
          · exact hnew.2 e he
          · exact hold.2 e (List.mem_of_mem_filter he)
      · rw [Function.update_of_ne (by simpa [nameOf] using hj)] at hf
        exact hk j f hf

theorem kinds_withTime {kinds : String → Kind} {d : Data α} (hd : Kinds kinds d) {t : List (String × α)}
    (ht : ∀ e ∈ t, kinds e.1 = .once) : Kinds kinds (withTime d t) := by
  intro e he
  rcases List.mem_append.1 he with he | he
  · simp only [List.mem_map] at he
    obtain ⟨x, hx, rfl⟩ := he
    exact (ht x hx).symm
  · exact hd e (List.mem_of_mem_filter he)

theorem own_run {kinds : String → Kind} {nf nn : ℕ} {s : State α} (hf : Fits nf nn s.uxds) (hkf : DiskFits nf nn s.disk)
    (hs : Kinds kinds s.uxds) (hk : Own kinds s.disk) (os : List (Op α)) (ho : ∀ o ∈ os, o.Fits nf nn)
    (hok : ∀ o ∈ os, OpKinds kinds o) :
    ∃ s', run s os = some s' ∧ DiskFits nf nn s'.disk ∧ Own kinds s'.disk := by
  induction os generalizing s with
  | nil => exact ⟨s, rfl, hkf, hk⟩
  | cons o os ih =>
    obtain ⟨s1, h1, hf1, hkf1⟩ := step_fits hf hkf o (ho o List.mem_cons_self)
    have hk0 := hok o List.mem_cons_self
    have key : Kinds kinds s1.uxds ∧ Own kinds s1.disk := by
      cases o with
      | change d =>
        simp only [step, Option.some.injEq] at h1
        subst h1; exact ⟨hk0, hk⟩
      | save i t =>
        simp only [step, saveWhole, Option.getD_some, Option.map_eq_some_iff] at h1
        obtain ⟨k', h, rfl⟩ := h1
        exact ⟨hs, own_saveData hk (kinds_withTime hs hk0) h⟩
      | add n v i =>
        simp only [step, addSave, Option.map_map, Option.map_eq_some_iff, Function.comp] at h1
        obtain ⟨k', h, rfl⟩ := h1
        refine ⟨?_, own_saveData hk ?_ h⟩
        · intro e he
          rcases List.mem_cons.1 he with rfl | he
          · exact hk0
          · exact hs e (List.mem_of_mem_filter he)
        · intro e he
          simp only [List.mem_cons, List.not_mem_nil, or_false] at he
          subst he; exact hk0
    obtain ⟨s', h', hr⟩ := ih hf1 hkf1 key.1 key.2 (fun o h => ho o (List.mem_cons_of_mem _ h))
      (fun o h => hok o (List.mem_cons_of_mem _ h))
    exact ⟨s', by simp only [run, h1, Option.bind_some, h'], hr⟩

theorem fileAt_own {kinds : String → Kind} {k : Disk α} (hk : Own kinds k) {i : ℕ} {f : File α}
    (hf : k (.interval i) = some f) {n : String} {j : ℕ} (hj : j ≠ i) : fileAt f n j = none := by
  simp only [fileAt]
  cases h : lookup f.vars n with
  | none => rfl
  | some v => exact ((hk i f hf).2 _ (lookup_mem h)).2 j hj

theorem fileAt_read {k : Disk α} {i : ℕ} {f : File α} (hf : k (.interval i) = some f) (n : String) :
    fileAt f n i = SurfaceSave.read k i n := by
  simp only [fileAt, SurfaceSave.read, readFile, hf]

theorem compatible {kinds : String → Kind} {nf nn : ℕ} {k : Disk α} (hk : Own kinds k) (hf : DiskFits nf nn k)
    (saved : List ℕ) : Compatible (saved.filterMap fun i => k (.interval i)) := by
  refine ⟨?_, ?_, ?_⟩ <;> intro a ha b hb <;> simp only [List.mem_filterMap] at ha hb <;>
    obtain ⟨i, -, ha⟩ := ha <;> obtain ⟨j, -, hb⟩ := hb
  · exact ⟨no_clash (n := nf) (fun e he => (hf i a ha e he).1) (fun e he => (hf j b hb e he).1),
      no_clash (n := nn) (fun e he => (hf i a ha e he).2) (fun e he => (hf j b hb e he).2)⟩
  · intro n v w hv hw
    rw [((hk i a ha).2 _ (lookup_mem hv)).1, ((hk j b hb).2 _ (lookup_mem hw)).1]
  · intro n t v w hv hw
    by_cases hi : t = i
    · by_cases hj : t = j
      · subst hi; subst hj
        rw [ha] at hb
        simp only [Option.some.injEq] at hb
        subst hb
        rw [hv] at hw
        exact Option.some.inj hw
      · rw [fileAt_own hk hb hj] at hw; cases hw
    · rw [fileAt_own hk ha hi] at hv; cases hv

theorem combine_intervals {kinds : String → Kind} {k : Disk α} (hk : Own kinds k) {saved : List ℕ} (hs : Saved k saved) :
    (combine (saved.filterMap fun i => k (.interval i))).intervals = saved := by
  have h1 : (saved.filterMap fun i => k (.interval i)).flatMap (·.intervals) = saved := by
    have : ∀ l : List ℕ, (∀ i ∈ l, (k (.interval i)).isSome) →
        (l.filterMap fun i => k (.interval i)).flatMap (·.intervals) = l := by
      intro l
      induction l with
      | nil => intro _; rfl
      | cons i l ih =>
        intro h
        obtain ⟨f, hf⟩ := Option.isSome_iff_exists.1 (h i List.mem_cons_self)
        rw [List.filterMap_cons_some (f := fun i => k (.interval i)) hf, List.flatMap_cons, (hk i f hf).1, ih fun j hj => h j (List.mem_cons_of_mem _ hj)]
        rfl
    exact this saved fun i hi => (hs.2 i).1 hi
  simp only [combine, h1]
  rw [List.dedup_eq_self.2 (hs.1.imp fun h => h.ne)]
  exact List.Pairwise.insertionSort_eq (hs.1.imp fun h => h.le)

theorem combine_at {kinds : String → Kind} {k : Disk α} (hk : Own kinds k) {saved : List ℕ} (hs : Saved k saved)
    (n : String) (i : ℕ) : (combine (saved.filterMap fun i => k (.interval i))).at_ n i = SurfaceSave.read k i n := by
  have : ∀ l : List ℕ, (l.filterMap fun i => k (.interval i)).findSome? (fun f => fileAt f n i) =
      if i ∈ l then SurfaceSave.read k i n else none := by
    intro l
    induction l with
    | nil => rfl
    | cons j l ih =>
      cases hf : k (.interval j) with
      | none =>
        rw [List.filterMap_cons_none (f := fun i => k (.interval i)) hf, ih]
        by_cases hij : i = j
        · subst hij
          have : SurfaceSave.read k i n = none := by simp only [SurfaceSave.read, readFile, hf]
          simp [this]
        · simp [hij]
      | some f =>
        rw [List.filterMap_cons_some (f := fun i => k (.interval i)) hf, List.findSome?_cons, ih]
        by_cases hij : i = j
        · subst hij
          rw [fileAt_read hf]
          cases hr : SurfaceSave.read k i n <;> simp
        · rw [fileAt_own hk hf hij]; simp [hij]
  simp only [combine, this]
  split
  · rfl
  · rename_i h
    cases hf : k (.interval i) with
    | none => simp only [SurfaceSave.read, readFile, hf]
    | some f => exact absurd ((hs.2 i).2 (by simp [hf])) h

/-! ### C240 -/

/-- After any history of changes and saves of a surface, all saved intervals can be read at once.  The result has
exactly the saved intervals, in order, and every variable has at every interval the values that reading this interval
alone gives.  For a layered variable, such as the numbers of the craters on each face, this holds where it was
saved; see `C240_layered_fails` for the other intervals. -/
theorem C240_each_partial (nf nn : ℕ) (kinds : String → Kind) (layered : String → Bool) (ofNan : α) (s : State α)
    (hf : Fits nf nn s.uxds) (hs : Kinds kinds s.uxds) (hd : ∀ p, s.disk p = none) (os : List (Op α))
    (ho : ∀ o ∈ os, o.Fits nf nn) (hok : ∀ o ∈ os, OpKinds kinds o) :
    ∃ s', run s os = some s' ∧ ∀ saved, Saved s'.disk saved →
      ∃ c, readAll layered ofNan s'.disk saved = some c ∧ c.intervals = saved ∧
        ∀ n i, (layered n = false ∨ (SurfaceSave.read s'.disk i n).isSome) → c.at_ n i = SurfaceSave.read s'.disk i n := by
  obtain ⟨s', h, hkf, hk⟩ := own_run (kinds := kinds) hf (fun i f h => by rw [hd] at h; cases h) hs
    (fun i f h => by rw [hd] at h; cases h) os ho hok
  refine ⟨s', h, fun saved hsv => ?_⟩
  refine ⟨_, if_pos (compatible hk hkf saved), combine_intervals hk hsv, ?_⟩
  intro n i hl
  simp only [castLayers, combine_at hk hsv]
  cases hr : SurfaceSave.read s'.disk i n with
  | some v => rfl
  | none =>
    rw [hr] at hl
    simp only [Option.isSome_none, Bool.false_eq_true, or_false] at hl
    simp [hl]

/-- Exactly what a layered variable is at an interval where it was not saved: as many times what NaN converts to as
there are faces, although reading the interval alone shows that the variable was not there. -/
theorem C240_layered_partial (nf nn : ℕ) (kinds : String → Kind) (layered : String → Bool) (ofNan : α) (s : State α)
    (hf : Fits nf nn s.uxds) (hs : Kinds kinds s.uxds) (hd : ∀ p, s.disk p = none) (os : List (Op α))
    (ho : ∀ o ∈ os, o.Fits nf nn) (hok : ∀ o ∈ os, OpKinds kinds o) (s' : State α) (hr : run s os = some s')
    (saved : List ℕ) (hsv : Saved s'.disk saved) (n : String) (hl : layered n = true) (hn : kinds n = .face)
    (i j : ℕ) (hi : i ∈ saved) (hmiss : SurfaceSave.read s'.disk i n = none) (hj : (SurfaceSave.read s'.disk j n).isSome) :
    ∃ c, readAll layered ofNan s'.disk saved = some c ∧ c.at_ n i = some (List.replicate nf ofNan) := by
  obtain ⟨s2, h, hkf, hk⟩ := own_run (kinds := kinds) hf (fun i f h => by rw [hd] at h; cases h) hs
    (fun i f h => by rw [hd] at h; cases h) os ho hok
  rw [hr] at h
  simp only [Option.some.injEq] at h
  subst h
  refine ⟨_, if_pos (compatible hk hkf saved), ?_⟩
  have hc := combine_intervals hk hsv
  simp only [castLayers, combine_at hk hsv, hmiss, hl, hc, Bool.true_and, List.contains_iff_mem, hi, if_true,
    Option.map_eq_some_iff]
  have hfile : ∃ f, s'.disk (.interval j) = some f ∧ ∃ v, lookup f.vars n = some v := by
    cases hfj : s'.disk (.interval j) with
    | none => simp only [SurfaceSave.read, readFile, hfj, Option.isSome_none, Bool.false_eq_true] at hj
    | some f =>
      refine ⟨f, rfl, ?_⟩
      simp only [SurfaceSave.read, readFile, hfj] at hj
      cases hv : lookup f.vars n with
      | none => simp only [hv, Option.bind_none, Option.isSome_none, Bool.false_eq_true] at hj
      | some v => exact ⟨v, rfl⟩
  obtain ⟨f, hfj, v, hv⟩ := hfile
  have hmem : f ∈ saved.filterMap fun i => s'.disk (.interval i) :=
    List.mem_filterMap.2 ⟨j, (hsv.2 j).2 (by simp [hfj]), hfj⟩
  have hsome : ((saved.filterMap fun i => s'.disk (.interval i)).findSome? fun f => lookup f.vars n).isSome := by
    rw [List.findSome?_isSome_iff]
    exact ⟨f, hmem, by simp [hv]⟩
  obtain ⟨w, hw⟩ := Option.isSome_iff_exists.1 hsome
  refine ⟨w, hw, ?_⟩
  obtain ⟨g, hg, hgw⟩ := List.exists_of_findSome?_eq_some hw
  simp only [List.mem_filterMap] at hg
  obtain ⟨t, -, hg⟩ := hg
  have hkd := ((hk t g hg).2 _ (lookup_mem hgw)).1
  rw [(hkf t g hg _ (lookup_mem hgw)).1 (hkd.trans hn)]

/-- Saving a region for an interval that has no file yet makes it impossible to read all intervals at once, for every
region with another number of faces than the surface: each interval alone can still be read. -/
theorem C240_region_partial (nf nn : ℕ) (layered : String → Bool) (ofNan : α) (k k' : Disk α) (d : Data α)
    (faces nodes : List ℕ) (i j : ℕ) (name : String) (v : Var α) (hij : i ≠ j) (hj : k (.interval j) = none)
    (f : File α) (hi : k (.interval i) = some f) (hk : DiskFits nf nn k) (he : ∃ e ∈ f.vars, e.2.kind = .face)
    (hv : (name, v) ∈ d) (hvk : v.kind = .face) (hsize : ∀ e ∈ d, e.2.kind = .face →
      (faces.filterMap (e.2.vals[·]?)).length ≠ nf)
    (h : saveRegion k d faces nodes (some j) [] none = some k') (saved : List ℕ) (hsv : Saved k' saved) :
    readAll layered ofNan k' saved = none ∧ ∀ n, SurfaceSave.read k' i n = SurfaceSave.read k i n := by
  have hs : saveRegion k d faces nodes (some j) [] none =
      some (Function.update k (.interval j) (some (fileOf j (withTime (restrict faces nodes d) [])))) := by
    simp only [saveRegion, saveData, Option.getD_some, nameOf, hj]
  rw [hs] at h
  simp only [Option.some.injEq] at h
  subst h
  have hki : Function.update k (Name.interval j) (some (fileOf j (withTime (restrict faces nodes d) []))) (.interval i) =
      some f := by rw [Function.update_of_ne (by simpa using hij)]; exact hi
  constructor
  · refine if_neg fun hc => ?_
    have hcl := (hc.1 f (List.mem_filterMap.2 ⟨i, (hsv.2 i).2 (by simp [hki]), hki⟩)
      (fileOf j (withTime (restrict faces nodes d) []))
      (List.mem_filterMap.2 ⟨j, (hsv.2 j).2 (by simp), by simp⟩)).1
    have h1 : dimSize f .face = some nf := by
      have hsome : (f.vars.find? fun e => e.2.kind = .face).isSome := by
        obtain ⟨e, he, hek⟩ := he
        rw [List.find?_isSome]; exact ⟨e, he, by simp [hek]⟩
      obtain ⟨e, hfe⟩ := Option.isSome_iff_exists.1 hsome
      have hd1 : dimSize f .face = some e.2.size := by simp only [dimSize, hfe, Option.map_some]
      rw [hd1, dimSize_of (fun e he => (hk i f hi e he).1) hd1]
    obtain ⟨m, hm, hne⟩ : ∃ m, dimSize (fileOf j (withTime (restrict faces nodes d) [])) .face = some m ∧ m ≠ nf := by
      have hmem : ∃ x ∈ (fileOf j (withTime (restrict faces nodes d) [])).vars, x.2.kind = .face := by
        simp only [fileOf, withTime, List.map_nil, List.nil_append, restrict, List.mem_map]
        refine ⟨_, ⟨_, List.mem_filter.2 ⟨List.mem_map.2 ⟨(name, v), hv, rfl⟩, rfl⟩, rfl⟩, hvk⟩
      have hsome : ((fileOf j (withTime (restrict faces nodes d) [])).vars.find? fun e => e.2.kind = .face).isSome := by
        obtain ⟨e, he, hek⟩ := hmem
        rw [List.find?_isSome]; exact ⟨e, he, by simp [hek]⟩
      obtain ⟨e, hfe⟩ := Option.isSome_iff_exists.1 hsome
      refine ⟨e.2.size, by simp only [dimSize, hfe, Option.map_some], ?_⟩
      have h2 := List.mem_of_find?_eq_some hfe
      have h3 := List.find?_some hfe
      simp only [decide_eq_true_eq] at h3
      simp only [fileOf, withTime, List.map_nil, List.nil_append, restrict, List.mem_map] at h2
      obtain ⟨y, hy, rfl⟩ := h2
      obtain ⟨z, hz, rfl⟩ := List.mem_map.1 (List.mem_of_mem_filter hy)
      have hzk : z.2.kind = .face := h3
      have := hsize z hz hzk
      simpa [hzk] using this
    simp only [clash, h1, hm, decide_eq_false_iff_not, not_not] at hcl
    exact hne hcl.symm
  · intro n
    simp only [SurfaceSave.read, readFile, hki, hi]

/-- A surface with two faces that is saved, gets the numbers of its craters, and is saved again. -/
def counted : List (Op ℕ) :=
  [.save 0 [("time", 7)], .change [("elev", ⟨.face, [3, 4]⟩), ("id", ⟨.face, [0, 5]⟩)], .save 1 [("time", 8)]]

/-- Reading all intervals at once does not always show what was saved: a surface whose craters are counted only after
the first save has no crater numbers at that interval when it is read alone, but numbers when all are read. -/
theorem C240_layered_fails :
    ∃ s', run ⟨[("elev", (⟨.face, [1, 2]⟩ : Var ℕ))], fun _ => none⟩ counted = some s' ∧ Saved s'.disk [0, 1] ∧
      SurfaceSave.read s'.disk 0 "id" = none ∧ SurfaceSave.read s'.disk 1 "id" = some [0, 5] ∧
      ∃ c, readAll (fun n => n = "id") 0 s'.disk [0, 1] = some c ∧ c.at_ "id" 0 = some [0, 0] := by
  have hfit : Fits 2 3 [("elev", (⟨.face, [1, 2]⟩ : Var ℕ))] := by
    intro e he
    simp only [List.mem_cons, List.not_mem_nil, or_false] at he
    subst he; simp
  have hops : ∀ o ∈ counted, o.Fits 2 3 := by
    intro o ho
    simp only [counted, List.mem_cons, List.not_mem_nil, or_false] at ho
    rcases ho with rfl | rfl | rfl
    · trivial
    · intro e he
      simp only [List.mem_cons, List.not_mem_nil, or_false] at he
      rcases he with rfl | rfl <;> simp
    · trivial
  have hkd : Kinds (fun n : String => if n = "time" then Kind.once else .face) [("elev", (⟨.face, [1, 2]⟩ : Var ℕ))] := by
    intro e he
    simp only [List.mem_cons, List.not_mem_nil, or_false] at he
    subst he; decide
  have hok : ∀ o ∈ counted, OpKinds (fun n : String => if n = "time" then Kind.once else .face) o := by
    intro o ho
    simp only [counted, List.mem_cons, List.not_mem_nil, or_false] at ho
    rcases ho with rfl | rfl | rfl
    · intro e he
      simp only [List.mem_cons, List.not_mem_nil, or_false] at he
      subst he; decide
    · intro e he
      simp only [List.mem_cons, List.not_mem_nil, or_false] at he
      rcases he with rfl | rfl <;> decide
    · intro e he
      simp only [List.mem_cons, List.not_mem_nil, or_false] at he
      subst he; decide
  obtain ⟨s', h, -⟩ := own_run (s := ⟨[("elev", (⟨.face, [1, 2]⟩ : Var ℕ))], fun _ => none⟩) hfit
    (fun i f h => by cases h) hkd (fun i f h => by cases h) counted hops hok
  have hrun := h
  simp only [counted, run, step, saveWhole, saveData, Option.getD_some, nameOf, Option.map_some, Option.bind_some,
    Function.update_of_ne (show Name.interval 1 ≠ Name.interval 0 by decide), Option.some.injEq] at hrun
  have h0 : SurfaceSave.read s'.disk 0 "id" = none := by rw [← hrun]; decide +kernel
  have h1 : SurfaceSave.read s'.disk 1 "id" = some [0, 5] := by rw [← hrun]; decide +kernel
  have hsv : Saved s'.disk [0, 1] := by
    refine ⟨by decide, fun i => ?_⟩
    rw [← hrun]
    simp only [List.mem_cons, List.not_mem_nil, or_false, Function.update_apply, Name.interval.injEq]
    by_cases hi1 : i = 1
    · simp [hi1]
    · by_cases hi0 : i = 0 <;> simp [hi0, hi1]
  refine ⟨s', h, hsv, h0, h1, ?_⟩
  exact C240_layered_partial 2 3 (fun n : String => if n = "time" then Kind.once else .face) (fun n => n = "id") 0
    ⟨[("elev", (⟨.face, [1, 2]⟩ : Var ℕ))], fun _ => none⟩ hfit hkd (fun _ => rfl) counted hops hok s' h [0, 1] hsv "id"
    (by decide) (by decide) 0 1 (by simp) h0 (by simp [h1])

/-- The surface and history of `C240_layered_fails` meet the conditions of `C240_each_partial`. -/
example : ∃ s', run ⟨[("elev", (⟨.face, [1, 2]⟩ : Var ℕ))], fun _ => none⟩ [.save 0 [], .save 3 []] = some s' ∧
    ∀ saved, Saved s'.disk saved → ∃ c, readAll (fun _ => false) 0 s'.disk saved = some c ∧ c.intervals = saved ∧
      ∀ n i, (false = false ∨ (SurfaceSave.read s'.disk i n).isSome) → c.at_ n i = SurfaceSave.read s'.disk i n := by
  refine C240_each_partial 2 3 (fun _ => .face) (fun _ => false) 0 _ ?_ ?_ (fun _ => rfl) _ ?_ ?_
  · intro e he
    simp only [List.mem_cons, List.not_mem_nil, or_false] at he
    subst he; simp
  · intro e he
    simp only [List.mem_cons, List.not_mem_nil, or_false] at he
    subst he; rfl
  · intro o ho
    simp only [List.mem_cons, List.not_mem_nil, or_false] at ho
    rcases ho with rfl | rfl <;> trivial
  · intro o ho
    simp only [List.mem_cons, List.not_mem_nil, or_false] at ho
    rcases ho with rfl | rfl <;> simp [OpKinds]

/-- A saved surface with two faces, and a region with one of them saved for the next interval. -/
theorem C240_region_fails :
    ∃ (k k' : Disk ℕ) (d : Data ℕ), Fits 2 3 d ∧ Saved k [0] ∧ SurfaceSave.read k 0 "elev" = some [8, 9] ∧
      saveRegion k d [1] [] (some 1) [] none = some k' ∧ Saved k' [0, 1] ∧
      SurfaceSave.read k' 0 "elev" = some [8, 9] ∧ readAll (fun _ => false) 0 k' [0, 1] = none := by
  have hfit : Fits 2 3 [("elev", (⟨.face, [8, 9]⟩ : Var ℕ))] := by
    intro e he
    simp only [List.mem_cons, List.not_mem_nil, or_false] at he
    subst he; simp
  have hsv : Saved (Function.update (Function.update (fun _ => none) (.interval 0)
      (some (fileOf 0 [("elev", (⟨.face, [8, 9]⟩ : Var ℕ))]))) (.interval 1)
      (some (fileOf 1 (withTime (restrict [1] [] [("elev", (⟨.face, [8, 9]⟩ : Var ℕ))]) [])))) [0, 1] := by
    refine ⟨by decide, fun i => ?_⟩
    simp only [List.mem_cons, List.not_mem_nil, or_false, Function.update_apply, Name.interval.injEq]
    by_cases hi1 : i = 1
    · simp [hi1]
    · by_cases hi0 : i = 0 <;> simp [hi0, hi1]
  have h := C240_region_partial 2 3 (fun _ => false) 0
    (Function.update (fun _ => none) (.interval 0) (some (fileOf 0 [("elev", (⟨.face, [8, 9]⟩ : Var ℕ))]))) _
    [("elev", ⟨.face, [8, 9]⟩)] [1] [] 0 1 "elev" ⟨.face, [8, 9]⟩ (by simp) (by simp) _ (by simp; rfl) ?_
    ⟨_, List.mem_cons_self, rfl⟩ (by simp) rfl ?_ rfl [0, 1] hsv
  · refine ⟨Function.update (fun _ => none) (.interval 0) (some (fileOf 0 [("elev", (⟨.face, [8, 9]⟩ : Var ℕ))])), _,
      [("elev", ⟨.face, [8, 9]⟩)], hfit, ?_, ?_, rfl, hsv, ?_, h.1⟩
    · refine ⟨by simp, fun i => ?_⟩
      simp only [List.mem_cons, List.not_mem_nil, or_false, Function.update_apply, Name.interval.injEq]
      by_cases hi0 : i = 0 <;> simp [hi0]
    · decide +kernel
    · rw [h.2]; decide +kernel
  · intro i f hf e he
    simp only [Function.update_apply] at hf
    split at hf
    · simp only [Option.some.injEq] at hf
      subst hf
      simp only [fileOf, List.map_cons, List.map_nil, List.mem_cons, List.not_mem_nil, or_false] at he
      subst he; simp
    · cases hf
  · intro e he _
    simp only [List.mem_cons, List.not_mem_nil, or_false] at he
    subst he; decide

end Verif.ReadAll
