import Verif.Model.SurfaceSave

/-!
C162, C163, C164: what the data files of a surface hold after saving the surface, a region of it, or several intervals
in one file.
-/

namespace Verif.SurfaceSave

variable {α : Type}

/-! ### Specification -/

/-- The data belongs to a mesh with `nf` faces and `nn` nodes. -/
def Fits (nf nn : ℕ) (d : Data α) : Prop :=
  ∀ e ∈ d, (e.2.kind = .face → e.2.vals.length = nf) ∧ (e.2.kind = .node → e.2.vals.length = nn)

/-- Every dataset of a history belongs to the mesh. -/
def Op.Fits (nf nn : ℕ) : Op α → Prop
  | .change d => SurfaceSave.Fits nf nn d
  | .save _ _ => True
  | .add n v _ => SurfaceSave.Fits nf nn [(n, v)]

/-- The operation does not write anything for the interval. -/
def Op.Leaves (i : ℕ) : Op α → Prop
  | .change _ => True
  | .save j _ => j ≠ i
  | .add _ _ j => j ≠ i

/-- The values of a variable in memory. -/
def values (d : Data α) (n : String) : Option (List α) := (lookup d n).map (·.vals)

/-- The files of the intervals, if any, belong to the mesh. -/
def DiskFits (nf nn : ℕ) (k : Disk α) : Prop :=
  ∀ i f, k (.interval i) = some f →
    ∀ e ∈ f.vars, (e.2.kind = .face → e.2.size = nf) ∧ (e.2.kind = .node → e.2.size = nn)

/-! ### Lookups -/

theorem name_interval (i : ℕ) : Name.interval i = nameOf i none := rfl

theorem name_given (i : ℕ) (f : String) : Name.given f = nameOf i (some f) := rfl

theorem lookup_append {β : Type} (a b : List (String × β)) (n : String) :
    lookup (a ++ b) n = (lookup a n).or (lookup b n) := by
  simp only [lookup, List.find?_append]
  cases a.find? (fun e => decide (e.1 = n)) <;> rfl

theorem lookup_filter {β γ : Type} (a : List (String × β)) (b : List (String × γ)) (n : String)
    (h : lookup b n = none) : lookup (a.filter fun e => (lookup b e.1).isNone) n = lookup a n := by
  simp only [lookup, List.find?_filter]
  congr 1
  induction a with
  | nil => rfl
  | cons e a ih =>
    simp only [List.find?_cons]
    by_cases he : e.1 = n
    · have h' : (Option.map (fun x : String × γ => x.2) (b.find? fun x => decide (x.1 = n))).isNone = true := by
        simp only [lookup] at h
        rw [h]; rfl
      simp [he, h']
    · simp only [he, decide_false, Bool.false_eq_true, and_false]
      exact ih

theorem lookup_map {β γ : Type} (a : List (String × β)) (g : β → γ) (n : String) :
    lookup (a.map fun e => (e.1, g e.2)) n = (lookup a n).map g := by
  simp only [lookup, List.find?_map, Option.map_map]
  rfl

theorem lookup_mem {β : Type} {a : List (String × β)} {n : String} {b : β} (h : lookup a n = some b) : (n, b) ∈ a := by
  simp only [lookup, Option.map_eq_some_iff] at h
  obtain ⟨e, he, rfl⟩ := h
  have h1 := List.find?_some he
  have h2 := List.mem_of_find?_eq_some he
  simp only [decide_eq_true_eq] at h1
  rw [← h1]; exact h2

theorem lookup_fileOf (i : ℕ) (d : Data α) (n : String) :
    lookup (fileOf i d).vars n =
      (lookup d n).map fun v => ⟨v.kind, v.vals.length, fun j => if j = i then some v.vals else none⟩ :=
  lookup_map d (fun v => (⟨v.kind, v.vals.length, fun j => if j = i then some v.vals else none⟩ : FVar α)) n

theorem merge_vars {new old f : File α} (h : merge new old = some f) :
    f.vars = new.vars ++ old.vars.filter (fun e => (lookup new.vars e.1).isNone) := by
  simp only [merge] at h
  split at h
  · cases h
  · simp only [Option.some.injEq] at h; rw [← h]

theorem lookup_merge {new old f : File α} (h : merge new old = some f) (n : String) :
    lookup f.vars n = (lookup new.vars n).or (lookup old.vars n) := by
  rw [merge_vars h, lookup_append]
  cases hn : lookup new.vars n with
  | some v => rfl
  | none => simp only [Option.none_or]; exact lookup_filter _ _ _ hn

/-- What a save does to what can be read from any file. -/
theorem readFile_saveData {k k' : Disk α} {d : Data α} {i : ℕ} {fn : Option String}
    (h : saveData k d i fn = some k') (p : Name) (j : ℕ) (n : String) :
    readFile k' p j n =
      if p = nameOf i fn then
        match values d n with
        | some x => if j = i then some x else none
        | none => readFile k p j n
      else readFile k p j n := by
  simp only [saveData] at h
  by_cases hp : p = nameOf i fn
  · subst hp
    simp only [if_true]
    cases hk : k (nameOf i fn) with
    | none =>
      rw [hk] at h
      simp only [Option.some.injEq] at h
      subst h
      simp only [readFile, Function.update_self, lookup_fileOf, values, hk]
      cases lookup d n <;> simp
    | some old =>
      rw [hk] at h
      simp only at h
      cases hm : merge (fileOf i d) old with
      | none => rw [hm] at h; cases h
      | some f =>
        rw [hm] at h
        simp only [Option.some.injEq] at h
        subst h
        simp only [readFile, Function.update_self, lookup_merge hm, lookup_fileOf, values, hk]
        cases lookup d n <;> simp
  · simp only [if_neg hp]
    have : k' p = k p := by
      split at h
      · simp only [Option.some.injEq] at h
        rw [← h, Function.update_of_ne hp]
      · split at h
        · cases h
        · simp only [Option.some.injEq] at h
          rw [← h, Function.update_of_ne hp]
    simp only [readFile, this]

/-! ### Sizes -/

theorem fits_fileOf {nf nn : ℕ} {d : Data α} (h : Fits nf nn d) (i : ℕ) :
    ∀ e ∈ (fileOf i d).vars, (e.2.kind = .face → e.2.size = nf) ∧ (e.2.kind = .node → e.2.size = nn) := by
  intro e he
  simp only [fileOf, List.mem_map] at he
  obtain ⟨x, hx, rfl⟩ := he
  exact h x hx

theorem dimSize_of {f : File α} {k : Kind} {m n : ℕ} (h : ∀ e ∈ f.vars, e.2.kind = k → e.2.size = n)
    (hm : dimSize f k = some m) : m = n := by
  simp only [dimSize, Option.map_eq_some_iff] at hm
  obtain ⟨e, he, rfl⟩ := hm
  have h1 := List.find?_some he
  simp only [decide_eq_true_eq] at h1
  exact h e (List.mem_of_find?_eq_some he) h1

theorem no_clash {a b : File α} {k : Kind} {n : ℕ} (ha : ∀ e ∈ a.vars, e.2.kind = k → e.2.size = n)
    (hb : ∀ e ∈ b.vars, e.2.kind = k → e.2.size = n) : clash a b k = false := by
  simp only [clash]
  split
  · rename_i m m' hm hm'
    simp [dimSize_of ha hm, dimSize_of hb hm']
  · rfl

theorem saveData_fits {nf nn : ℕ} {k : Disk α} {d : Data α} (hk : DiskFits nf nn k) (hd : Fits nf nn d) (i : ℕ) :
    ∃ k', saveData k d i none = some k' ∧ DiskFits nf nn k' := by
  simp only [saveData]
  cases ho : k (nameOf i none) with
  | none =>
    refine ⟨_, rfl, ?_⟩
    intro j f hf
    by_cases hj : j = i
    · subst hj
      simp only [nameOf, Function.update_self, Option.some.injEq] at hf
      rw [← hf]; exact fits_fileOf hd j
    · rw [Function.update_of_ne (by simpa [nameOf] using hj)] at hf
      exact hk j f hf
  | some old =>
    have hold := hk i old ho
    have hnew := fits_fileOf hd i
    have hc : (clash (fileOf i d) old .face || clash (fileOf i d) old .node) = false := by
      rw [no_clash (n := nf) (fun e he => (hnew e he).1) (fun e he => (hold e he).1),
        no_clash (n := nn) (fun e he => (hnew e he).2) (fun e he => (hold e he).2)]
      rfl
    simp only [merge, hc, Bool.false_eq_true, if_false]
    refine ⟨_, rfl, ?_⟩
    intro j f hf
    by_cases hj : j = i
    · subst hj
      simp only [nameOf, Function.update_self, Option.some.injEq] at hf
      subst hf
      intro e he
      rcases List.mem_append.1 he with he | he
      · exact hnew e he
      · exact hold e (List.mem_of_mem_filter he)
    · rw [Function.update_of_ne (by simpa [nameOf] using hj)] at hf
      exact hk j f hf

theorem withTime_fits {nf nn : ℕ} {d : Data α} (h : Fits nf nn d) (t : List (String × α)) : Fits nf nn (withTime d t) := by
  intro e he
  rcases List.mem_append.1 he with he | he
  · simp only [List.mem_map] at he
    obtain ⟨x, _, rfl⟩ := he
    simp
  · exact h e (List.mem_of_mem_filter he)

theorem values_withTime (d : Data α) (t : List (String × α)) (n : String) :
    values (withTime d t) n = ((lookup t n).map fun x => [x]).or (values d n) := by
  have h1 : lookup (t.map fun e : String × α => (e.1, (⟨.once, [e.2]⟩ : Var α))) n = (lookup t n).map fun x => ⟨.once, [x]⟩ :=
    lookup_map t (fun x => (⟨.once, [x]⟩ : Var α)) n
  simp only [values, withTime, lookup_append, h1]
  cases ht : lookup t n with
  | some x => rfl
  | none => simp only [Option.map_none, Option.none_or]; rw [lookup_filter _ _ _ ht]

theorem step_fits {nf nn : ℕ} {s : State α} (hs : Fits nf nn s.uxds) (hk : DiskFits nf nn s.disk) (o : Op α)
    (ho : o.Fits nf nn) : ∃ s', step s o = some s' ∧ Fits nf nn s'.uxds ∧ DiskFits nf nn s'.disk := by
  cases o with
  | change d => exact ⟨_, rfl, ho, hk⟩
  | save i t =>
    obtain ⟨k', h, hk'⟩ := saveData_fits hk (withTime_fits hs t) i
    refine ⟨{ s with disk := k' }, ?_, hs, hk'⟩
    simp only [step, saveWhole, Option.getD_some, h, Option.map_some]
  | add n v i =>
    obtain ⟨k', h, hk'⟩ := saveData_fits hk (d := [(n, v)]) ho i
    refine ⟨⟨(n, v) :: s.uxds.filter (fun e => e.1 ≠ n), k'⟩, ?_, ?_, hk'⟩
    · simp only [step, addSave, h, Option.map_some]
    · intro e he
      rcases List.mem_cons.1 he with rfl | he
      · exact ho _ (by simp)
      · exact hs e (List.mem_of_mem_filter he)

theorem run_append (s : State α) (a b : List (Op α)) : run s (a ++ b) = (run s a).bind fun s' => run s' b := by
  induction a generalizing s with
  | nil => rfl
  | cons o a ih =>
    simp only [List.cons_append, run]
    cases step s o with
    | none => rfl
    | some s' => exact ih s'

theorem run_leaves {s s' : State α} {i : ℕ} (os : List (Op α)) (hl : ∀ o ∈ os, o.Leaves i)
    (h : run s os = some s') (n : String) : read s'.disk i n = read s.disk i n := by
  induction os generalizing s with
  | nil => simp only [run, Option.some.injEq] at h; rw [h]
  | cons o os ih =>
    simp only [run] at h
    cases ho : step s o with
    | none => rw [ho] at h; cases h
    | some s1 =>
      rw [ho] at h
      rw [ih (fun o ho => hl o (List.mem_cons_of_mem _ ho)) h]
      have h1 := hl o (List.mem_cons_self)
      cases o with
      | change d => simp only [step, Option.some.injEq] at ho; rw [← ho]
      | save j t =>
        simp only [step, saveWhole, Option.map_eq_some_iff] at ho
        obtain ⟨k, hk, rfl⟩ := ho
        rw [read, readFile_saveData hk, if_neg]
        · rfl
        · simp only [nameOf, Option.getD_some, Name.interval.injEq]; exact fun he => h1 he.symm
      | add m v j =>
        simp only [step, addSave, Option.map_map, Option.map_eq_some_iff] at ho
        obtain ⟨k, hk, rfl⟩ := ho
        rw [Function.comp, read, readFile_saveData hk, if_neg]
        · rfl
        · simp only [nameOf, Name.interval.injEq]; exact fun he => h1 he.symm

/-! ### C162 -/

/-- Saving a surface never fails: neither does any history of changes and saves. -/
theorem C162_never_fails (nf nn : ℕ) (s : State α) (hs : Fits nf nn s.uxds) (hd : ∀ p, s.disk p = none)
    (os : List (Op α)) (ho : ∀ o ∈ os, o.Fits nf nn) : ∃ s', run s os = some s' := by
  have hk : DiskFits nf nn s.disk := fun i f h => by rw [hd] at h; cases h
  clear hd
  induction os generalizing s with
  | nil => exact ⟨s, rfl⟩
  | cons o os ih =>
    obtain ⟨s1, h1, hs1, hk1⟩ := step_fits hs hk o (ho o (List.mem_cons_self))
    obtain ⟨s', h⟩ := ih s1 hs1 (fun o h => ho o (List.mem_cons_of_mem _ h)) hk1
    exact ⟨s', by simp only [run, h1, Option.bind_some, h]⟩

/-- After a save, and whatever happens later to the surface and to other intervals, reading the interval gives the
values the surface had at the save, and the time variables that were given.  What is missing from the full claim: a
variable that was in the file before and that the surface no longer has is still there (`C162_stale_fails`). -/
theorem C162_saved_partial (s s1 s2 : State α) (pre post : List (Op α)) (i : ℕ) (time : List (String × α))
    (h1 : run s pre = some s1) (h2 : run s (pre ++ .save i time :: post) = some s2)
    (hp : ∀ o ∈ post, o.Leaves i) (n : String) :
    read s2.disk i n =
      match lookup time n, values s1.uxds n with
      | some x, _ => some [x]
      | none, some v => some v
      | none, none => read s1.disk i n := by
  rw [run_append, h1, Option.bind_some, run] at h2
  cases h3 : step s1 (.save i time) with
  | none => rw [h3] at h2; cases h2
  | some s3 =>
    rw [h3, Option.bind_some] at h2
    rw [run_leaves post hp h2]
    simp only [step, saveWhole, Option.getD_some, Option.map_eq_some_iff] at h3
    obtain ⟨k, hk, rfl⟩ := h3
    rw [read, readFile_saveData hk, if_pos (name_interval i), values_withTime]
    cases lookup time n with
    | some x => simp
    | none => cases values s1.uxds n <;> simp [read]

/-- Adding a variable with `save_to_file` writes it to the file of the interval and leaves the other variables there
as they were; in memory it replaces the variable of that name only. -/
theorem C162_added (s s1 : State α) (m : String) (v : Var α) (i : ℕ) (h : step s (.add m v i) = some s1) (n : String) :
    read s1.disk i n = (if n = m then some v.vals else read s.disk i n) ∧
      values s1.uxds n = if n = m then some v.vals else values s.uxds n := by
  simp only [step, addSave, Option.map_map, Option.map_eq_some_iff] at h
  obtain ⟨k, hk, rfl⟩ := h
  constructor
  · rw [Function.comp, read, readFile_saveData hk, if_pos (name_interval i)]
    by_cases hn : n = m
    · simp [values, lookup, hn]
    · have : ¬ m = n := fun h => hn h.symm
      simp [values, lookup, hn, this, read]
  · by_cases hn : n = m
    · simp [values, lookup, hn, Function.comp]
    · have hm : ¬ m = n := fun h => hn h.symm
      simp only [Function.comp, values, lookup, List.find?_cons, hm, decide_false, hn, if_false, List.find?_filter]
      congr 2
      induction s.uxds with
      | nil => rfl
      | cons e l ih =>
        simp only [List.find?_cons]
        by_cases he : e.1 = n
        · simp [he, hn]
        · simp only [he, decide_false, Bool.false_eq_true, and_false]; exact ih

/-- A history never changes what is read for an interval that it does not write. -/
theorem C162_others (s s' : State α) (os : List (Op α)) (i : ℕ) (hl : ∀ o ∈ os, o.Leaves i) (h : run s os = some s')
    (n : String) : read s'.disk i n = read s.disk i n := run_leaves os hl h n

/-- The full claim fails: a variable that the surface had at an earlier save of the same interval, and no longer has,
is read back as if it belonged to the new state. -/
theorem C162_stale_fails :
    ∃ (s s' : State ℕ) (os : List (Op ℕ)), (∀ o ∈ os, o.Fits 2 3) ∧ (∀ p, s.disk p = none) ∧
      run s (os ++ [.save 0 []]) = some s' ∧ values s'.uxds "ray" = none ∧ read s'.disk 0 "ray" = some [5, 6] := by
  refine ⟨⟨[("elev", ⟨.face, [1, 2]⟩), ("ray", ⟨.face, [5, 6]⟩)], fun _ => none⟩, _,
    [.save 0 [], .change [("elev", ⟨.face, [0, 0]⟩)]], ?_, fun _ => rfl, rfl, rfl, ?_⟩
  · intro o ho
    simp only [List.mem_cons, List.not_mem_nil, or_false] at ho
    rcases ho with rfl | rfl
    · trivial
    · intro e he
      simp only [List.mem_cons, List.not_mem_nil, or_false] at he
      subst he; simp
  · decide +kernel

/-- A surface with two faces: saved, changed, another interval saved; the first interval reads as it was. -/
example : ∃ s' : State ℕ, run ⟨[("elev", ⟨.face, [1, 2]⟩)], fun _ => none⟩
      ([] ++ .save 0 [("age", 7)] :: [.change [("elev", ⟨.face, [3, 4]⟩)], .save 1 [("age", 6)]]) = some s' ∧
    read s'.disk 0 "elev" = some [1, 2] ∧ read s'.disk 0 "age" = some [7] ∧ read s'.disk 1 "elev" = some [3, 4] := by
  refine ⟨_, rfl, ?_⟩; decide +kernel

/-! ### C163 -/

theorem dimSize_region (d : Data α) (faces nodes : List ℕ) (i : ℕ) (time : List (String × α)) (nf nn : ℕ)
    (hd : Fits nf nn d) (hin : ∀ x ∈ faces, x < nf) (hnew : ∃ e ∈ d, e.2.kind = .face ∧ lookup time e.1 = none) :
    dimSize (fileOf i (withTime (restrict faces nodes d) time)) .face = some faces.length := by
  have hlenf : ∀ v : List α, v.length = nf → (faces.filterMap (v[·]?)).length = faces.length := by
    intro v hv
    clear hnew
    induction faces with
    | nil => rfl
    | cons x xs ih =>
      have hx : x < v.length := by rw [hv]; exact hin x (List.mem_cons_self)
      simp only [List.filterMap_cons, List.getElem?_eq_getElem hx, List.length_cons]
      rw [ih (fun y hy => hin y (List.mem_cons_of_mem _ hy))]
  have hall : ∀ e ∈ (fileOf i (withTime (restrict faces nodes d) time)).vars, e.2.kind = .face → e.2.size = faces.length := by
    intro e he hek
    simp only [fileOf, List.mem_map] at he
    obtain ⟨x, hx, rfl⟩ := he
    simp only at hek ⊢
    rcases List.mem_append.1 hx with hx | hx
    · simp only [List.mem_map] at hx
      obtain ⟨y, _, rfl⟩ := hx
      simp at hek
    · have hx := List.mem_of_mem_filter hx
      simp only [restrict, List.mem_map] at hx
      obtain ⟨y, hy, rfl⟩ := hx
      simp only at hek ⊢
      rw [hek]
      exact hlenf _ ((hd y hy).1 hek)
  cases hm : dimSize (fileOf i (withTime (restrict faces nodes d) time)) .face with
  | some m => rw [dimSize_of hall hm]
  | none =>
    exfalso
    obtain ⟨e, he, hek, het⟩ := hnew
    simp only [dimSize, Option.map_eq_none_iff, List.find?_eq_none] at hm
    refine absurd ?_ (hm _ (List.mem_map.2 ⟨_, List.mem_append_right _ (List.mem_filter.2 ⟨List.mem_map.2 ⟨e, he, rfl⟩, ?_⟩), rfl⟩))
    · simp [hek]
    · simp [het]

theorem dimSize_whole (d : Data α) (i : ℕ) (time : List (String × α)) (nf nn : ℕ)
    (hd : Fits nf nn d) (hnew : ∃ e ∈ d, e.2.kind = .face ∧ lookup time e.1 = none) :
    dimSize (fileOf i (withTime d time)) .face = some nf := by
  have hall : ∀ e ∈ (fileOf i (withTime d time)).vars, e.2.kind = .face → e.2.size = nf := by
    intro e he hek
    simp only [fileOf, List.mem_map] at he
    obtain ⟨x, hx, rfl⟩ := he
    simp only at hek ⊢
    rcases List.mem_append.1 hx with hx | hx
    · simp only [List.mem_map] at hx
      obtain ⟨y, _, rfl⟩ := hx
      simp at hek
    · exact (hd x (List.mem_of_mem_filter hx)).1 hek
  cases hm : dimSize (fileOf i (withTime d time)) .face with
  | some m => rw [dimSize_of hall hm]
  | none =>
    exfalso
    obtain ⟨e, he, hek, het⟩ := hnew
    simp only [dimSize, Option.map_eq_none_iff, List.find?_eq_none] at hm
    refine absurd ?_ (hm _ (List.mem_map.2 ⟨_, List.mem_append_right _ (List.mem_filter.2 ⟨he, ?_⟩), rfl⟩))
    · simp [hek]
    · simp [het]

/-- Saving a local region when the file of the interval already holds data on the faces of the whole surface is an
error that changes nothing, unless the region has as many faces as the surface. -/
theorem C163_refused_partial (k : Disk α) (d : Data α) (faces nodes : List ℕ) (i : ℕ) (time : List (String × α))
    (nf nn : ℕ) (hk : DiskFits nf nn k) (f : File α) (hf : k (.interval i) = some f)
    (hold : ∃ e ∈ f.vars, e.2.kind = .face)
    (hd : Fits nf nn d) (hin : ∀ x ∈ faces, x < nf) (hnew : ∃ e ∈ d, e.2.kind = .face ∧ lookup time e.1 = none)
    (hlen : faces.length ≠ nf) :
    saveRegion k d faces nodes (some i) time none = none := by
  have hsz : dimSize f .face = some nf := by
    obtain ⟨e, he, hek⟩ := hold
    cases hm : dimSize f .face with
    | none =>
      simp only [dimSize, Option.map_eq_none_iff, List.find?_eq_none] at hm
      exact absurd hek (by simpa using hm e he)
    | some m => rw [dimSize_of (fun e he => (hk i f hf e he).1) hm]
  have hnewsz := dimSize_region d faces nodes i time nf nn hd hin hnew
  have hc : clash (fileOf i (withTime (restrict faces nodes d) time)) f .face = true := by
    simp only [clash, hsz, hnewsz]; simp [hlen]
  simp only [saveRegion, saveData, Option.getD_some, nameOf, hf, merge, hc, Bool.true_or, if_true]

/-- Saving a local region when there is no file of the interval makes one that holds the values of the region as if
they were the state of the whole surface.  Without an interval number it is interval 0. -/
theorem C163_created_partial (k : Disk α) (d : Data α) (faces nodes : List ℕ) (interval : Option ℕ) (i : ℕ) (time : List (String × α))
    (hi : interval = some i ∨ interval = none ∧ i = 0) (hf : k (.interval i) = none) :
    ∃ k', saveRegion k d faces nodes interval time none = some k' ∧
      (∀ p j n, p ≠ .interval i → readFile k' p j n = readFile k p j n) ∧
      ∀ n v, lookup d n = some v → lookup time n = none →
        (v.kind = .face → read k' i n = some (faces.filterMap (v.vals[·]?))) ∧
        (v.kind = .node → read k' i n = some (nodes.filterMap (v.vals[·]?))) := by
  have hi' : interval.getD 0 = i := by rcases hi with rfl | ⟨rfl, rfl⟩ <;> rfl
  have hs : saveRegion k d faces nodes interval time none =
      some (Function.update k (.interval i) (some (fileOf i (withTime (restrict faces nodes d) time)))) := by
    simp only [saveRegion, saveData, hi', nameOf, hf]
  have hs' : saveData k (withTime (restrict faces nodes d) time) i none =
      some (Function.update k (.interval i) (some (fileOf i (withTime (restrict faces nodes d) time)))) := by
    simp only [saveData, nameOf, hf]
  refine ⟨_, hs, ?_, ?_⟩
  · intro p j n hp
    rw [readFile_saveData hs', if_neg (by simpa [nameOf] using hp)]
  · intro n v hv ht
    rw [read, readFile_saveData hs', if_pos (name_interval i), values_withTime, ht]
    have : lookup (restrict faces nodes d) n = (lookup d n).map fun v : Var α => ⟨v.kind, match v.kind with
        | .face => faces.filterMap (v.vals[·]?)
        | .node => nodes.filterMap (v.vals[·]?)
        | .once => v.vals⟩ := lookup_map d (fun v : Var α => (⟨v.kind, match v.kind with
        | .face => faces.filterMap (v.vals[·]?)
        | .node => nodes.filterMap (v.vals[·]?)
        | .once => v.vals⟩ : Var α)) n
    simp only [values, this, hv]
    constructor <;> intro hvk <;> simp <;> rw [hvk]

/-- Saving a region is not harmless: whenever there is no file of the interval yet, saving a region with fewer faces than the surface makes one in which a
variable has the values of the region only, and saving the whole surface for that interval is an error from then on, whatever its data are by then. -/
theorem C163_fails (k : Disk α) (d d' : Data α) (faces nodes : List ℕ) (i : ℕ) (time time' : List (String × α)) (nf nn : ℕ)
    (hf : k (.interval i) = none) (hd : Fits nf nn d) (hd' : Fits nf nn d') (hin : ∀ x ∈ faces, x < nf) (hlen : faces.length ≠ nf)
    (hvar : ∃ e ∈ d, e.2.kind = .face ∧ lookup time e.1 = none) (hvar' : ∃ e ∈ d', e.2.kind = .face ∧ lookup time' e.1 = none) :
    ∃ k', saveRegion k d faces nodes (some i) time none = some k' ∧ saveWhole k' d' (some i) time' none = none := by
  have hs : saveRegion k d faces nodes (some i) time none =
      some (Function.update k (.interval i) (some (fileOf i (withTime (restrict faces nodes d) time)))) := by
    simp only [saveRegion, saveData, Option.getD_some, nameOf, hf]
  refine ⟨_, hs, ?_⟩
  have hc : clash (fileOf i (withTime d' time')) (fileOf i (withTime (restrict faces nodes d) time)) .face = true := by
    simp only [clash, dimSize_region d faces nodes i time nf nn hd hin hvar, dimSize_whole d' i time' nf nn hd' hvar']
    simp [hlen.symm]
  simp only [saveWhole, saveData, Option.getD_some, nameOf, Function.update_self, merge, hc, Bool.true_or, if_true]

/-- A region of one face of a surface with two. -/
example : ∃ k' : Disk ℕ, saveRegion (fun _ => none) [("elev", ⟨.face, [8, 9]⟩)] [1] [] (some 0) [] none = some k' ∧
    saveWhole k' [("elev", ⟨.face, [8, 9]⟩)] (some 0) [] none = none := by
  have hd : Fits 2 3 [("elev", (⟨.face, [8, 9]⟩ : Var ℕ))] := by
    intro e he
    simp only [List.mem_cons, List.not_mem_nil, or_false] at he
    subst he; simp
  exact C163_fails (fun _ => none) _ _ [1] [] 0 [] [] 2 3 rfl hd hd (by simp) (by simp)
    ⟨_, List.mem_cons_self, rfl, rfl⟩ ⟨_, List.mem_cons_self, rfl, rfl⟩

/-- A saved surface with two faces, and a region with one of them. -/
example : saveRegion (fun p : Name => if p = .interval 0 then some (fileOf 0 [("elev", (⟨.face, [8, 9]⟩ : Var ℕ))]) else none)
    [("elev", ⟨.face, [8, 9]⟩)] [1] [] (some 0) [] none = none := by
  refine C163_refused_partial _ _ _ _ _ _ 2 3 ?_ _ rfl ⟨_, List.mem_cons_self, rfl⟩ ?_ (by simp)
    ⟨_, List.mem_cons_self, rfl, rfl⟩ (by simp)
  · intro i f hf e he
    dsimp only at hf
    split at hf
    · simp only [Option.some.injEq] at hf
      subst hf
      simp only [fileOf, List.map_cons, List.map_nil, List.mem_cons, List.not_mem_nil, or_false] at he
      subst he; simp
    · cases hf
  · intro e he
    simp only [List.mem_cons, List.not_mem_nil, or_false] at he
    subst he; simp

/-! ### C164 -/

/-- A file with a given name holds the interval saved last, whatever was in it. -/
theorem C164_last_partial (k k' : Disk α) (d : Data α) (i : ℕ) (time : List (String × α)) (file : String)
    (h : saveWhole k d (some i) time (some file) = some k') (n : String) (v : List α) (hv : values d n = some v)
    (ht : lookup time n = none) :
    readFile k' (.given file) i n = some v ∧ ∀ j ≠ i, readFile k' (.given file) j n = none := by
  have h' : saveData k (withTime d time) i (some file) = some k' := h
  constructor
  · rw [readFile_saveData h', if_pos (name_given i file), values_withTime, ht]; simp [hv]
  · intro j hj
    rw [readFile_saveData h', if_pos (name_given i file), values_withTime, ht]; simp [hv, hj]

/-- Saving with a given file name never changes the files of the intervals, nor other files. -/
theorem C164_apart (k k' : Disk α) (d : Data α) (i : ℕ) (time : List (String × α)) (file : String)
    (h : saveWhole k d (some i) time (some file) = some k') (p : Name) (hp : p ≠ .given file) (j : ℕ) (n : String) :
    readFile k' p j n = readFile k p j n := by
  have h' : saveData k (withTime d time) i (some file) = some k' := h
  rw [readFile_saveData h', if_neg (by simpa [nameOf] using hp)]

/-- The full claim fails: saving a second interval to the same file erases the values of the first, although the file
still lists both intervals. -/
theorem C164_fails :
    ∃ (k1 k2 : Disk ℕ) (d : Data ℕ) (f : File ℕ), saveWhole (fun _ => none) d (some 0) [] (some "a.nc") = some k1 ∧
      saveWhole k1 d (some 1) [] (some "a.nc") = some k2 ∧ k2 (.given "a.nc") = some f ∧ f.intervals = [1, 0] ∧
      readFile k1 (.given "a.nc") 0 "elev" = some [8, 9] ∧ readFile k2 (.given "a.nc") 0 "elev" = none := by
  refine ⟨_, _, [("elev", ⟨.face, [8, 9]⟩)], _, rfl, rfl, rfl, ?_⟩
  decide +kernel

/-- Saving one interval to a file with a given name. -/
example : ∃ k' : Disk ℕ, saveWhole (fun _ => none) [("elev", ⟨.face, [8, 9]⟩)] (some 3) [("age", 2)] (some "a.nc") = some k' ∧
    readFile k' (.given "a.nc") 3 "elev" = some [8, 9] := by
  refine ⟨_, rfl, ?_⟩; decide +kernel

end Verif.SurfaceSave
