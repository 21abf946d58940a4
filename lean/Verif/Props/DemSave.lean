import Verif.Model.DemSave

/-! The elevations a data surface starts from, over all that happens in its directory (C205). -/

namespace Verif.DemSave

/-- Specification: a mesh as they are made, with two or more faces and nodes. -/
def Usual (e : Elevations) : Prop := 2 ≤ e.faces.length ∧ 2 ≤ e.nodes.length

/-- What happens to a data surface in its directory. -/
inductive Event
  /-- It is built, with or without a new mesh asked for, the scale factor given or not. -/
  | build (regrid auto : Bool)
  /-- Craters or anything else change the elevations. -/
  | change (e : Elevations)
  /-- It is reset. -/
  | reset

/-- The directory and the outcome of the last event. -/
def step (s : Settings) (x : Dir × Outcome) : Event → Dir × Outcome
  | .build r a => construct s r a x.1
  | .change e => (x.1, .done e)
  | .reset => (x.1, reset s.sample.faces.length s.sample.nodes.length x.1)

theorem fromFile_self {e : Elevations} (h : Usual e) :
    fromFile e.faces.length e.nodes.length e = .done e := by
  obtain ⟨h1, h2⟩ := h
  have ha : (e.faces ++ e.nodes).length = e.faces.length + e.nodes.length := List.length_append
  simp only [fromFile, ha]
  rw [if_neg (by omega), if_neg (by omega), if_neg (by omega), if_pos trivial]
  simp

/-- The directory after the surface was built. -/
def Built (s : Settings) (d : Dir) : Prop :=
  d.mesh = some (s.id, s.sample.faces.length, s.sample.nodes.length) ∧ d.dem = some s.sample

theorem load_built {s : Settings} (h : Usual s.sample) (r : Bool) (o : Option (ℕ × ℕ)) {d : Dir}
    (hd : d.dem = none ∨ Built s d) : Built s (load s r o d).1 ∧ (load s r o d).2 = .done s.sample := by
  unfold load
  rcases hd with hd | ⟨hm, hd⟩
  · have : needMesh s r o d = true := by simp [needMesh, hd]
    simp only [this, if_true, saveDem, hd]
    exact ⟨⟨rfl, rfl⟩, fromFile_self h⟩
  · cases hn : needMesh s r o d
    · simp only [Bool.false_eq_true, if_false, hm, hd]
      exact ⟨⟨hm, hd⟩, fromFile_self h⟩
    · simp only [if_true, saveDem, hd, and_self]
      exact ⟨⟨rfl, rfl⟩, fromFile_self h⟩

theorem construct_built {s : Settings} (h : Usual s.sample) (r a : Bool) {d : Dir} (hd : d.dem = none ∨ Built s d) :
    Built s (construct s r a d).1 ∧ (construct s r a d).2 = .done s.sample := by
  have h1 := load_built h r none hd
  unfold construct
  cases a
  · simpa using h1
  · simp only [if_true, h1.2, h1.1.1]
    exact load_built h r _ (Or.inr h1.1)

theorem steps_built {s : Settings} (h : Usual s.sample) (es : List Event) : ∀ x : Dir × Outcome, Built s x.1 →
    Built s (es.foldl (step s) x).1 := by
  induction es with
  | nil => intro x hx; exact hx
  | cons e es ih =>
    intro x hx
    apply ih
    cases e with
    | build r a => exact (construct_built h r a (Or.inr hx)).1
    | change e => exact hx
    | reset => exact hx

/-- **C205, part.**  In a directory without saved elevations a data surface starts from the elevations of its files.  It does so again
whenever it is reset or built again with the same settings, with or without new mesh, whatever happened to it before.  Missing:
other settings in the same directory, see `C205_stuck_fails`. -/
theorem C205_restored_partial (s : Settings) (h : Usual s.sample) (d : Dir) (hd : d.dem = none) (r a : Bool) (es : List Event)
    (last : Event) (hl : last = .reset ∨ ∃ r' a', last = .build r' a') :
    (construct s r a d).2 = .done s.sample ∧ ((es ++ [last]).foldl (step s) (construct s r a d)).2 = .done s.sample := by
  have h0 := construct_built h r a (Or.inl hd)
  refine ⟨h0.2, ?_⟩
  have h1 := steps_built h es _ h0.1
  rw [List.foldl_append, List.foldl_cons, List.foldl_nil]
  rcases hl with rfl | ⟨r', a', rfl⟩
  · simp only [step, reset, h1.2]
    exact fromFile_self h
  · exact (construct_built h r' a' (Or.inr h1)).2

example : (([Event.change ⟨[9, 9], [9, 9, 9]⟩, .build true false, .change ⟨[1, 1], [1, 1, 1]⟩] ++ [Event.reset]).foldl
    (step ⟨7, ⟨[5, 6], [1, 2, 3]⟩⟩) (construct ⟨7, ⟨[5, 6], [1, 2, 3]⟩⟩ false true ⟨none, none⟩)).2 = .done ⟨[5, 6], [1, 2, 3]⟩ :=
  (C205_restored_partial ⟨7, ⟨[5, 6], [1, 2, 3]⟩⟩ (by simp [Usual]) ⟨none, none⟩ rfl false true _ .reset (Or.inl rfl)).2

/-- Specification: elevations on meshes of different sizes. -/
def Other (e e' : Elevations) : Prop := e.faces.length ≠ e'.faces.length ∨ e.nodes.length ≠ e'.nodes.length

theorem load_stuck {s : Settings} {old : Elevations} (ho : Other old s.sample) (r : Bool) (o : Option (ℕ × ℕ)) {d : Dir}
    (hd : d.dem = some old) : (load s r o d).1.dem = some old := by
  have hs : ¬ (old.faces.length = s.sample.faces.length ∧ old.nodes.length = s.sample.nodes.length) := by
    rintro ⟨h1, h2⟩
    rcases ho with h | h <;> exact h (by assumption)
  unfold load
  cases needMesh s r o d
  · simp only [Bool.false_eq_true, if_false, hd]
    cases hm : d.mesh <;> simp [hd]
  · simp [saveDem, hd, hs]

theorem construct_stuck {s : Settings} {old : Elevations} (ho : Other old s.sample) (r a : Bool) {d : Dir}
    (hd : d.dem = some old) : (construct s r a d).1.dem = some old := by
  have h1 := load_stuck ho r none hd
  unfold construct
  cases a
  · simpa using h1
  · simp only [if_true]
    split
    · exact h1
    · exact load_stuck ho r _ h1
    · exact h1

/-- **C205 fails** for other settings: once the elevations of one region are saved in the directory, a data surface whose mesh has
another number of faces or nodes cannot be built there when it needs a new mesh: an error is raised because the elevations of the two
meshes cannot be merged into one file.  The saved elevations are never replaced, however often and with whatever such settings it is
tried. -/
theorem C205_stuck_fails (old : Elevations) (d : Dir) (hd : d.dem = some old) (tries : List (Settings × Bool × Bool))
    (ht : ∀ t ∈ tries, Other old t.1.sample) (s : Settings) (ho : Other old s.sample) (r a : Bool) :
    let d' := tries.foldl (fun d t => (construct t.1 t.2.1 t.2.2 d).1) d
    d'.dem = some old ∧
      ((r = true ∨ ∀ f n, d'.mesh ≠ some (s.id, f, n)) → (construct s r a d').2 = .raised) := by
  intro d'
  have key : ∀ (l : List (Settings × Bool × Bool)) (d : Dir), (∀ t ∈ l, Other old t.1.sample) → d.dem = some old →
      (l.foldl (fun d t => (construct t.1 t.2.1 t.2.2 d).1) d).dem = some old := by
    intro l
    induction l with
    | nil => intro d _ h; exact h
    | cons t l ih =>
      intro d hl h
      exact ih _ (fun x hx => hl x (List.mem_cons_of_mem _ hx)) (construct_stuck (hl t List.mem_cons_self) _ _ h)
  have hd' : d'.dem = some old := key tries d ht hd
  refine ⟨hd', fun hr => ?_⟩
  have hs : ¬ (old.faces.length = s.sample.faces.length ∧ old.nodes.length = s.sample.nodes.length) := by
    rintro ⟨h1, h2⟩
    rcases ho with h | h <;> exact h (by assumption)
  have hn : needMesh s r none d' = true := by
    rcases hr with rfl | hr
    · simp [needMesh]
    · simp only [needMesh]
      cases hm : d'.mesh with
      | none => simp
      | some m =>
        obtain ⟨i, f, n⟩ := m
        have : i ≠ s.id := fun h => hr f n (by rw [hm, h])
        simp [this]
  have hl : (load s r none d').2 = .raised := by
    simp [load, hn, saveDem, hd', hs]
  unfold construct
  cases a
  · simpa using hl
  · simp only [if_true, hl]

example : Other ⟨[5, 6], [1, 2, 3]⟩ ⟨[5, 6, 7], [1, 2, 3]⟩ ∧ ∀ f n, (⟨some (7, 2, 3), none⟩ : Dir).mesh ≠ some (8, f, n) := by
  simp [Other]

/-- Specification: the mesh covers a sphere with three edges meeting at every node, so that there are twice as many nodes as faces less
four. -/
def OnSphere (e : Elevations) : Prop := 4 ≤ e.faces.length ∧ e.nodes.length + 4 = 2 * e.faces.length

/-- **C205 fails** also after that: the directory then holds the new mesh and the old elevations, and building the surface again with
the same settings never ends with elevations for all faces and nodes, whether a new mesh is asked for or not. -/
theorem C205_again_fails (old : Elevations) (d : Dir) (hd : d.dem = some old) (s : Settings) (ho : Other old s.sample)
    (hold : OnSphere old) (hnew : OnSphere s.sample) (r a r' a' : Bool) (e : Elevations)
    (hr : r = true ∨ ∀ f n, d.mesh ≠ some (s.id, f, n)) :
    (construct s r' a' (construct s r a d).1).2 ≠ .done e := by
  have hs : ¬ (old.faces.length = s.sample.faces.length ∧ old.nodes.length = s.sample.nodes.length) := by
    rintro ⟨h1, h2⟩
    rcases ho with h | h <;> exact h (by assumption)
  obtain ⟨o1, o2⟩ := hold
  obtain ⟨n1, n2⟩ := hnew
  have hf : ∀ x, fromFile s.sample.faces.length s.sample.nodes.length old ≠ .done x := by
    intro x
    have hl : (old.faces ++ old.nodes).length = old.faces.length + old.nodes.length := List.length_append
    simp only [fromFile, hl]
    split
    · simp
    split
    · simp
    split
    · simp
    rw [if_neg (by omega)]
    simp
  -- any load of a directory with this mesh and the old elevations ends without elevations for all
  have hload : ∀ (r : Bool) (o : Option (ℕ × ℕ)) (d : Dir), d.dem = some old →
      (d.mesh = some (s.id, s.sample.faces.length, s.sample.nodes.length) ∨ needMesh s r o d = true) →
      (load s r o d).1.dem = some old ∧
        (load s r o d).1.mesh = some (s.id, s.sample.faces.length, s.sample.nodes.length) ∧
        ∀ x, (load s r o d).2 ≠ .done x := by
    intro r o d hd hm
    refine ⟨load_stuck ho r o hd, ?_⟩
    unfold load
    cases hn : needMesh s r o d
    · simp only [hn, Bool.false_eq_true, or_false] at hm
      simp only [Bool.false_eq_true, if_false, hd, hm]
      exact ⟨trivial, hf⟩
    · simp only [if_true, saveDem, hd, hs, if_false]
      exact ⟨trivial, by simp⟩
  have hcon : ∀ (r a : Bool) (d : Dir), d.dem = some old →
      (d.mesh = some (s.id, s.sample.faces.length, s.sample.nodes.length) ∨ needMesh s r none d = true) →
      (construct s r a d).1.dem = some old ∧
        (construct s r a d).1.mesh = some (s.id, s.sample.faces.length, s.sample.nodes.length) ∧
        ∀ x, (construct s r a d).2 ≠ .done x := by
    intro r a d hd hm
    have h := hload r none d hd hm
    unfold construct
    cases a
    · simpa using h
    · simp only [if_true]
      split
      · exact h
      · exact hload r _ _ h.1 (Or.inl h.2.1)
      · exact h
  have h1 := hcon r a d hd (Or.inr (by
    rcases hr with rfl | hr
    · simp [needMesh]
    · simp only [needMesh]
      cases hm : d.mesh with
      | none => simp
      | some m =>
        obtain ⟨i, f, n⟩ := m
        have : i ≠ s.id := fun h => hr f n (by rw [hm, h])
        simp [this]))
  exact (hcon r' a' _ h1.1 (Or.inl h1.2.1)).2.2 e

example : OnSphere ⟨[1, 2, 3, 4], [1, 2, 3, 4]⟩ ∧ OnSphere ⟨[1, 2, 3, 4, 5], [1, 2, 3, 4, 5, 6]⟩ ∧
    Other ⟨[1, 2, 3, 4], [1, 2, 3, 4]⟩ ⟨[1, 2, 3, 4, 5], [1, 2, 3, 4, 5, 6]⟩ := by
  simp [OnSphere, Other]

end Verif.DemSave
