import Verif.Model.CraterState

/-! Properties C171-C172: what a crater object knows about the mesh, and which surface `emplace` changes. -/

namespace Verif.CraterState

variable {R : Type}

/-! ### C171: the mesh seen by a crater -/

/-- What each attribute of the crater should be on a mesh: the ejecta region is looked for only when there is a crater region, and
a crater that is too small for the mesh affects nothing. -/
structure Shows (g : Geo R) (s : State R) : Prop where
  face : (readFace s).2 = some g.nearest
  rmax : (readRmax s).2 = some g.rmax
  crater : (readCrater s).2 = g.crater
  ejecta : (readEjecta s).2 = if g.crater = none then none else g.region g.rmax
  emplaceable : (readEmplaceable s).2 = some g.crater.isSome
  faces : (readFaces s).2 = if g.crater = none then none else some (match g.region g.rmax with | none => ∅ | some r => g.faces r)
  nodes : (readNodes s).2 = if g.crater = none then none else some (match g.region g.rmax with | none => ∅ | some r => g.nodes r)

/-- Without surface data nothing is known. -/
structure ShowsNothing (s : State R) : Prop where
  face : (readFace s).2 = none
  rmax : (readRmax s).2 = none
  crater : (readCrater s).2 = none
  ejecta : (readEjecta s).2 = none
  emplaceable : (readEmplaceable s).2 = none
  faces : (readFaces s).2 = none
  nodes : (readNodes s).2 = none

/-- What is kept agrees with the mesh. -/
structure Agrees (g : Geo R) (s : State R) : Prop where
  mesh : s.mesh = some g
  face : s.faceIndex = none ∨ s.faceIndex = some g.nearest
  rmax : s.rmax = none ∨ s.rmax = some g.rmax
  crater : s.craterRegion = none ∨ s.craterRegion = g.crater
  ejecta : s.ejectaRegion = none ∨ g.crater ≠ none ∧ s.ejectaRegion = g.region g.rmax
  emplaceable : s.emplaceable = none ∨ s.emplaceable = some g.crater.isSome
  faces : s.faces = none ∨ g.crater ≠ none ∧ s.faces = some (((g.region g.rmax).map g.faces).getD ∅)
  nodes : s.nodes = none ∨ g.crater ≠ none ∧ s.nodes = some (((g.region g.rmax).map g.nodes).getD ∅)

theorem readFace_agrees {g : Geo R} {s : State R} (h : Agrees g s) : Agrees g (readFace s).1 ∧ (readFace s).2 = some g.nearest := by
  obtain ⟨hm, h1, h2, h3, h4, h5, h6, h7⟩ := h
  rcases h1 with h1 | h1
  · simp only [readFace, h1, hm]
    exact ⟨⟨rfl, .inr rfl, h2, h3, h4, h5, h6, h7⟩, trivial⟩
  · simp only [readFace, h1]
    exact ⟨⟨hm, .inr h1, h2, h3, h4, h5, h6, h7⟩, trivial⟩

theorem readRmax_agrees {g : Geo R} {s : State R} (h : Agrees g s) : Agrees g (readRmax s).1 ∧ (readRmax s).2 = some g.rmax := by
  obtain ⟨hm, h1, h2, h3, h4, h5, h6, h7⟩ := h
  rcases h2 with h2 | h2
  · simp only [readRmax, h2, hm]
    exact ⟨⟨rfl, h1, .inr rfl, h3, h4, h5, h6, h7⟩, trivial⟩
  · simp only [readRmax, h2]
    exact ⟨⟨hm, h1, .inr h2, h3, h4, h5, h6, h7⟩, trivial⟩

theorem readCrater_agrees {g : Geo R} {s : State R} (h : Agrees g s) : Agrees g (readCrater s).1 ∧ (readCrater s).2 = g.crater := by
  obtain ⟨hm, h1, h2, h3, h4, h5, h6, h7⟩ := h
  cases hc : s.craterRegion with
  | none =>
    simp only [readCrater, hc, hm]
    exact ⟨⟨rfl, h1, h2, .inr rfl, h4, h5, h6, h7⟩, trivial⟩
  | some r =>
    simp only [readCrater, hc]
    rw [hc] at h3
    rcases h3 with h3 | h3
    · simp at h3
    · exact ⟨⟨hm, h1, h2, .inr (hc.trans h3), h4, h5, h6, h7⟩, h3⟩

theorem readEjecta_agrees {g : Geo R} {s : State R} (h : Agrees g s) : Agrees g (readEjecta s).1 ∧
    (readEjecta s).2 = if g.crater = none then none else g.region g.rmax := by
  cases he : s.ejectaRegion with
  | some r =>
    simp only [readEjecta, he]
    refine ⟨h, ?_⟩
    rcases h.ejecta with h4 | ⟨h4, h5⟩
    · rw [he] at h4; simp at h4
    · rw [if_neg h4, ← h5, he]
  | none =>
    obtain ⟨ha, hv⟩ := readCrater_agrees h
    simp only [readEjecta, he]
    generalize hz : readCrater s = z at ha hv
    obtain ⟨s1, c⟩ := z
    dsimp only at ha hv ⊢
    subst hv
    cases hc : g.crater with
    | none => simp only [if_true]; exact ⟨ha, trivial⟩
    | some r =>
      obtain ⟨hb, hw⟩ := readRmax_agrees ha
      generalize hy : readRmax s1 = y at hb hw
      obtain ⟨s2, d⟩ := y
      dsimp only at hb hw ⊢
      subst hw
      obtain ⟨hm, h1, h2, h3, h4, h5, h6, h7⟩ := hb
      simp only [hm]
      refine ⟨⟨rfl, h1, h2, h3, .inr ⟨by rw [hc]; simp, rfl⟩, h5, h6, h7⟩, by simp⟩

theorem readEmplaceable_agrees {g : Geo R} {s : State R} (h : Agrees g s) : Agrees g (readEmplaceable s).1 ∧
    (readEmplaceable s).2 = some g.crater.isSome := by
  rcases h.emplaceable with he | he
  · obtain ⟨ha, hv⟩ := readCrater_agrees h
    simp only [readEmplaceable, he, h.mesh]
    generalize hz : readCrater s = z at ha hv
    obtain ⟨s1, c⟩ := z
    dsimp only at ha hv ⊢
    subst hv
    obtain ⟨hm, h1, h2, h3, h4, h5, h6, h7⟩ := ha
    exact ⟨⟨hm, h1, h2, h3, h4, .inr rfl, h6, h7⟩, rfl⟩
  · simp only [readEmplaceable, he]
    exact ⟨h, trivial⟩

theorem getD_map (g : Option R) (f : R → Finset ℕ) : (g.map f).getD ∅ = match g with | none => ∅ | some r => f r := by
  cases g <;> rfl

theorem readFaces_agrees {g : Geo R} {s : State R} (h : Agrees g s) : Agrees g (readFaces s).1 ∧
    (readFaces s).2 = if g.crater = none then none else some (((g.region g.rmax).map g.faces).getD ∅) := by
  cases he : s.faces with
  | some v =>
    simp only [readFaces, he]
    refine ⟨h, ?_⟩
    rcases h.faces with h4 | ⟨h4, h5⟩
    · rw [he] at h4; simp at h4
    · rw [if_neg h4, ← h5, he]
  | none =>
    obtain ⟨ha, hv⟩ := readEmplaceable_agrees h
    simp only [readFaces, he, h.mesh]
    generalize hz : readEmplaceable s = z at ha hv
    obtain ⟨s1, e⟩ := z
    dsimp only at ha hv ⊢
    subst hv
    cases hc : g.crater with
    | none => simp only [Option.isSome_none, if_true]; simpa using ha
    | some r =>
      obtain ⟨hb, hw⟩ := readEjecta_agrees ha
      generalize hy : readEjecta s1 = y at hb hw
      obtain ⟨s2, d⟩ := y
      dsimp only at hb hw
      have hne : g.crater ≠ none := by rw [hc]; simp
      rw [if_neg hne] at hw
      subst hw
      obtain ⟨hm, h1, h2, h3, h4, h5, h6, h7⟩ := hb
      simp only [Option.isSome_some, if_true]
      exact ⟨⟨hm, h1, h2, h3, h4, h5, .inr ⟨hne, rfl⟩, h7⟩, by simp⟩

theorem readNodes_agrees {g : Geo R} {s : State R} (h : Agrees g s) : Agrees g (readNodes s).1 ∧
    (readNodes s).2 = if g.crater = none then none else some (((g.region g.rmax).map g.nodes).getD ∅) := by
  cases he : s.nodes with
  | some v =>
    simp only [readNodes, he]
    refine ⟨h, ?_⟩
    rcases h.nodes with h4 | ⟨h4, h5⟩
    · rw [he] at h4; simp at h4
    · rw [if_neg h4, ← h5, he]
  | none =>
    obtain ⟨ha, hv⟩ := readEmplaceable_agrees h
    simp only [readNodes, he, h.mesh]
    generalize hz : readEmplaceable s = z at ha hv
    obtain ⟨s1, e⟩ := z
    dsimp only at ha hv ⊢
    subst hv
    cases hc : g.crater with
    | none => simp only [Option.isSome_none, if_true]; simpa using ha
    | some r =>
      obtain ⟨hb, hw⟩ := readEjecta_agrees ha
      generalize hy : readEjecta s1 = y at hb hw
      obtain ⟨s2, d⟩ := y
      dsimp only at hb hw
      have hne : g.crater ≠ none := by rw [hc]; simp
      rw [if_neg hne] at hw
      subst hw
      obtain ⟨hm, h1, h2, h3, h4, h5, h6, h7⟩ := hb
      simp only [Option.isSome_some, if_true]
      exact ⟨⟨hm, h1, h2, h3, h4, h5, h6, .inr ⟨hne, rfl⟩⟩, by simp⟩

theorem shows_of_agrees {g : Geo R} {s : State R} (h : Agrees g s) : Shows g s :=
  ⟨(readFace_agrees h).2, (readRmax_agrees h).2, (readCrater_agrees h).2, (readEjecta_agrees h).2, (readEmplaceable_agrees h).2,
    by rw [(readFaces_agrees h).2, getD_map], by rw [(readNodes_agrees h).2, getD_map]⟩

theorem step_agrees {g : Geo R} {s : State R} (h : Agrees g s) (o : Op R) (ho : ∀ g', o = .mesh g' → g' = g) : Agrees g (step s o) := by
  cases o with
  | face => exact (readFace_agrees h).1
  | rmax => exact (readRmax_agrees h).1
  | crater => exact (readCrater_agrees h).1
  | ejecta => exact (readEjecta_agrees h).1
  | emplaceable => exact (readEmplaceable_agrees h).1
  | faces => exact (readFaces_agrees h).1
  | nodes => exact (readNodes_agrees h).1
  | drop =>
    obtain ⟨hm, h1, h2, h3, h4, h5, h6, h7⟩ := h
    exact ⟨hm, h1, h2, .inl rfl, .inl rfl, h5, .inl rfl, .inl rfl⟩
  | mesh g' =>
    rw [ho g' rfl]
    obtain ⟨hm, h1, h2, h3, h4, h5, h6, h7⟩ := h
    exact ⟨rfl, h1, h2, h3, h4, h5, h6, h7⟩

/-- A crater without a mesh keeps nothing. -/
theorem step_fresh (o : Op R) : step ({} : State R) o = {} ∨ ∃ g, o = .mesh g := by
  cases o with
  | mesh g => exact .inr ⟨g, rfl⟩
  | _ => exact .inl rfl

/-- A new crater shows what the mesh gives, whatever is read and given up before, in whatever order, as long as there is no other
mesh: nothing before the surface has data, the right values afterwards.  Missing: after a change of the mesh the values are wrong,
see `C171_mesh_fails`. -/
theorem C171_shows_partial (g : Geo R) (ops : List (Op R)) (h : ∀ g', Op.mesh g' ∈ ops → g' = g) :
    (Op.mesh g ∈ ops → Shows g (run {} ops)) ∧ (Op.mesh g ∉ ops → ShowsNothing (run ({} : State R) ops)) := by
  have key : ∀ (l : List (Op R)), (∀ g', Op.mesh g' ∈ l → g' = g) → ∀ s : State R, Agrees g s → Agrees g (run s l) := by
    intro l
    induction l with
    | nil => exact fun _ s hs => hs
    | cons o l ih =>
      intro hl s hs
      exact ih (fun g' hg => hl g' (List.mem_cons_of_mem _ hg)) _ (step_agrees hs o fun g' e => hl g' (by simp [e]))
  have start : Agrees g { mesh := some g } := ⟨rfl, .inl rfl, .inl rfl, .inl rfl, .inl rfl, .inl rfl, .inl rfl, .inl rfl⟩
  induction ops with
  | nil => exact ⟨by simp, fun _ => ⟨rfl, rfl, rfl, rfl, rfl, rfl, rfl⟩⟩
  | cons o l ih =>
    have hl : ∀ g', Op.mesh g' ∈ l → g' = g := fun g' hg => h g' (List.mem_cons_of_mem _ hg)
    rcases step_fresh o with e | ⟨g', rfl⟩
    · have e' : run ({} : State R) (o :: l) = run {} l := by
        rw [run, List.foldl_cons, e, run]
      rw [e']
      obtain ⟨i1, i2⟩ := ih hl
      refine ⟨fun hm => ?_, fun hm => i2 fun hx => hm (List.mem_cons_of_mem _ hx)⟩
      rcases List.mem_cons.mp hm with hm | hm
      · rw [← hm] at e
        have := congrArg State.mesh e
        simp [step] at this
      · exact i1 hm
    · have : g' = g := h g' (by simp)
      subst this
      refine ⟨fun _ => ?_, fun hm => absurd (List.mem_cons_self ..) hm⟩
      exact shows_of_agrees (key l hl _ start)

/-- What has been read is kept. -/
structure Keeps (s t : State R) : Prop where
  face : ∀ v, s.faceIndex = some v → t.faceIndex = some v
  rmax : ∀ v, s.rmax = some v → t.rmax = some v
  emplaceable : ∀ v, s.emplaceable = some v → t.emplaceable = some v

theorem Keeps.rfl' (s : State R) : Keeps s s := ⟨fun _ h => h, fun _ h => h, fun _ h => h⟩

theorem Keeps.trans {s t u : State R} (h : Keeps s t) (k : Keeps t u) : Keeps s u :=
  ⟨fun v e => k.face v (h.face v e), fun v e => k.rmax v (h.rmax v e), fun v e => k.emplaceable v (h.emplaceable v e)⟩

theorem keepsFace (s : State R) : Keeps s (readFace s).1 := by
  simp only [readFace]
  split
  · next h _ => exact ⟨fun v e => by simp [h] at e, fun _ h => h, fun _ h => h⟩
  · exact .rfl' s

theorem keepsRmax (s : State R) : Keeps s (readRmax s).1 := by
  simp only [readRmax]
  split
  · next h _ => exact ⟨fun _ h => h, fun v e => by simp [h] at e, fun _ h => h⟩
  · exact .rfl' s

theorem keepsCrater (s : State R) : Keeps s (readCrater s).1 := by
  simp only [readCrater]
  split
  · exact ⟨fun _ h => h, fun _ h => h, fun _ h => h⟩
  · exact .rfl' s

theorem keepsEjecta (s : State R) : Keeps s (readEjecta s).1 := by
  simp only [readEjecta]
  split
  · exact .rfl' s
  · have h1 := keepsCrater s
    split
    · exact h1
    · have h2 := h1.trans (keepsRmax _)
      split
      · exact ⟨h2.face, h2.rmax, h2.emplaceable⟩
      · exact h2

theorem keepsEmplaceable (s : State R) : Keeps s (readEmplaceable s).1 := by
  simp only [readEmplaceable]
  split
  · next h _ =>
    have h1 := keepsCrater s
    exact ⟨h1.face, h1.rmax, fun v e => by simp [h] at e⟩
  · exact .rfl' s

theorem keepsFaces (s : State R) : Keeps s (readFaces s).1 := by
  simp only [readFaces]
  split
  · have h1 := keepsEmplaceable s
    split
    · have h2 := h1.trans (keepsEjecta _)
      exact ⟨h2.face, h2.rmax, h2.emplaceable⟩
    · exact h1
  · exact .rfl' s

theorem keepsNodes (s : State R) : Keeps s (readNodes s).1 := by
  simp only [readNodes]
  split
  · have h1 := keepsEmplaceable s
    split
    · have h2 := h1.trans (keepsEjecta _)
      exact ⟨h2.face, h2.rmax, h2.emplaceable⟩
    · exact h1
  · exact .rfl' s

theorem keepsRun (s : State R) (ops : List (Op R)) : Keeps s (run s ops) := by
  induction ops generalizing s with
  | nil => exact .rfl' s
  | cons o l ih =>
    refine Keeps.trans ?_ (ih (step s o))
    cases o with
    | face => exact keepsFace s
    | rmax => exact keepsRmax s
    | crater => exact keepsCrater s
    | ejecta => exact keepsEjecta s
    | emplaceable => exact keepsEmplaceable s
    | faces => exact keepsFaces s
    | nodes => exact keepsNodes s
    | drop => exact ⟨fun _ h => h, fun _ h => h, fun _ h => h⟩
    | mesh g => exact ⟨fun _ h => h, fun _ h => h, fun _ h => h⟩

/-- Nothing that happens later changes a face index, an extent of the ejecta or a verdict about the size that has once been read:
not another mesh, and not giving up what is kept. -/
theorem C171_kept (s : State R) (ops : List (Op R)) :
    (∀ v, (readFace s).2 = some v → (readFace (run (readFace s).1 ops)).2 = some v) ∧
    (∀ v, (readRmax s).2 = some v → (readRmax (run (readRmax s).1 ops)).2 = some v) ∧
    (∀ v, (readEmplaceable s).2 = some v → (readEmplaceable (run (readEmplaceable s).1 ops)).2 = some v) := by
  refine ⟨fun v h => ?_, fun v h => ?_, fun v h => ?_⟩
  · have h1 : (readFace s).1.faceIndex = some v := by
      rw [← h]
      simp only [readFace]
      split <;> rfl
    have h2 := (keepsRun _ ops).face v h1
    generalize run (readFace s).1 ops = t at h2 ⊢
    simp only [readFace, h2]
  · have h1 : (readRmax s).1.rmax = some v := by
      rw [← h]
      simp only [readRmax]
      split <;> rfl
    have h2 := (keepsRun _ ops).rmax v h1
    generalize run (readRmax s).1 ops = t at h2 ⊢
    simp only [readRmax, h2]
  · have h1 : (readEmplaceable s).1.emplaceable = some v := by
      rw [← h]
      simp only [readEmplaceable]
      split <;> rfl
    have h2 := (keepsRun _ ops).emplaceable v h1
    generalize run (readEmplaceable s).1 ops = t at h2 ⊢
    simp only [readEmplaceable, h2]

/-- On another mesh the crater is a mixture: it is still said to be large enough, although there is no region for it on that mesh;
`form_crater` then fails with an AttributeError. -/
theorem C171_mesh_fails (g g' : Geo R) (hg : g.crater ≠ none) (hg' : g'.crater = none) :
    let s := run ({} : State R) [.mesh g, .emplaceable, .drop, .mesh g']
    (readEmplaceable s).2 = some true ∧ (readCrater s).2 = none ∧ ¬ Shows g' s := by
  cases hc : g.crater with
  | none => exact absurd hc hg
  | some r =>
    have e : (readEmplaceable (run ({} : State R) [.mesh g, .emplaceable, .drop, .mesh g'])).2 = some true := by
      simp [run, step, readEmplaceable, readCrater, drop, hc]
    refine ⟨e, ?_, fun h => ?_⟩
    · simp [run, step, readEmplaceable, readCrater, drop, hc, hg']
    · have := h.emplaceable
      rw [e, hg'] at this
      simp at this

/-- A crater that is too small for a coarser mesh. -/
example : ∃ g g' : Geo ℕ, g.crater ≠ none ∧ g'.crater = none :=
  ⟨⟨7, 100, some 0, fun _ => some 1, fun _ => {7}, fun _ => {3}⟩, ⟨2, 100, none, fun _ => none, fun _ => ∅, fun _ => ∅⟩, by simp, rfl⟩

/-- Reading the affected faces first, with nothing else read, and again after everything was given up. -/
example : let g : Geo ℕ := ⟨7, 100, some 0, fun d => if d = 100 then some 1 else none, fun r => {r, 7}, fun r => {r}⟩
    (∀ g', Op.mesh g' ∈ [Op.face, .mesh g, .faces, .drop, .nodes] → g' = g) ∧ Op.mesh g ∈ [Op.face, .mesh g, .faces, .drop, .nodes] := by
  simp

/-! ### C172: the surface that is changed -/

/-- The number of the crater itself. -/
def Obj.id : Obj → ℕ
  | .plain i => i
  | .made _ i => i

/-- The craters that the argument stands for. -/
def Arg.craters (fresh : ℕ) : Arg → List ℕ
  | .none => [fresh]
  | .one c => [c.id]
  | .many cs => cs.map Obj.id
  | .other => []

/-- The objects in an argument. -/
def Arg.objs : Arg → List Obj
  | .one c => [c]
  | .many cs => cs
  | _ => []

/-- An argument that is a crater, a list or tuple with craters, or nothing. -/
def Arg.Good (a : Arg) : Prop := a ≠ .other ∧ a ≠ .many []

theorem forms (self : ℕ) (fits : ℕ → ℕ → Bool) (cs : List (ℕ × ℕ)) (hc : ∀ c ∈ cs, c.1 = self) (w : World) :
    (cs.foldl (form self fits) w).dug self = w.dug self ++ (cs.map (·.2)).filter (fits self) ∧
    (cs.foldl (form self fits) w).listed self = w.listed self ++ (cs.map (·.2)).filter (fits self) ∧
    ∀ o, o ≠ self → (cs.foldl (form self fits) w).dug o = w.dug o ∧ (cs.foldl (form self fits) w).listed o = w.listed o := by
  induction cs generalizing w with
  | nil => simp
  | cons c cs ih =>
    obtain ⟨o, i⟩ := c
    have : o = self := hc (o, i) (by simp)
    subst this
    obtain ⟨h1, h2, h3⟩ := ih (fun c hx => hc c (by simp [hx])) (form o fits w (o, i))
    simp only [List.foldl_cons, h1, h2]
    by_cases hf : fits o i
    · simp only [form, hf, if_true, List.map_cons, List.filter_cons, List.append_assoc, List.singleton_append]
      refine ⟨trivial, trivial, fun p hp => ?_⟩
      obtain ⟨h4, h5⟩ := h3 p hp
      simp only [form, hf, if_true, if_neg hp] at h4 h5
      exact ⟨h4, h5⟩
    · simp only [form, hf, List.map_cons, List.filter_cons]
      refine ⟨by simp, by simp, fun p hp => ?_⟩
      obtain ⟨h4, h5⟩ := h3 p hp
      simp only [form, hf] at h4 h5
      simpa using ⟨h4, h5⟩

/-- A crater, a list or tuple of craters or keyword arguments: every crater is returned, in order, and those that are large enough
are dug into the surface and listed, in order, and no other surface changes.  Missing: craters made for another surface and the
empty list, see `C172_other_fails` and `C172_empty_fails`. -/
theorem C172_surface_partial (self fresh : ℕ) (fits : ℕ → ℕ → Bool) (w : World) (a : Arg) (hg : a.Good)
    (ho : ∀ o i, Obj.made o i ∈ a.objs → o = self) :
    ∃ w' cs, emplace self fresh fits w a = some (w', cs) ∧ cs = (a.craters fresh).map (fun i => (self, i)) ∧
      w'.dug self = w.dug self ++ (a.craters fresh).filter (fits self) ∧
      w'.listed self = w.listed self ++ (a.craters fresh).filter (fits self) ∧
      ∀ o, o ≠ self → w'.dug o = w.dug o ∧ w'.listed o = w.listed o := by
  have hconv : ∀ c ∈ a.objs, convert self c = (self, c.id) := by
    intro c hc
    cases c with
    | plain i => rfl
    | made o i => rw [ho o i hc]; rfl
  have hp : prepare self fresh a = some ((a.craters fresh).map fun i => (self, i)) := by
    cases a with
    | none => rfl
    | one c => simp [prepare, Arg.craters, hconv c (by simp [Arg.objs])]
    | other => exact absurd rfl hg.1
    | many cs =>
      have hne : cs.length > 0 := List.length_pos_iff.mpr fun e => hg.2 (by rw [e])
      simp only [prepare, hne, if_true, Arg.craters, List.map_map, Option.some.injEq]
      exact List.map_congr_left fun c hc => hconv c hc
  obtain ⟨h1, h2, h3⟩ := forms self fits ((a.craters fresh).map fun i => (self, i)) (by simp) w
  simp only [List.map_map] at h1 h2
  have hid : ((fun x : ℕ × ℕ => x.2) ∘ fun i => (self, i)) = id := rfl
  rw [hid, List.map_id] at h1 h2
  exact ⟨_, _, by rw [emplace, hp]; rfl, rfl, h1, h2, h3⟩

/-- A crater object that was made for another surface is dug into that other surface, but listed among the craters of this one. -/
theorem C172_other_fails (self other i fresh : ℕ) (hne : other ≠ self) (fits : ℕ → ℕ → Bool) (hf : fits other i) (w : World) :
    ∃ w' cs, emplace self fresh fits w (.one (.made other i)) = some (w', cs) ∧ w'.dug self = w.dug self ∧
      w'.dug other = w.dug other ++ [i] ∧ w'.listed self = w.listed self ++ [i] := by
  refine ⟨_, _, rfl, ?_, ?_, ?_⟩
  · simp [form, convert, hf, hne.symm]
  · simp [form, convert, hf]
  · simp [form, convert, hf]

/-- An empty list, for instance of a period without craters, is rejected. -/
theorem C172_empty_fails (self fresh : ℕ) (fits : ℕ → ℕ → Bool) (w : World) : emplace self fresh fits w (.many []) = none := rfl

/-- Three craters in a list, one of them too small. -/
example : (Arg.many [.plain 1, .made 0 2, .plain 3]).Good ∧
    (∀ o i, Obj.made o i ∈ (Arg.many [.plain 1, .made 0 2, .plain 3]).objs → o = 0) ∧
    ([1, 2, 3] : List ℕ).filter (fun i => decide (i ≠ 3)) = [1, 2] := by
  refine ⟨⟨by simp, by simp⟩, ?_, by decide⟩
  intro o i h
  simp [Arg.objs] at h
  exact h.1

end Verif.CraterState
