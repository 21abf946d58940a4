import Verif.Model.VtkFiles

/-!
# C177: mesh files show the surface or region that was exported
-/

namespace Verif.VtkFiles

open SurfaceExport

variable {M D T : Type}

/-- The files of saved states have different interval numbers. -/
def Distinct (fs : Files D T) : Prop := (fs.map Prod.fst).Nodup

/-- The states that a call asks for, as documented: all, the one of that number, or counted from the end. -/
def Asked (fs : Files D T) : Option ℤ → List (ℤ × D)
  | none => fs.map fun p => (p.1, p.2.data)
  | some k =>
    if 0 ≤ k then (fs.filter fun p => p.1 = k).map fun p => (p.1, p.2.data)
    else (if (-k).toNat ≤ fs.length then (fs[fs.length - (-k).toNat]?).toList else []).map fun p => (p.1, p.2.data)

theorem writeOne_grid (v : View M D) (agree : ℤ → Bool) (dir : Dir M D) (p : ℤ × D) :
    (writeOne v agree dir p).grid = dir.grid := by
  unfold writeOne; split_ifs <;> rfl

theorem writes_grid (v : View M D) (agree : ℤ → Bool) (l : List (ℤ × D)) (dir : Dir M D) :
    (l.foldl (writeOne v agree) dir).grid = dir.grid := by
  induction l generalizing dir with
  | nil => rfl
  | cons p l ih => rw [List.foldl_cons, ih, writeOne_grid]

theorem writes_other (v : View M D) (agree : ℤ → Bool) (l : List (ℤ × D)) (dir : Dir M D) (b : Bool) (j : ℤ)
    (h : b ≠ v.isLocal ∨ j ∉ l.map Prod.fst) : (l.foldl (writeOne v agree) dir).data b j = dir.data b j := by
  induction l generalizing dir with
  | nil => rfl
  | cons p l ih =>
    have h' : b ≠ v.isLocal ∨ j ∉ l.map Prod.fst := by
      rcases h with h | h
      · exact .inl h
      · exact .inr fun e => h (by simp [e])
    rw [List.foldl_cons, ih _ h']
    unfold writeOne
    split_ifs
    · rfl
    · show (if b = v.isLocal ∧ j = p.1 then _ else _) = _
      rw [if_neg]
      rintro ⟨rfl, rfl⟩
      rcases h with h | h
      · exact h rfl
      · exact h (by simp)

theorem writes_at (v : View M D) (agree : ℤ → Bool) (l : List (ℤ × D)) (hl : (l.map Prod.fst).Nodup) (dir : Dir M D)
    (p : ℤ × D) (hp : p ∈ l) :
    (l.foldl (writeOne v agree) dir).data v.isLocal p.1 =
      if (dir.data v.isLocal p.1).isSome && !agree p.1 then dir.data v.isLocal p.1 else some (v.mesh, v.part p.2) := by
  induction l generalizing dir with
  | nil => simp at hp
  | cons q l ih =>
    rw [List.map_cons, List.nodup_cons] at hl
    rw [List.foldl_cons]
    rcases List.mem_cons.1 hp with rfl | hp
    · rw [writes_other _ _ _ _ _ _ (.inr hl.1)]
      unfold writeOne
      split_ifs <;> simp
    · have hne : p.1 ≠ q.1 := fun e => hl.1 (e ▸ List.mem_map.2 ⟨p, hp, rfl⟩)
      have hd : (writeOne v agree dir q).data v.isLocal p.1 = dir.data v.isLocal p.1 := by
        unfold writeOne
        split_ifs
        · rfl
        · show (if _ ∧ p.1 = q.1 then _ else _) = _
          rw [if_neg (fun e => hne e.2)]
      rw [ih hl.2 _ hp, hd]

theorem asked_sub (fs : Files D T) (hd : Distinct fs) (i : Option ℤ) : ((Asked fs i).map Prod.fst).Nodup := by
  rcases i with _ | k
  · simpa [Asked, Distinct, List.map_map, Function.comp_def] using (show (fs.map Prod.fst).Nodup from hd)
  · simp only [Asked]
    split_ifs
    · rw [List.map_map]
      exact List.Nodup.sublist (List.Sublist.map _ List.filter_sublist) hd
    · rcases fs[fs.length - (-k).toNat]? <;> simp
    · simp

theorem read_filter (fs : Files D T) (hd : Distinct fs) (k : ℤ) (hk : ¬ k < 0) :
    SurfaceExport.read fs (some k) = fs.filter fun p => p.1 = k := by
  simp only [SurfaceExport.read, if_neg hk]
  induction fs with
  | nil => rfl
  | cons p fs ih =>
    rcases p with ⟨j, s⟩
    unfold Distinct at hd ih
    rw [List.map_cons, List.nodup_cons] at hd
    by_cases h : k = j
    · subst h
      rw [List.lookup_cons_self, List.filter_cons_of_pos (by simp)]
      have : fs.filter (fun p => p.1 = k) = [] := by
        rw [List.filter_eq_nil_iff]
        intro q hq e
        have e : q.1 = k := by simpa using e
        exact hd.1 (e ▸ List.mem_map.2 ⟨q, hq, rfl⟩)
      rw [this]
    · have hb : (k == j) = false := by simpa using h
      rw [List.lookup_cons, hb, List.filter_cons_of_neg (by simpa using fun e => h e.symm)]
      exact ih hd.2

theorem read_asked (fs : Files D T) (hd : Distinct fs) (i : Option ℤ) :
    (read fs i).map (fun p => (p.1, p.2.data)) = Asked fs i := by
  rcases i with _ | k
  · rfl
  · by_cases hk : k < 0
    · simp only [SurfaceExport.read, Asked, if_pos hk, if_neg (not_le.2 hk)]
    · rw [read_filter fs hd k hk]
      simp only [Asked, if_pos (not_lt.1 hk)]

/-- What `to_vtk_file` does when it does not raise. -/
theorem toVtk_eq (v : View M D) (agree : ℤ → Bool) (fs : Files D T) (hd : Distinct fs) (i : Option ℤ)
    (hi : ∀ k, i = some k → -1 ≤ k) (dir : Dir M D) :
    toVtk v agree fs i dir =
      if (Asked fs i).isEmpty then none else some ((Asked fs i).foldl (writeOne v agree) (writeGrid v dir)) := by
  have hr := read_asked fs hd i
  have he : (read fs i).isEmpty = (Asked fs i).isEmpty := by rw [← hr]; cases read fs i <;> rfl
  unfold toVtk
  simp only [he]
  split_ifs with h
  · rfl
  · have hn : ∃ ns, numbers ((read fs i).map Prod.fst) i = some ns ∧ ∀ p ∈ read fs i, p.1 ∈ ns := by
      rcases i with _ | k
      · exact ⟨_, rfl, fun p hp => List.mem_map.2 ⟨p, hp, rfl⟩⟩
      · by_cases hk : k < 0
        · have : k = -1 := by have := hi k rfl; omega
          subst this
          have hlen : (read fs (some (-1))).length ≤ 1 := by
            simp only [SurfaceExport.read, hk, if_true]
            split_ifs
            · cases fs[fs.length - _]? <;> simp
            · simp
          rcases hf : read fs (some (-1)) with _ | ⟨q, _ | ⟨q', rest⟩⟩
          · rw [← he, hf] at h; simp at h
          · refine ⟨[q.1], by simp [numbers], ?_⟩
            intro p hp
            simp only [List.mem_singleton] at hp
            simp [hp]
          · rw [hf] at hlen; simp at hlen
        · refine ⟨[k], by simp [numbers, hk], ?_⟩
          intro p hp
          rw [read_filter fs hd k hk] at hp
          simpa using (List.mem_filter.1 hp).2
    obtain ⟨ns, hns, hall⟩ := hn
    rw [hns]
    simp only [Option.map_some, Option.some.injEq]
    rw [List.filter_eq_self.2 (by simpa using hall), ← hr, List.foldl_map]

/-- Without an interval, with the number of an interval, or with -1 for the last one: the call succeeds exactly if such a state
has been saved; then the file of each state asked for holds that state on the present mesh, unless there was a file already
and the user declined to replace it; no other file of an interval changes.  Missing: intervals counted further from the end,
see `C177_negative_fails`, and the geometry file, see `C177_grid_iff_partial`. -/
theorem C177_states_partial (v : View M D) (agree : ℤ → Bool) (fs : Files D T) (hd : Distinct fs) (i : Option ℤ)
    (hi : ∀ k, i = some k → -1 ≤ k) (dir : Dir M D) :
    ((toVtk v agree fs i dir).isSome ↔ Asked fs i ≠ []) ∧
    ∀ dir', toVtk v agree fs i dir = some dir' →
      (∀ p ∈ Asked fs i, dir'.data v.isLocal p.1 =
        if dir.data v.isLocal p.1 ≠ none ∧ agree p.1 = false then dir.data v.isLocal p.1
        else some (v.mesh, v.part p.2)) ∧
      ∀ b j, b ≠ v.isLocal ∨ j ∉ (Asked fs i).map Prod.fst → dir'.data b j = dir.data b j := by
  rw [toVtk_eq v agree fs hd i hi]
  have hg : (writeGrid v dir).data = dir.data := by unfold writeGrid; split <;> rfl
  constructor
  · rcases Asked fs i <;> simp
  · intro dir' h
    split_ifs at h with he
    cases h
    refine ⟨fun p hp => ?_, fun b j hb => ?_⟩
    · rw [writes_at v agree _ (asked_sub fs hd i) _ p hp, hg]
      rcases dir.data v.isLocal p.1 with _ | x <;> cases agree p.1 <;> simp
    · rw [writes_other v agree _ _ b j hb, hg]

/-- The geometry file shows the present mesh exactly if there was none before, or one of the same mesh. -/
theorem C177_grid_iff_partial (v : View M D) (agree : ℤ → Bool) (fs : Files D T) (i : Option ℤ) (dir dir' : Dir M D)
    (h : toVtk v agree fs i dir = some dir') :
    dir'.grid v.isLocal = some v.mesh ↔ dir.grid v.isLocal = none ∨ dir.grid v.isLocal = some v.mesh := by
  have hw : dir'.grid = (writeGrid v dir).grid := by
    unfold toVtk at h
    simp only at h
    split_ifs at h
    rw [Option.map_eq_some_iff] at h
    obtain ⟨ns, _, rfl⟩ := h
    rw [← List.foldl_map (f := fun p : ℤ × Snap D T => (p.1, p.2.data)) (g := writeOne v agree), writes_grid]
  rw [hw]
  unfold writeGrid
  rcases hg : dir.grid v.isLocal with _ | m
  · simp
  · simp [hg]

/-- The full claim fails: after any number of exports of regions, in whatever order, the geometry file is that of the first one. -/
theorem C177_grid_fails (v : View M D) (hv : v.isLocal = true) (agree : ℤ → Bool) (fs : Files D T) (i : Option ℤ)
    (dir dir₁ : Dir M D) (hn : dir.grid true = none) (h₁ : toVtk v agree fs i dir = some dir₁)
    (later : List (View M D × Option ℤ)) :
    (later.foldl (fun d e => (toVtk e.1 agree fs e.2 d).getD d) dir₁).grid true = some v.mesh := by
  have h0 : dir₁.grid true = some v.mesh := by
    have := (C177_grid_iff_partial v agree fs i dir dir₁ h₁).2 (.inl (by rw [hv]; exact hn))
    rwa [hv] at this
  clear h₁ hn
  induction later generalizing dir₁ with
  | nil => exact h0
  | cons e later ih =>
    rw [List.foldl_cons]
    apply ih
    rcases hx : toVtk e.1 agree fs e.2 dir₁ with _ | d
    · exact h0
    · have hw : d.grid = (writeGrid e.1 dir₁).grid := by
        unfold toVtk at hx
        simp only at hx
        split_ifs at hx
        rw [Option.map_eq_some_iff] at hx
        obtain ⟨ns, _, rfl⟩ := hx
        rw [← List.foldl_map (f := fun p : ℤ × Snap D T => (p.1, p.2.data)) (g := writeOne e.1 agree), writes_grid]
      simp only [Option.getD_some]
      rw [hw]
      unfold writeGrid
      rcases hb : e.1.isLocal with _ | _
      · rcases hg : dir₁.grid false with _ | m
        · simp [h0]
        · simp [h0]
      · simp [h0]

/-- The full claim fails: every number below -1 raises, although the state it means has been saved and read. -/
theorem C177_negative_fails (v : View M D) (agree : ℤ → Bool) (fs : Files D T) (k : ℤ) (hk : k < -1) (dir : Dir M D) :
    toVtk v agree fs (some k) dir = none := by
  unfold toVtk
  simp only
  split_ifs
  · rfl
  · have hlen : (read fs (some k)).length ≤ 1 := by
      simp only [SurfaceExport.read, if_pos (show k < 0 by omega)]
      split_ifs
      · cases fs[fs.length - _]? <;> simp
      · simp
    have : numbers ((read fs (some k)).map Prod.fst) (some k) = none := by
      simp only [numbers, if_pos (show k < 0 by omega), List.length_map]
      rw [if_neg (by omega)]
    rw [this]
    rfl

/-- A directory without exports, and a surface saved at intervals 0, 1 and 2. -/
example : ∃ dir' : Dir ℕ ℕ, toVtk (T := ℕ) ⟨true, 5, fun d => d⟩ (fun _ => true)
      [(0, ⟨10, none⟩), (1, ⟨11, none⟩), (2, ⟨12, none⟩)] (some (-1)) ⟨fun _ => none, fun _ _ => none⟩ = some dir' ∧
    dir'.data true 2 = some (5, 12) ∧ dir'.grid true = some 5 := ⟨_, rfl, rfl, rfl⟩

/-- A state that is asked for by -2 and not exported. -/
example : Asked (D := ℕ) (T := ℕ) [(0, ⟨10, none⟩), (1, ⟨11, none⟩), (2, ⟨12, none⟩)] (some (-2)) = [(1, 11)] := rfl

end Verif.VtkFiles
