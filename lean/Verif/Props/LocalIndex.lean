import Verif.Model.LocalIndex
import Mathlib.Tactic.IntervalCases

/-! Properties C175 and C176: the local region belongs to the mesh. -/

namespace Verif.LocalIndex

open Verif.Crash (Blob)

variable {G : Type} [DecidableEq G]

/-- The index file, if there is one, is complete and belongs to the mesh on disk, if that is one with a local region. -/
def Fits (hires : G → Bool) (d : Disk G) : Prop :=
  ∀ g, hires g = true → d .grid = some (.whole g) → d .index = none ∨ d .index = some (.whole g)

omit [DecidableEq G] in
theorem run_append (d : Disk G) (a b : List (Op G)) : run d (a ++ b) = run (run d a) b := by
  unfold run; rw [List.foldl_append]

omit [DecidableEq G] in
theorem run_grid (d : Disk G) (g : G) :
    run d (gridOps g) .grid = some (.whole g) ∧ run d (gridOps g) .index = d .index := by
  simp [run, gridOps, step, put]

omit [DecidableEq G] in
theorem run_index (d : Disk G) (g : G) :
    run d (indexOps g) .grid = d .grid ∧ run d (indexOps g) .index = some (.whole g) := by
  simp [run, indexOps, step, put]

theorem sameGrid_iff (d : Disk G) (g : G) : sameGrid d g = true ↔ d .grid = some (.whole g) := by
  unfold sameGrid
  rcases h : d .grid with _ | b
  · simp
  · cases b <;> simp

/-- A start on a disk on which the index file fits takes the right faces and leaves a fitting index file. -/
theorem start_fits (d : Disk G) (hires : G → Bool) (h : Fits hires d) (g : G) (hg : hires g = true) (regrid : Bool) :
    loaded d none g = some g ∧ run d (loadOps d none g regrid) .grid = some (.whole g) ∧
    run d (loadOps d none g regrid) .index = some (.whole g) := by
  by_cases hs : sameGrid d g = true
  · have hgrid := (sameGrid_iff d g).mp hs
    rcases h g hg hgrid with hi | hi
    · refine ⟨by simp [loaded, hi], ?_⟩
      have e : loadOps d none g regrid = (if regrid then gridOps g else []) ++ indexOps g := by simp [loadOps, hs, hi]
      rw [e, run_append]
      cases regrid
      · simp only [Bool.false_eq_true, if_false]
        exact ⟨(run_index _ g).1.trans hgrid, (run_index _ g).2⟩
      · simp only [if_true]
        exact ⟨(run_index _ g).1.trans (run_grid d g).1, (run_index _ g).2⟩
    · refine ⟨by simp [loaded, hi, hs], ?_⟩
      have e : loadOps d none g regrid = if regrid then gridOps g else [] := by simp [loadOps, hs, hi]
      rw [e]
      cases regrid
      · exact ⟨hgrid, hi⟩
      · exact ⟨(run_grid d g).1, (run_grid d g).2.trans hi⟩
  · have hs : sameGrid d g = false := by simpa using hs
    refine ⟨by simp [loaded, hs], ?_⟩
    have e : loadOps d none g regrid = gridOps g ++ indexOps g := by simp [loadOps, hs]
    rw [e, run_append]
    exact ⟨(run_index _ g).1.trans (run_grid d g).1, (run_index _ g).2⟩

/-- As long as every process gets through making its surface, and makes it once, the local region always consists of faces of the present mesh
that were determined for its settings, whatever surfaces, also of other kinds, were made in the directory before.
Missing: crashes, see `C175_stale_fails` and `C175_torn_fails`; a second loading in the same process, see `C175_again_fails`. -/
theorem C175_region_partial (hires : G → Bool) (es : List (Event G))
    (hes : ∀ e ∈ es, (∃ g r, e = .start g r ∧ hires g = true) ∨ ∃ g, e = .other g ∧ hires g = false)
    (g : G) (hg : hires g = true) (regrid : Bool) :
    (history (es ++ [.start g regrid])).cache = some g ∧
    (history (es ++ [.start g regrid])).disk .grid = some (.whole g) ∧
    (history (es ++ [.start g regrid])).disk .index = some (.whole g) := by
  have inv : ∀ (es : List (Event G)) (s : State G), Fits hires s.disk →
      (∀ e ∈ es, (∃ g r, e = .start g r ∧ hires g = true) ∨ ∃ g, e = .other g ∧ hires g = false) →
      Fits hires (es.foldl event s).disk := by
    intro es
    induction es with
    | nil => intro s h _; exact h
    | cons e es ih =>
      intro s h hes
      rw [List.foldl_cons]
      refine ih _ ?_ (fun x hx => hes x (List.mem_cons_of_mem _ hx))
      rcases hes e (by simp) with ⟨k, r, rfl, hk⟩ | ⟨k, rfl, hk⟩
      · obtain ⟨_, h2, h3⟩ := start_fits s.disk hires h k hk r
        intro j _ hj
        have h2' : (event s (.start k r)).disk .grid = some (.whole k) := h2
        rw [h2'] at hj
        cases hj
        exact Or.inr h3
      · intro j hj hgrid
        simp only [event] at hgrid ⊢
        split_ifs at hgrid ⊢ with hs
        · exact h j hj hgrid
        · rw [(run_grid s.disk k).1] at hgrid
          cases hgrid
          rw [hk] at hj; cases hj
  have hf := inv es ⟨fun _ => none, none⟩ (fun g _ h => by simp at h) hes
  unfold history
  rw [List.foldl_append]
  obtain ⟨h1, h2, h3⟩ := start_fits _ hires hf g hg regrid
  exact ⟨h1, h2, h3⟩

/-- In a directory with a surface made for other settings: a crash after the new grid is written, and the next start, with the same
settings, silently takes the faces with the numbers determined for the old mesh. -/
theorem C175_stale_fails (a g : G) (h : a ≠ g) : ∃ n, ∀ regrid,
    (history [.start a false, .crash g false n, .start g regrid]).cache = some a ∧
    (history [.start a false, .crash g false n, .start g regrid]).disk .grid = some (.whole g) := by
  refine ⟨4, fun regrid => ?_⟩
  have h' : ¬ a = g := h
  cases regrid <;>
    simp [history, event, loadOps, loaded, sameGrid, gridOps, indexOps, run, step, put, h']

/-- After a crash while the indices are written, every later start with these settings raises, with a forced new grid as well,
until the file is removed by hand. -/
theorem C175_torn_fails (g : G) : ∃ n, ∀ rs : List Bool, rs ≠ [] →
    (history (.crash g false n :: rs.map fun r => .start g r)).cache = none := by
  refine ⟨7, fun rs hrs => ?_⟩
  have key : ∀ (rs : List Bool) (s : State G), s.disk .grid = some (.whole g) → s.disk .index = some .torn →
      (rs.foldl (fun t r => event t (.start g r)) s).disk .grid = some (.whole g) ∧
      (rs.foldl (fun t r => event t (.start g r)) s).disk .index = some .torn ∧
      (rs ≠ [] → (rs.foldl (fun t r => event t (.start g r)) s).cache = none) := by
    intro rs
    induction rs with
    | nil => intro s h1 h2; exact ⟨h1, h2, fun h => absurd rfl h⟩
    | cons r rs ih =>
      intro s h1 h2
      have hs := (sameGrid_iff s.disk g).mpr h1
      have e : loadOps s.disk none g r = if r then gridOps g else [] := by simp [loadOps, hs, h2]
      have hd : (event s (.start g r)).disk .grid = some (.whole g) ∧ (event s (.start g r)).disk .index = some .torn := by
        simp only [event]
        rw [e]
        cases r
        · exact ⟨h1, h2⟩
        · exact ⟨(run_grid s.disk g).1, (run_grid s.disk g).2.trans h2⟩
      have hc : (event s (.start g r)).cache = none := by simp [event, loaded, hs, h2]
      obtain ⟨i1, i2, i3⟩ := ih _ hd.1 hd.2
      refine ⟨i1, i2, fun _ => ?_⟩
      rw [List.foldl_cons]
      rcases rs with _ | ⟨x, xs⟩
      · exact hc
      · exact i3 (by simp)
  have h0 : (event (⟨fun _ => none, none⟩ : State G) (.crash g false 7)).disk .grid = some (.whole g) ∧
      (event (⟨fun _ => none, none⟩ : State G) (.crash g false 7)).disk .index = some .torn := by
    simp [event, loadOps, sameGrid, gridOps, indexOps, run, step, put]
  have := (key rs _ h0.1 h0.2).2.2 hrs
  unfold history
  rw [List.foldl_cons, List.foldl_map]
  exact this

/-- Exactly what a crash of a start can do to the next one with the same settings, on a disk on which the index file fits: with a new grid
to be written, the local region is right after a crash before the grid is in place, after the old indices are removed, or at
the end; between, the old indices, if any, are taken; and while the indices are written the next start raises. -/
theorem C175_crash (d : Disk G) (g : G) (regrid : Bool) (hnew : sameGrid d g = false) (n : ℕ) :
    loaded (run d ((loadOps d none g regrid).take n)) none g =
      if n = 4 ∨ n = 5 then
        (match d .index with
          | none => some g
          | some (.whole h) => some h
          | some .torn => none)
      else if n = 7 then none else some g := by
  have e : loadOps d none g regrid = [.unlink .grid, .create .temp, .finish .temp g, .rename .temp .grid, .unlink .localGrid,
      .unlink .index, .create .index, .finish .index g] := by
    simp [loadOps, hnew, gridOps, indexOps]
  rw [e]
  rcases Nat.lt_or_ge n 8 with hn | hn
  · interval_cases n
    · simp only [List.take_zero, run, List.foldl_nil]
      simp [loaded, hnew]
    all_goals
      rcases hd : d .index with _ | b
      · simp [loaded, sameGrid, run, step, put, hd]
      · cases b <;> simp [loaded, sameGrid, run, step, put, hd]
  · rw [List.take_of_length_le (by simpa using hn)]
    have h1 : ¬ (n = 4 ∨ n = 5) := by omega
    have h2 : n ≠ 7 := by omega
    simp [loaded, sameGrid, run, step, put, h1, h2]

/-- Loading again in the same process with settings that give another mesh, as `set_superdomain` does on a surface that was made with a
scale factor, keeps the numbers of the faces of the old mesh; and so does every later start. -/
theorem C175_again_fails (a g : G) (h : a ≠ g) (regrid regrid' : Bool) :
    (history [.start a false, .reload g regrid]).cache = some a ∧
    (history [.start a false, .reload g regrid]).disk .grid = some (.whole g) ∧
    (history [.start a false, .reload g regrid, .start g regrid']).cache = some a := by
  have h' : ¬ a = g := h
  cases regrid <;> cases regrid' <;>
    simp [history, event, loadOps, loaded, sameGrid, gridOps, indexOps, run, step, put, h']

/-- A surface made without a reset has the marks of the local faces and nodes, and all the variables of the data that was read, or, with a
new mesh, the initial ones.  Missing: with a reset, the default, see `C176_reset_fails`. -/
theorem C176_flags_partial (d : Disk G) (g : G) (saved : List String) (regrid : Bool) :
    "is_local_face" ∈ varsAfter d g saved false regrid ∧ "is_local_node" ∈ varsAfter d g saved false regrid ∧
    (d .grid = some (.whole g) → regrid = false → ∀ v ∈ saved, v ∈ varsAfter d g saved false regrid) ∧
    (d .grid ≠ some (.whole g) ∨ regrid = true → ∀ v, v ∈ varsAfter d g saved false regrid ↔
      v ∈ ["node_elevation", "face_elevation", "is_local_face", "is_local_node"]) := by
  refine ⟨by simp [varsAfter, markLocal], by simp [varsAfter, markLocal], ?_, ?_⟩
  · intro h hr v hv
    have hs := (sameGrid_iff d g).mpr h
    simp only [varsAfter, hs, hr, markLocal]
    by_cases h1 : v = "is_local_face"
    · simp [h1]
    · by_cases h2 : v = "is_local_node"
      · simp [h2]
      · simp [h1, h2, hv]
  · intro h v
    have hf : (regrid || !sameGrid d g) = true := by
      rcases h with h | h
      · have : sameGrid d g = false := by
          rw [← Bool.not_eq_true, sameGrid_iff]; exact h
        simp [this]
      · simp [h]
    simp only [varsAfter, hf, markLocal, resetVars, initialVars]
    simp

/-- With a reset, which is the default, the marks are removed again at once. -/
theorem C176_reset_fails (d : Disk G) (g : G) (saved : List String) (regrid : Bool) :
    "is_local_face" ∉ varsAfter d g saved true regrid ∧ "is_local_node" ∉ varsAfter d g saved true regrid := by
  simp [varsAfter, resetVars, initialVars]

/-- A history with two kinds of surfaces. -/
example : (history [.start 1 false, .other 0, .start 3 true, .start 1 false]).cache = some 1 :=
  (C175_region_partial (fun g => g % 2 = 1) [.start 1 false, .other 0, .start 3 true]
    (by simp) 1 (by simp) false).1

end Verif.LocalIndex
