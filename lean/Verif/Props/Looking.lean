import Verif.Model.Looking
import Verif.Props.SurfaceExport
import Verif.Props.Plot
import Mathlib.Data.List.Induction

/-! Property C236: looking at a simulation shows the state asked for and leaves the saved states alone. -/

namespace Verif.Looking

open Verif.SurfaceExport

variable {D T : Type}

/-- The saved states are in order of their numbers, and no number is negative. -/
structure Good (s : Sim D T) : Prop where
  ordered : SurfaceExport.Ordered s.files
  nonneg : 0 ≤ s.interval

/-- The data of a list of files. -/
def pictures (fs : Files D T) : List (ℤ × D) := fs.map fun p => (p.1, p.2.data)

theorem ordered_pictures {fs : Files D T} (h : SurfaceExport.Ordered fs) : Plot.Ordered (pictures fs) := by
  unfold Plot.Ordered pictures
  unfold SurfaceExport.Ordered at h
  rw [List.pairwise_map] at h ⊢
  exact h

theorem mem_of_content {fs : Files D T} {k : ℤ} {d : D} {t : Option T} (h : content fs k = some (d, t)) : (k, d) ∈ pictures fs := by
  unfold content at h
  cases hl : fs.lookup k with
  | none => rw [hl] at h; simp at h
  | some x =>
    rw [hl] at h
    simp only [Option.map_some, Option.some.injEq, Prod.mk.injEq] at h
    have hm : (k, x) ∈ fs := by
      clear h
      induction fs with
      | nil => simp at hl
      | cons a l ih =>
        obtain ⟨i, y⟩ := a
        rw [List.lookup_cons] at hl
        by_cases hk : k = i
        · subst hk
          simp only [beq_self_eq_true, Option.some.injEq] at hl
          subst hl
          exact List.mem_cons_self
        · have : (k == i) = false := by simp [hk]
          rw [this] at hl
          exact List.mem_cons_of_mem _ (ih hl)
    exact List.mem_map.mpr ⟨(k, x), hm, by simp [h.1]⟩

theorem content_save_self (s : Sim D T) : content (save s).files s.interval = some (s.present, some s.times) := by
  unfold content save SurfaceExport.save
  rw [lookup_put_self]
  cases s.files.lookup s.interval <;> rfl

theorem content_save_ne (s : Sim D T) {k : ℤ} (h : k ≠ s.interval) : content (save s).files k = content s.files k := by
  unfold content save SurfaceExport.save
  rw [lookup_put_ne _ _ _ _ h]

theorem ordered_save {s : Sim D T} (h : Good s) : Good (save s) :=
  ⟨ordered_put _ _ _ h.ordered, h.nonneg⟩

theorem shown_self {s : Sim D T} (h : Good s) :
    Plot.shown (save s).present (pictures (save s).files) (some s.interval) = some (some s.interval, s.present) := by
  have hm := mem_of_content (content_save_self s)
  exact (Plot.C178_interval_partial _ _ (ordered_pictures (ordered_save h).ordered)).2 _ _ h.nonneg hm (Or.inr rfl)

/-- Without an interval a plot shows the present surface under the number of the present interval, with a label made from the same; the present state
is saved under that number; the saved states of other intervals, the surface and the times stay. -/
theorem C236_present_partial (s : Sim D T) (h : Good s) :
    ∃ s', plot s none = some (⟨(s.interval, some s.times), (some s.interval, s.present)⟩, s') ∧
      s'.interval = s.interval ∧ s'.present = s.present ∧ s'.times = s.times ∧
      content s'.files s.interval = some (s.present, some s.times) ∧ ∀ k, k ≠ s.interval → content s'.files k = content s.files k := by
  refine ⟨save s, ?_, rfl, rfl, rfl, content_save_self s, fun k hk => content_save_ne s hk⟩
  have h1 := shown_self h
  unfold pictures at h1
  simp only [plot, Option.getD_none, h1, Option.map_some, labelOf]

/-- With the number of a saved interval it shows that state, with a label made from its times, and changes nothing; provided it is not the last one saved, or the
surface is still as it was saved. -/
theorem C236_saved_partial (s : Sim D T) (h : Good s) (k : ℤ) (hk : 0 ≤ k) (d : D) (t : Option T) (hc : content s.files k = some (d, t))
    (hl : (∃ j, k < j ∧ content s.files j ≠ none) ∨ s.present = d) :
    plot s (some k) = some (⟨(k, t), (some k, d)⟩, s) := by
  have hm := mem_of_content hc
  have hl' : (∃ p ∈ pictures s.files, k < p.1) ∨ s.present = d := by
    rcases hl with ⟨j, hj, hn⟩ | hl
    · obtain ⟨⟨d', t'⟩, hd'⟩ := Option.ne_none_iff_exists'.mp hn
      exact Or.inl ⟨_, mem_of_content hd', hj⟩
    · exact Or.inr hl
  have h1 := (Plot.C178_interval_partial s.present _ (ordered_pictures h.ordered)).2 k d hk hm hl'
  have h2 : labelOf s (some k) = (k, t) := by
    have hn : ¬ k < 0 := by omega
    unfold content at hc
    cases hx : s.files.lookup k with
    | none => rw [hx] at hc; simp at hc
    | some x =>
      rw [hx] at hc
      simp only [Option.map_some, Option.some.injEq, Prod.mk.injEq] at hc
      simp [labelOf, SurfaceExport.read, hn, hx, hc.2]
  unfold pictures at h1
  simp only [plot, Option.getD_some, h1, Option.map_some, h2]

/-- The full claim fails: a plot without an interval replaces the saved state of the present interval by the present one, whenever the surface was changed since; what
the run had saved for the interval is lost. -/
theorem C236_replaced_fails (s : Sim D T) (h : Good s) (d : D) (hd : d ≠ s.present)
    (hs : content s.files s.interval = some (s.present, some s.times)) :
    ∃ seen s', plot (step s (.change d)) none = some (seen, s') ∧ content s'.files s.interval = some (d, some s.times) ∧
      content s'.files s.interval ≠ content s.files s.interval := by
  obtain ⟨s', h1, -, -, -, h5, -⟩ := C236_present_partial (step s (.change d)) ⟨h.ordered, h.nonneg⟩
  refine ⟨_, s', h1, h5, ?_⟩
  have h5' : content s'.files s.interval = some (d, some s.times) := h5
  rw [h5', hs]
  intro he
  simp only [Option.some.injEq, Prod.mk.injEq, and_true] at he
  exact hd he

/-- An interval of a run, a save, a plot of any kind, or an export of the present or of all states: everything but changes by hand and exports of a given earlier interval. -/
def Look : Op D T → Prop
  | .round _ _ => True
  | .change _ => False
  | .save => True
  | .plot _ => True
  | .export _ i => i = none ∨ i = some (-1)

/-- The states in which the intervals of a run end. -/
def rounds (ops : List (Op D T)) : List (D × T) :=
  ops.filterMap fun
    | .round d t => some (d, t)
    | _ => none

theorem export_none (s : Sim D T) (driver : String) :
    (step s (.export driver none)).files = (save s).files := by
  simp only [step, exportSim, exportSurface, Option.map_none, save]
  split_ifs <;> rfl

theorem export_last_content (s : Sim D T) (driver : String) (k : ℤ) :
    content (step s (.export driver (some (-1)))).files k = content (save s).files k := by
  have hf : (step s (.export driver (some (-1)))).files =
      SurfaceExport.save s.present none s.interval (save s).files := by
    have e : (s.interval + 1 + -1 : ℤ) = s.interval := by omega
    simp only [step, exportSim, exportSurface, Option.map_some, Int.reduceNeg, Int.neg_lt_zero_iff, zero_lt_one, if_true, save]
    split_ifs <;> simp [e]
  rw [hf]
  by_cases hk : k = s.interval
  · subst hk
    have h1 := content_save_self s
    unfold content at h1 ⊢
    cases hx : (save s).files.lookup s.interval with
    | none => rw [hx] at h1; simp at h1
    | some x =>
      rw [hx] at h1
      simp only [Option.map_some, Option.some.injEq, Prod.mk.injEq] at h1
      rw [SurfaceExport.save, lookup_put_self, hx]
      simp [merge, h1.1, h1.2]
  · unfold content SurfaceExport.save
    rw [lookup_put_ne _ _ _ _ hk]

theorem ordered_export (s : Sim D T) (h : Good s) (driver : String) (i : Option ℤ) : Good (step s (.export driver i)) := by
  refine ⟨?_, h.nonneg⟩
  have hs := (ordered_save h).ordered
  cases i with
  | none => rw [export_none]; exact hs
  | some k =>
    simp only [step, exportSim, exportSurface, Option.map_some]
    split_ifs <;> exact ordered_put _ _ _ hs

/-- What holds at any time when only `Look` is done: the saved state of the present interval is the present one. -/
def Kept (s : Sim D T) : Prop := content s.files s.interval = some (s.present, some s.times)

theorem step_look {s : Sim D T} (h : Good s) (hk : Kept s) {o : Op D T} (ho : Look o) :
    Good (step s o) ∧ Kept (step s o) ∧ (step s o).interval = s.interval + (rounds [o]).length ∧
      (∀ k ≤ s.interval, content (step s o).files k = content s.files k) ∧
      ∀ d t, o = .round d t → content (step s o).files (s.interval + 1) = some (d, some t) := by
  have hsave : ∀ k, content (save s).files k = content s.files k := by
    intro k
    by_cases hki : k = s.interval
    · rw [hki, content_save_self, hk]
    · exact content_save_ne s hki
  cases o with
  | round d t =>
    have h0 : Good ({ s with interval := s.interval + 1, present := d, times := t } : Sim D T) :=
      ⟨h.ordered, by have := h.nonneg; show 0 ≤ s.interval + 1; omega⟩
    refine ⟨ordered_save h0, content_save_self _, rfl, ?_, ?_⟩
    · intro k hk'
      exact content_save_ne ({ s with interval := s.interval + 1, present := d, times := t } : Sim D T)
        (by show k ≠ s.interval + 1; omega)
    · intro d' t' he
      cases he
      exact content_save_self ({ s with interval := s.interval + 1, present := d, times := t } : Sim D T)
  | change d => exact absurd ho (by simp [Look])
  | save =>
    exact ⟨ordered_save h, content_save_self s, by simp [rounds, step, save], fun k _ => hsave k, fun d t he => by cases he⟩
  | plot i =>
    cases i with
    | none =>
      have hp : step s (.plot none) = save s := by
        have h1 := shown_self h
        unfold pictures at h1
        simp only [step, plot, Option.getD_none, h1, Option.map_some, Option.getD_some]
      rw [hp]
      exact ⟨ordered_save h, content_save_self s, by simp [rounds, save], fun k _ => hsave k, fun d t he => by cases he⟩
    | some k =>
      have hp : step s (.plot (some k)) = s := by
        simp only [step, plot, Option.getD_some]
        cases Plot.shown s.present (s.files.map fun p => (p.1, p.2.data)) (some k) <;> rfl
      rw [hp]
      exact ⟨h, hk, by simp [rounds], fun _ _ => rfl, fun d t he => by cases he⟩
  | «export» driver i =>
    have hc : ∀ k, content (step s (.export driver i)).files k = content s.files k := by
      intro k
      rcases ho with rfl | rfl
      · rw [export_none]; exact hsave k
      · rw [export_last_content]; exact hsave k
    refine ⟨ordered_export s h driver i, ?_, by simp [rounds, step], fun k _ => hc k, fun d t he => by cases he⟩
    show content (step s (.export driver i)).files s.interval = some (s.present, some s.times)
    rw [hc]
    exact hk

theorem steps_look {s : Sim D T} (h : Good s) (hk : Kept s) (ops : List (Op D T)) (ho : ∀ o ∈ ops, Look o) :
    (Good (ops.foldl step s) ∧ Kept (ops.foldl step s) ∧ (ops.foldl step s).interval = s.interval + (rounds ops).length) ∧
      (∀ k ≤ s.interval, content (ops.foldl step s).files k = content s.files k) ∧
      ∀ (n : ℕ) (d : D) (t : T), (rounds ops)[n]? = some (d, t) → content (ops.foldl step s).files (s.interval + 1 + n) = some (d, some t) := by
  induction ops generalizing s with
  | nil => exact ⟨⟨h, hk, by simp [rounds]⟩, fun _ _ => rfl, fun n d t hn => by simp [rounds] at hn⟩
  | cons o os ih =>
    obtain ⟨g1, g2, g3, g4, g5⟩ := step_look h hk (ho o List.mem_cons_self)
    obtain ⟨⟨i1, i2, i3⟩, i4, i5⟩ := ih g1 g2 fun x hx => ho x (List.mem_cons_of_mem _ hx)
    have hr : rounds (o :: os) = rounds [o] ++ rounds os := by
      unfold rounds
      rw [← List.filterMap_append]
      rfl
    have hle : s.interval ≤ (step s o).interval := by rw [g3]; omega
    refine ⟨⟨i1, i2, ?_⟩, ?_, ?_⟩
    · rw [List.foldl_cons, i3, g3, hr, List.length_append]; push_cast; omega
    · intro k hk'
      rw [List.foldl_cons, i4 k (hk'.trans hle), g4 k hk']
    · intro n d t hn
      rw [List.foldl_cons]
      by_cases ho' : ∃ d' t', o = .round d' t'
      · obtain ⟨d', t', rfl⟩ := ho'
        have h1 : rounds ([.round d' t'] : List (Op D T)) = [(d', t')] := rfl
        rw [hr, h1] at hn
        rw [h1] at g3
        simp only [List.length_singleton, Nat.cast_one] at g3
        cases n with
        | zero =>
          simp only [List.singleton_append, List.getElem?_cons_zero, Option.some.injEq, Prod.mk.injEq] at hn
          obtain ⟨rfl, rfl⟩ := hn
          simp only [Nat.cast_zero, add_zero]
          rw [i4 _ (by rw [g3]), g5 _ _ rfl]
        | succ n =>
          simp only [List.singleton_append, List.getElem?_cons_succ] at hn
          have := i5 n d t hn
          rw [g3] at this
          rw [← this]
          congr 1
          push_cast
          omega
      · have h1 : rounds [o] = [] := by
          cases o with
          | round d' t' => exact absurd ⟨d', t', rfl⟩ ho'
          | _ => rfl
        rw [hr, h1, List.nil_append] at hn
        rw [h1] at g3
        simp only [List.length_nil, Nat.cast_zero, add_zero] at g3
        have := i5 n d t hn
        rw [g3] at this
        exact this

/-- However often a simulation is looked at during and between runs, by plots with or without an interval and by exports of the present or of all states, each saved state is the one in
which its interval ended, and the earlier ones stay.  Missing: changes by hand between, see `C236_replaced_fails`, and exports of an earlier interval, see
`C133_overwrites_fails`. -/
theorem C236_rounds_partial (s : Sim D T) (h : Good s) (hs : content s.files s.interval = some (s.present, some s.times)) (ops : List (Op D T))
    (ho : ∀ o ∈ ops, Look o) :
    (∀ k ≤ s.interval, content (ops.foldl step s).files k = content s.files k) ∧
      ∀ (n : ℕ) (d : D) (t : T), (rounds ops)[n]? = some (d, t) → content (ops.foldl step s).files (s.interval + 1 + n) = some (d, some t) :=
  (steps_look h hs ops ho).2

example : content ((([.plot none, .round "a" 10, .plot (some 0), .export "GPKG" (some (-1)), .plot none, .round "b" 20, .save] :
    List (Op String ℕ)).foldl step ⟨0, "start", 0, [(0, ⟨"start", some 0⟩)]⟩).files) 1 = some ("a", some 10) :=
  (C236_rounds_partial _ ⟨by unfold SurfaceExport.Ordered; simp, by simp⟩ rfl _ (by simp [Look])).2 0 "a" 10 rfl

example : plot (⟨2, "now", 30, [(0, ⟨"start", some 0⟩), (1, ⟨"a", some 10⟩)]⟩ : Sim String ℕ) (some 0) =
    some (⟨(0, some 0), (some 0, "start")⟩, ⟨2, "now", 30, [(0, ⟨"start", some 0⟩), (1, ⟨"a", some 10⟩)]⟩) :=
  C236_saved_partial _ ⟨by unfold SurfaceExport.Ordered; simp, by simp⟩ 0 (by simp) _ _ rfl (Or.inl ⟨1, by simp, by decide⟩)

example : ∃ seen s', plot (step (⟨1, "a", 10, [(1, ⟨"a", some 10⟩)]⟩ : Sim String ℕ) (.change "b")) none = some (seen, s') ∧
    content s'.files 1 = some ("b", some 10) := by
  obtain ⟨x, y, h1, h2, -⟩ := C236_replaced_fails (⟨1, "a", 10, [(1, ⟨"a", some 10⟩)]⟩ : Sim String ℕ)
    ⟨by unfold SurfaceExport.Ordered; simp, by simp⟩ "b" (by decide) rfl
  exact ⟨x, y, h1, h2⟩

end Verif.Looking
