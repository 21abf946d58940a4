import Verif.Model.SaveRound
import Verif.Props.CountFiles

/-!
C233: what a crash during a save leaves.
-/

namespace Verif.SaveRound

open Verif.CountFiles (sorted fromXarray Distinct sorted_perm fromXarray_distinct sorted_distinct)

variable {S K : Type}

/-- What is read is what a simulation held, up to the order of the craters. -/
def IsState (r : Option (Option S × List K × List K)) (s : S) (o e : List K) : Prop :=
  ∃ o' e', r = some (some s, o', e') ∧ o'.Perm o ∧ e'.Perm e

def Below {α : Type} (st : Store α) (k : ℕ) : Prop := ∀ e ∈ st, e.1 < k

theorem put_below {α : Type} {st : Store α} {k : ℕ} (h : Below st k) (a : α) : put st k a = st ++ [(k, a)] := by
  unfold put
  have h1 : st.filter (fun e => decide (e.1 < k)) = st := List.filter_eq_self.mpr fun e he => by simpa using h e he
  have h2 : st.filter (fun e => decide (k < e.1)) = [] := List.filter_eq_nil_iff.mpr fun e he => by
    have := h e he
    simp; omega
  rw [h1, h2]

theorem put_twice {α : Type} {st : Store α} {k : ℕ} (h : Below st k) (a b : α) : put (put st k a) k b = st ++ [(k, b)] := by
  rw [put_below h]
  unfold put
  have h1 : st.filter (fun e => decide (e.1 < k)) = st := List.filter_eq_self.mpr fun e he => by simpa using h e he
  have h2 : st.filter (fun e => decide (k < e.1)) = [] := List.filter_eq_nil_iff.mpr fun e he => by
    have := h e he
    simp; omega
  simp [h1, h2]

theorem put_lt {α : Type} {st : Store α} {m k : ℕ} (h : Below st m) (hk : k < m) (a : α) : Below (put st k a) m := by
  intro e he
  simp only [put, List.mem_append, List.mem_filter, List.mem_cons] at he
  rcases he with ⟨he, _⟩ | rfl | ⟨he, _⟩
  · exact h e he
  · exact hk
  · exact h e he

/-- All files of the disk are of intervals below `m`. -/
def Disk.Below (d : Disk S K) (m : ℕ) : Prop := SaveRound.Below d.surface m ∧ SaveRound.Below d.observed m ∧ SaveRound.Below d.emplaced m

def Step.interval : Step S K → ℕ
  | .surface k _ => k
  | .observed k _ => k
  | .emplaced k _ => k

theorem apply_below {d : Disk S K} {m : ℕ} (h : d.Below m) (x : Step S K) (hx : x.interval < m) : (d.apply x).Below m := by
  cases x with
  | surface k s => exact ⟨put_lt h.1 hx s, h.2⟩
  | observed k l => exact ⟨h.1, put_lt h.2.1 hx l, h.2.2⟩
  | emplaced k l => exact ⟨h.1, h.2.1, put_lt h.2.2 hx l⟩

theorem run_below (l : List (Step S K)) {d : Disk S K} {m : ℕ} (h : d.Below m) (hl : ∀ x ∈ l, x.interval < m) : (run d l).Below m := by
  induction l generalizing d with
  | nil => exact h
  | cons x l ih => exact ih (apply_below h x (hl x (by simp))) fun y hy => hl y (by simp [hy])

theorem steps_interval (id : K → ℕ) (x : State S K) : ∀ y ∈ steps id x, y.interval = x.interval := by
  intro y hy
  unfold steps at hy
  split_ifs at hy <;> simp at hy <;> (try rcases hy with rfl | rfl | rfl | rfl | rfl) <;> (try rcases hy with rfl | rfl | rfl) <;> (try subst hy) <;> rfl

theorem run_append (d : Disk S K) (a b : List (Step S K)) : run d (a ++ b) = run (run d a) b := List.foldl_append ..

theorem history_below (id : K → ℕ) (h : List (State S K)) (m : ℕ) (hm : ∀ x ∈ h, x.interval < m) :
    (run ⟨[], [], []⟩ (h.flatMap (steps id))).Below m := by
  refine run_below _ ⟨by intro e he; simp at he, by intro e he; simp at he, by intro e he; simp at he⟩ ?_
  intro y hy
  obtain ⟨x, hx, hy⟩ := List.mem_flatMap.mp hy
  rw [steps_interval id x y hy]
  exact hm x hx

/-- The disk after a complete save. -/
theorem run_steps (id : K → ℕ) (x : State S K) (d : Disk S K) (hd : d.Below x.interval) :
    run d (steps id x) = ⟨d.surface ++ [(x.interval, x.surface)], if x.observed = [] then d.observed else d.observed ++ [(x.interval, some (sorted id x.observed))],
      if x.emplaced = [] then d.emplaced else d.emplaced ++ [(x.interval, some (sorted id x.emplaced))]⟩ := by
  unfold steps
  split_ifs with h1 h2 h2 <;> simp [run, Disk.apply, put_below hd.1, put_twice hd.2.1, put_twice hd.2.2]

theorem reread (id : K → ℕ) (l : List K) (hl : Distinct id l) : (fromXarray id (sorted id l)).Perm l := by
  rw [fromXarray_distinct _ _ (sorted_distinct id l hl)]
  exact sorted_perm id l

/-- No list of the disk is torn. -/
def Clean (d : Disk S K) : Prop := (∀ e ∈ d.observed, e.2 ≠ none) ∧ ∀ e ∈ d.emplaced, e.2 ≠ none

theorem put_clean {st : Store (Option (List K))} (h : ∀ e ∈ st, e.2 ≠ none) (k : ℕ) (l : List K) : ∀ e ∈ put (put st k none) k (some l), e.2 ≠ none := by
  intro e he
  simp only [put, List.mem_append, List.mem_filter, List.mem_cons, decide_eq_true_eq] at he
  rcases he with ⟨⟨he, _⟩ | rfl | ⟨he, _⟩, hk⟩ | rfl | ⟨⟨he, _⟩ | rfl | ⟨he, _⟩, hk⟩
  · exact h e he
  · exact absurd hk (lt_irrefl _)
  · exact h e he
  · simp
  · exact h e he
  · exact absurd hk (lt_irrefl _)
  · exact h e he

theorem steps_clean (id : K → ℕ) (x : State S K) (d : Disk S K) (h : Clean d) : Clean (run d (steps id x)) := by
  unfold steps
  split_ifs with h1 h2 h2
  · exact h
  · exact ⟨h.1, put_clean h.2 _ _⟩
  · exact ⟨put_clean h.1 _ _, h.2⟩
  · exact ⟨put_clean h.1 _ _, put_clean h.2 _ _⟩

theorem history_clean (id : K → ℕ) (h : List (State S K)) (d : Disk S K) (hd : Clean d) : Clean (run d (h.flatMap (steps id))) := by
  induction h generalizing d with
  | nil => exact hd
  | cons x h ih =>
    rw [List.flatMap_cons, run_append]
    exact ih _ (steps_clean id x d hd)

/-- A disk with a complete save of `x`, when a later surface may have been saved. -/
theorem reopen_after (id : K → ℕ) (x : State S K) (d : Disk S K) (hd : d.Below x.interval) (hc : Clean d)
    (ho : x.observed ≠ []) (do' : Distinct id x.observed) (de : Distinct id x.emplaced) (surf : Store S) (s : S) (hs : (surf.getLast?).map Prod.snd = some s) :
    IsState (reopen id { run d (steps id x) with surface := surf }) s x.observed x.emplaced := by
  rw [run_steps id x d hd]
  unfold reopen IsState
  simp only [if_neg ho, List.getLast?_concat, hs]
  by_cases he : x.emplaced = []
  · rw [if_pos he]
    rcases hl : d.emplaced.getLast? with _ | ⟨j, emp⟩
    · exact ⟨fromXarray id (sorted id x.observed), [], rfl, reread id _ do', by rw [he]⟩
    · have hj : j < x.interval := hd.2.2 (j, emp) (List.mem_of_getLast? hl)
      cases emp with
      | none => exact absurd rfl (hc.2 _ (List.mem_of_getLast? hl))
      | some emp => exact ⟨fromXarray id (sorted id x.observed), [], by simp [show j ≠ x.interval by omega], reread id _ do', by rw [he]⟩
  · rw [if_neg he]
    exact ⟨fromXarray id (sorted id x.observed), fromXarray id (sorted id x.emplaced), by simp, reread id _ do', reread id _ de⟩

/-- The assumptions under which crater lists are read back at all (C103): increasing intervals, some crater observed at the last two saves, no crater twice in a list. -/
structure Readable (id : K → ℕ) (h : List (State S K)) (x0 x : State S K) : Prop where
  before : ∀ y ∈ h, y.interval < x0.interval
  order : x0.interval < x.interval
  seen0 : x0.observed ≠ []
  seen : x.observed ≠ []
  obs0 : Distinct id x0.observed
  emp0 : Distinct id x0.emplaced
  obs : Distinct id x.observed
  emp : Distinct id x.emplaced

/-- The disk before the last save. -/
theorem before_last (id : K → ℕ) (h : List (State S K)) (x0 x : State S K) (r : Readable id h x0 x) :
    ∃ d : Disk S K, d.Below x0.interval ∧ Clean d ∧ (run d (steps id x0)).Below x.interval ∧ Clean (run d (steps id x0)) ∧
      ∀ t, crashed id (h ++ [x0]) x t = run (run d (steps id x0)) ((steps id x).take t) := by
  have c0 : Clean (⟨[], [], []⟩ : Disk S K) := ⟨by simp, by simp⟩
  refine ⟨run ⟨[], [], []⟩ (h.flatMap (steps id)), history_below id h _ r.before, history_clean id h _ c0, ?_, ?_, ?_⟩
  · have := history_below id (h ++ [x0]) x.interval (by
      intro y hy
      simp only [List.mem_append, List.mem_singleton] at hy
      rcases hy with hy | rfl
      · exact (r.before y hy).trans r.order
      · exact r.order)
    simpa [List.flatMap_append, run_append] using this
  · exact steps_clean id x0 _ (history_clean id h _ c0)
  · intro t
    unfold crashed
    rw [run_append, List.flatMap_append, run_append]
    simp

/-- C233 After any history of saves and a crash during one more, before its first or after its last step, the next process starts from the surface and the crater lists of one
and the same save: the one before, or the new one.  Missing: the crash points in between, see the `_fails` theorems. -/
theorem C233_whole_partial (id : K → ℕ) (h : List (State S K)) (x0 x : State S K) (r : Readable id h x0 x) :
    IsState (reopen id (crashed id (h ++ [x0]) x 0)) x0.surface x0.observed x0.emplaced ∧
    ∀ t, (steps id x).length ≤ t → IsState (reopen id (crashed id (h ++ [x0]) x t)) x.surface x.observed x.emplaced := by
  obtain ⟨d, h1, h2, h3, h4, h5⟩ := before_last id h x0 x r
  constructor
  · rw [h5]
    refine reopen_after id x0 d h1 h2 r.seen0 r.obs0 r.emp0 (run d (steps id x0)).surface x0.surface ?_
    rw [run_steps id x0 d h1]
    simp
  · intro t ht
    rw [h5, List.take_of_length_le ht]
    refine reopen_after id x _ h3 h4 r.seen r.obs r.emp (run (run d (steps id x0)) (steps id x)).surface x.surface ?_
    rw [run_steps id x _ h3]
    simp

/-- C233 It fails for a crash after the surface is saved: the next process starts from the new surface with the crater lists of the save before, so that the craters of
the last interval are on the ground but neither counted nor listed. -/
theorem C233_surface_first_fails (id : K → ℕ) (h : List (State S K)) (x0 x : State S K) (r : Readable id h x0 x) :
    IsState (reopen id (crashed id (h ++ [x0]) x 1)) x.surface x0.observed x0.emplaced := by
  obtain ⟨d, h1, h2, h3, h4, h5⟩ := before_last id h x0 x r
  rw [h5]
  have e : run (run d (steps id x0)) ((steps id x).take 1) = { run d (steps id x0) with surface := (run d (steps id x0)).surface ++ [(x.interval, x.surface)] } := by
    have : (steps id x).take 1 = [.surface x.interval x.surface] := rfl
    rw [this]
    simp only [run, List.foldl_cons, List.foldl_nil, Disk.apply]
    rw [← run, put_below h3.1]
  rw [e]
  exact reopen_after id x0 d h1 h2 r.seen0 r.obs0 r.emp0 _ _ (by simp)

/-- C233 It fails for a crash while the observed craters are written: the simulation cannot be opened any more. -/
theorem C233_torn_fails (id : K → ℕ) (h : List (State S K)) (x0 x : State S K) (r : Readable id h x0 x) :
    reopen id (crashed id (h ++ [x0]) x 2) = none := by
  obtain ⟨d, h1, h2, h3, h4, h5⟩ := before_last id h x0 x r
  rw [h5]
  have e : (steps id x).take 2 = [.surface x.interval x.surface, .observed x.interval none] := by
    unfold steps
    rw [if_neg r.seen]
    rfl
  rw [e]
  simp only [run, List.foldl_cons, List.foldl_nil, Disk.apply]
  rw [← run, put_below h3.2.1]
  simp [reopen]

/-- C233 It fails for a crash after the observed craters are written and before the emplaced ones are: the next process has no emplaced craters at all. -/
theorem C233_emplaced_fails (id : K → ℕ) (h : List (State S K)) (x0 x : State S K) (r : Readable id h x0 x) (he : x.emplaced ≠ []) :
    IsState (reopen id (crashed id (h ++ [x0]) x 3)) x.surface x.observed [] := by
  obtain ⟨d, h1, h2, h3, h4, h5⟩ := before_last id h x0 x r
  rw [h5]
  set d1 := run d (steps id x0) with hd1
  have e : (steps id x).take 3 = steps id { x with emplaced := [] } := by
    unfold steps
    simp [r.seen, he]
  rw [e]
  refine reopen_after id { x with emplaced := [] } _ h3 h4 r.seen r.obs (by simp [Distinct]) (run d1 (steps id { x with emplaced := [] })).surface x.surface ?_
  rw [run_steps id _ _ (by exact h3)]
  simp

/-- C233 There is no other outcome, whatever the point of the crash: either the simulation cannot be opened, or each part of what is read is, as a whole, that of one of the
last two saves (the emplaced craters possibly none), and the crater lists are never newer than the surface. -/
theorem C233_points (id : K → ℕ) (h : List (State S K)) (x0 x : State S K) (r : Readable id h x0 x) (t : ℕ) :
    reopen id (crashed id (h ++ [x0]) x t) = none ∨
    IsState (reopen id (crashed id (h ++ [x0]) x t)) x0.surface x0.observed x0.emplaced ∨
    IsState (reopen id (crashed id (h ++ [x0]) x t)) x.surface x0.observed x0.emplaced ∨
    IsState (reopen id (crashed id (h ++ [x0]) x t)) x.surface x.observed [] ∨
    IsState (reopen id (crashed id (h ++ [x0]) x t)) x.surface x.observed x.emplaced := by
  have hl : (steps id x).length = if x.emplaced = [] then 3 else 5 := by
    unfold steps
    split_ifs <;> simp_all [r.seen]
  by_cases ht : (steps id x).length ≤ t
  · exact .inr (.inr (.inr (.inr ((C233_whole_partial id h x0 x r).2 t ht))))
  have ht' : t < 5 := by rw [hl] at ht; split_ifs at ht <;> omega
  have he : 3 ≤ t → x.emplaced ≠ [] := by
    intro h3 he
    rw [hl, if_pos he] at ht
    omega
  obtain rfl | rfl | rfl | rfl | rfl : t = 0 ∨ t = 1 ∨ t = 2 ∨ t = 3 ∨ t = 4 := by omega
  · exact .inr (.inl (C233_whole_partial id h x0 x r).1)
  · exact .inr (.inr (.inl (C233_surface_first_fails id h x0 x r)))
  · exact .inl (C233_torn_fails id h x0 x r)
  · exact .inr (.inr (.inr (.inl (C233_emplaced_fails id h x0 x r (he le_rfl)))))
  · left
    obtain ⟨d, h1, h2, h3, h4, h5⟩ := before_last id h x0 x r
    rw [h5]
    have e : (steps id x).take 4 = steps id { x with emplaced := [] } ++ [.emplaced x.interval none] := by
      unfold steps
      simp [r.seen, he (by omega)]
    rw [e, run_append, run_steps id _ _ (by exact h3)]
    simp only [run, List.foldl_cons, List.foldl_nil, Disk.apply, if_true, if_neg r.seen]
    rw [put_below (by exact h3.2.2)]
    simp [reopen]

/-- A history of two saves and a third one that is interrupted, to which the theorems apply. -/
example : ∃ (h : List (State ℕ ℕ)) (x0 x : State ℕ ℕ), h ≠ [] ∧ x.emplaced ≠ [] ∧ x.observed ≠ x0.observed ∧ Readable (fun n => n) h x0 x :=
  ⟨[⟨0, 0, [], []⟩], ⟨1, 5, [4], [4]⟩, ⟨2, 6, [4, 7], [7]⟩, by simp, by simp, by simp,
    ⟨by simp, by simp, by simp, by simp, by simp [Distinct], by simp [Distinct], by simp [Distinct], by simp [Distinct]⟩⟩

end Verif.SaveRound
