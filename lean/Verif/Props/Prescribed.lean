import Verif.Model.Prescribed
import Verif.Props.QuasiMC
import Mathlib.Tactic.Linarith

/-!
# C188, C189: every prescribed crater is emplaced once, over interruptions and whenever it was assigned
-/

namespace Verif.Prescribed

open QuasiMC

/-- How many craters with the given tag there are. -/
def count (q : ℕ) (out : List Crater) : ℕ := (out.filter fun c => c.tag = q).length

/-- The windows of the rounds. -/
def windows : List Event → List (ℝ × ℝ)
  | [] => []
  | .round ts te _ _ :: es => (ts, te) :: windows es
  | _ :: es => windows es

/-- A round whose random craters are others than the crater `q`. -/
def Round (q : ℕ) : Event → Prop
  | .round _ _ craters _ => ∀ g ∈ craters, g.tag ≠ q
  | _ => False

/-- A round, or the end of the process and a new start. -/
def RoundOrResume (q : ℕ) : Event → Prop
  | .resume _ => True
  | e => Round q e

/-- The formation time that the user gives, if it has no uncertainty: a time, or the age of a number. -/
def Exact (age : ℝ → ℝ) : Metadata → ℝ → Prop
  | .time mean sig, t => sig = 0 ∧ t = mean
  | .number mean sig, t => sig = 0 ∧ t = age (max 0 mean)

theorem count_append (q : ℕ) (a b : List Crater) : count q (a ++ b) = count q a + count q b := by simp [count]

theorem count_perm (q : ℕ) {a b : List Crater} (h : a.Perm b) : count q a = count q b := (h.filter _).length_eq

theorem count_zero (q : ℕ) (l : List Crater) (h : ∀ c ∈ l, c.tag ≠ q) : count q l = 0 := by
  unfold count
  rw [List.length_eq_zero_iff, List.filter_eq_nil_iff]
  intro c hc
  simpa using h c hc

theorem takes_tags {ts te : ℝ} {craters : List Given} {drawn : List ℝ} {rs : List Crater} (h : Takes ts te craters drawn rs) (q : ℕ)
    (hq : ∀ g ∈ craters, g.tag ≠ q) : ∀ c ∈ rs, c.tag ≠ q := by
  intro c hc
  have := h.mem_iff.1 hc
  rw [List.mem_append] at this
  rcases this with h1 | h1
  · rw [List.mem_filter] at h1
    obtain ⟨g, hg, hgc⟩ := List.mem_filterMap.1 h1.1
    cases ht : g.time with
    | none => rw [ht] at hgc; cases hgc
    | some t => rw [ht] at hgc; cases hgc; exact hq g hg
  · obtain ⟨i, hi⟩ := List.mem_iff_getElem?.1 h1
    rw [List.getElem?_zipWith] at hi
    cases hg : (craters.filter fun g => g.time.isNone)[i]? with
    | none => rw [hg] at hi; simp at hi
    | some g =>
      cases ht : drawn[i]? with
      | none => rw [hg, ht] at hi; simp at hi
      | some t =>
        rw [hg, ht] at hi
        cases hi
        exact hq g (List.mem_of_mem_filter (List.mem_of_getElem? hg))

theorem count_merge (ts te : ℝ) (craters : List Given) (drawn : List ℝ) (prescribed : List Crater) (q : ℕ) (hq : ∀ g ∈ craters, g.tag ≠ q) :
    count q (merge ts te craters drawn prescribed) =
      count q (prescribed.filter fun c => open Classical in decide (te < c.time ∧ c.time ≤ ts)) := by
  obtain ⟨rs, qs, h1, h2, ⟨kept, displaced, placed, extra, h3, _, _, h6, _⟩, _⟩ := C18_merge ts te craters drawn prescribed
  rw [count_perm q h6, count_append, count_perm q h2, count_zero q kept, zero_add]
  intro c hc
  exact takes_tags h1 q hq c (h3.mem_iff.2 (List.mem_append_left _ hc))

theorem count_process (age : ℝ → ℝ) (z : ℕ → ℝ) (l : List Entry) (hl : (l.map Entry.tag).Nodup) (e : Entry) (he : e ∈ l) (p : ℝ → Bool) :
    count e.tag ((process age z l).filter fun c => p c.time) = if p (drawTime age (z e.tag) e.data) then 1 else 0 := by
  have hp : ((process age z l).filter fun c => p c.time).Perm
      ((l.map fun e => (⟨e.tag, e.diam, drawTime age (z e.tag) e.data⟩ : Crater)).filter fun c => p c.time) :=
    (List.mergeSort_perm _ _).filter _
  rw [count_perm _ hp]
  clear hp
  induction l with
  | nil => cases he
  | cons x xs ih =>
    rw [List.map_cons, List.nodup_cons] at hl
    rcases List.mem_cons.1 he with rfl | hx
    · have h0 : count e.tag ((xs.map fun e => (⟨e.tag, e.diam, drawTime age (z e.tag) e.data⟩ : Crater)).filter fun c => p c.time) = 0 := by
        apply count_zero
        intro c hc
        obtain ⟨y, hy, rfl⟩ := List.mem_map.1 (List.mem_of_mem_filter hc)
        intro h
        exact hl.1 (List.mem_map.2 ⟨y, hy, h⟩)
      rw [List.map_cons, List.filter_cons]
      split_ifs with h
      · rw [← List.singleton_append, count_append, h0]
        simp [count]
      · exact h0
    · have hne : x.tag ≠ e.tag := fun h => hl.1 (h ▸ List.mem_map.2 ⟨e, hx, rfl⟩)
      rw [List.map_cons, List.filter_cons, ← ih hl.2 hx]
      split_ifs with h
      · rw [← List.singleton_append, count_append]
        simp [count, hne]
      · rfl

theorem draw_exact {age : ℝ → ℝ} {d : Metadata} {t : ℝ} (h : Exact age d t) (z : ℝ) : drawTime age z d = t := by
  cases d with
  | number mean sig => obtain ⟨rfl, rfl⟩ := h; simp [drawTime]
  | time mean sig => obtain ⟨rfl, rfl⟩ := h; simp [drawTime]

theorem wanted_of_mem (age : ℝ → ℝ) (z : ℕ → ℝ) (l : List Entry) (e : Entry) (he : e ∈ l) : (process age z l).length > 0 := by
  unfold process sortByTime
  rw [List.length_mergeSort, List.length_map]
  exact List.length_pos_of_mem he

theorem count_round (age : ℝ → ℝ) (s : State) (hw : wanted s = true) (ts te : ℝ) (craters : List Given) (drawn : List ℝ) (z : ℕ → ℝ) (l : List Entry)
    (hs : s.prescribed = process age z l) (hl : (l.map Entry.tag).Nodup) (e : Entry) (he : e ∈ l) (hq : ∀ g ∈ craters, g.tag ≠ e.tag) :
    count e.tag (step age s (.round ts te craters drawn)).2 =
      open Classical in if te < drawTime age (z e.tag) e.data ∧ drawTime age (z e.tag) e.data ≤ ts then 1 else 0 := by
  classical
  simp only [step, hw, if_true]
  rw [count_merge _ _ _ _ _ _ hq, hs, count_process age z l hl e he fun t => decide (te < t ∧ t ≤ ts)]
  simp

/-- Within one session every prescribed crater whose time is in the period covered by the rounds is emplaced once, and no other; the time is
the one drawn when the craters were assigned, last. -/
theorem session (age : ℝ → ℝ) (z : ℕ → ℝ) (l : List Entry) (hl : (l.map Entry.tag).Nodup) (e : Entry) (he : e ∈ l) (es : List Event) :
    ∀ s : State, wanted s = true → s.prescribed = process age z l → (∀ x ∈ es, Round e.tag x) →
      count e.tag (history age s es) = selections (drawTime age (z e.tag) e.data) (windows es) := by
  induction es with
  | nil => intro s _ _ _; rfl
  | cons x es ih =>
    intro s hw hs hx
    have hx0 := hx x (by simp)
    cases x with
    | round ts te craters drawn =>
      simp only [history, windows, selections]
      rw [count_append, count_round age s hw ts te craters drawn z l hs hl e he hx0]
      congr 1
      exact ih _ (by simp [wanted, step]; simpa [wanted] using hw) hs fun y hy => hx y (by simp [hy])
    | assign l z => exact hx0.elim
    | assignFile l z => exact hx0.elim
    | flag b => exact hx0.elim
    | resume z => exact hx0.elim

/-- Over interruptions, when the file is known and stored. -/
theorem over (age : ℝ → ℝ) (l : List Entry) (hl : (l.map Entry.tag).Nodup) (e : Entry) (he : e ∈ l) (t : ℝ) (ht : Exact age e.data t) :
    ∀ (es : List Event) (s : State), (∀ x ∈ es, RoundOrResume e.tag x) → wanted s = true → s.file = some l → s.stored = some l →
      (∃ z, s.prescribed = process age z l) → count e.tag (history age s es) = selections t (windows es) := by
  intro es
  induction es with
  | nil => intro s _ _ _ _ _; rfl
  | cons x es ih =>
    intro s hes hw hf hst hz
    have hx0 := hes x (by simp)
    have hrest : ∀ y ∈ es, RoundOrResume e.tag y := fun y hy => hes y (by simp [hy])
    cases x with
    | round ts te craters drawn =>
      obtain ⟨z, hz⟩ := hz
      simp only [history, windows, selections]
      rw [count_append, count_round age s hw ts te craters drawn z l hz hl e he hx0, draw_exact ht]
      congr 1
      exact ih _ hrest (by simp [wanted, step]; simpa [wanted] using hw) hf (by simp [step, hf, hst]) ⟨z, hz⟩
    | assign l z => exact hx0.elim
    | assignFile l z => exact hx0.elim
    | flag b => exact hx0.elim
    | resume z' =>
      simp only [history, windows]
      rw [count_append]
      have h0 : count e.tag (step age s (.resume z')).2 = 0 := rfl
      rw [h0, zero_add]
      refine ih _ hrest ?_ hst hst ⟨z', ?_⟩
      · simp only [step, wanted, hst]
        exact decide_eq_true (wanted_of_mem age z' l e he)
      · simp only [step, hst]

/-- A simulation made with a file of prescribed craters emplaces each of them exactly once, if its time is in the period of the run, however often the
process ends and the simulation is opened again, provided the time is given without uncertainty.
Missing from the full statement: uncertain times (`C188_redrawn_fails`), craters given as a list (`C188_list_fails`) and files assigned after the
simulation was opened again (`C188_reassigned_fails`). -/
theorem C188_once_partial (age : ℝ → ℝ) (z : ℕ → ℝ) (l : List Entry) (hl : (l.map Entry.tag).Nodup) (e : Entry) (he : e ∈ l) (t : ℝ)
    (ht : Exact age e.data t) (es : List Event) (hes : ∀ x ∈ es, RoundOrResume e.tag x) (a b : ℝ) (hw : Run.Tiles (windows es) a b) :
    count e.tag (history age (create age z (some l)) es) = open Classical in if b < t ∧ t ≤ a then 1 else 0 := by
  rw [← selections_tiles _ a b t hw]
  refine over age l hl e he t ht es _ hes ?_ rfl rfl ⟨z, rfl⟩
  simp only [create, wanted]
  exact decide_eq_true (wanted_of_mem age z l e he)

/-- Two sessions with three rounds; one crater is prescribed at an exact time in the second session. -/
example : ∃ (l : List Entry) (es : List Event), (l.map Entry.tag).Nodup ∧ (⟨0, 5, .time 3 0⟩ : Entry) ∈ l ∧
    Exact (fun n => n) (.time 3 0) 3 ∧ (∀ x ∈ es, RoundOrResume 0 x) ∧ Run.Tiles (windows es) 10 0 ∧ Event.resume (fun _ => 0) ∈ es :=
  ⟨[⟨0, 5, .time 3 0⟩, ⟨1, 7, .number 2 1⟩],
    [.round 10 6 [⟨2, 1, some 8⟩] [], .resume fun _ => 0, .round 6 2 [] [], .round 2 0 [⟨3, 1, some 1⟩] []],
    by decide, by simp, ⟨rfl, rfl⟩, by simp [RoundOrResume, Round],
    by simp only [windows, Run.Tiles]; norm_num, by simp⟩

/-- Within one session uncertain times do no harm: the times are drawn once. -/
theorem C188_session (age : ℝ → ℝ) (z : ℕ → ℝ) (l : List Entry) (hl : (l.map Entry.tag).Nodup) (e : Entry) (he : e ∈ l) (es : List Event)
    (hes : ∀ x ∈ es, Round e.tag x) (a b : ℝ) (hw : Run.Tiles (windows es) a b) :
    ∃ t, (∃ x, t = drawTime age x e.data) ∧
      count e.tag (history age (create age z (some l)) es) = open Classical in if b < t ∧ t ≤ a then 1 else 0 := by
  refine ⟨drawTime age (z e.tag) e.data, ⟨_, rfl⟩, ?_⟩
  rw [← selections_tiles _ a b _ hw]
  refine session age z l hl e he es _ ?_ rfl hes
  simp only [create, wanted]
  exact decide_eq_true (wanted_of_mem age z l e he)

theorem drawUncertain (age : ℝ → ℝ) (z : ℝ) : drawTime age z (.time 5 1) = 5 + z := by
  simp [drawTime]

/-- A crater with an uncertain time is drawn again whenever the simulation is opened: it can be emplaced twice, or not at all although both times
drawn are in the period of the run. -/
theorem C188_redrawn_fails (age : ℝ → ℝ) :
    ∃ (e : Entry) (es : (ℕ → ℝ) → List Event), e.data = .time 5 1 ∧ (∀ z, (∀ x ∈ es z, RoundOrResume e.tag x) ∧ Run.Tiles (windows (es z)) 10 0) ∧
      (∃ z z' : ℕ → ℝ, (∀ i, |z i| ≤ 1 ∧ |z' i| ≤ 1) ∧ count e.tag (history age (create age z (some [e])) (es z')) = 2) ∧
      ∃ z z' : ℕ → ℝ, (∀ i, |z i| ≤ 1 ∧ |z' i| ≤ 1) ∧ count e.tag (history age (create age z (some [e])) (es z')) = 0 := by
  have hcount : ∀ z z' : ℕ → ℝ, count 0 (history age (create age z (some [⟨0, 1, .time 5 1⟩])) [.round 10 5 [] [], .resume z', .round 5 0 [] []]) =
      (open Classical in if 5 < 5 + z 0 ∧ 5 + z 0 ≤ 10 then 1 else 0) + (open Classical in if 0 < 5 + z' 0 ∧ 5 + z' 0 ≤ 5 then 1 else 0) := by
    intro z z'
    have h1 := count_round age (create age z (some [⟨0, 1, .time 5 1⟩])) (by
      simp only [create, wanted]
      exact decide_eq_true (wanted_of_mem age z _ ⟨0, 1, .time 5 1⟩ (by simp))) 10 5 [] [] z _ rfl (by simp) ⟨0, 1, .time 5 1⟩ (by simp) (by simp)
    have h2 := count_round age (step age (step age (create age z (some [⟨0, 1, .time 5 1⟩])) (.round 10 5 [] [])).1 (.resume z')).1 (by
      simp only [create, step, wanted]
      exact decide_eq_true (wanted_of_mem age z' _ ⟨0, 1, .time 5 1⟩ (by simp))) 5 0 [] [] z' [⟨0, 1, .time 5 1⟩] rfl (by simp) ⟨0, 1, .time 5 1⟩
      (by simp) (by simp)
    rw [drawUncertain] at h1 h2
    simp only [history, count_append]
    rw [h1, h2]
    simp [step, count]
  refine ⟨⟨0, 1, .time 5 1⟩, fun z' => [.round 10 5 [] [], .resume z', .round 5 0 [] []], rfl, ?_, ?_, ?_⟩
  · intro z
    exact ⟨by simp [RoundOrResume, Round], by simp only [windows, Run.Tiles]; norm_num⟩
  · refine ⟨fun _ => 1, fun _ => -1, by simp, ?_⟩
    rw [hcount]; norm_num
  · refine ⟨fun _ => -1, fun _ => 1, by simp, ?_⟩
    rw [hcount]; norm_num

/-- The same for a file that is assigned to a new simulation, from the first round on, which saves the simulation; whatever was assigned before. -/
theorem C188_file_partial (age : ℝ → ℝ) (z0 z : ℕ → ℝ) (f : Option (List Entry)) (l : List Entry) (hl : (l.map Entry.tag).Nodup) (e : Entry)
    (he : e ∈ l) (t : ℝ) (ht : Exact age e.data t) (ts te : ℝ) (craters : List Given) (drawn : List ℝ) (es : List Event)
    (hes : ∀ x ∈ .round ts te craters drawn :: es, RoundOrResume e.tag x) (a b : ℝ) (hw : Run.Tiles (windows (.round ts te craters drawn :: es)) a b) :
    count e.tag (history age (create age z0 f) (.assignFile l z :: .round ts te craters drawn :: es)) =
      open Classical in if b < t ∧ t ≤ a then 1 else 0 := by
  rw [← selections_tiles _ a b t hw]
  have hwant : wanted (step age (create age z0 f) (.assignFile l z)).1 = true := by
    simp only [step, create, wanted]
    exact decide_eq_true (wanted_of_mem age z l e he)
  have hr := count_round age (step age (create age z0 f) (.assignFile l z)).1 hwant ts te craters drawn z l rfl hl e he (hes (.round ts te craters drawn) (by simp))
  rw [draw_exact ht] at hr
  have h1 : history age (create age z0 f) (.assignFile l z :: .round ts te craters drawn :: es) =
      (step age (step age (create age z0 f) (.assignFile l z)).1 (.round ts te craters drawn)).2 ++
        history age (step age (step age (create age z0 f) (.assignFile l z)).1 (.round ts te craters drawn)).1 es := rfl
  rw [h1, count_append, hr]
  simp only [windows, selections]
  congr 1
  refine over age l hl e he t ht es _ (fun x hx => hes x (by simp [hx])) ?_ rfl rfl ⟨z, rfl⟩
  have : ∀ s, wanted (step age s (.round ts te craters drawn)).1 = wanted s := fun s => by simp [wanted, step]
  rw [this, hwant]

example : ∃ (l : List Entry) (es : List Event), (l.map Entry.tag).Nodup ∧ (⟨0, 5, .time 3 0⟩ : Entry) ∈ l ∧
    (∀ x ∈ .round 10 6 [] [] :: es, RoundOrResume 0 x) ∧ Run.Tiles (windows (.round 10 6 [] [] :: es)) 10 0 ∧ Event.resume (fun _ => 0) ∈ es :=
  ⟨[⟨0, 5, .time 3 0⟩], [.resume fun _ => 0, .round 6 0 [] []], by decide, by simp, by simp [RoundOrResume, Round],
    by simp only [windows, Run.Tiles]; norm_num, by simp⟩

/-- The state after a history. -/
noncomputable def after (age : ℝ → ℝ) : State → List Event → State
  | s, [] => s
  | s, x :: es => after age (step age s x).1 es

theorem history_append (age : ℝ → ℝ) (xs ys : List Event) : ∀ s, history age s (xs ++ ys) = history age s xs ++ history age (after age s xs) ys := by
  induction xs with
  | nil => intro s; rfl
  | cons x xs ih => intro s; simp [history, after, ih]

theorem giveTimes_tags (q : ℕ) : ∀ (cs : List Given) (ds : List ℝ), (∀ g ∈ cs, g.tag ≠ q) → ∀ c ∈ giveTimes cs ds, c.tag ≠ q := by
  intro cs
  induction cs with
  | nil => intro ds _ c hc; simp [giveTimes] at hc
  | cons g gs ih =>
    intro ds hcs c hc
    cases ds with
    | nil => simp [giveTimes] at hc
    | cons d ds =>
      simp only [giveTimes, List.mem_cons] at hc
      rcases hc with rfl | hc
      · exact hcs g (by simp)
      · exact ih ds (fun g hg => hcs g (by simp [hg])) c hc

/-- A round, or an assignment. -/
def RoundOrAssign (q : ℕ) : Event → Prop
  | .assign _ _ => True
  | .assignFile _ _ => True
  | e => Round q e

theorem off (age : ℝ → ℝ) (q : ℕ) (es : List Event) : ∀ s : State, (∀ x ∈ es, RoundOrAssign q x) → s.doQ = some false →
    count q (history age s es) = 0 := by
  induction es with
  | nil => intro s _ _; rfl
  | cons x es ih =>
    intro s hes hw
    have hx0 := hes x (by simp)
    have hrest : ∀ y ∈ es, RoundOrAssign q y := fun y hy => hes y (by simp [hy])
    have hwant : wanted s = false := by simp [wanted, hw]
    simp only [history, count_append]
    cases x with
    | round ts te craters drawn =>
      rw [ih _ hrest (by simp [step, hwant]), add_zero]
      simp only [step, hwant]
      exact count_zero _ _ (giveTimes_tags q _ _ hx0)
    | assign l z => rw [ih _ hrest (by simp [step, hw])]; simp [step, count]
    | assignFile l z => rw [ih _ hrest (by simp [step, hw])]; simp [step, count]
    | flag b => exact hx0.elim
    | resume z => exact hx0.elim

/-- A file assigned after the simulation has been opened again is used until the process ends, but is not the one found at the next start, because
the configuration is not written any more: a crater whose turn comes after that is never emplaced. -/
theorem C188_reassigned_fails (age : ℝ → ℝ) (z0 z1 z z2 : ℕ → ℝ) (l : List Entry) (hl : (l.map Entry.tag).Nodup) (e : Entry) (he : e ∈ l)
    (t : ℝ) (ht : Exact age e.data t) (rs es : List Event) (hrs : ∀ x ∈ rs, Round e.tag x) (hes : ∀ x ∈ es, Round e.tag x) (a b : ℝ)
    (hw : Run.Tiles (windows rs) a b) (hb : t ≤ b) :
    count e.tag (history age (create age z0 none) (.resume z1 :: .assignFile l z :: rs ++ .resume z2 :: es)) = 0 := by
  rw [history_append]
  have hafter : ∀ (rs : List Event) (s : State), (∀ x ∈ rs, Round e.tag x) → s.readonly = true → (after age s rs).stored = s.stored := by
    intro rs
    induction rs with
    | nil => intro s _ _; rfl
    | cons x rs ih =>
      intro s hrs hs
      have hx0 := hrs x (by simp)
      have hrest : ∀ y ∈ rs, Round e.tag y := fun y hy => hrs y (by simp [hy])
      cases x with
      | round ts te craters drawn =>
        simp only [after]
        rw [ih _ hrest (by simp [step, hs])]
        simp [step, hs]
      | assign l z => exact hx0.elim
      | assignFile l z => exact hx0.elim
      | flag b => exact hx0.elim
      | resume z => exact hx0.elim
  have h1 : count e.tag (history age (create age z0 none) (.resume z1 :: .assignFile l z :: rs)) = 0 := by
    have h0 : history age (create age z0 none) (.resume z1 :: .assignFile l z :: rs) =
        history age (step age (step age (create age z0 none) (.resume z1)).1 (.assignFile l z)).1 rs := rfl
    rw [h0, session age z l hl e he rs _ (by
      simp only [step, create, wanted]
      exact decide_eq_true (wanted_of_mem age z l e he)) rfl hrs, draw_exact ht, selections_tiles _ a b t hw]
    rw [if_neg fun h => absurd h.1 (not_lt.2 hb)]
  rw [count_append, h1, zero_add]
  have h2 : (after age (create age z0 none) (.resume z1 :: .assignFile l z :: rs)).stored = none := by
    simp only [after]
    rw [hafter rs _ hrs rfl]
    rfl
  simp only [history, count_append]
  have h3 : count e.tag (step age (after age (create age z0 none) (.resume z1 :: .assignFile l z :: rs)) (.resume z2)).2 = 0 := rfl
  rw [h3, zero_add]
  cases es with
  | nil => rfl
  | cons x es =>
    have hx0 := hes x (by simp)
    cases x with
    | round ts te craters drawn =>
      have hwant : wanted (step age (after age (create age z0 none) (.resume z1 :: .assignFile l z :: rs)) (.resume z2)).1 = false := by
        simp only [step, wanted, h2]; rfl
      simp only [history, count_append]
      rw [off age e.tag es _ (fun y hy => by
        have := hes y (by simp [hy])
        cases y <;> first | exact this | exact trivial) (by rw [← hwant]; rfl), add_zero]
      generalize (step age (after age (create age z0 none) (.resume z1 :: .assignFile l z :: rs)) (.resume z2)).1 = s at hwant
      simp only [step, hwant]
      exact count_zero _ _ (giveTimes_tags _ _ _ hx0)
    | assign l z => exact hx0.elim
    | assignFile l z => exact hx0.elim
    | flag b => exact hx0.elim
    | resume z => exact hx0.elim

/-- The crater at 3 is emplaced when nothing interrupts, and lost here. -/
example : Run.Tiles (windows [.round 10 5 [] []]) 10 5 ∧ Run.Tiles (windows [.round 5 0 [] []]) 5 0 ∧ Exact (fun n => n) (.time 3 0) 3 ∧
    (3 : ℝ) ≤ 5 ∧ Round 0 (.round 10 5 [] []) := by
  refine ⟨?_, ?_, ⟨rfl, rfl⟩, by norm_num, by simp [Round]⟩ <;> (simp only [windows, Run.Tiles]; norm_num)

/-- Craters given as a list are gone when the simulation is opened again: whatever the times, none of them is emplaced afterwards. -/
theorem C188_list_fails (age : ℝ → ℝ) (z0 z z' : ℕ → ℝ) (l : List Entry) (q : ℕ) (es : List Event) (hes : ∀ x ∈ es, Round q x) :
    count q (history age (create age z0 none) (.assign l z :: .resume z' :: es)) = 0 := by
  have key : ∀ (es : List Event) (s : State), (∀ x ∈ es, Round q x) → wanted s = false → count q (history age s es) = 0 := by
    intro es
    induction es with
    | nil => intro s _ _; rfl
    | cons x es ih =>
      intro s hes hw
      have hx0 := hes x (by simp)
      have hrest : ∀ y ∈ es, Round q y := fun y hy => hes y (by simp [hy])
      cases x with
      | round ts te craters drawn =>
        simp only [history]
        rw [count_append, ih _ hrest (by simp [wanted, step]; simpa [wanted] using hw), add_zero]
        simp only [step, hw]
        apply count_zero
        have hg : ∀ (cs : List Given) (ds : List ℝ), (∀ g ∈ cs, g.tag ≠ q) → ∀ c ∈ giveTimes cs ds, c.tag ≠ q := by
          intro cs
          induction cs with
          | nil => intro ds _ c hc; simp [giveTimes] at hc
          | cons g gs ih =>
            intro ds hcs c hc
            cases ds with
            | nil => simp [giveTimes] at hc
            | cons d ds =>
              simp only [giveTimes, List.mem_cons] at hc
              rcases hc with rfl | hc
              · exact hcs g (by simp)
              · exact ih ds (fun g hg => hcs g (by simp [hg])) c hc
        exact hg _ _ hx0
      | assign l z => exact hx0.elim
      | assignFile l z => exact hx0.elim
      | flag b => exact hx0.elim
      | resume z => exact hx0.elim
  have h0 : count q (history age (create age z0 none) (.assign l z :: .resume z' :: es)) =
      count q (history age (step age (step age (create age z0 none) (.assign l z)).1 (.resume z')).1 es) := by
    simp [history, step, count]
  rw [h0]
  exact key es _ hes (by simp [step, create, wanted])

/-- A run after the craters were assigned: one crater is emplaced. -/
example : count 0 (history (fun n => n) (create (fun n => n) (fun _ => 0) none)
    [.assign [⟨0, 5, .time 3 0⟩] fun _ => 0, .round 10 0 [] []]) = 1 := by
  have h := session (fun n => n) (fun _ => 0) [⟨0, 5, .time 3 0⟩] (by simp) ⟨0, 5, .time 3 0⟩ (by simp) [.round 10 0 [] []]
    (step (fun n => n) (create (fun n => n) (fun _ => 0) none) (.assign [⟨0, 5, .time 3 0⟩] fun _ => 0)).1
    (by simp [step, create, wanted, process, sortByTime]) rfl (by simp [Round])
  have h0 : count 0 (history (fun n => n) (create (fun n => n) (fun _ => 0) none) [.assign [⟨0, 5, .time 3 0⟩] fun _ => 0, .round 10 0 [] []]) =
      count 0 (history (fun n => n) (step (fun n => n) (create (fun n => n) (fun _ => 0) none) (.assign [⟨0, 5, .time 3 0⟩] fun _ => 0)).1
        [.round 10 0 [] []]) := rfl
  rw [h0]
  refine h.trans ?_
  simp only [windows, selections, drawTime]
  norm_num

/-- Craters assigned, as a list or by a file, before the first round of the session, or after `do_quasimc` was set to true, are emplaced once each by
the rounds that follow, whatever was assigned before.
Missing from the full statement: craters assigned after a round that had none (`C189_late_fails`). -/
theorem C189_assigned_partial (age : ℝ → ℝ) (s : State) (hs : s.doQ ≠ some false) (viaFile : Bool) (z : ℕ → ℝ) (l : List Entry)
    (hl : (l.map Entry.tag).Nodup) (e : Entry) (he : e ∈ l) (es : List Event) (hes : ∀ x ∈ es, Round e.tag x) (a b : ℝ)
    (hw : Run.Tiles (windows es) a b) :
    ∃ t, (∃ x, t = drawTime age x e.data) ∧
      count e.tag (history age s ((if viaFile then .assignFile l z else .assign l z) :: es)) = open Classical in if b < t ∧ t ≤ a then 1 else 0 := by
  refine ⟨drawTime age (z e.tag) e.data, ⟨_, rfl⟩, ?_⟩
  rw [← selections_tiles _ a b _ hw]
  have hwant : ∀ s' : State, s'.doQ = s.doQ → s'.prescribed = process age z l → wanted s' = true := by
    intro s' h1 h2
    simp only [wanted, h1, h2]
    cases hd : s.doQ with
    | none => exact decide_eq_true (wanted_of_mem age z l e he)
    | some b => cases b; exact absurd hd hs; rfl
  cases viaFile
  · have h0 : count e.tag (history age s (.assign l z :: es)) = count e.tag (history age (step age s (.assign l z)).1 es) := by simp [history, step]
    simp only [Bool.false_eq_true, if_false]
    rw [h0]
    exact session age z l hl e he es _ (hwant _ rfl rfl) rfl hes
  · have h0 : count e.tag (history age s (.assignFile l z :: es)) = count e.tag (history age (step age s (.assignFile l z)).1 es) := by
      simp [history, step]
    simp only [if_true]
    rw [h0]
    exact session age z l hl e he es _ (hwant _ rfl rfl) rfl hes

/-- After the first round of a session without prescribed craters, assigned craters are never emplaced: the decision is kept.  Setting
`do_quasimc` to true helps. -/
theorem C189_late_fails (age : ℝ → ℝ) (z0 z : ℕ → ℝ) (l : List Entry) (q : ℕ) (ts te : ℝ) (craters : List Given) (drawn : List ℝ)
    (h0 : ∀ g ∈ craters, g.tag ≠ q) (es : List Event) (hes : ∀ x ∈ es, Round q x) :
    count q (history age (create age z0 none) (.round ts te craters drawn :: .assign l z :: es)) = 0 := by
  have hg : ∀ (cs : List Given) (ds : List ℝ), (∀ g ∈ cs, g.tag ≠ q) → ∀ c ∈ giveTimes cs ds, c.tag ≠ q := by
    intro cs
    induction cs with
    | nil => intro ds _ c hc; simp [giveTimes] at hc
    | cons g gs ih =>
      intro ds hcs c hc
      cases ds with
      | nil => simp [giveTimes] at hc
      | cons d ds =>
        simp only [giveTimes, List.mem_cons] at hc
        rcases hc with rfl | hc
        · exact hcs g (by simp)
        · exact ih ds (fun g hg => hcs g (by simp [hg])) c hc
  have key : ∀ (es : List Event) (s : State), (∀ x ∈ es, Round q x) → wanted s = false → count q (history age s es) = 0 := by
    intro es
    induction es with
    | nil => intro s _ _; rfl
    | cons x es ih =>
      intro s hes hw
      have hx0 := hes x (by simp)
      have hrest : ∀ y ∈ es, Round q y := fun y hy => hes y (by simp [hy])
      cases x with
      | round ts te craters drawn =>
        simp only [history]
        rw [count_append, ih _ hrest (by simp [wanted, step]; simpa [wanted] using hw), add_zero]
        simp only [step, hw]
        exact count_zero _ _ (hg _ _ hx0)
      | assign l z => exact hx0.elim
      | assignFile l z => exact hx0.elim
      | flag b => exact hx0.elim
      | resume z => exact hx0.elim
  simp only [history, count_append]
  have hw0 : wanted (create age z0 none) = false := by simp [create, wanted]
  have hfirst : count q (step age (create age z0 none) (.round ts te craters drawn)).2 = 0 := by
    simp only [step, hw0]
    exact count_zero _ _ (hg _ _ h0)
  rw [hfirst, zero_add]
  have h1 : count q (step age (step age (create age z0 none) (.round ts te craters drawn)).1 (.assign l z)).2 = 0 := rfl
  rw [h1, zero_add]
  refine key es _ hes ?_
  simp [step, wanted, create]

/-- `do_quasimc = False` keeps all prescribed craters out, whenever they are assigned, and `do_quasimc = True` has them emplaced once each, whether it is
set before or after they are assigned. -/
theorem C189_flag (age : ℝ → ℝ) (s : State) (q : ℕ) (es : List Event) (hes : ∀ x ∈ es, RoundOrAssign q x) :
    count q (history age s (.flag false :: es)) = 0 ∧
      ∀ (z : ℕ → ℝ) (l : List Entry) (e : Entry) (rs : List Event) (a b : ℝ), (l.map Entry.tag).Nodup → e ∈ l → (∀ x ∈ rs, Round e.tag x) →
        Run.Tiles (windows rs) a b → ∃ t, (∃ x, t = drawTime age x e.data) ∧
          count e.tag (history age s (.flag true :: .assign l z :: rs)) = (open Classical in if b < t ∧ t ≤ a then 1 else 0) ∧
          count e.tag (history age s (.assign l z :: .flag true :: rs)) = open Classical in if b < t ∧ t ≤ a then 1 else 0 := by
  refine ⟨?_, ?_⟩
  · have h0 : history age s (.flag false :: es) = history age (step age s (.flag false)).1 es := rfl
    rw [h0]
    exact off age q es _ hes rfl
  · intro z l e rs a b hl he hrs hw
    refine ⟨drawTime age (z e.tag) e.data, ⟨_, rfl⟩, ?_, ?_⟩
    · rw [← selections_tiles _ a b _ hw]
      exact session age z l hl e he rs (step age (step age s (.flag true)).1 (.assign l z)).1 rfl rfl hrs
    · rw [← selections_tiles _ a b _ hw]
      exact session age z l hl e he rs (step age (step age s (.assign l z)).1 (.flag true)).1 rfl rfl hrs

/-- The flag set to true after a round without prescribed craters: the hypothesis of `C189_assigned_partial` holds. -/
example (age : ℝ → ℝ) : (step age (step age (create age (fun _ => 0) none) (.round 10 5 [] [])).1 (.flag true)).1.doQ ≠ some false ∧
    (step age (create age (fun _ => 0) none) (.round 10 5 [] [])).1.doQ = some false := by
  simp [step, create, wanted]

end Verif.Prescribed
