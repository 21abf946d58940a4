import Verif.Model.PrescribedList
import Verif.Props.Prescribed

/-!
# C245: the list of prescribed craters can be changed at any time
-/

namespace Verif.PrescribedList

open QuasiMC
open Prescribed (count Exact count_append count_perm count_zero count_merge draw_exact)

/-- What a list of craters becomes when it is processed: the craters with metadata, each with a time drawn from its own metadata, oldest first. -/
structure Processed (age : ℝ → ℝ) (z : ℕ → ℝ) (l out : List Listed) : Prop where
  tags : (out.map Listed.tag).Perm ((l.filter fun c => c.data.isSome).map Listed.tag)
  each : ∀ c ∈ out, ∃ d, c.data = some d ∧ c.time = some (drawTime age (z c.tag) d) ∧ ∃ c' ∈ l, c'.tag = c.tag ∧ c'.diam = c.diam ∧ c'.data = some d
  sorted : ∀ i j (hi : i < out.length) (hj : j < out.length), i < j → ∀ t t', out[i].time = some t → out[j].time = some t' → t' ≤ t

theorem mem_drawn {age : ℝ → ℝ} {z : ℕ → ℝ} {l : List Listed} {c : Listed} :
    c ∈ drawn age z l ↔ ∃ c' ∈ l, ∃ d, c'.data = some d ∧ c = { c' with time := some (drawTime age (z c'.tag) d) } := by
  unfold drawn
  rw [List.mem_filterMap]
  constructor
  · rintro ⟨c', h, h'⟩
    cases hd : c'.data with
    | none => rw [hd] at h'; cases h'
    | some d => rw [hd] at h'; cases h'; exact ⟨c', h, d, hd, by simp [hd]⟩
  · rintro ⟨c', h, d, hd, rfl⟩
    exact ⟨c', h, by rw [hd]; rfl⟩

theorem sortOldest_perm (l : List Listed) : (sortOldest l).Perm l := List.mergeSort_perm _ _

theorem sortOldest_sorted (l : List Listed) : (sortOldest l).Pairwise fun a b => b.time.getD 0 ≤ a.time.getD 0 := by
  classical
  have := List.pairwise_mergeSort (le := fun a b : Listed => decide (b.time.getD 0 ≤ a.time.getD 0))
    (by intro a b c; simp only [decide_eq_true_eq]; intro h1 h2; linarith)
    (by intro a b; simp only [Bool.or_eq_true, decide_eq_true_eq]; exact le_total _ _) l
  simpa [sortOldest] using this

theorem drawn_tags (age : ℝ → ℝ) (z : ℕ → ℝ) (l : List Listed) :
    (drawn age z l).map Listed.tag = (l.filter fun c => c.data.isSome).map Listed.tag := by
  induction l with
  | nil => rfl
  | cons c l ih =>
    unfold drawn at ih ⊢
    cases hd : c.data with
    | none =>
      rw [List.filterMap_cons_none (by rw [hd]; rfl), List.filter_cons_of_neg (by simp [hd])]
      exact ih
    | some d =>
      rw [List.filterMap_cons_some (b := { c with time := some (drawTime age (z c.tag) d) }) (by rw [hd]; rfl),
        List.filter_cons_of_pos (by simp [hd]), List.map_cons, List.map_cons, ih]

theorem processed (age : ℝ → ℝ) (z : ℕ → ℝ) (l : List Listed) (hi : ℝ) : Processed age z l (process age z l hi).list := by
  refine ⟨?_, ?_, ?_⟩
  · rw [← drawn_tags age z l]
    exact (sortOldest_perm _).map _
  · intro c hc
    obtain ⟨c', h, d, hd, rfl⟩ := mem_drawn.1 ((sortOldest_perm _).mem_iff.1 hc)
    exact ⟨d, hd, rfl, c', h, rfl, rfl, hd⟩
  · intro i j hi' hj hij t t' ht ht'
    have := List.pairwise_iff_getElem.1 (sortOldest_sorted (drawn age z l)) i j hi' hj hij
    have ht : (sortOldest (drawn age z l))[i].time = some t := ht
    have ht' : (sortOldest (drawn age z l))[j].time = some t' := ht'
    rw [ht, ht'] at this
    simpa using this

theorem any_none (l : List Listed) : l.any (fun c => c.time.isNone) = true ↔ ∃ c ∈ l, c.time = none := by
  simp [List.any_eq_true]

/-- Reading the list after craters without a time were added shows all craters with metadata once, each with a time drawn from its own metadata,
oldest first; craters without metadata are gone. -/
theorem C245_read (age : ℝ → ℝ) (z : ℕ → ℝ) (s : State) (c : Listed) (hc : c ∈ s.list) (h : c.time = none) :
    Processed age z s.list (read age z s).list := by
  unfold read
  rw [if_pos ((any_none _).2 ⟨c, hc, h⟩)]
  exact processed age z s.list s.hi

theorem read_timed (age : ℝ → ℝ) (z : ℕ → ℝ) (s : State) : ∀ c ∈ (read age z s).list, c.time.isSome := by
  intro c hc
  unfold read at hc
  split_ifs at hc with h
  · obtain ⟨d, _, ht, _⟩ := (processed age z s.list s.hi).each c hc
    rw [ht]; rfl
  · by_contra hn
    exact h ((any_none _).2 ⟨c, hc, by simpa using hn⟩)

theorem read_of_timed (age : ℝ → ℝ) (z : ℕ → ℝ) (s : State) (h : ∀ c ∈ s.list, c.time.isSome) : read age z s = s := by
  unfold read
  rw [if_neg]
  intro hn
  obtain ⟨c, hc, ht⟩ := (any_none _).1 hn
  have := h c hc
  rw [ht] at this
  cases this

/-- Reading the list again changes nothing, whatever would be drawn. -/
theorem C245_stable (age : ℝ → ℝ) (z z' : ℕ → ℝ) (s : State) : read age z' (read age z s) = read age z s :=
  read_of_timed age z' _ (read_timed age z s)

theorem foldl_min_le (l : List Listed) : ∀ m : ℝ, l.foldl (fun m c => min m c.diam) m ≤ m ∧ ∀ c ∈ l, l.foldl (fun m c => min m c.diam) m ≤ c.diam := by
  induction l with
  | nil => intro m; exact ⟨le_refl _, fun c hc => by cases hc⟩
  | cons a l ih =>
    intro m
    rw [List.foldl_cons]
    obtain ⟨h1, h2⟩ := ih (min m a.diam)
    refine ⟨h1.trans (min_le_left _ _), fun c hc => ?_⟩
    rcases List.mem_cons.1 hc with rfl | hc
    · exact h1.trans (min_le_right _ _)
    · exact h2 c hc

/-- After a reading the random craters are no larger than any crater that was added without a time. -/
theorem C245_limit (age : ℝ → ℝ) (z : ℕ → ℝ) (s : State) (c : Listed) (hc : c ∈ s.list) (h : c.time = none) (hd : c.data.isSome) :
    (read age z s).hi ≤ c.diam ∧ (read age z s).hi ≤ s.hi := by
  unfold read
  rw [if_pos ((any_none _).2 ⟨c, hc, h⟩)]
  obtain ⟨d, hd⟩ := Option.isSome_iff_exists.1 hd
  obtain ⟨h1, h2⟩ := foldl_min_le (drawn age z s.list) s.hi
  exact ⟨h2 { c with time := some (drawTime age (z c.tag) d) } (mem_drawn.2 ⟨c, hc, d, hd, rfl⟩), h1⟩

/-- A crater that is added with a time of its own and without metadata to a list that was read stays where it was put and does not limit the sizes
of random craters; it is lost as soon as any crater without a time is added and the list is read, whatever the two are. -/
theorem C245_timed_fails (age : ℝ → ℝ) (z z1 z2 z3 : ℕ → ℝ) (s : State) (c c' : Listed) (t : ℝ) (ht : c.time = some t) (hd : c.data = none)
    (ht' : c'.time = none) (hne : ∀ x ∈ (read age z s).list, x.tag ≠ c.tag) (hne' : c'.tag ≠ c.tag) :
    let one := (step age (step age s (.append c z)).1 (.look z1)).1
    one.list = (read age z s).list ++ [c] ∧ one.hi = (read age z s).hi ∧
      ∀ x ∈ (step age (step age one (.append c' z2)).1 (.look z3)).1.list, x.tag ≠ c.tag := by
  have h1 : (step age (step age s (.append c z)).1 (.look z1)).1 = { read age z s with list := (read age z s).list ++ [c] } := by
    simp only [step]
    apply read_of_timed
    intro x hx
    rcases List.mem_append.1 hx with hx | hx
    · exact read_timed age z s x hx
    · rw [List.mem_singleton.1 hx, ht]; rfl
  rw [h1]
  refine ⟨rfl, rfl, ?_⟩
  intro x hx
  simp only [step] at hx
  rw [read_of_timed age z2 { read age z s with list := (read age z s).list ++ [c] } (by
    intro x hx
    rcases List.mem_append.1 hx with hx | hx
    · exact read_timed age z s x hx
    · rw [List.mem_singleton.1 hx, ht]; rfl)] at hx
  have hp := C245_read age z3 ⟨((read age z s).list ++ [c]) ++ [c'], (read age z s).hi⟩ c' (by simp) ht'
  obtain ⟨d, _, _, y, hy, e1, _, e3⟩ := hp.each x hx
  rw [← e1]
  rcases List.mem_append.1 hy with hy | hy
  · rcases List.mem_append.1 hy with hy | hy
    · exact hne y hy
    · rw [List.mem_singleton.1 hy, hd] at e3; cases e3
  · rw [List.mem_singleton.1 hy]; exact hne'

/-! ### Craters emplaced while the list changes -/

/-- The windows of the rounds. -/
def windows : List Event → List (ℝ × ℝ)
  | [] => []
  | .round ts te _ _ _ _ :: es => (ts, te) :: windows es
  | _ :: es => windows es

/-- A round, a reading, or the addition of a crater: all about other craters than `q`. -/
def Others (q : ℕ) : Event → Prop
  | .round _ _ craters _ _ _ => ∀ g ∈ craters, g.tag ≠ q
  | .append c _ => c.tag ≠ q
  | .look _ => True
  | .assign _ _ => False

/-- The list has the crater `e` once, with these metadata and with no other time than `t`. -/
def Has (q : ℕ) (d : Metadata) (t : ℝ) (l : List Listed) : Prop :=
  ∃ a b c, l = a ++ c :: b ∧ c.tag = q ∧ c.data = some d ∧ (c.time = none ∨ c.time = some t) ∧ (∀ x ∈ a, x.tag ≠ q) ∧ ∀ x ∈ b, x.tag ≠ q

theorem has_perm {q : ℕ} {d : Metadata} {t : ℝ} {l l' : List Listed} (hp : l.Perm l') (h : Has q d t l) : Has q d t l' := by
  obtain ⟨a, b, c, rfl, hc, hd, ht, ha, hb⟩ := h
  have hm : c ∈ l' := hp.mem_iff.1 (by simp)
  obtain ⟨a', b', rfl⟩ := List.append_of_mem hm
  have h2 : (a ++ b).Perm (a' ++ b') := by
    have := (List.perm_middle.symm.trans hp).trans List.perm_middle
    exact (List.perm_cons c).1 this
  refine ⟨a', b', c, rfl, hc, hd, ht, fun x hx => ?_, fun x hx => ?_⟩
  · rcases List.mem_append.1 (h2.mem_iff.2 (List.mem_append_left _ hx)) with h | h
    exacts [ha x h, hb x h]
  · rcases List.mem_append.1 (h2.mem_iff.2 (List.mem_append_right _ hx)) with h | h
    exacts [ha x h, hb x h]

theorem drawn_other {age : ℝ → ℝ} {z : ℕ → ℝ} {l : List Listed} {q : ℕ} (h : ∀ x ∈ l, x.tag ≠ q) : ∀ x ∈ drawn age z l, x.tag ≠ q := by
  intro x hx
  obtain ⟨c', h', d, _, rfl⟩ := mem_drawn.1 hx
  exact h c' h'

theorem has_read {age : ℝ → ℝ} {z : ℕ → ℝ} {s : State} {q : ℕ} {d : Metadata} {t : ℝ} (ht : drawTime age (z q) d = t) (h : Has q d t s.list) :
    Has q d t (read age z s).list := by
  unfold read
  split_ifs with hn
  · apply has_perm (sortOldest_perm _).symm
    obtain ⟨a, b, c, hl, hc, hd, _, ha, hb⟩ := h
    refine ⟨drawn age z a, drawn age z b, { c with time := some (drawTime age (z c.tag) d) }, ?_, hc, hd, ?_, drawn_other ha, drawn_other hb⟩
    · rw [hl]
      unfold drawn
      rw [List.filterMap_append, List.filterMap_cons_some (b := { c with time := some (drawTime age (z c.tag) d) }) (by rw [hd]; rfl)]
    · right; rw [hc]; exact congrArg some ht
  · exact h

theorem timed_append (a b : List Listed) : timed (a ++ b) = timed a ++ timed b := List.filterMap_append

theorem timed_other {l : List Listed} {q : ℕ} (h : ∀ x ∈ l, x.tag ≠ q) : ∀ x ∈ timed l, x.tag ≠ q := by
  intro x hx
  obtain ⟨c, hc, h'⟩ := List.mem_filterMap.1 hx
  cases ht : c.time with
  | none => rw [ht] at h'; cases h'
  | some t => rw [ht] at h'; cases h'; exact h c hc

theorem count_timed {q : ℕ} {d : Metadata} {t : ℝ} {l : List Listed} (h : Has q d t l) (hs : ∀ c ∈ l, c.time.isSome) (p : ℝ → Bool) :
    count q ((timed l).filter fun c => p c.time) = if p t then 1 else 0 := by
  obtain ⟨a, b, c, rfl, hc, hd, ht, ha, hb⟩ := h
  have ht : c.time = some t := by
    rcases ht with ht | ht
    · have := hs c (by simp)
      rw [ht] at this; cases this
    · exact ht
  have e : timed (a ++ c :: b) = timed a ++ ([⟨q, c.diam, t⟩] ++ timed b) := by
    rw [timed_append, ← List.singleton_append, timed_append]
    congr 2
    simp [timed, ht, hc]
  rw [e, List.filter_append, List.filter_append, count_append, count_append,
    count_zero q _ (fun x hx => timed_other ha x (List.mem_of_mem_filter hx)),
    count_zero q _ (fun x hx => timed_other hb x (List.mem_of_mem_filter hx))]
  cases hp : p t <;> simp [count, hp]

theorem history_count (age : ℝ → ℝ) (q : ℕ) (d : Metadata) (t : ℝ) (ht : Exact age d t) (es : List Event) :
    ∀ s : State, Has q d t s.list → (∀ x ∈ es, Others q x) → count q (history age s es) = selections t (windows es) := by
  classical
  induction es with
  | nil => intro s _ _; rfl
  | cons x es ih =>
    intro s hs hx
    have hx0 := hx x (by simp)
    have hx1 : ∀ y ∈ es, Others q y := fun y hy => hx y (by simp [hy])
    have hr : ∀ z, Has q d t (read age z s).list := fun z => has_read (draw_exact ht _) hs
    cases x with
    | append c z =>
      simp only [history, windows, step, List.nil_append]
      apply ih _ _ hx1
      obtain ⟨a, b, c', hl, h1, h2, h3, h4, h5⟩ := hr z
      refine ⟨a, b ++ [c], c', ?_, h1, h2, h3, h4, fun x hx => ?_⟩
      · simp [hl]
      · rcases List.mem_append.1 hx with hx | hx
        · exact h5 x hx
        · rw [List.mem_singleton.1 hx]; exact hx0
    | look z =>
      simp only [history, windows, step, List.nil_append]
      exact ih _ (hr z) hx1
    | assign l z => exact hx0.elim
    | round ts te craters times z z' =>
      simp only [history, windows, step, selections]
      rw [C245_stable, count_append, count_merge _ _ _ _ _ _ hx0, ih _ (hr z) hx1,
        count_timed (hr z) (read_timed age z s) fun t => decide (te < t ∧ t ≤ ts)]
      simp

/-- A crater whose metadata have no uncertainty is emplaced once by the rounds that follow if its time is in their period, and otherwise not at all, however
often other craters are added to the list and the list is read between the rounds.  Missing from the full statement: craters with an uncertainty,
see `C245_uncertain_fails`. -/
theorem C245_once_partial (age : ℝ → ℝ) (s : State) (c : Listed) (z : ℕ → ℝ) (d : Metadata) (t : ℝ) (hd : c.data = some d) (ht : Exact age d t)
    (hc : c.time = none) (hn : ∀ x ∈ (read age z s).list, x.tag ≠ c.tag) (es : List Event) (hes : ∀ x ∈ es, Others c.tag x) (a b : ℝ)
    (hw : Run.Tiles (windows es) a b) :
    count c.tag (history age s (.append c z :: es)) = open Classical in if b < t ∧ t ≤ a then 1 else 0 := by
  simp only [history, step, List.nil_append]
  rw [history_count age c.tag d t ht es _ ?_ hes, selections_tiles _ a b t hw]
  exact ⟨(read age z s).list, [], c, rfl, rfl, hd, .inl hc, hn, fun x hx => by cases hx⟩

/-- A single crater with an uncertain time is emplaced by two rounds with another crater added in between. -/
theorem between (age : ℝ → ℝ) (mean sig a b e diam : ℝ) (hs : 0 < sig) (c' : Listed) (hc' : c'.tag ≠ 0) (hn : c'.time = none)
    (z z' z0 w : ℕ → ℝ) (hi : ℝ) :
    count 0 (history age ⟨[], hi⟩ [.append ⟨0, diam, some (.time mean sig), none⟩ z0, .round a b [] [] z w, .append c' w, .round b e [] [] z' w]) =
      open Classical in (if b < mean + sig * z 0 ∧ mean + sig * z 0 ≤ a then 1 else 0) + if e < mean + sig * z' 0 ∧ mean + sig * z' 0 ≤ b then 1 else 0 := by
  classical
  have h0 : ∀ y : ℕ → ℝ, drawTime age (y 0) (.time mean sig) = mean + sig * y 0 := fun y => by simp [drawTime, hs]
  set c : Listed := ⟨0, diam, some (.time mean sig), none⟩ with hcdef
  have r0 : read age z0 ⟨[], hi⟩ = ⟨[], hi⟩ := read_of_timed _ _ _ fun x hx => by cases hx
  have hs1 : Has 0 (.time mean sig) (mean + sig * z 0) [c] := ⟨[], [], c, rfl, rfl, rfl, .inl rfl, by simp, by simp⟩
  have hr1 : Has 0 (.time mean sig) (mean + sig * z 0) (read age z ⟨[c], hi⟩).list := has_read (h0 z) hs1
  set s1 := read age z ⟨[c], hi⟩ with hs1def
  have hr2 : Has 0 (.time mean sig) (mean + sig * z' 0) (read age z' ⟨s1.list ++ [c'], s1.hi⟩).list := by
    obtain ⟨x, y, c1, hl, h1, h2, _, h4, h5⟩ := hr1
    unfold read
    rw [if_pos ((any_none _).2 ⟨c', by simp, hn⟩)]
    apply has_perm (sortOldest_perm _).symm
    refine ⟨drawn age z' x, drawn age z' (y ++ [c']), { c1 with time := some (drawTime age (z' c1.tag) (.time mean sig)) }, ?_, h1, h2, ?_,
      drawn_other h4, drawn_other fun v hv => ?_⟩
    · simp only [hl]
      unfold drawn
      rw [List.append_assoc, List.cons_append, List.filterMap_append,
        List.filterMap_cons_some (b := { c1 with time := some (drawTime age (z' c1.tag) (.time mean sig)) }) (by rw [h2]; rfl)]
    · right; rw [h1]; exact congrArg some (h0 z')
    · rcases List.mem_append.1 hv with hv | hv
      · exact h5 v hv
      · rw [List.mem_singleton.1 hv]; exact hc'
  simp only [history, step, List.nil_append, List.append_nil, r0, ← hs1def]
  rw [C245_stable, C245_stable, count_append, ← hs1def, read_of_timed age w s1 (read_timed _ _ _),
    count_merge _ _ _ _ _ _ (fun g hg => by cases hg), count_merge _ _ _ _ _ _ (fun g hg => by cases hg),
    count_timed hr1 (read_timed _ _ _) fun t => decide (b < t ∧ t ≤ a), count_timed hr2 (read_timed _ _ _) fun t => decide (e < t ∧ t ≤ b)]
  simp

/-- A crater with an uncertain time can be emplaced twice, or never although all its times are in the period, when any other crater is added between two
rounds, whatever the time, its uncertainty, the periods and the other crater are. -/
theorem C245_uncertain_fails (age : ℝ → ℝ) (mean sig a b e diam : ℝ) (hs : 0 < sig) (hab : b < a) (hbe : e < b) (c' : Listed) (hc' : c'.tag ≠ 0)
    (hn : c'.time = none) (z0 w : ℕ → ℝ) (hi : ℝ) :
    (∃ z z' : ℕ → ℝ, count 0 (history age ⟨[], hi⟩
      [.append ⟨0, diam, some (.time mean sig), none⟩ z0, .round a b [] [] z w, .append c' w, .round b e [] [] z' w]) = 2) ∧
    ∃ z z' : ℕ → ℝ, (∀ y ∈ [z, z'], e < drawTime age (y 0) (.time mean sig) ∧ drawTime age (y 0) (.time mean sig) ≤ a) ∧
      count 0 (history age ⟨[], hi⟩
        [.append ⟨0, diam, some (.time mean sig), none⟩ z0, .round a b [] [] z w, .append c' w, .round b e [] [] z' w]) = 0 := by
  classical
  have e1 : ∀ x : ℝ, mean + sig * ((x - mean) / sig) = x := fun x => by rw [mul_div_cancel₀ _ hs.ne']; ring
  refine ⟨⟨fun _ => (a - mean) / sig, fun _ => (b - mean) / sig, ?_⟩, ⟨fun _ => (b - mean) / sig, fun _ => (a - mean) / sig, ?_, ?_⟩⟩
  · rw [between age mean sig a b e diam hs c' hc' hn, e1, e1]
    simp [hab, hbe]
  · intro y hy
    rcases List.mem_cons.1 hy with rfl | hy
    · simp only [drawTime, gt_iff_lt, hs, if_true, e1]; exact ⟨hbe, hab.le⟩
    · rw [List.mem_singleton.1 hy]
      simp only [drawTime, gt_iff_lt, hs, if_true, e1]; exact ⟨hbe.trans hab, le_refl _⟩
  · rw [between age mean sig a b e diam hs c' hc' hn, e1, e1]
    simp [hab]

example : ∃ (s : State) (c c' : Listed), c ∈ s.list ∧ c.time = none ∧ c.data.isSome ∧ c'.tag ≠ c.tag ∧ c'.time = none ∧ c'.data = none :=
  ⟨⟨[⟨1, 100, some (.time 800 15), none⟩], 500⟩, ⟨1, 100, some (.time 800 15), none⟩, ⟨2, 50, none, none⟩, by simp⟩

end Verif.PrescribedList
