import Verif.Model.Emplace
import Verif.Props.Diffusion
import Mathlib.Data.List.Chain
import Mathlib.Data.List.Pairwise

/-! Properties C45, C46, C62, C96, C97: crater queue and emplacement. -/

namespace Verif.Emplace

section Queue

variable {C : Type} [DecidableEq C]

/-! ### C46 -/

omit [DecidableEq C] in
theorem peek_prefix (ov : C → Finset ℕ × Finset ℕ) (q : List C) (n f : Finset ℕ) : peek ov q n f <+: q := by
  induction q generalizing n f with
  | nil => simp [peek]
  | cons c q ih =>
    unfold peek
    split_ifs
    · exact (List.prefix_cons_inj c).mpr (ih _ _)
    · exact List.nil_prefix

theorem popBatch_prefix (b q : List C) : popBatch b (b ++ q) = some q := by
  induction b with
  | nil => rfl
  | cons c b ih =>
    unfold popBatch
    rw [if_pos (by simp)]
    simpa using ih

omit [DecidableEq C] in
theorem peek_disjoint (ov : C → Finset ℕ × Finset ℕ) (q : List C) (n f : Finset ℕ) :
    (∀ c ∈ peek ov q n f, Disjoint n (ov c).1 ∧ Disjoint f (ov c).2) ∧
    (peek ov q n f).Pairwise (fun a b => Disjoint (ov a).1 (ov b).1 ∧ Disjoint (ov a).2 (ov b).2) := by
  induction q generalizing n f with
  | nil => simp [peek]
  | cons c q ih =>
    unfold peek
    split_ifs with h
    · obtain ⟨h1, h2⟩ := ih (n ∪ (ov c).1) (f ∪ (ov c).2)
      constructor
      · intro x hx
        rcases List.mem_cons.mp hx with rfl | hx
        · exact h
        · obtain ⟨a, b⟩ := h1 x hx
          rw [Finset.disjoint_union_left] at a b
          exact ⟨a.1, b.1⟩
      · rw [List.pairwise_cons]
        refine ⟨?_, h2⟩
        intro x hx
        obtain ⟨a, b⟩ := h1 x hx
        rw [Finset.disjoint_union_left] at a b
        exact ⟨a.2, b.2⟩
    · simp

omit [DecidableEq C] in
theorem peek_maximal (ov : C → Finset ℕ × Finset ℕ) (q : List C) (n f : Finset ℕ) (c : C) (rest : List C)
    (h : q = peek ov q n f ++ c :: rest) :
    ¬ (Disjoint n (ov c).1 ∧ Disjoint f (ov c).2) ∨
    ∃ b ∈ peek ov q n f, ¬ (Disjoint (ov b).1 (ov c).1 ∧ Disjoint (ov b).2 (ov c).2) := by
  induction q generalizing n f with
  | nil => simp [peek] at h
  | cons x q ih =>
    unfold peek at h ⊢
    split_ifs at h ⊢ with hd
    · simp only [List.cons_append, List.cons.injEq, true_and] at h
      rcases ih _ _ h with h1 | ⟨b, hb, h1⟩
      · rw [Finset.disjoint_union_left, Finset.disjoint_union_left] at h1
        by_cases h2 : Disjoint n (ov c).1 ∧ Disjoint f (ov c).2
        · right
          exact ⟨x, by simp, fun h3 => h1 ⟨⟨h2.1, h3.1⟩, ⟨h2.2, h3.2⟩⟩⟩
        · left; exact h2
      · right
        exact ⟨b, by simp [hb], h1⟩
    · simp only [List.nil_append, List.cons.injEq] at h
      left
      rw [← h.1]
      exact hd

omit [DecidableEq C] in
theorem nextBatch_ne_nil (ov : C → Finset ℕ × Finset ℕ) (c : C) (q : List C) : nextBatch ov (c :: q) ≠ [] := by
  unfold nextBatch peek
  rw [if_pos ⟨Finset.disjoint_empty_left _, Finset.disjoint_empty_left _⟩]
  simp

omit [DecidableEq C] in
theorem formBatch_ok (raises : C → Bool) (b : List C) (h : ∀ c ∈ b, raises c = false) :
    formBatch raises b = (b, true) := by
  induction b with
  | nil => rfl
  | cons c b ih =>
    unfold formBatch
    rw [ih (fun x hx => h x (by simp [hx]))]
    simp [h c (by simp)]

/-- If forming craters raises no exception, processing the queue forms every crater of the queue once, in
order, and leaves the queue empty.  Craters of the same batch touch no common node or face. -/
theorem C46_exactly_once (ov : C → Finset ℕ × Finset ℕ) (raises : C → Bool) (q : List C)
    (hr : ∀ c ∈ q, raises c = false) (fuel : ℕ) (hf : q.length ≤ fuel) :
    (process ov raises fuel q).batches.flatten = q ∧ (process ov raises fuel q).left = [] ∧
    (process ov raises fuel q).ok = true ∧ [] ∉ (process ov raises fuel q).batches ∧
    ∀ b ∈ (process ov raises fuel q).batches,
      b.Pairwise (fun x y => Disjoint (ov x).1 (ov y).1 ∧ Disjoint (ov x).2 (ov y).2) := by
  induction fuel generalizing q with
  | zero =>
    have : q = [] := by simpa using hf
    subst this
    simp [process]
  | succ fuel ih =>
    rcases q with _ | ⟨c, q⟩
    · simp [process]
    · have hne := nextBatch_ne_nil ov c q
      obtain ⟨rest, hrest⟩ := peek_prefix ov (c :: q) ∅ ∅
      have hrest : nextBatch ov (c :: q) ++ rest = c :: q := hrest
      have hpw := (peek_disjoint ov (c :: q) ∅ ∅).2
      have hfb := formBatch_ok raises (nextBatch ov (c :: q))
        (fun x hx => hr x (by rw [← hrest]; simp [hx]))
      have hpop : popBatch (nextBatch ov (c :: q)) (c :: q) = some rest := by
        have := popBatch_prefix (nextBatch ov (c :: q)) rest
        rwa [hrest] at this
      have hlen : rest.length ≤ fuel := by
        have h1 := congrArg List.length hrest
        have h2 : 0 < (nextBatch ov (c :: q)).length := List.length_pos_of_ne_nil hne
        simp only [List.length_append, List.length_cons] at h1 hf
        omega
      obtain ⟨i1, i2, i3, i4, i5⟩ := ih rest (fun x hx => hr x (by rw [← hrest]; simp [hx])) hlen
      have hp : process ov raises (fuel + 1) (c :: q) =
          ⟨nextBatch ov (c :: q) :: (process ov raises fuel rest).batches, (process ov raises fuel rest).left,
            (process ov raises fuel rest).ok⟩ := by
        rw [process]
        simp only [hfb, hpop, if_true]
        · intro h; cases h
      rw [hp]
      refine ⟨?_, i2, i3, ?_, ?_⟩
      · simp only [List.flatten_cons, i1]
        exact hrest
      · simp only [List.mem_cons, not_or]
        exact ⟨fun h => hne h.symm, i4⟩
      · intro b hb
        rcases List.mem_cons.mp hb with rfl | hb
        · exact hpw
        · exact i5 b hb

omit [DecidableEq C] in
/-- Batches are as long as possible: the next crater in the queue overlaps one of the batch. -/
theorem C46_maximal (ov : C → Finset ℕ × Finset ℕ) (q rest : List C) (c : C)
    (h : q = nextBatch ov q ++ c :: rest) :
    ∃ b ∈ nextBatch ov q, ¬ (Disjoint (ov b).1 (ov c).1 ∧ Disjoint (ov b).2 (ov c).2) := by
  rcases peek_maximal ov q ∅ ∅ c rest h with h | h
  · exact absurd ⟨Finset.disjoint_empty_left _, Finset.disjoint_empty_left _⟩ h
  · exact h

example : ∃ rest, [0, 1, 2, 3] = nextBatch (fun c : ℕ => if c = 2 then ({5}, {5}) else (({5 + c} : Finset ℕ), ({5 + c} : Finset ℕ)))
    [0, 1, 2, 3] ++ 2 :: rest := ⟨[3], by decide⟩

/-- Emplacing a list of craters from an empty queue forms exactly the emplaceable ones. -/
theorem C46_emplaceable (ov : C → Finset ℕ × Finset ℕ) (raises emplaceable : C → Bool) (cs : List C)
    (hr : ∀ c ∈ cs, raises c = false) :
    (process ov raises cs.length (enqueue emplaceable [] cs)).batches.flatten = cs.filter emplaceable := by
  refine (C46_exactly_once ov raises (enqueue emplaceable [] cs) ?_ cs.length ?_).1
  · intro c hc
    simp only [enqueue, List.nil_append, List.mem_filter] at hc
    exact hr c hc.1
  · simpa [enqueue] using List.length_filter_le emplaceable cs

omit [DecidableEq C] in
theorem formBatch_split (raises : C → Bool) (b : List C) :
    (formBatch raises b = (b, true) ∧ ∀ x ∈ b, raises x = false) ∨
    ∃ pre c post, b = pre ++ c :: post ∧ (∀ x ∈ pre, raises x = false) ∧ raises c = true ∧
      formBatch raises b = (pre ++ [c], false) := by
  induction b with
  | nil => left; simp [formBatch]
  | cons c b ih =>
    by_cases hc : raises c = true
    · right
      exact ⟨[], c, b, by simp, by simp, hc, by simp [formBatch, hc]⟩
    · have hc' : raises c = false := by simpa using hc
      rcases ih with ⟨h1, h2⟩ | ⟨pre, d, post, h1, h2, h3, h4⟩
      · left
        refine ⟨by simp [formBatch, hc', h1], ?_⟩
        intro x hx
        rcases List.mem_cons.mp hx with rfl | hx
        · exact hc'
        · exact h2 x hx
      · right
        refine ⟨c :: pre, d, post, by simp [h1], ?_, h3, by simp [formBatch, hc', h4]⟩
        intro x hx
        rcases List.mem_cons.mp hx with rfl | hx
        · exact hc'
        · exact h2 x hx

/-- What an exception leaves, for every queue.  Processing fails exactly if forming one of the craters raises.  Then all craters up to
the first one that raises were formed (that one was begun), but the queue still starts with the craters `pre` of its batch that were
already formed.  Processing the queue again, now without exceptions, forms those a second time.  The craters formed twice share no node
or face with each other or with the crater that raised.  The craters of earlier
batches are not formed again. -/
theorem C46_exception_exact_partial (ov : C → Finset ℕ × Finset ℕ) (raises : C → Bool) (q : List C) (fuel : ℕ)
    (hf : q.length ≤ fuel) :
    ((process ov raises fuel q).ok = false ↔ ∃ c ∈ q, raises c = true) ∧
    ((process ov raises fuel q).ok = false →
      ∃ done pre c post, q = done ++ (pre ++ c :: post) ∧ (∀ x ∈ done ++ pre, raises x = false) ∧ raises c = true ∧
        (process ov raises fuel q).batches.flatten = done ++ (pre ++ [c]) ∧
        (process ov raises fuel q).left = pre ++ c :: post ∧
        (pre ++ [c]).Pairwise (fun x y => Disjoint (ov x).1 (ov y).1 ∧ Disjoint (ov x).2 (ov y).2) ∧
        (process ov (fun _ => false) fuel (process ov raises fuel q).left).batches.flatten = pre ++ c :: post) := by
  have key : ∀ (fuel : ℕ) (q : List C), q.length ≤ fuel →
      ((∀ x ∈ q, raises x = false) ∧ (process ov raises fuel q).ok = true) ∨
      ((process ov raises fuel q).ok = false ∧ ∃ done pre c post, q = done ++ (pre ++ c :: post) ∧
        (∀ x ∈ done ++ pre, raises x = false) ∧ raises c = true ∧
        (process ov raises fuel q).batches.flatten = done ++ (pre ++ [c]) ∧
        (process ov raises fuel q).left = pre ++ c :: post ∧
        (pre ++ [c]).Pairwise (fun x y => Disjoint (ov x).1 (ov y).1 ∧ Disjoint (ov x).2 (ov y).2)) := by
    intro fuel
    induction fuel with
    | zero =>
      intro q hf
      have : q = [] := by simpa using hf
      subst this
      left; simp [process]
    | succ fuel ih =>
      intro q hf
      rcases q with _ | ⟨d, q⟩
      · left; simp [process]
      · have hne := nextBatch_ne_nil ov d q
        obtain ⟨rest, hrest⟩ := peek_prefix ov (d :: q) ∅ ∅
        have hrest : nextBatch ov (d :: q) ++ rest = d :: q := hrest
        have hpw := (peek_disjoint ov (d :: q) ∅ ∅).2
        have hpw : (nextBatch ov (d :: q)).Pairwise
          (fun x y => Disjoint (ov x).1 (ov y).1 ∧ Disjoint (ov x).2 (ov y).2) := hpw
        rcases formBatch_split raises (nextBatch ov (d :: q)) with ⟨hfb, hok⟩ | ⟨pre, c, post, h1, h2, h3, h4⟩
        · have hpop : popBatch (nextBatch ov (d :: q)) (d :: q) = some rest := by
            have := popBatch_prefix (nextBatch ov (d :: q)) rest
            rwa [hrest] at this
          have hlen : rest.length ≤ fuel := by
            have h1 := congrArg List.length hrest
            have h2 : 0 < (nextBatch ov (d :: q)).length := List.length_pos_of_ne_nil hne
            simp only [List.length_append, List.length_cons] at h1 hf
            omega
          have hp : process ov raises (fuel + 1) (d :: q) =
              ⟨nextBatch ov (d :: q) :: (process ov raises fuel rest).batches, (process ov raises fuel rest).left,
                (process ov raises fuel rest).ok⟩ := by
            rw [process]
            simp only [hfb, hpop, if_true]
            · intro h; cases h
          rw [hp]
          rcases ih rest hlen with ⟨i1, i2⟩ | ⟨i0, done, pre, c, post, i1, i2, i3, i4, i5, i6⟩
          · left
            refine ⟨?_, i2⟩
            intro x hx
            rw [← hrest] at hx
            rcases List.mem_append.mp hx with hx | hx
            · exact hok x hx
            · exact i1 x hx
          · right
            refine ⟨i0, nextBatch ov (d :: q) ++ done, pre, c, post, ?_, ?_, i3, ?_, i5, i6⟩
            · rw [List.append_assoc, ← i1, hrest]
            · intro x hx
              rw [List.append_assoc] at hx
              rcases List.mem_append.mp hx with hx | hx
              · exact hok x hx
              · exact i2 x hx
            · simp only [List.flatten_cons, i4, List.append_assoc]
        · right
          have hp : process ov raises (fuel + 1) (d :: q) = ⟨[pre ++ [c]], d :: q, false⟩ := by
            rw [process]
            simp only [h4, Bool.false_eq_true, if_false]
            · intro h; cases h
          rw [hp]
          have hq : d :: q = pre ++ c :: (post ++ rest) := by
            rw [← hrest, h1]; simp
          refine ⟨rfl, [], pre, c, post ++ rest, by simpa using hq, by simpa using h2, h3, by simp, hq, ?_⟩
          rw [h1] at hpw
          have : pre ++ c :: post = (pre ++ [c]) ++ post := by simp
          rw [this] at hpw
          exact (List.pairwise_append.mp hpw).1
  have again : ∀ done l, q = done ++ l → (process ov (fun _ => false) fuel l).batches.flatten = l := by
    intro done l h
    refine (C46_exactly_once ov (fun _ => false) l (fun _ _ => rfl) fuel ?_).1
    have := congrArg List.length h
    simp only [List.length_append] at this
    omega
  rcases key fuel q hf with ⟨h1, h2⟩ | ⟨h0, done, pre, c, post, h1, h2, h3, h4, h5, h6⟩
  · constructor
    · rw [h2]
      constructor
      · intro h; cases h
      · rintro ⟨c, hc, h⟩
        rw [h1 c hc] at h; cases h
    · intro h
      rw [h2] at h; cases h
  · constructor
    · exact ⟨fun _ => ⟨c, by rw [h1]; simp, h3⟩, fun _ => h0⟩
    · intro _
      exact ⟨done, pre, c, post, h1, h2, h3, h4, h5, h6, by rw [h5]; exact again done _ h1⟩

example : (process (fun c : ℕ => (({c} : Finset ℕ), ({c} : Finset ℕ))) (fun c => c = 1) 3 [0, 1, 2]).ok = false := by decide

/-- If forming a crater raises an exception, the craters of its batch stay in the queue although the earlier
ones were formed: the next run of the queue forms those a second time. -/
theorem C46_exception_fails : ∃ (ov : ℕ → Finset ℕ × Finset ℕ) (raises : ℕ → Bool) (q : List ℕ),
    (process ov raises q.length q).ok = false ∧
    ∃ c, c ∈ (process ov raises q.length q).batches.flatten ∧ raises c = false ∧
      c ∈ (process ov (fun _ => false) q.length (process ov raises q.length q).left).batches.flatten := by
  refine ⟨fun _ => (∅, ∅), fun c => c = 1, [0, 1], ?_, 0, ?_, ?_, ?_⟩ <;> decide

example : (process (fun c : ℕ => if c = 2 then ({5}, {5}) else ({5 + c}, {5 + c})) (fun _ => false) 3 [0, 1, 2]).batches
    = [[0, 1], [2]] := by decide

/-! ### C62 -/

theorem maxOf_mem {l : List ℝ} (h : l ≠ []) : maxOf l ∈ l := by
  induction l with
  | nil => exact absurd rfl h
  | cons x l ih =>
    rcases l with _ | ⟨y, l⟩
    · simp [maxOf]
    · unfold maxOf
      rcases max_choice x (maxOf (y :: l)) with e | e
      · rw [e]; simp
      · rw [e]; exact List.mem_cons_of_mem _ (ih (by simp))

theorem minOf_mem {l : List ℝ} (h : l ≠ []) : minOf l ∈ l := by
  induction l with
  | nil => exact absurd rfl h
  | cons x l ih =>
    rcases l with _ | ⟨y, l⟩
    · simp [minOf]
    · unfold minOf
      rcases min_choice x (minOf (y :: l)) with e | e
      · rw [e]; simp
      · rw [e]; exact List.mem_cons_of_mem _ (ih (by simp))

omit [DecidableEq C] in
theorem window_mem {time : C → Option ℝ} {b : List C} {w : ℝ × ℝ} (h : window time b = some w) :
    w.2 < w.1 ∧ w.1 ∈ b.filterMap time ∧ w.2 ∈ b.filterMap time := by
  unfold window at h
  simp only at h
  split_ifs at h with hc
  simp only [Option.some.injEq] at h
  subst h
  have hne : b.filterMap time ≠ [] := by
    intro h0
    rw [h0] at hc
    simp at hc
  exact ⟨hc.2.2, maxOf_mem hne, minOf_mem hne⟩

/-- With the craters in the queue from old to young, the windows are ordered: each ends before the next
starts, so no time is used twice, and all lie within the time span of the queue.  They need not cover the
time span, see `C62_cover_fails`. -/
theorem C62_ordered_partial (ov : C → Finset ℕ × Finset ℕ) (time : C → Option ℝ) (q : List C)
    (hs : q.Pairwise fun a b => ∀ x y, time a = some x → time b = some y → y ≤ x) (fuel : ℕ)
    (hf : q.length ≤ fuel) :
    let ws := windows time (process ov (fun _ => false) fuel q).batches
    ws.Pairwise (fun u v => v.1 ≤ u.2) ∧
    ∀ w ∈ ws, w.2 < w.1 ∧ ∃ a ∈ q, ∃ b ∈ q, time a = some w.1 ∧ time b = some w.2 := by
  obtain ⟨h1, _, _, _, _⟩ := C46_exactly_once ov (fun _ => false) q (by simp) fuel hf
  generalize (process ov (fun _ => false) fuel q).batches = bs at *
  subst h1
  simp only
  constructor
  · unfold windows
    rw [List.pairwise_filterMap]
    rw [List.pairwise_flatten] at hs
    refine hs.2.imp ?_
    intro b1 b2 hb u hu v hv
    obtain ⟨_, _, hu2⟩ := window_mem hu
    obtain ⟨_, hv1, _⟩ := window_mem hv
    obtain ⟨a, ha, ea⟩ := List.mem_filterMap.mp hu2
    obtain ⟨c, hc, ec⟩ := List.mem_filterMap.mp hv1
    exact hb a ha c hc _ _ ea ec
  · intro w hw
    obtain ⟨b, hb, e⟩ := List.mem_filterMap.mp hw
    obtain ⟨h0, hu, hv⟩ := window_mem e
    obtain ⟨x, hx, ex⟩ := List.mem_filterMap.mp hu
    obtain ⟨y, hy, ey⟩ := List.mem_filterMap.mp hv
    exact ⟨h0, x, List.mem_flatten.mpr ⟨b, hb, hx⟩, y, List.mem_flatten.mpr ⟨b, hb, hy⟩, ex, ey⟩

example : [0, 1].Pairwise fun a b => ∀ x y, (fun c : ℕ => if c = 0 then some (4000 : ℝ) else some 0) a = some x →
    (fun c : ℕ => if c = 0 then some (4000 : ℝ) else some 0) b = some y → y ≤ x := by
  simp

/-- Craters that overlap one another are processed one at a time, and then there is no degradation at all,
however long the time between them. -/
theorem C62_cover_fails (time : ℕ → Option ℝ) (q : List ℕ) (ov : ℕ → Finset ℕ × Finset ℕ)
    (hov : ∀ c ∈ q, 0 ∈ (ov c).2) :
    windows time (process ov (fun _ => false) q.length q).batches = [] := by
  obtain ⟨h1, _, _, _, h5⟩ := C46_exactly_once ov (fun _ => false) q (by simp) q.length (le_refl _)
  generalize (process ov (fun _ => false) q.length q).batches = bs at *
  unfold windows
  rw [List.filterMap_eq_nil_iff]
  intro b hb
  have hp := h5 b hb
  have hlen : ¬ b.length > 1 := by
    intro hl
    rcases b with _ | ⟨x, _ | ⟨y, b⟩⟩
    · simp at hl
    · simp at hl
    · rw [List.pairwise_cons] at hp
      have := (hp.1 y (by simp)).2
      have hx : x ∈ q := by rw [← h1]; exact List.mem_flatten.mpr ⟨_, hb, by simp⟩
      have hy : y ∈ q := by rw [← h1]; exact List.mem_flatten.mpr ⟨_, hb, by simp⟩
      exact Finset.disjoint_left.mp this (hov x hx) (hov y hy)
  unfold window
  simp only
  rw [if_neg (fun h => hlen h.1)]

example : ∃ (time : ℕ → Option ℝ) (q : List ℕ), (∀ c ∈ q, 0 ∈ ((fun _ => (∅, {0})) c : Finset ℕ × Finset ℕ).2) ∧
    time 0 = some 4000 ∧ time 1 = some 0 ∧ q = [0, 1] :=
  ⟨fun c => if c = 0 then some 4000 else some 0, [0, 1], by simp, by simp, by simp, rfl⟩

end Queue

/-! ### C45 -/

open Verif.Diffusion

theorem computeVolume_eq (m : Mesh) (e : ℕ → ℝ) : computeVolume m e = volume m e := rfl

theorem volume_add (m : Mesh) (a b : ℕ → ℝ) : volume m (fun f => a f + b f) = volume m a + volume m b := by
  simp [volume, add_mul, Finset.sum_add_distrib]

theorem volume_scale (m : Mesh) (a : ℕ → ℝ) (c : ℝ) : volume m (fun f => a f * c) = volume m a * c := by
  unfold volume
  rw [Finset.sum_mul]
  apply Finset.sum_congr rfl
  intro f _
  ring

/-- The surface that an outcome leaves behind has volume `v`. -/
def Outcome.HasVolume (m : Mesh) (v : ℝ) : Outcome → Prop
  | .ok h => volume m h = v
  | .raised h => volume m h = v
  | .notFinite => True

theorem applyDiffusion_volume (m : Mesh) (hm : m.Wf) (vs : ℝ) (k h : ℕ → ℝ) :
    (applyDiffusion m vs k h).HasVolume m (volume m h) := by
  unfold applyDiffusion
  split_ifs
  · rfl
  · rfl
  · exact C37_volume m hm k h

theorem deposit_volume (m : Mesh) (exc : ℝ) (t : ℕ → ℝ)
    (h0 : computeVolume m (fun g => max (t g) 0) ≠ 0) : volume m (deposit m exc t) = -exc := by
  unfold deposit
  rw [volume_scale, ← computeVolume_eq]
  field_simp

/-- Forming a crater, its ejecta and the collapse and diffusion that go with it conserve the volume of the
region whenever ejecta is deposited, also when a later step raises an exception. -/
theorem C45_volume (m : Mesh) (hm : m.Wf) (vs : ℝ) (collapse : Bool) (crit : ℝ) (change t deg h : ℕ → ℝ) :
    (formCrater m vs collapse crit change t deg h).HasVolume m (volume m h) := by
  unfold formCrater
  simp only
  generalize hh : (if collapse = true then fun f => h f + change f + slopeCollapse m crit (fun f => h f + change f) f
    else fun f => h f + change f) = h₂
  have hv : volume m h₂ = volume m h + volume m change := by
    rw [← hh]
    cases collapse
    · simp only [Bool.false_eq_true, if_false]
      exact volume_add m h change
    · simp only [if_true]
      rw [(C39_volume_and_bounds m hm crit (fun f => h f + change f)).1]
      exact volume_add m h change
  unfold formEjecta
  split_ifs with h1 h2
  · rw [computeVolume_eq] at h1
    simp only [Outcome.HasVolume, hv, h1, add_zero]
  · trivial
  · have hd := deposit_volume m (computeVolume m change) t h2
    have hv3 : volume m (fun f => h₂ f + deposit m (computeVolume m change) t f) = volume m h := by
      rw [volume_add, hd, hv, computeVolume_eq]
      ring
    have a1 := applyDiffusion_volume m hm vs (fun f => 1.5 * deposit m (computeVolume m change) t f ^ 2)
      (fun f => h₂ f + deposit m (computeVolume m change) t f)
    rw [hv3] at a1
    generalize applyDiffusion m vs (fun f => 1.5 * deposit m (computeVolume m change) t f ^ 2)
      (fun f => h₂ f + deposit m (computeVolume m change) t f) = o at a1 ⊢
    rcases o with h4 | h4 | _
    · have a1 : volume m h4 = volume m h := a1
      have a2 := applyDiffusion_volume m hm vs deg h4
      rw [a1] at a2
      exact a2
    · exact a1
    · trivial

/-- When does forming a crater succeed: it must change the volume, there must be some ejecta, and the
degradation must not be negative. -/
theorem C45_succeeds (m : Mesh) (vs : ℝ) (collapse : Bool) (crit : ℝ) (change t deg h : ℕ → ℝ)
    (h1 : volume m change ≠ 0) (h2 : volume m (fun f => max (t f) 0) ≠ 0) (h3 : ∀ f < m.n, 0 ≤ deg f) :
    ∃ h', formCrater m vs collapse crit change t deg h = .ok h' := by
  have key : ∀ k g : ℕ → ℝ, (∀ f < m.n, 0 ≤ k f) → ∃ g', applyDiffusion m vs k g = .ok g' := by
    intro k g hk
    unfold applyDiffusion
    rw [if_neg (by push Not; exact hk)]
    split_ifs <;> exact ⟨_, rfl⟩
  unfold formCrater formEjecta
  simp only
  rw [if_neg (show ¬ computeVolume m change = 0 from h1),
    if_neg (show ¬ computeVolume m (fun g => max (t g) 0) = 0 from h2)]
  generalize (if collapse = true then fun f => h f + change f + slopeCollapse m crit (fun f => h f + change f) f
    else fun f => h f + change f) = h₂
  obtain ⟨g, hg⟩ := key (fun f => 1.5 * deposit m (computeVolume m change) t f ^ 2)
    (fun f => h₂ f + deposit m (computeVolume m change) t f) (fun f _ => by positivity)
  rw [hg]
  exact key deg g h3

/-- A mesh, a change of elevation with a volume, a thickness with a volume, and degradation that is not negative. -/
example : twoFaces.Wf ∧ volume twoFaces (fun f => if f = 0 then -3 else 1) ≠ 0 ∧
    volume twoFaces (fun f => max ((fun f => if f = 0 then (-1 : ℝ) else 2) f) 0) ≠ 0 ∧ ∀ f < twoFaces.n, (0 : ℝ) ≤ (fun _ => 1) f := by
  refine ⟨⟨by simp [twoFaces], by simp [twoFaces], by simp [twoFaces]⟩, ?_, ?_, by simp⟩
  · simp [volume, twoFaces, Finset.sum_range_succ]
    norm_num
  · simp [volume, twoFaces, Finset.sum_range_succ]

/-! ### C96 -/

/-- A crater whose elevation change happens to have no net volume is excavated, but then an exception is
raised: no ejecta, no degradation. -/
theorem C96_no_volume_fails (m : Mesh) (vs : ℝ) (crit : ℝ) (change t deg h : ℕ → ℝ)
    (h0 : volume m change = 0) :
    formCrater m vs false crit change t deg h = .raised (fun f => h f + change f) := by
  unfold formCrater formEjecta
  simp only
  rw [if_pos (show computeVolume m change = 0 from h0)]
  rfl

/-- If there is any ejecta to scale and the degradation is not negative, forming the crater succeeds exactly if the change is not of
zero volume. -/
theorem C96_volume_partial (m : Mesh) (vs : ℝ) (collapse : Bool) (crit : ℝ) (change t deg h : ℕ → ℝ)
    (h2 : volume m (fun f => max (t f) 0) ≠ 0) (h3 : ∀ f < m.n, 0 ≤ deg f) :
    (∃ h', formCrater m vs collapse crit change t deg h = .ok h') ↔ volume m change ≠ 0 := by
  constructor
  · rintro ⟨h', h0⟩ hv
    unfold formCrater formEjecta at h0
    simp only at h0
    rw [if_pos (show computeVolume m change = 0 from hv)] at h0
    cases h0
  · exact fun h1 => C45_succeeds m vs collapse crit change t deg h h1 h2 h3

example : ∃ change : ℕ → ℝ, volume twoFaces change = 0 ∧ change 0 ≠ 0 :=
  ⟨fun f => if f = 0 then 1 else -1, by simp [volume, twoFaces, Finset.sum_range_succ], by simp⟩

/-! ### C97 -/

/-- The deposited ejecta is nowhere negative when the crater is a net excavation. -/
theorem C97_ejecta_nonneg_partial (m : Mesh) (hm : m.Wf) (exc : ℝ) (he : exc ≤ 0) (t : ℕ → ℝ) (f : ℕ) :
    0 ≤ deposit m exc t f := by
  unfold deposit
  apply mul_nonneg (le_max_right _ _)
  apply div_nonneg (by linarith)
  unfold computeVolume
  apply Finset.sum_nonneg
  intro g hg
  exact mul_nonneg (le_max_right _ _) (hm.area g (Finset.mem_range.mp hg)).le

/-- When the crater shape adds volume (as on a steep slope, where the floor is raised to the mean level),
ejecta of negative thickness is deposited: every face of the blanket is lowered. -/
theorem C97_ejecta_fails (m : Mesh) (hm : m.Wf) (exc : ℝ) (he : 0 < exc) (t : ℕ → ℝ) (f : ℕ) (hf : f < m.n)
    (ht : 0 < t f) : deposit m exc t f < 0 := by
  have hpos : 0 < computeVolume m (fun g => max (t g) 0) := by
    unfold computeVolume
    apply Finset.sum_pos'
    · intro g hg
      exact mul_nonneg (le_max_right _ _) (hm.area g (Finset.mem_range.mp hg)).le
    · exact ⟨f, Finset.mem_range.mpr hf, mul_pos (lt_max_of_lt_left ht) (hm.area f hf)⟩
  unfold deposit
  apply mul_neg_of_pos_of_neg (lt_max_of_lt_left ht)
  apply div_neg_of_neg_of_pos (by linarith) hpos

example : twoFaces.Wf ∧ 0 < twoFaces.n := ⟨⟨by simp [twoFaces], by simp [twoFaces], by simp [twoFaces]⟩, by simp [twoFaces]⟩

end Verif.Emplace
