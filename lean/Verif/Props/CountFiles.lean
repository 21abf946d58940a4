import Verif.Model.CountFiles
import Mathlib.Data.List.Induction

/-! Property C103: resuming restores the crater lists of the last saved interval. -/

namespace Verif.CountFiles

variable {K : Type}

/-- Identifiers are not repeated within the list. -/
def Distinct (id : K → ℕ) (l : List K) : Prop := (l.map id).Nodup

theorem fromXarray_distinct (id : K → ℕ) (l : List K) (h : Distinct id l) : fromXarray id l = l := by
  unfold fromXarray
  rw [List.filter_eq_self]
  intro c hc
  simp only [decide_eq_true_eq]
  exact List.count_eq_one_of_mem h (List.mem_map_of_mem hc)

theorem sorted_perm (id : K → ℕ) (l : List K) : (sorted id l).Perm l := List.perm_insertionSort _ l

theorem sorted_distinct (id : K → ℕ) (l : List K) (h : Distinct id l) : Distinct id (sorted id l) :=
  ((sorted_perm id l).map id).nodup_iff.mpr h

/-- All intervals in the files are below the bound. -/
def Below (st : Store K) (k : ℕ) : Prop := ∀ e ∈ st, e.1 < k

theorem write_below {st : Store K} {k : ℕ} (h : Below st k) (l : List K) : write st k l = st ++ [(k, l)] := by
  unfold write
  have h1 : st.filter (fun e => decide (e.1 < k)) = st := by
    rw [List.filter_eq_self]; intro e he; simpa using h e he
  have h2 : st.filter (fun e => decide (k < e.1)) = [] := by
    rw [List.filter_eq_nil_iff]; intro e he; have := h e he; simp; omega
  rw [h1, h2]

theorem saveList_below {st : Store K} {k m : ℕ} (id : K → ℕ) (h : Below st k) (hk : k < m) (l : List K) :
    Below (saveList id st k l) m := by
  unfold saveList
  split_ifs
  · intro e he; have := h e he; omega
  · rw [write_below h]
    intro e he
    rw [List.mem_append] at he
    rcases he with he | he
    · have := h e he; omega
    · simp at he; subst he; exact hk

theorem saves_below (id : K → ℕ) (h : List (ℕ × List K × List K)) (f : Files K) (b m : ℕ) (hinc : (h.map Prod.fst).Pairwise (· < ·))
    (hb : ∀ e ∈ h, b ≤ e.1) (hm : ∀ e ∈ h, e.1 < m) (hbm : b ≤ m) (h1 : Below f.observed b) (h2 : Below f.emplaced b) :
    Below (saves id h f).observed m ∧ Below (saves id h f).emplaced m := by
  induction h generalizing f b with
  | nil =>
    exact ⟨fun e he => lt_of_lt_of_le (h1 e he) hbm, fun e he => lt_of_lt_of_le (h2 e he) hbm⟩
  | cons a t ih =>
    obtain ⟨k, o, e⟩ := a
    simp only [List.map_cons, List.pairwise_cons] at hinc
    have hk : b ≤ k := hb (k, o, e) (by simp)
    have hkm : k < m := hm (k, o, e) (by simp)
    have b1 : Below f.observed k := fun x hx => lt_of_lt_of_le (h1 x hx) hk
    have b2 : Below f.emplaced k := fun x hx => lt_of_lt_of_le (h2 x hx) hk
    refine ih (save id f k o e) (k + 1) hinc.2 ?_ ?_ ?_ ?_ ?_
    · intro x hx
      exact hinc.1 x.1 (List.mem_map_of_mem hx)
    · intro x hx; exact hm x (by simp [hx])
    · omega
    · exact saveList_below id b1 (Nat.lt_succ_self k) o
    · exact saveList_below id b2 (Nat.lt_succ_self k) e

theorem saves_append (id : K → ℕ) (h1 h2 : List (ℕ × List K × List K)) (f : Files K) :
    saves id (h1 ++ h2) f = saves id h2 (saves id h1 f) := by
  induction h1 generalizing f with
  | nil => rfl
  | cons a t ih => obtain ⟨k, o, e⟩ := a; exact ih _

/-- After any history of saves with increasing interval numbers, starting from an empty folder, resuming gives the
observed and emplaced craters of the last save, up to order, provided the last observed list is not empty and neither list
contains two craters with the same identifier.  Missing: the other cases, see the `_fails` theorems. -/
theorem C103_resume_partial (id : K → ℕ) (h : List (ℕ × List K × List K)) (k : ℕ) (o e : List K)
    (hinc : ((h ++ [(k, o, e)]).map Prod.fst).Pairwise (· < ·)) (ho : o ≠ []) (do' : Distinct id o) (de : Distinct id e) :
    (resume id (saves id (h ++ [(k, o, e)]) ⟨[], []⟩)).1.Perm o ∧
    (resume id (saves id (h ++ [(k, o, e)]) ⟨[], []⟩)).2.Perm e := by
  rw [List.map_append, List.pairwise_append] at hinc
  obtain ⟨hi1, _, hi3⟩ := hinc
  obtain ⟨b1, b2⟩ := saves_below id h ⟨[], []⟩ 0 k hi1 (fun _ _ => Nat.zero_le _)
    (fun x hx => hi3 x.1 (List.mem_map_of_mem hx) k (by simp)) (Nat.zero_le _) (by intro x hx; simp at hx) (by intro x hx; simp at hx)
  rw [saves_append]
  set f := saves id h ⟨[], []⟩ with hf
  have hs : saves id [(k, o, e)] f = save id f k o e := rfl
  rw [hs]
  have hobs : (save id f k o e).observed.getLast? = some (k, sorted id o) := by
    unfold save saveList
    simp only
    rw [if_neg ho, write_below b1]
    simp
  have hr1 : fromXarray id (sorted id o) = sorted id o := fromXarray_distinct _ _ (sorted_distinct id o do')
  have hr2 : fromXarray id (sorted id e) = sorted id e := fromXarray_distinct _ _ (sorted_distinct id e de)
  unfold resume
  rw [hobs]
  by_cases he : e = []
  · have hemp : (save id f k o e).emplaced = f.emplaced := by unfold save saveList; rw [if_pos he]
    rw [hemp]
    rcases hl : f.emplaced.getLast? with _ | ⟨j, emp⟩
    · simp only
      rw [hr1, he]
      exact ⟨sorted_perm id o, List.Perm.refl _⟩
    · have hj : j < k := b2 (j, emp) (List.mem_of_getLast? hl)
      simp only
      rw [if_neg (by omega), hr1, he]
      exact ⟨sorted_perm id o, List.Perm.refl _⟩
  · have hemp : (save id f k o e).emplaced.getLast? = some (k, sorted id e) := by
      unfold save saveList
      simp only
      rw [if_neg he, write_below b2]
      simp
    rw [hemp]
    simp only [if_true]
    rw [hr1, hr2]
    exact ⟨sorted_perm id o, sorted_perm id e⟩

/-- The files after a history of saves with increasing interval numbers: one for every save with a list that is not empty. -/
theorem saves_eq (id : K → ℕ) (h : List (ℕ × List K × List K)) (hinc : (h.map Prod.fst).Pairwise (· < ·)) :
    (saves id h ⟨[], []⟩).observed = (h.filter fun x => !x.2.1.isEmpty).map (fun x => (x.1, sorted id x.2.1)) ∧
    (saves id h ⟨[], []⟩).emplaced = (h.filter fun x => !x.2.2.isEmpty).map (fun x => (x.1, sorted id x.2.2)) := by
  induction h using List.reverseRecOn with
  | nil => exact ⟨rfl, rfl⟩
  | append_singleton h a ih =>
    obtain ⟨k, o, e⟩ := a
    rw [List.map_append, List.pairwise_append] at hinc
    obtain ⟨hi1, _, hi3⟩ := hinc
    obtain ⟨i1, i2⟩ := ih hi1
    obtain ⟨b1, b2⟩ := saves_below id h ⟨[], []⟩ 0 k hi1 (fun _ _ => Nat.zero_le _)
      (fun x hx => hi3 x.1 (List.mem_map_of_mem hx) k (by simp)) (Nat.zero_le _) (by intro x hx; simp at hx) (by intro x hx; simp at hx)
    rw [saves_append]
    have hs : ∀ f : Files K, saves id [(k, o, e)] f = save id f k o e := fun _ => rfl
    rw [hs]
    unfold save saveList
    simp only
    rw [write_below b1, write_below b2, i1, i2]
    constructor
    · rcases o with _ | ⟨c, o⟩ <;> simp
    · rcases e with _ | ⟨c, e⟩ <;> simp

/-- The craters of a list whose identifier occurs only once in it. -/
def Once (id : K → ℕ) (l : List K) : List K := l.filter fun c => (l.map id).count (id c) = 1

theorem fromXarray_sorted (id : K → ℕ) (l : List K) : (fromXarray id (sorted id l)).Perm (Once id l) := by
  unfold fromXarray Once
  have h : ∀ c, ((sorted id l).map id).count (id c) = (l.map id).count (id c) :=
    fun c => ((sorted_perm id l).map id).count_eq _
  simp only [h]
  exact (sorted_perm id l).filter _

/-- What resuming gives after any history of saves with increasing interval numbers: the observed craters of the last save that had
any, and, if that save was also the last one that had emplaced craters, its emplaced craters; of both only those craters whose
identifier is not repeated. -/
theorem C103_exact (id : K → ℕ) (h : List (ℕ × List K × List K)) (hinc : (h.map Prod.fst).Pairwise (· < ·)) :
    match (h.filter fun x => !x.2.1.isEmpty).getLast?, (h.filter fun x => !x.2.2.isEmpty).getLast? with
    | none, _ => resume id (saves id h ⟨[], []⟩) = ([], [])
    | some (_, o, _), none =>
      (resume id (saves id h ⟨[], []⟩)).1.Perm (Once id o) ∧ (resume id (saves id h ⟨[], []⟩)).2 = []
    | some (k, o, _), some (j, _, e) =>
      (resume id (saves id h ⟨[], []⟩)).1.Perm (Once id o) ∧
      (j = k → (resume id (saves id h ⟨[], []⟩)).2.Perm (Once id e)) ∧ (j ≠ k → (resume id (saves id h ⟨[], []⟩)).2 = []) := by
  obtain ⟨h1, h2⟩ := saves_eq id h hinc
  unfold resume
  rw [h1, h2, List.getLast?_map, List.getLast?_map]
  generalize (h.filter fun x => !x.2.1.isEmpty).getLast? = O
  generalize (h.filter fun x => !x.2.2.isEmpty).getLast? = E
  rcases O with _ | ⟨k, o, e'⟩
  · rcases E with _ | _ <;> rfl
  · rcases E with _ | ⟨j, o', e⟩
    · exact ⟨fromXarray_sorted id o, rfl⟩
    · simp only [Option.map_some]
      refine ⟨fromXarray_sorted id o, fun hj => ?_, fun hj => ?_⟩
      · rw [if_pos hj]; exact fromXarray_sorted id e
      · rw [if_neg hj]

example : (([(0, [], [7]), (1, [4], [4]), (2, [], [5])] : List (ℕ × List ℕ × List ℕ)).map Prod.fst).Pairwise (· < ·) := by simp

/-- If no observed craters were left at the last save, but there were some at an earlier one, resuming always brings back observed craters, those of the
last interval that had any. -/
theorem C103_stale_fails (id : K → ℕ) (h : List (ℕ × List K × List K)) (k : ℕ) (e : List K)
    (hinc : ((h ++ [(k, [], e)]).map Prod.fst).Pairwise (· < ·)) (hd : ∀ x ∈ h, Distinct id x.2.1) (hx : ∃ x ∈ h, x.2.1 ≠ []) :
    (resume id (saves id (h ++ [(k, [], e)]) ⟨[], []⟩)).1 ≠ [] ∧
      ∃ x ∈ h, (resume id (saves id (h ++ [(k, [], e)]) ⟨[], []⟩)).1.Perm x.2.1 := by
  have hex := C103_exact id _ hinc
  have hf : (h ++ [(k, [], e)]).filter (fun x : ℕ × List K × List K => !x.2.1.isEmpty) = h.filter fun x => !x.2.1.isEmpty := by simp
  rw [hf] at hex
  obtain ⟨x, hx, hne⟩ := hx
  cases hO : (h.filter fun x => !x.2.1.isEmpty).getLast? with
  | none =>
    rw [List.getLast?_eq_none_iff, List.filter_eq_nil_iff] at hO
    exact absurd (hO x hx) (by simpa using hne)
  | some y =>
    have hy := List.mem_filter.mp (List.mem_of_getLast? hO)
    have hy2 : y.2.1 ≠ [] := by simpa using hy.2
    rw [hO] at hex
    obtain ⟨j, o, e'⟩ := y
    have hp : (resume id (saves id (h ++ [(k, [], e)]) ⟨[], []⟩)).1.Perm o := by
      have ho : Once id o = o := by
        have := fromXarray_distinct id o (hd _ hy.1)
        simpa [Once, fromXarray] using this
      rw [← ho]
      generalize ((h ++ [(k, [], e)]).filter fun x : ℕ × List K × List K => !x.2.2.isEmpty).getLast? = E at hex
      rcases E with _ | ⟨_, _, _⟩
      · exact hex.1
      · exact hex.1
    refine ⟨fun hn => hy2 ?_, _, hy.1, hp⟩
    rw [hn] at hp
    exact hp.symm.eq_nil

/-- As long as nothing was observed, all emplaced craters are lost. -/
theorem C103_emplaced_fails (id : K → ℕ) (h : List (ℕ × List K × List K)) (hinc : (h.map Prod.fst).Pairwise (· < ·))
    (ho : ∀ x ∈ h, x.2.1 = []) : resume id (saves id h ⟨[], []⟩) = ([], []) := by
  have hex := C103_exact id _ hinc
  have hf : h.filter (fun x : ℕ × List K × List K => !x.2.1.isEmpty) = [] := by
    rw [List.filter_eq_nil_iff]
    intro x hx
    simp [ho x hx]
  rw [hf] at hex
  exact hex

/-- If two emplaced craters of the last save have the same identifier (the same crater emplaced twice), its emplaced craters are never restored. -/
theorem C103_duplicate_fails (id : K → ℕ) (h : List (ℕ × List K × List K)) (k : ℕ) (o e : List K)
    (hinc : ((h ++ [(k, o, e)]).map Prod.fst).Pairwise (· < ·)) (hdup : ¬ Distinct id e) :
    ¬ (resume id (saves id (h ++ [(k, o, e)]) ⟨[], []⟩)).2.Perm e := by
  intro hp
  have hne : e ≠ [] := by rintro rfl; exact hdup (by simp [Distinct])
  have hex := C103_exact id _ hinc
  have hf : ((h ++ [(k, o, e)]).filter (fun x : ℕ × List K × List K => !x.2.2.isEmpty)).getLast? = some (k, o, e) := by
    rw [List.filter_append, List.filter_cons_of_pos (by simpa using hne)]
    simp
  rw [hf] at hex
  have hnil : (resume id (saves id (h ++ [(k, o, e)]) ⟨[], []⟩)).2 ≠ [] := fun hn => hne (by rw [hn] at hp; exact hp.symm.eq_nil)
  generalize ((h ++ [(k, o, e)]).filter fun x : ℕ × List K × List K => !x.2.1.isEmpty).getLast? = O at hex
  rcases O with _ | ⟨j, o', e'⟩
  · exact hnil (by rw [hex])
  · simp only at hex
    by_cases hj : k = j
    · have hq := (hex.2.1 hj).symm.trans hp
      have hl := hq.length_eq
      unfold Once at hl
      rw [List.length_filter_eq_length_iff] at hl
      refine hdup (List.nodup_iff_count_le_one.mpr fun a => ?_)
      by_cases ha : a ∈ e.map id
      · obtain ⟨c, hc, rfl⟩ := List.mem_map.mp ha
        have := hl c hc
        simp only [decide_eq_true_eq] at this
        omega
      · rw [List.count_eq_zero_of_not_mem ha]; omega
    · exact hnil (hex.2.2 hj)

/-- Non-vacuity: a crater observed first and gone later; a crater emplaced twice. -/
example : ((([(1, [4], [4])] : List (ℕ × List ℕ × List ℕ)) ++ [(2, [], [])]).map Prod.fst).Pairwise (· < ·) ∧
    (∀ x ∈ ([(1, [4], [4])] : List (ℕ × List ℕ × List ℕ)), Distinct (fun x => x) x.2.1) ∧ ¬ Distinct (fun x => x) [7, 7] := by
  simp [Distinct]

example : ∃ (h : List (ℕ × List ℕ × List ℕ)) (k : ℕ) (o e : List ℕ),
    ((h ++ [(k, o, e)]).map Prod.fst).Pairwise (· < ·) ∧ o ≠ [] ∧ e ≠ [] ∧ h ≠ [] ∧ Distinct (fun x => x) o ∧
    Distinct (fun x => x) e :=
  ⟨[(0, [], []), (1, [4], [4])], 3, [4, 2], [2], by simp, by simp, by simp, by simp, by simp [Distinct], by simp [Distinct]⟩

end Verif.CountFiles
