import Verif.Model.EmplacedLists
import Mathlib.Data.List.Flatten
import Mathlib.Data.List.Induction

/-!
C235: the saved lists of emplaced craters.
-/

namespace Verif.EmplacedLists

variable {K : Type}

/-- The craters that an operation forms. -/
def Op.formed : Op K → List K
  | .emplace cs => cs
  | .populate cs => cs
  | .save => []
  | .run rounds => rounds.flatten

/-- All saved lists up to an interval, one after the other. -/
def saved (s : Sim K) : List K := (List.range (s.interval + 1)).flatMap fun k => (s.files k).getD []

/-- A history in which every run is called when all craters formed before are saved (`clean`): no crater was formed by hand since the last save or run. -/
def Orderly : Bool → List (Op K) → Prop
  | _, [] => True
  | clean, .emplace cs :: l => Orderly (clean && cs.isEmpty) l
  | clean, .populate cs :: l => Orderly (clean && cs.isEmpty) l
  | _, .save :: l => Orderly true l
  | clean, .run rounds :: l => (clean = true ∨ rounds = []) ∧ Orderly (clean || !rounds.isEmpty) l

/-- The lists of the intervals before, and the present one, are all craters formed; when `clean`, the present list is saved. -/
structure Inv (s : Sim K) (formed : List K) (clean : Bool) : Prop where
  all : (((List.range s.interval).flatMap fun k => (s.files k).getD []) ++ s.emplaced).Perm formed
  above : ∀ k, s.interval < k → s.files k = none
  current : clean = true → ((s.files s.interval).getD []).Perm s.emplaced
  absent : s.emplaced = [] → s.files s.interval = none

variable {sort : List K → List K}

theorem inv_save (hsort : ∀ l, (sort l).Perm l) {s : Sim K} {f : List K} {c : Bool} (h : Inv s f c) : Inv (s.save sort) f true := by
  unfold Sim.save
  split_ifs with he
  · refine ⟨h.all, h.above, fun _ => ?_, h.absent⟩
    rw [h.absent he, he]; rfl
  · refine ⟨?_, ?_, fun _ => by simpa using hsort _, fun h0 => absurd h0 he⟩
    · refine List.Perm.trans (List.Perm.of_eq ?_) h.all
      congr 1
      apply List.flatMap_congr
      intro k hk
      have hk' : k < s.interval := List.mem_range.mp hk
      have : k ≠ s.interval := by omega
      simp [this]
    · intro k hk
      have hk' : s.interval < k := hk
      have : k ≠ s.interval := by omega
      simp only [this, if_false]
      exact h.above k hk'

theorem inv_emplace {s : Sim K} {f : List K} {c : Bool} (h : Inv s f c) (cs : List K) : Inv (s.emplace cs) (f ++ cs) (c && cs.isEmpty) := by
  unfold Sim.emplace
  refine ⟨?_, h.above, ?_, ?_⟩
  · show List.Perm (_ ++ (s.emplaced ++ cs)) _
    rw [← List.append_assoc]
    exact h.all.append_right cs
  · intro hc
    simp only [Bool.and_eq_true, List.isEmpty_iff] at hc
    obtain ⟨h1, rfl⟩ := hc
    simpa using h.current h1
  · intro h0
    simp only [List.append_eq_nil_iff] at h0
    exact h.absent h0.1

theorem inv_populate {s : Sim K} {f : List K} {c : Bool} (h : Inv s f c) (cs : List K) : Inv (s.populate cs) (f ++ cs) (c && cs.isEmpty) := by
  unfold Sim.populate
  split_ifs with he
  · subst he; simpa using h
  · exact inv_emplace h cs

theorem round_eq (s : Sim K) (cs : List K) :
    s.round sort cs = ⟨if cs = [] then s.isNew else false, s.interval + 1, cs, fun k => if cs ≠ [] ∧ k = s.interval + 1 then some (sort cs) else s.files k⟩ := by
  unfold Sim.round Sim.populate Sim.emplace Sim.save
  by_cases h : cs = []
  · subst h; simp
  · simp [h]

theorem inv_round (hsort : ∀ l, (sort l).Perm l) {s : Sim K} {f : List K} (h : Inv s f true) (cs : List K) : Inv (s.round sort cs) (f ++ cs) true := by
  rw [round_eq]
  refine ⟨?_, ?_, ?_, ?_⟩
  · simp only
    refine List.Perm.append_right cs ?_
    refine List.Perm.trans ?_ h.all
    rw [List.range_succ, List.flatMap_append]
    refine List.Perm.append (List.Perm.of_eq ?_) ?_
    · apply List.flatMap_congr
      intro k hk
      have : k ≠ s.interval + 1 := by have := List.mem_range.mp hk; omega
      simp [this]
    · simpa using h.current rfl
  · intro k hk
    have hk' : s.interval + 1 < k := hk
    have h1 : k ≠ s.interval + 1 := by omega
    simp only [h1, and_false, if_false]
    exact h.above k (by omega)
  · intro _
    by_cases hc : cs = []
    · subst hc
      simp [h.above (s.interval + 1) (Nat.lt_succ_self _)]
    · simpa [hc] using hsort cs
  · intro hc
    simp only at hc
    simp [hc, h.above (s.interval + 1) (Nat.lt_succ_self _)]

theorem inv_rounds (hsort : ∀ l, (sort l).Perm l) {s : Sim K} {f : List K} (h : Inv s f true) (rounds : List (List K)) :
    Inv (rounds.foldl (Sim.round sort) s) (f ++ rounds.flatten) true := by
  induction rounds generalizing s f with
  | nil => simpa using h
  | cons a l ih =>
    have := ih (inv_round hsort h a)
    simpa [List.append_assoc] using this

theorem inv_weaken {s : Sim K} {f : List K} {c : Bool} (h : Inv s f true) : Inv s f c := ⟨h.all, h.above, fun _ => h.current rfl, h.absent⟩

theorem inv_history (hsort : ∀ l, (sort l).Perm l) (ops : List (Op K)) : ∀ (s : Sim K) (f : List K) (c : Bool), Inv s f c → Orderly c ops →
    ∃ c', Inv (ops.foldl (Sim.op sort) s) (f ++ ops.flatMap Op.formed) c' := by
  induction ops with
  | nil => intro s f c h _; exact ⟨c, by simpa using h⟩
  | cons o l ih =>
    intro s f c h ho
    rw [List.foldl_cons, List.flatMap_cons, ← List.append_assoc]
    cases o with
    | emplace cs => exact ih _ _ _ (inv_emplace h cs) ho
    | populate cs => exact ih _ _ _ (inv_populate h cs) ho
    | save =>
      have := ih _ (f ++ []) true (by simpa using inv_save hsort h) ho
      exact this
    | run rounds =>
      obtain ⟨h1, h2⟩ := ho
      rcases h1 with rfl | rfl
      · refine ih _ _ true ?_ (by simpa using h2)
        show Inv (s.run sort rounds) (f ++ rounds.flatten) true
        unfold Sim.run
        split_ifs
        · exact inv_rounds hsort (inv_save hsort h) rounds
        · exact inv_rounds hsort h rounds
      · refine ih _ _ c ?_ (by simpa using h2)
        show Inv (s.run sort []) (f ++ [].flatten) c
        unfold Sim.run
        simp only [List.foldl_nil, List.flatten_nil, List.append_nil]
        split_ifs
        · exact inv_weaken (inv_save hsort h)
        · exact h

theorem inv_new : Inv (Sim.new : Sim K) [] true := ⟨by simp [Sim.new], fun _ _ => rfl, fun _ => by simp [Sim.new], fun _ => rfl⟩

/-- C235 After any history of `emplace`, `populate`, `save` and `run` in which craters placed by hand are saved before the next run, and a final save, the saved lists of emplaced
craters of all intervals have every crater that was formed, once for each time it was formed, and no other.  Missing: runs called with craters not yet saved, see
`C235_unsaved_fails`. -/
theorem C235_lists_partial (hsort : ∀ l, (sort l).Perm l) (ops : List (Op K)) (h : Orderly true ops) :
    (saved (history sort (ops ++ [.save]))).Perm (ops.flatMap Op.formed) ∧
      (∀ k, (history sort (ops ++ [.save])).interval < k → (history sort (ops ++ [.save])).files k = none) := by
  obtain ⟨c, hc⟩ := inv_history hsort ops Sim.new [] true inv_new h
  have e : history sort (ops ++ [.save]) = (ops.foldl (Sim.op sort) Sim.new).save sort := by
    unfold history
    rw [List.foldl_append]
    rfl
  rw [e]
  have hs := inv_save hsort hc
  refine ⟨?_, hs.above⟩
  unfold saved
  rw [List.range_succ, List.flatMap_append]
  have := hs.all
  simp only [List.nil_append] at this
  refine List.Perm.trans (List.Perm.append_left _ ?_) this
  simpa using hs.current rfl

example : (saved (history List.reverse ([.emplace [1], .save, .populate [2], .save, .run [[3, 4], [], [5]], .emplace [6]] ++ [.save] : List (Op ℕ)))).Perm [1, 2, 3, 4, 5, 6] :=
  (C235_lists_partial List.reverse_perm _ (by simp [Orderly])).1

theorem rounds_files (rounds : List (List K)) : ∀ (s : Sim K) (_ : ∀ k, s.interval < k → s.files k = none) (j : ℕ) (cs : List K), rounds[j]? = some cs →
    (rounds.foldl (Sim.round sort) s).files (s.interval + j + 1) = if cs = [] then none else some (sort cs) := by
  have mono : ∀ (rs : List (List K)) (t : Sim K) (k : ℕ), k ≤ t.interval → (rs.foldl (Sim.round sort) t).files k = t.files k := by
    intro rs
    induction rs with
    | nil => intro t k _; rfl
    | cons r rs ih =>
      intro t k hk
      rw [List.foldl_cons, ih _ k (by rw [round_eq]; simp only; omega), round_eq]
      simp only
      rw [if_neg (by omega)]
  induction rounds with
  | nil => intro s _ j cs h; simp at h
  | cons r rs ih =>
    intro s hs j cs h
    rw [List.foldl_cons]
    have hi : (s.round sort r).interval = s.interval + 1 := by rw [round_eq]
    have hf : ∀ k, (s.round sort r).files k = if r ≠ [] ∧ k = s.interval + 1 then some (sort r) else s.files k := by
      intro k; rw [round_eq]
    cases j with
    | zero =>
      simp only [List.getElem?_cons_zero, Option.some.injEq] at h
      subst h
      rw [Nat.add_zero, mono rs _ _ (by rw [hi]; exact Nat.le_refl _), hf]
      by_cases h0 : r = []
      · rw [if_neg (by simp [h0]), if_pos h0]; exact hs _ (by omega)
      · rw [if_pos ⟨h0, rfl⟩, if_neg h0]
    | succ j =>
      have := ih (s.round sort r) (fun k hk => by
        rw [hf, if_neg (by rw [hi] at hk; omega)]
        exact hs k (by rw [hi] at hk; omega)) j cs (by simpa using h)
      rw [hi] at this
      rw [show s.interval + (j + 1) + 1 = s.interval + 1 + j + 1 by omega]
      exact this

/-- C235 The first run of a new simulation saves the craters of its n-th interval, counted from one, under the number n, and no list if there are none. -/
theorem C235_numbers (rounds : List (List K)) (n : ℕ) (cs : List K) (h : rounds[n]? = some cs) :
    (history sort [.run rounds]).files (n + 1) = (if cs = [] then none else some (sort cs)) ∧ (history sort [.run rounds]).files 0 = none := by
  have e : history sort [.run rounds] = rounds.foldl (Sim.round sort) Sim.new := by
    simp [history, Sim.op, Sim.run, Sim.save, Sim.new]
  rw [e]
  constructor
  · have := rounds_files (sort := sort) rounds Sim.new (fun _ _ => rfl) n cs h
    simpa [Sim.new] using this
  · have : ∀ (rs : List (List K)) (t : Sim K), t.files 0 = none → (rs.foldl (Sim.round sort) t).files 0 = none := by
      intro rs
      induction rs with
      | nil => intro t h; exact h
      | cons r rs ih =>
        intro t h
        refine ih _ ?_
        rw [round_eq]
        simp only
        rw [if_neg (by omega)]
        exact h
    exact this rounds Sim.new rfl

example : [[3, 4], [], [5]][2]? = some [5] := rfl

/-- Whether a crater is in one of the saved lists. -/
def Listed (s : Sim K) (c : K) : Prop := ∃ k l, s.files k = some l ∧ c ∈ l

theorem listed_round (hsort : ∀ l, (sort l).Perm l) {s : Sim K} {c : K} (cs : List K) (h : c ∉ cs) (hs : ¬ Listed s c) : ¬ Listed (s.round sort cs) c := by
  rw [round_eq]
  rintro ⟨k, l, hk, hc⟩
  simp only at hk
  split_ifs at hk with h1
  · cases hk; exact h ((hsort cs).mem_iff.mp hc)
  · exact hs ⟨k, l, hk, hc⟩

/-- C235 It fails for craters placed by hand before a run: `emplace` followed by `run`, on a simulation of any history, leaves them in no saved list at all, though they are
on the saved surfaces: `emplace` makes the simulation no longer new, so that `run` does not save before its first interval, and then empties the list. -/
theorem C235_unsaved_fails (hsort : ∀ l, (sort l).Perm l) (s : Sim K) (c : K) (cs : List K) (first : List K) (rounds : List (List K)) (hc : c ∈ cs) (hs : ¬ Listed s c)
    (hr : ∀ r ∈ first :: rounds, c ∉ r) :
    c ∈ (s.op sort (.emplace cs)).emplaced ∧ ¬ Listed ((s.op sort (.emplace cs)).op sort (.run (first :: rounds))) c ∧
      c ∉ ((s.op sort (.emplace cs)).op sort (.run (first :: rounds))).emplaced := by
  refine ⟨by simp [Sim.op, Sim.emplace, hc], ?_⟩
  have e : (s.op sort (.emplace cs)).op sort (.run (first :: rounds)) = (first :: rounds).foldl (Sim.round sort) { s with isNew := false, emplaced := s.emplaced ++ cs } := by
    simp [Sim.op, Sim.run, Sim.emplace]
  rw [e]
  have key : ∀ (rs : List (List K)) (t : Sim K), ¬ Listed t c → (∀ r ∈ rs, c ∉ r) → (rs = [] → c ∉ t.emplaced) →
      ¬ Listed (rs.foldl (Sim.round sort) t) c ∧ c ∉ (rs.foldl (Sim.round sort) t).emplaced := by
    intro rs
    induction rs with
    | nil => intro t h1 _ h3; exact ⟨h1, h3 rfl⟩
    | cons r rs ih =>
      intro t h1 h2 _
      refine ih _ (listed_round hsort r (h2 r (by simp)) h1) (fun x hx => h2 x (by simp [hx])) fun _ => ?_
      rw [round_eq]
      exact h2 r (by simp)
  exact key _ _ (by rintro ⟨k, l, hk, h⟩; exact hs ⟨k, l, hk, h⟩) hr (by simp)

example : ¬ Listed (((Sim.new : Sim ℕ).op id (.emplace [7])).op id (.run [[3], [4]])) 7 :=
  (C235_unsaved_fails (fun _ => List.Perm.refl _) Sim.new 7 [7] [3] [[4]] (by simp) (by rintro ⟨k, l, h, -⟩; simp [Sim.new] at h) (by simp)).2.1

/-- C235 `save` does not reset the list of emplaced craters, as its documentation says: whenever there are emplaced craters they are still there after it. -/
theorem C235_reset_fails (s : Sim K) (h : s.emplaced ≠ []) : (s.save sort).emplaced = s.emplaced ∧ (s.save sort).emplaced ≠ [] := by
  unfold Sim.save
  rw [if_neg h]
  exact ⟨rfl, h⟩

example : ∃ s : Sim ℕ, s.emplaced ≠ [] := ⟨(Sim.new).emplace [1], by simp [Sim.new, Sim.emplace]⟩

end Verif.EmplacedLists
