import Verif.Model.Tallies
import Mathlib.Algebra.BigOperators.Group.List.Basic
import Mathlib.Data.List.Chain
import Mathlib.Tactic.Linarith

/-!
# C200: The count is kept up to date while craters are emplaced
-/

namespace Verif.Tallies

/-- What the loop keeps up. -/
structure Inv (rims : Option Bool) (done : List ℕ) (s : State) : Prop where
  formed : s.formed = done.sum
  since : s.since < 2000
  left : s.rims = if s.counts = [] then rims else none
  last : ((0 : ℕ) :: s.counts.map Count.formed).getLast (by simp) + s.since = s.formed
  gaps : List.IsChain (fun a b => a + 2000 ≤ b ∧ ∃ k ∈ done, b < a + 2000 + k) (0 :: s.counts.map Count.formed)
  measured : ∀ i (h : i < s.counts.length), s.counts[i].rims = if i = 0 then rims.getD false else false

theorem inv_step {rims : Option Bool} {done : List ℕ} {s : State} (h : Inv rims done s) (b : ℕ) :
    Inv rims (done ++ [b]) (step true s b) := by
  obtain ⟨h1, h2, h3, h4, h5, h6⟩ := h
  have mono : List.IsChain (fun a c => a + 2000 ≤ c ∧ ∃ k ∈ done ++ [b], c < a + 2000 + k) (0 :: s.counts.map Count.formed) := by
    refine h5.imp fun a c h => ⟨h.1, ?_⟩
    obtain ⟨k, hk, hlt⟩ := h.2
    exact ⟨k, by simp [hk], hlt⟩
  unfold step
  split_ifs with hc
  · have hc2 : 2000 ≤ s.since + b := hc.2
    refine ⟨by simp [h1], by simp, by simp, by simp, ?_, ?_⟩
    · simp only [List.map_append, List.map_cons, List.map_nil]
      rw [← List.cons_append]
      refine List.IsChain.append mono (List.isChain_singleton _) ?_
      intro x hx y hy
      simp only [List.head?_cons, Option.mem_def, Option.some.injEq] at hy
      rw [List.getLast?_eq_some_getLast (by simp)] at hx
      simp only [Option.mem_def, Option.some.injEq] at hx
      subst hx hy
      refine ⟨by omega, b, by simp, by omega⟩
    · intro i hi
      simp only [List.length_append, List.length_cons, List.length_nil] at hi
      by_cases hil : i < s.counts.length
      · rw [List.getElem_append_left hil]; exact h6 i hil
      · have e : i = s.counts.length := by omega
        subst e
        simp only [List.getElem_append_right (le_refl _), Nat.sub_self, List.getElem_cons_zero]
        rw [h3]
        by_cases hn : s.counts = []
        · simp [hn]
        · simp [hn]
  · have hc2 : s.since + b < 2000 := by simpa using hc
    refine ⟨by simp [h1], hc2, h3, ?_, mono, h6⟩
    simp only
    omega

theorem inv_fold (rims : Option Bool) : ∀ (bs done : List ℕ) (s : State), Inv rims done s → Inv rims (done ++ bs) (bs.foldl (step true) s)
  | [], done, s, h => by simpa using h
  | b :: bs, done, s, h => by
    have := inv_fold rims bs (done ++ [b]) _ (inv_step h b)
    simpa using this

theorem inv_all (rims : Option Bool) (bs : List ℕ) : Inv rims bs (bs.foldl (step true) ⟨0, 0, rims, []⟩) := by
  have := inv_fold rims bs [] ⟨0, 0, rims, []⟩ ⟨by simp, by simp, by simp, by simp, by simp, by simp⟩
  simpa using this

/-- The last count is made when all craters are formed.  Between two counts, and before the first, fewer than 2000 craters and one batch are
formed; unless the count is the last one, at least 2000.  Without counting there are none. -/
theorem C200_often (rims : Option Bool) (bs : List ℕ) :
    (∃ cs last, (counts true rims bs).map Count.formed = cs ++ [last] ∧ last = bs.sum ∧
      List.IsChain (fun a b => a + 2000 ≤ b ∧ ∃ k ∈ bs, b < a + 2000 + k) (0 :: cs) ∧
      last < (0 :: cs).getLast (by simp) + 2000) ∧
    counts false rims bs = [] := by
  refine ⟨?_, by simp [counts]⟩
  have h := inv_all rims bs
  set s := bs.foldl (step true) ⟨0, 0, rims, []⟩ with hs
  refine ⟨s.counts.map Count.formed, s.formed, by simp [counts, ← hs], h.formed, h.gaps, ?_⟩
  have h1 := h.last
  have h2 := h.since
  omega

/-- The first count measures the rims as asked.  What is missing: this holds for no later count. -/
theorem C200_rims_partial (rims : Option Bool) (bs : List ℕ) (i : ℕ) (h : i < (counts true rims bs).length) :
    (counts true rims bs)[i].rims = if i = 0 then rims.getD false else false := by
  have hi := inv_all rims bs
  revert h
  unfold counts
  simp only [if_true]
  generalize bs.foldl (step true) ⟨0, 0, rims, []⟩ = s at hi
  intro h
  by_cases hil : i < s.counts.length
  · rw [List.getElem_append_left hil]; exact hi.measured i hil
  · have e : i = s.counts.length := by simp at h; omega
    subst e
    simp only [List.getElem_append_right (le_refl _), Nat.sub_self, List.getElem_cons_zero]
    rw [hi.left]
    by_cases hn : s.counts = []
    · simp [hn]
    · simp [hn]

/-- If 2000 craters or more are emplaced with `measure_rim=True`, the rims are measured in the first count only: the final count, whose result the
user sees, does not measure them. -/
theorem C200_rims_fails (bs : List ℕ) (h : 2000 ≤ bs.sum) :
    ∃ cs, counts true (some true) bs = cs ++ [⟨bs.sum, false⟩] ∧ cs ≠ [] := by
  have hi := inv_all (some true) bs
  unfold counts
  simp only [if_true]
  generalize bs.foldl (step true) ⟨0, 0, some true, []⟩ = s at hi
  have hne : s.counts ≠ [] := by
    intro hn
    have h1 := hi.last
    have h2 := hi.since
    have h3 := hi.formed
    simp only [hn, List.map_nil, List.getLast_singleton] at h1
    omega
  refine ⟨s.counts, ?_, hne⟩
  rw [hi.left, if_neg hne, hi.formed]
  rfl

/-- Below 2000 craters there is one count, which measures the rims as asked. -/
theorem C200_few (rims : Option Bool) (bs : List ℕ) (h : bs.sum < 2000) : counts true rims bs = [⟨bs.sum, rims.getD false⟩] := by
  have hi := inv_all rims bs
  unfold counts
  simp only [if_true]
  generalize bs.foldl (step true) ⟨0, 0, rims, []⟩ = s at hi
  have hn : s.counts = [] := by
    by_contra hn
    obtain ⟨c, cs, hcs⟩ := List.exists_cons_of_ne_nil hn
    have h1 := hi.last
    have h3 := hi.formed
    have h5 := hi.gaps
    have hge : ∀ x ∈ s.counts.map Count.formed, 2000 ≤ x := by
      rw [hcs] at h5 ⊢
      simp only [List.map_cons] at h5
      have hc0 := (List.isChain_cons_cons.1 h5).1.1
      have hp : ((0 :: c.formed :: cs.map Count.formed)).Pairwise (· < ·) := by
        rw [← List.isChain_iff_pairwise]
        refine List.IsChain.imp (fun a b hab => ?_) h5
        omega
      intro x hx
      simp only [List.map_cons, List.mem_cons] at hx
      rcases hx with rfl | hx
      · omega
      · simp only [List.pairwise_cons] at hp
        have := hp.2.1 x hx
        omega
    have hmem : ((0 : ℕ) :: s.counts.map Count.formed).getLast (by simp) ∈ s.counts.map Count.formed := by
      rw [List.getLast_cons (by simp [hn])]
      exact List.getLast_mem _
    have := hge _ hmem
    omega
  rw [hi.left, if_pos hn, hi.formed, hn]
  rfl

/-- Three batches of 900 craters: counts after 2700 craters twice, with rims measured only the first time. -/
example : counts true (some true) [900, 900, 900] = [⟨2700, true⟩, ⟨2700, false⟩] ∧ 2000 ≤ ([900, 900, 900] : List ℕ).sum := by
  decide

end Verif.Tallies
