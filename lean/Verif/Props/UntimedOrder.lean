import Verif.Props.QuasiMC
import Verif.Props.Sampling

/-! Property C247: the times that the merge gives to craters that were handed to it without a time. -/

namespace Verif.UntimedOrder

open Verif.QuasiMC Verif.Sampling

/-- What the random numbers give for one crater: its own number of craters as a function of age, and the two draws that choose
the part of the window and the place in that part. -/
abbrev Draw := (ℝ → ℝ) × ℝ × ℝ

/-- The time drawn for one crater, from its own size and its own random numbers. -/
noncomputable def ownTime (te ts : ℝ) (d : Draw) : ℝ := Sampling.drawTime d.1 te ts gridPoints d.2.1 d.2.2

theorem computeTime_sorted (te ts : ℝ) (cs : List Draw) : (computeTime te ts cs).Pairwise (fun a b => b ≤ a) := by
  classical
  have h := List.pairwise_mergeSort (le := fun a b : ℝ => decide (b ≤ a))
    (fun a b c h1 h2 => by simp only [decide_eq_true_eq] at *; linarith)
    (fun a b => by simp only [Bool.or_eq_true, decide_eq_true_eq]; exact le_total _ _)
    (cs.map fun c => Sampling.drawTime c.1 te ts gridPoints c.2.1 c.2.2)
  exact h.imp (by intro a b hab; simpa using hab)

/-- Craters given times from a list that falls: of two of them, the one that is earlier in the list is the older. -/
theorem giveTimes_sorted (gs : List Given) (ts : List ℝ) (h : ts.Pairwise (fun a b => b ≤ a)) :
    (giveTimes gs ts).Pairwise (fun a b => b.time ≤ a.time) := by
  induction gs generalizing ts with
  | nil => simp [giveTimes]
  | cons g gs ih =>
    cases ts with
    | nil => simp [giveTimes]
    | cons t ts =>
      obtain ⟨h1, h2⟩ := List.pairwise_cons.mp h
      simp only [giveTimes, List.pairwise_cons]
      refine ⟨?_, ih ts h2⟩
      intro c hc
      rw [giveTimes_eq] at hc
      obtain ⟨k, hk, rfl⟩ := List.getElem_of_mem hc
      simp only [List.getElem_zipWith]
      exact h1 _ (List.getElem_mem _)

theorem mem_merge {ts te : ℝ} {craters : List Given} {drawn : List ℝ} {prescribed : List Crater} {c : Crater}
    (h : c ∈ merge ts te craters drawn prescribed) :
    c ∈ timedIn ts te craters ∨ c ∈ giveTimes (untimed craters) drawn ∨ c ∈ prescribed := by
  classical
  obtain ⟨k, d, p, e, h1, _, _, h4, _⟩ := walk_spec (rngList ts te craters drawn)
    (qmcList ts te prescribed) (sortByDiam_sorted _) (sortByDiam_sorted _)
  have hc := (((sortByTime_perm _).trans h4).mem_iff).mp h
  rcases List.mem_append.mp hc with hk | hq
  · have := h1.mem_iff.mpr (List.mem_append_left d hk)
    unfold rngList at this
    rw [(sortByDiam_perm _).mem_iff] at this
    rcases List.mem_append.mp this with h | h
    · exact .inl h
    · exact .inr (.inl h)
  · unfold qmcList at hq
    rw [(sortByDiam_perm _).mem_iff] at hq
    exact .inr (.inr (List.mem_filter.mp hq).1)

theorem timedIn_source {ts te : ℝ} {craters : List Given} {c : Crater} (h : c ∈ timedIn ts te craters) :
    ∃ g ∈ craters, g.tag = c.tag ∧ g.time = some c.time := by
  rw [timedIn_eq] at h
  obtain ⟨h, _⟩ := List.mem_filter.mp h
  obtain ⟨g, hg, he⟩ := List.mem_filterMap.mp h
  obtain ⟨t, ht, rfl⟩ := Option.map_eq_some_iff.mp he
  exact ⟨g, hg, rfl, ht⟩

theorem giveTimes_older {gs : List Given} {ts : List ℝ} (hd : ts.Pairwise (fun a b => b ≤ a)) (hn : (gs.map Given.tag).Nodup)
    {i j : ℕ} (hij : i < j) (hj : j < gs.length) {a b : Crater} (ha : a ∈ giveTimes gs ts) (hb : b ∈ giveTimes gs ts)
    (ta : a.tag = gs[i].tag) (tb : b.tag = gs[j].tag) : b.time ≤ a.time := by
  have hs := giveTimes_sorted gs ts hd
  obtain ⟨x, hx, rfl⟩ := List.getElem_of_mem ha
  obtain ⟨y, hy, rfl⟩ := List.getElem_of_mem hb
  have tag (n : ℕ) (hl : n < (giveTimes gs ts).length) : ∃ h : n < gs.length, (giveTimes gs ts)[n].tag = gs[n].tag := by
    simp only [giveTimes_eq] at hl ⊢
    rw [List.length_zipWith] at hl
    exact ⟨by omega, by simp⟩
  obtain ⟨hx', ex⟩ := tag x hx
  obtain ⟨hy', ey⟩ := tag y hy
  have uniq (m n : ℕ) (hm : m < gs.length) (hl : n < gs.length) (h : gs[m].tag = gs[n].tag) : m = n := by
    have := (List.Nodup.getElem_inj_iff hn (i := m) (j := n) (hi := by simpa using hm) (hj := by simpa using hl)).mp
      (by simpa using h)
    exact this
  have e1 : x = i := uniq x i hx' (by omega) (ex.symm.trans ta)
  have e2 : y = j := uniq y j hy' hj (ey.symm.trans tb)
  subst e1 e2
  exact List.pairwise_iff_getElem.mp hs x y hx hy hij

/-- Of two craters handed to the merge without a time, the one that is earlier in the list is never younger than the other in
the result, whatever their sizes, the production function and the random numbers, and whichever prescribed craters and craters
with a time there are. -/
theorem C247_list_order_partial (ts te : ℝ) (l₁ l₂ l₃ : List Given) (g h : Given) (draws : List Draw) (prescribed : List Crater)
    (hg : g.time = none) (hh : h.time = none)
    (hn : (((l₁ ++ g :: (l₂ ++ h :: l₃)).map Given.tag) ++ prescribed.map Crater.tag).Nodup) (a b : Crater)
    (ha : a ∈ merge ts te (l₁ ++ g :: (l₂ ++ h :: l₃)) (computeTime te ts draws) prescribed)
    (hb : b ∈ merge ts te (l₁ ++ g :: (l₂ ++ h :: l₃)) (computeTime te ts draws) prescribed)
    (ta : a.tag = g.tag) (tb : b.tag = h.tag) : b.time ≤ a.time := by
  set craters := l₁ ++ g :: (l₂ ++ h :: l₃) with hc
  obtain ⟨n1, _, n3⟩ := List.nodup_append.mp hn
  have gm : g ∈ craters := by simp [hc]
  have hm : h ∈ craters := by simp [hc]
  have inj : ∀ x ∈ craters, ∀ y ∈ craters, x.tag = y.tag → x = y := fun x hx y hy e => List.inj_on_of_nodup_map n1 hx hy e
  have only (c : Crater) (x : Given) (hx : x ∈ craters) (hx0 : x.time = none) (e : c.tag = x.tag)
      (hcm : c ∈ merge ts te craters (computeTime te ts draws) prescribed) :
      c ∈ giveTimes (untimed craters) (computeTime te ts draws) := by
    rcases mem_merge hcm with h1 | h1 | h1
    · obtain ⟨y, hy, et, es⟩ := timedIn_source h1
      have : y = x := inj y hy x hx (et.trans e)
      rw [this, hx0] at es
      simp at es
    · exact h1
    · exact absurd e.symm (n3 _ (List.mem_map_of_mem hx) _ (List.mem_map_of_mem h1))
  have ga := only a g gm hg ta ha
  have gb := only b h hm hh tb hb
  have hu : untimed craters = (untimed l₁) ++ g :: (untimed l₂ ++ h :: untimed l₃) := by
    simp only [untimed_eq, hc]
    simp [List.filter_append, hg, hh]
  have nu : ((untimed craters).map Given.tag).Nodup := by
    rw [untimed_eq]
    exact n1.sublist (List.filter_sublist.map _)
  have hl : (untimed l₁).length + 1 + (untimed l₂).length < (untimed craters).length := by
    rw [hu]; simp; omega
  refine giveTimes_older (computeTime_sorted te ts draws) nu (i := (untimed l₁).length)
    (j := (untimed l₁).length + 1 + (untimed l₂).length) (by omega) hl ga gb ?_ ?_
  · rw [ta]; simp [hu]
  · rw [tb]
    have : (untimed craters)[(untimed l₁).length + 1 + (untimed l₂).length] = h := by
      simp only [hu]
      rw [List.getElem_append_right (by omega)]
      simp only [show (untimed l₁).length + 1 + (untimed l₂).length - (untimed l₁).length = (untimed l₂).length + 1 by omega,
        List.getElem_cons_succ]
      rw [List.getElem_append_right (by omega)]
      simp
    rw [this]

/-- Exactly when every crater gets the time that was drawn for it: when the draws happen to fall along the list. -/
theorem C247_own_time_partial (te ts : ℝ) (draws : List Draw) :
    computeTime te ts draws = draws.map (ownTime te ts) ↔ (draws.map (ownTime te ts)).Pairwise (fun a b => b ≤ a) := by
  constructor
  · intro h
    rw [← h]
    exact computeTime_sorted te ts draws
  · intro h
    unfold computeTime
    apply List.mergeSort_of_pairwise
    exact h.imp (by intro a b hab; simpa using hab)

/-- The property fails for every two craters whose own times rise along the list: the merge gives the first of them the time
drawn for the size of the second, and the second the time drawn for the size of the first. -/
theorem C247_own_time_fails (ts te : ℝ) (g h : Given) (d₁ d₂ : Draw) (hg : g.time = none) (hh : h.time = none)
    (hlt : ownTime te ts d₁ < ownTime te ts d₂) :
    (merge ts te [g, h] (computeTime te ts [d₁, d₂]) []).Perm
      [⟨g.tag, g.diam, ownTime te ts d₂⟩, ⟨h.tag, h.diam, ownTime te ts d₁⟩] := by
  classical
  have e : computeTime te ts [d₁, d₂] = [ownTime te ts d₂, ownTime te ts d₁] := by
    have hp : (computeTime te ts [d₁, d₂]).Perm [ownTime te ts d₂, ownTime te ts d₁] := by
      unfold computeTime
      exact (List.mergeSort_perm _ _).trans (List.Perm.swap _ _ _)
    refine hp.eq_of_pairwise (fun a b _ _ h1 h2 => le_antisymm h2 h1) (computeTime_sorted te ts _) ?_
    simp [hlt.le]
  obtain ⟨tg, dg, tg'⟩ := g
  obtain ⟨th, dh, th'⟩ := h
  simp only at hg hh
  subst hg hh
  rw [e]
  unfold merge
  refine (sortByTime_perm _).trans ?_
  have hw : ∀ l : List Crater, walk l [] = l := by
    intro l
    induction l with
    | nil => rfl
    | cons c cs ih => simp [walk, ih]
  have hq : qmcList ts te [] = [] := by simp [qmcList, sortByDiam]
  rw [hq, hw]
  unfold rngList
  refine (sortByDiam_perm _).trans ?_
  simp [timedIn, untimed, giveTimes]

/-- Such draws exist: the number of craters formed since an age grows linearly, the draws for the first crater choose the first
part of the window and those for the second a later one. -/
example : ∃ d₁ d₂ : Draw, ownTime 0 999 d₁ < ownTime 0 999 d₂ := by
  refine ⟨(fun t => t, 0, 0), (fun t => t, 0, 1 / 2), ?_⟩
  unfold ownTime Sampling.drawTime
  simp only [zero_mul, add_zero]
  generalize chosen (fun t => t) 0 999 gridPoints 0 = k
  have : grid 0 999 gridPoints k < grid 0 999 gridPoints (k + 1) := by
    simp only [grid, gridPoints]
    push_cast
    have : (0 : ℝ) < (1000 - 1 : ℕ) := by norm_num
    gcongr
    linarith
  linarith

/-- Two craters without a time in a list with a crater that has one, and a prescribed crater. -/
example : (((([⟨0, 100, some 5⟩] : List Given) ++ (⟨1, 200, none⟩ : Given) :: ([] ++ (⟨2, 300, none⟩ : Given) :: [])).map Given.tag) ++
    ([⟨3, 50, 2⟩] : List Crater).map Crater.tag).Nodup := by decide

end Verif.UntimedOrder
