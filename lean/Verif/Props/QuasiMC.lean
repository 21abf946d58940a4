import Verif.Model.QuasiMC
import Verif.Props.Run
import Mathlib.Data.List.Perm.Basic
import Mathlib.Data.List.Sort
import Mathlib.Tactic.Linarith

/-! Properties C18 (quasi-Monte Carlo merge) and C76 (times of prescribed craters). -/

namespace Verif.QuasiMC

theorem sortByDiam_perm (l : List Crater) : (sortByDiam l).Perm l := List.mergeSort_perm _ _
theorem sortByTime_perm (l : List Crater) : (sortByTime l).Perm l := List.mergeSort_perm _ _

theorem sortByTime_sorted (l : List Crater) :
    (sortByTime l).Pairwise (fun a b => b.time ≤ a.time) := by
  classical
  have h := List.pairwise_mergeSort (le := fun a b : Crater => decide (b.time ≤ a.time))
    (fun a b c h1 h2 => by simp only [decide_eq_true_eq] at *; linarith)
    (fun a b => by simp only [Bool.or_eq_true, decide_eq_true_eq]; exact le_total _ _) l
  refine h.imp ?_
  intro a b hab; simpa using hab

theorem sortByDiam_sorted (l : List Crater) :
    (sortByDiam l).Pairwise (fun a b => a.diam ≤ b.diam) := by
  classical
  have h := List.pairwise_mergeSort (le := fun a b : Crater => decide (a.diam ≤ b.diam))
    (fun a b c h1 h2 => by simp only [decide_eq_true_eq] at *; linarith)
    (fun a b => by simp only [Bool.or_eq_true, decide_eq_true_eq]; exact le_total _ _) l
  refine h.imp ?_
  intro a b hab; simpa using hab

/-! ### Specification -/

/-- The merge of random craters `rs` and prescribed craters `qs` into `out`:
every prescribed crater appears once; the random craters are split into kept and displaced ones;
each displaced one is matched with a prescribed crater that is not larger. -/
structure IsMerge (rs qs out : List Crater) : Prop where
  ex : ∃ kept displaced placed extra : List Crater,
    rs.Perm (kept ++ displaced) ∧ qs.Perm (placed ++ extra) ∧
    List.Forall₂ (fun q c => q.diam ≤ c.diam) placed displaced ∧
    out.Perm (kept ++ qs) ∧
    -- a prescribed crater is added without displacing anything only if no kept random crater could
    -- have made room for it
    ∀ q ∈ extra, ∀ c ∈ kept, c.diam < q.diam

theorem walk_spec (rs qs : List Crater)
    (hr : rs.Pairwise (fun a b => a.diam ≤ b.diam)) (hq : qs.Pairwise (fun a b => a.diam ≤ b.diam)) :
    ∃ kept displaced placed extra : List Crater,
      rs.Perm (kept ++ displaced) ∧ qs = placed ++ extra ∧
      List.Forall₂ (fun q c => q.diam ≤ c.diam) placed displaced ∧
      (walk rs qs).Perm (kept ++ qs) ∧ (∀ q ∈ extra, ∀ c ∈ kept, c.diam < q.diam) := by
  induction rs generalizing qs with
  | nil => exact ⟨[], [], [], qs, .refl _, rfl, .nil, .refl _, by simp⟩
  | cons c cs ih =>
    have hcs := (List.pairwise_cons.mp hr).2
    cases qs with
    | nil =>
      obtain ⟨k, d, p, e, h1, h2, h3, h4, _⟩ := ih [] hcs .nil
      have hp : p = [] := by cases p with | nil => rfl | cons _ _ => simp at h2
      subst hp
      refine ⟨c :: k, d, [], [], ?_, rfl, h3, ?_, by simp⟩
      · exact h1.cons c
      · simp only [walk]; exact h4.cons c
    | cons q qs =>
      by_cases h : c.diam < q.diam
      · obtain ⟨k, d, p, e, h1, h2, h3, h4, h5⟩ := ih (q :: qs) hcs hq
        refine ⟨c :: k, d, p, e, h1.cons c, h2, h3, ?_, ?_⟩
        · simp only [walk, h, if_true]; exact h4.cons c
        · intro x hx y hy
          rcases List.mem_cons.mp hy with rfl | hy
          · have hx' : x ∈ q :: qs := by rw [h2]; exact List.mem_append_right _ hx
            rcases List.mem_cons.mp hx' with rfl | hx'
            · exact h
            · exact lt_of_lt_of_le h ((List.pairwise_cons.mp hq).1 x hx')
          · exact h5 x hx y hy
      · obtain ⟨k, d, p, e, h1, h2, h3, h4, h5⟩ := ih qs hcs (List.pairwise_cons.mp hq).2
        refine ⟨k, c :: d, q :: p, e, ?_, by simp [h2], ?_, ?_, h5⟩
        · exact (h1.cons c).trans List.perm_middle.symm
        · exact .cons (not_lt.mp h) h3
        · simp only [walk, h, if_false]
          exact (h4.cons q).trans List.perm_middle.symm

/-- The random craters that take part: those with a time inside the window, and those without a
time together with a time drawn for each. -/
def Takes (ts te : ℝ) (craters : List Given) (drawn : List ℝ) (rs : List Crater) : Prop :=
  rs.Perm (((craters.filterMap fun g => g.time.map fun t => (⟨g.tag, g.diam, t⟩ : Crater)).filter
      fun c => open Classical in decide (te < c.time ∧ c.time ≤ ts)) ++
    ((craters.filter fun g => g.time.isNone).zipWith
      (fun g t => (⟨g.tag, g.diam, t⟩ : Crater)) drawn))

theorem timedIn_eq (ts te : ℝ) (l : List Given) :
    timedIn ts te l =
      (l.filterMap fun g => g.time.map fun t => (⟨g.tag, g.diam, t⟩ : Crater)).filter
        fun c => open Classical in decide (te < c.time ∧ c.time ≤ ts) := by
  classical
  induction l with
  | nil => rfl
  | cons g gs ih =>
    obtain ⟨tag, d, t⟩ := g
    cases t with
    | none => simp [timedIn, ih]
    | some t =>
      by_cases h : inWindow ts te t
      · have h' : te < t ∧ t ≤ ts := ⟨h.2, h.1⟩
        simp [timedIn, ih, h, h']
      · have h' : ¬ (te < t ∧ t ≤ ts) := fun hh => h ⟨hh.2, hh.1⟩
        simp only [timedIn, h, if_false, ih, Option.map_some, List.filterMap_cons, List.filter_cons,
          h', decide_false, Bool.false_eq_true]

theorem untimed_eq (l : List Given) : untimed l = l.filter fun g => g.time.isNone := by
  induction l with
  | nil => rfl
  | cons g gs ih =>
    obtain ⟨tag, d, t⟩ := g
    cases t <;> simp [untimed, ih]

theorem giveTimes_eq (l : List Given) (ts : List ℝ) :
    giveTimes l ts = l.zipWith (fun g t => (⟨g.tag, g.diam, t⟩ : Crater)) ts := by
  induction l generalizing ts with
  | nil => simp [giveTimes]
  | cons g gs ih => cases ts <;> simp [giveTimes, ih]

/-- The merge keeps every prescribed crater of the window exactly once and no other prescribed
crater, keeps all random craters of the window except those displaced by a prescribed crater that
is not larger, and orders the result from oldest to youngest. -/
theorem C18_merge (ts te : ℝ) (craters : List Given) (drawn : List ℝ) (prescribed : List Crater) :
    ∃ rs qs, Takes ts te craters drawn rs ∧
      qs.Perm (prescribed.filter fun q => open Classical in decide (te < q.time ∧ q.time ≤ ts)) ∧
      IsMerge rs qs (merge ts te craters drawn prescribed) ∧
      (merge ts te craters drawn prescribed).Pairwise (fun a b => b.time ≤ a.time) := by
  classical
  refine ⟨rngList ts te craters drawn, qmcList ts te prescribed, ?_, ?_, ?_, sortByTime_sorted _⟩
  · unfold Takes rngList
    refine (sortByDiam_perm _).trans ?_
    rw [timedIn_eq, untimed_eq, giveTimes_eq]
  · unfold qmcList
    refine (sortByDiam_perm _).trans (List.Perm.of_eq ?_)
    apply List.filter_congr
    intro q _
    rw [decide_eq_decide]
    exact and_comm
  · obtain ⟨k, d, p, e, h1, h2, h3, h4, h5⟩ := walk_spec (rngList ts te craters drawn)
      (qmcList ts te prescribed) (sortByDiam_sorted _) (sortByDiam_sorted _)
    exact ⟨k, d, p, e, h1, by rw [h2], h3, (sortByTime_perm _).trans h4, h5⟩

/-- Consequence: the number of craters is never below the number of random craters, and exceeds it
by the number of prescribed craters that displaced nothing. -/
theorem C18_length (ts te : ℝ) (craters : List Given) (drawn : List ℝ) (prescribed : List Crater) :
    (rngList ts te craters drawn).length ≤ (merge ts te craters drawn prescribed).length ∧
    (qmcList ts te prescribed).length ≤ (merge ts te craters drawn prescribed).length := by
  obtain ⟨k, d, p, e, h1, h2, h3, h4, _⟩ := walk_spec (rngList ts te craters drawn)
    (qmcList ts te prescribed) (sortByDiam_sorted _) (sortByDiam_sorted _)
  have l1 := h1.length_eq
  have l2 := congrArg List.length h2
  have l3 := h3.length_eq
  have l4 := ((sortByTime_perm _).trans h4).length_eq
  change (merge ts te craters drawn prescribed).length = _ at l4
  simp only [List.length_append] at *
  omega

/-- Number of windows of a run in which a crater of age `t` is selected. -/
noncomputable def selections (t : ℝ) : List (ℝ × ℝ) → ℕ
  | [] => 0
  | w :: ws => (open Classical in if w.2 < t ∧ t ≤ w.1 then 1 else 0) + selections t ws

/-- A time after the end and not after the start is in exactly one window of a run. -/
theorem selections_tiles (ws : List (ℝ × ℝ)) (a b t : ℝ) (h : Run.Tiles ws a b) :
    selections t ws = (open Classical in if b < t ∧ t ≤ a then 1 else 0) := by
  classical
  have le : ∀ (ws : List (ℝ × ℝ)) (a : ℝ), Run.Tiles ws a b → b ≤ a := by
    intro ws
    induction ws with
    | nil => intro a h; simp only [Run.Tiles] at h; linarith
    | cons w ws ih =>
      intro a h
      obtain ⟨x, y⟩ := w
      obtain ⟨rfl, h2, h3⟩ := h
      exact le_trans (ih y h3) (le_of_lt h2)
  induction ws generalizing a with
  | nil => simp only [Run.Tiles] at h; subst h; simp [selections, not_and, not_le]
  | cons w ws ih =>
    obtain ⟨x, y⟩ := w
    obtain ⟨rfl, h2, h3⟩ := h
    have hb := le ws y h3
    simp only [selections, ih y h3]
    by_cases c1 : y < t <;> by_cases c2 : t ≤ x <;> by_cases c3 : b < t <;>
      simp [c1, c2, c3] <;> grind

/-- An interval of a run: its window, the random craters and the times drawn for those without one. -/
structure Round where
  window : ℝ × ℝ
  craters : List Given
  drawn : List ℝ

/-- The craters of all intervals of a run. -/
noncomputable def emplaced (prescribed : List Crater) (rs : List Round) : List Crater :=
  rs.flatMap fun r => merge r.window.1 r.window.2 r.craters r.drawn prescribed

/-- How often a crater occurs in a list. -/
noncomputable def times (q : Crater) (l : List Crater) : ℕ := open Classical in l.count q

theorem times_append (q : Crater) (a b : List Crater) : times q (a ++ b) = times q a + times q b := by
  classical
  exact List.count_append

theorem times_merge (q : Crater) (r : Round) (prescribed : List Crater) (hq : ∀ g ∈ r.craters, g.tag ≠ q.tag) :
    times q (merge r.window.1 r.window.2 r.craters r.drawn prescribed) =
      (open Classical in if r.window.2 < q.time ∧ q.time ≤ r.window.1 then 1 else 0) * times q prescribed := by
  classical
  obtain ⟨rs, qs, ht, hqs, ⟨k, d, p, e, h1, -, -, h4, -⟩, -⟩ := C18_merge r.window.1 r.window.2 r.craters r.drawn prescribed
  have hrs : q ∉ rs := by
    intro hm
    have := ht.mem_iff.1 hm
    rcases List.mem_append.1 this with h | h
    · obtain ⟨g, hg, hgq⟩ := List.mem_filterMap.1 (List.mem_filter.1 h).1
      cases hgt : g.time with
      | none => simp [hgt] at hgq
      | some t =>
        simp only [hgt, Option.map_some, Option.some.injEq] at hgq
        exact hq g hg (by rw [← hgq])
    · rw [← List.map_uncurry_zip_eq_zipWith] at h
      obtain ⟨x, hx, hxq⟩ := List.mem_map.1 h
      have := (List.of_mem_zip hx).1
      exact hq x.1 (List.mem_filter.1 this).1 (by rw [← hxq]; rfl)
  have hk : q ∉ k := fun hm => hrs (h1.mem_iff.2 (List.mem_append_left _ hm))
  have hcount : times q (merge r.window.1 r.window.2 r.craters r.drawn prescribed) = times q qs := by
    unfold times
    rw [h4.count_eq, List.count_append, List.count_eq_zero.2 hk, zero_add]
  rw [hcount]
  unfold times
  rw [hqs.count_eq]
  by_cases hw : r.window.2 < q.time ∧ q.time ≤ r.window.1
  · rw [if_pos hw, one_mul, List.count_filter (by simpa using hw)]
  · rw [if_neg hw, zero_mul]
    refine List.count_eq_zero.2 fun hm => hw ?_
    simpa using (List.mem_filter.1 hm).2

theorem times_emplaced (q : Crater) (prescribed : List Crater) (rs : List Round) (hq : ∀ r ∈ rs, ∀ g ∈ r.craters, g.tag ≠ q.tag) :
    times q (emplaced prescribed rs) = selections q.time (rs.map Round.window) * times q prescribed := by
  classical
  induction rs with
  | nil => simp [emplaced, times, selections]
  | cons r rs ih =>
    have h1 := times_merge q r prescribed (hq r (by simp))
    have h2 := ih fun r' hr' => hq r' (by simp [hr'])
    simp only [emplaced] at h2 ⊢
    rw [List.flatMap_cons, times_append, h1, h2, List.map_cons, selections, add_mul]

/-- Over all the intervals of a run, every prescribed crater formed after the start (inclusive) and
before the end (exclusive) is emplaced exactly as often as it is in the list, whatever random craters there are, and no other
prescribed crater is ever emplaced. -/
theorem C18_once_per_run (rs : List Round) (a b : ℝ) (h : Run.Tiles (rs.map Round.window) a b) (prescribed : List Crater) (q : Crater)
    (hq : ∀ r ∈ rs, ∀ g ∈ r.craters, g.tag ≠ q.tag) :
    (b < q.time ∧ q.time ≤ a → times q (emplaced prescribed rs) = times q prescribed) ∧
    (¬ (b < q.time ∧ q.time ≤ a) → q ∉ emplaced prescribed rs) := by
  classical
  have e := times_emplaced q prescribed rs hq
  rw [selections_tiles _ a b _ h] at e
  refine ⟨fun hw => by rw [e, if_pos hw, one_mul], fun hw hm => ?_⟩
  rw [if_neg hw, zero_mul] at e
  exact absurd (List.count_pos_iff.2 hm) (by unfold times at e; omega)

/-- A run of three intervals with a random crater, and prescribed craters on a border between two intervals and at the end. -/
example : ∃ (rs : List Round) (q r : Crater), Run.Tiles (rs.map Round.window) 10 0 ∧ rs.length = 3 ∧
    (∀ x ∈ rs, ∀ g ∈ x.craters, g.tag ≠ q.tag ∧ g.tag ≠ r.tag) ∧ times q (emplaced [q, r] rs) = 1 ∧ r ∉ emplaced [q, r] rs := by
  classical
  let rs : List Round := [⟨(10, 7), [⟨5, 3, some 8⟩], []⟩, ⟨(7, 2), [], []⟩, ⟨(2, 0), [], []⟩]
  let q : Crater := ⟨1, 4, 7⟩
  let r : Crater := ⟨2, 4, 0⟩
  have ht : Run.Tiles (rs.map Round.window) 10 0 := by norm_num [Run.Tiles, rs]
  have hne : q ≠ r := by intro e; simp [q, r] at e
  refine ⟨rs, q, r, ht, rfl, by simp [rs, q, r], ?_, ?_⟩
  · rw [(C18_once_per_run rs 10 0 ht [q, r] q (by simp [rs, q])).1 (by norm_num [q])]
    simp [times, hne.symm]
  · exact (C18_once_per_run rs 10 0 ht [q, r] r (by simp [rs, r])).2 (by norm_num [r])

/-! ### C76: times of prescribed craters -/

/-- The time drawn from an N(D) value is never negative, whatever the draw. -/
theorem C76_number_partial (age : ℝ → ℝ) (hage : ∀ n, 0 ≤ n → 0 ≤ age n) (z mean sig : ℝ) :
    0 ≤ drawTime age z (.number mean sig) := by
  simp only [drawTime]
  exact hage _ (le_max_left _ _)

example : ∃ age : ℝ → ℝ, (∀ n, 0 ≤ n → 0 ≤ age n) ∧ age 2 = 1000 := ⟨fun n => 500 * n, fun n h => by positivity, by norm_num⟩

/-- A time given without uncertainty is used as it is. -/
theorem C76_exact_time (age : ℝ → ℝ) (z mean : ℝ) : drawTime age z (.time mean 0) = mean := by
  simp [drawTime]

/-- A time given with an uncertainty comes out as it was drawn: it is usable exactly if the draw is not too far below the mean. -/
theorem C76_time_partial (age : ℝ → ℝ) (z mean sig : ℝ) (hs : 0 < sig) :
    0 ≤ drawTime age z (.time mean sig) ↔ -(mean / sig) ≤ z := by
  unfold drawTime
  simp only [gt_iff_lt, hs, if_true]
  rw [← neg_div, div_le_iff₀ hs]
  constructor <;> intro h <;> linarith

/-- Full statement: the time drawn for a prescribed crater is never negative.  It fails for every time
with an uncertainty, because the clipped value is discarded: for every draw far enough below the mean the time is negative, and the
crater is in no interval of any run, however long. -/
theorem C76_time_fails (age : ℝ → ℝ) (mean sig : ℝ) (hs : 0 < sig) (z : ℝ) (hz : z < -(mean / sig)) (tag : ℕ) (diam : ℝ) :
    drawTime age z (.time mean sig) < 0 ∧
      ∀ (rs : List Round) (a b : ℝ) (prescribed : List Crater), 0 ≤ b → Run.Tiles (rs.map Round.window) a b →
        (∀ r ∈ rs, ∀ g ∈ r.craters, g.tag ≠ tag) →
        (⟨tag, diam, drawTime age z (.time mean sig)⟩ : Crater) ∉ emplaced prescribed rs := by
  have hneg : drawTime age z (.time mean sig) < 0 := by
    by_contra h
    exact absurd ((C76_time_partial age z mean sig hs).1 (not_lt.1 h)) (not_le.2 hz)
  refine ⟨hneg, fun rs a b prescribed hb h hq => (C18_once_per_run rs a b h prescribed ⟨tag, diam, _⟩ hq).2 ?_⟩
  rintro ⟨h1, _⟩
  exact absurd h1 (not_lt.2 (hneg.le.trans hb))

/-- A mean of 10 with an uncertainty of 10 and a draw two deviations below it. -/
example : (0 : ℝ) < 10 ∧ (-2 : ℝ) < -(10 / 10) := by norm_num

end Verif.QuasiMC
