import Verif.Model.Sequence
import Mathlib.Tactic.Linarith
import Mathlib.Tactic.NormNum
import Mathlib.Tactic.Ring
import Mathlib.Tactic.FieldSimp

namespace Verif.Sequence

/-! ### Specification -/

/-- Every time of an earlier sequence number is at least every time of a later one: the craters form in the order of their
sequence numbers (times count back from the present). -/
def InOrder (ts : List (List ℚ)) : Prop := ts.Pairwise fun a b => ∀ x ∈ a, ∀ y ∈ b, y ≤ x

/-- The age grows with the number of craters. -/
def AgeMonotone (d : Draws) : Prop := ∀ a b, a ≤ b → d.age a ≤ d.age b

/-- Truncated normal draws lie within their bounds. -/
def DrawsBounded (d : Draws) : Prop := ∀ m s lo hi, lo ≤ hi → lo ≤ d.normal m s lo hi ∧ d.normal m s lo hi ≤ hi

/-! ### Extents -/

/-- Neighbours share their boundary: the lower end of one is the upper end of the next. -/
def Shared : List (ℚ × ℚ) → Prop
  | a :: b :: rest => a.1 = b.2 ∧ Shared (b :: rest)
  | _ => True

theorem shared_join (prev : Option (ℚ × ℚ)) (cur : ℚ × ℚ) (rest : List (ℚ × ℚ)) :
    Shared (join prev cur rest) ∧
    (∀ p, prev = some p → p.1 = cur.2 → ∃ tl, join prev cur rest = p :: tl) := by
  induction rest generalizing prev cur with
  | nil =>
    cases prev with
    | none => simp [join, joinPrev, Shared]
    | some p =>
      unfold join joinPrev
      by_cases h : cur.2 ≠ p.1
      · simp only [if_pos h, Option.toList_some, List.cons_append, List.nil_append, Shared, and_true, true_and]
        intro q hq he
        rw [Option.some.injEq] at hq
        exact absurd (hq ▸ he.symm) h
      · simp only [if_neg h, Option.toList_some, List.cons_append, List.nil_append, Shared, and_true]
        push Not at h
        refine ⟨h.symm, ?_⟩
        intro q hq _
        rw [Option.some.injEq] at hq
        exact ⟨_, by rw [hq]⟩
  | cons nxt rest ih =>
    set c1 := (joinPrev prev cur).2 with hc1
    set j := joinNext c1 nxt with hj
    have hb : j.1.1 = j.2.2 ∧ j.1.2 = c1.2 := by
      rw [hj]
      unfold joinNext
      by_cases h : c1.1 ≠ nxt.2
      · simp only [if_pos h]; exact ⟨trivial, trivial⟩
      · simp only [if_neg h]; push Not at h; exact ⟨h, trivial⟩
    obtain ⟨h1, h2⟩ := ih (some j.1) j.2
    obtain ⟨tl, htl⟩ := h2 j.1 rfl hb.1
    rw [htl] at h1
    have hjoin : join prev cur (nxt :: rest) = (joinPrev prev cur).1.toList ++ join (some j.1) j.2 rest := rfl
    cases prev with
    | none =>
      have e : (joinPrev none cur).1.toList = [] := rfl
      rw [hjoin, e, List.nil_append, htl]
      exact ⟨h1, fun p hp => by simp at hp⟩
    | some p =>
      by_cases h : cur.2 ≠ p.1
      · have e : joinPrev (some p) cur = (some ((p.1 + cur.2) / 2, p.2), (cur.1, (p.1 + cur.2) / 2)) := by
          simp only [joinPrev, if_pos h]
        rw [hjoin, htl]
        rw [e] at hc1 ⊢
        refine ⟨⟨?_, h1⟩, ?_⟩
        · rw [hb.2, hc1]
        · intro q hq he
          rw [Option.some.injEq] at hq
          exact absurd (hq ▸ he.symm) h
      · have e : joinPrev (some p) cur = (some p, cur) := by simp only [joinPrev, if_neg h]
        push Not at h
        rw [hjoin, htl]
        rw [e] at hc1 ⊢
        refine ⟨⟨?_, h1⟩, ?_⟩
        · rw [hb.2, hc1]; exact h.symm
        · intro q hq _
          rw [Option.some.injEq] at hq
          exact ⟨_, by rw [hq]; rfl⟩

theorem shared_round (ns : List (ℚ × ℚ)) : Shared (round ns) := by
  unfold round
  cases spread none ns with
  | nil => trivial
  | cons e es => exact (shared_join none e es).1

theorem shared_loop (k : ℕ) (ns : List (ℚ × ℚ)) : Shared (loop k ns) := by
  induction k generalizing ns with
  | zero => exact shared_round ns
  | succ k ih =>
    unfold loop
    split_ifs
    · exact shared_round ns
    · exact ih _

/-! ### Order -/

/-- Every interval is proper and lies below the ones before it. -/
theorem settled_spec {es : List (ℚ × ℚ)} (hs : Shared es) (hd : decreasing es = true) (h2 : 2 ≤ es.length) :
    (∀ e ∈ es, e.1 ≤ e.2) ∧ es.Pairwise fun a b => b.2 ≤ a.1 := by
  have key : ∀ (a b : ℚ × ℚ) (rest : List (ℚ × ℚ)), Shared (a :: b :: rest) → decreasing (a :: b :: rest) = true →
      (∀ e ∈ a :: b :: rest, e.1 ≤ e.2) ∧ (a :: b :: rest).Pairwise fun a b => b.2 ≤ a.1 := by
    intro a b rest
    induction rest generalizing a b with
    | nil =>
      intro hs hd
      simp only [decreasing, Bool.and_true, Bool.and_eq_true, decide_eq_true_eq] at hd
      have h1 : a.1 = b.2 := hs.1
      refine ⟨?_, ?_⟩
      · intro e he
        simp only [List.mem_cons, List.not_mem_nil, or_false] at he
        rcases he with rfl | rfl
        · linarith [hd.2]
        · linarith [hd.1]
      · simp only [List.pairwise_cons, List.mem_singleton, forall_eq, List.not_mem_nil, false_imp_iff, implies_true,
          List.Pairwise.nil, and_true]
        exact h1.ge
    | cons c rest ih =>
      intro hs hd
      have hd' : (decide (b.1 ≤ a.1) && decide (b.2 ≤ a.2) && decreasing (b :: c :: rest)) = true := hd
      simp only [Bool.and_eq_true, decide_eq_true_eq] at hd'
      have h1 : a.1 = b.2 := hs.1
      obtain ⟨h3, h4⟩ := ih b c hs.2 hd'.2
      refine ⟨?_, ?_⟩
      · intro e he
        rcases List.mem_cons.mp he with rfl | he
        · linarith [hd'.1.2]
        · exact h3 e he
      · refine List.pairwise_cons.mpr ⟨?_, h4⟩
        intro e he
        rcases List.mem_cons.mp he with rfl | he
        · exact h1.ge
        · have := (List.pairwise_cons.mp h4).1 e he
          have := h3 b (by simp)
          linarith
  match es, h2 with
  | a :: b :: rest, _ => exact key a b rest hs hd

theorem halfWidth_pos {lo hi s : ℚ} (h : halfWidth lo hi = some s) (hs : s > 0) : lo ≤ hi := by
  unfold halfWidth at h
  split_ifs at h with h0 h1
  · rw [Option.some.injEq] at h
    rw [← h] at hs
    exact absurd hs (lt_irrefl _)
  · rw [Option.some.injEq] at h
    rw [← h] at hs
    linarith

/-- A time drawn within an extent lies between the ages of its ends. -/
theorem drawTime_bounds {d : Draws} (ha : AgeMonotone d) (hb : DrawsBounded d) {e : ℚ × ℚ} (he : e.1 ≤ e.2) {m : Metadata}
    {t : ℚ} (h : drawTime d e m = some t) : d.age (max e.1 0) ≤ t ∧ t ≤ d.age (max e.2 0) := by
  unfold drawTime at h
  simp only at h
  cases hn : halfWidth (max e.1 0) e.2 with
  | none => rw [hn] at h; simp at h
  | some nsig =>
    rw [hn] at h
    simp only at h
    cases ht : halfWidth (d.age (max e.1 0)) (d.age e.2) with
    | none => rw [ht] at h; simp at h
    | some tsig =>
      rw [ht] at h
      simp only [Option.some.injEq] at h
      have hl0 : (0 : ℚ) ≤ max e.1 0 := le_max_right _ _
      have hle : max e.1 0 ≤ max e.2 0 := max_le_max_right 0 he
      -- a number between the ends gives an age between the ages
      have key : ∀ n : ℚ, max e.1 0 ≤ max n 0 → max n 0 ≤ max e.2 0 →
          d.age (max e.1 0) ≤ d.age (max n 0) ∧ d.age (max n 0) ≤ d.age (max e.2 0) :=
        fun n h1 h2 => ⟨ha _ _ h1, ha _ _ h2⟩
      have hclamp : ∀ mean : ℚ, max e.1 0 ≤ max (max (min mean e.2) (max e.1 0)) 0 ∧
          max (max (min mean e.2) (max e.1 0)) 0 ≤ max e.2 0 := by
        intro mean
        refine ⟨(le_max_right _ _).trans (le_max_left _ _), max_le (max_le ?_ hle) (le_max_right _ _)⟩
        exact (min_le_right _ _).trans (le_max_left _ _)
      have hdraw : ∀ mean sig : ℚ, nsig > 0 → max e.1 0 ≤ max (d.normal mean sig (max e.1 0) e.2) 0 ∧
          max (d.normal mean sig (max e.1 0) e.2) 0 ≤ max e.2 0 := by
        intro mean sig hpos
        have hlh := halfWidth_pos hn hpos
        have := hb mean sig _ _ hlh
        exact ⟨this.1.trans (le_max_left _ _), max_le_max_right 0 this.2⟩
      cases m with
      | nothing =>
        simp only at h
        rw [← h]
        by_cases hpos : nsig > 0
        · rw [if_pos hpos]
          exact key _ (hdraw _ _ hpos).1 (hdraw _ _ hpos).2
        · rw [if_neg hpos]
          rcases le_total 0 e.2 with h0 | h0
          · have hlh : max e.1 0 ≤ e.2 := max_le he h0
            apply key
            · refine le_trans ?_ (le_max_left _ _)
              linarith
            · apply max_le_max_right
              linarith
          · have h1 : max e.1 0 = 0 := max_eq_right (he.trans h0)
            have hm : (max e.1 0 + e.2) / 2 ≤ 0 := by rw [h1]; linarith
            apply key
            · rw [h1]; exact le_max_right _ _
            · rw [max_eq_right hm]; exact le_max_right _ _
      | number mean sig =>
        simp only at h
        rw [← h, max_comm 0]
        by_cases hpos : sig > 0 ∧ nsig > 0
        · rw [if_pos hpos]
          exact key _ (hdraw _ _ hpos.2).1 (hdraw _ _ hpos.2).2
        · rw [if_neg hpos]
          exact key _ (hclamp mean).1 (hclamp mean).2
      | time mean sig =>
        simp only at h
        rw [← h]
        have hage : d.age e.2 ≤ d.age (max e.2 0) := ha _ _ (le_max_left _ _)
        by_cases hpos : sig > 0 ∧ tsig > 0
        · rw [if_pos hpos]
          have hlh : d.age (max e.1 0) ≤ d.age e.2 := halfWidth_pos ht hpos.2
          have := hb mean sig _ _ hlh
          exact ⟨this.1, this.2.trans hage⟩
        · rw [if_neg hpos]
          refine ⟨le_max_right _ _, max_le ((min_le_right _ _).trans hage) (ha _ _ hle)⟩

/-- The times lie within the ages of an extent. -/
def Within (d : Draws) (e : ℚ × ℚ) (ts : List ℚ) : Prop := ∀ t ∈ ts, d.age (max e.1 0) ≤ t ∧ t ≤ d.age (max e.2 0)

theorem drawGroup_within {d : Draws} (ha : AgeMonotone d) (hb : DrawsBounded d) {e : ℚ × ℚ} (he : e.1 ≤ e.2)
    {g : List Metadata} {ts : List ℚ} (h : drawGroup d e g = some ts) : Within d e ts := by
  induction g generalizing ts with
  | nil =>
    simp only [drawGroup, Option.some.injEq] at h
    subst h
    intro t ht
    simp at ht
  | cons m ms ih =>
    unfold drawGroup at h
    cases h1 : drawTime d e m with
    | none => rw [h1] at h; simp at h
    | some t =>
      rw [h1] at h
      simp only [Option.map_eq_some_iff] at h
      obtain ⟨us, h2, rfl⟩ := h
      intro u hu
      rcases List.mem_cons.mp hu with rfl | hu
      · exact drawTime_bounds ha hb he h1
      · exact ih h2 u hu

theorem drawAll_within {d : Draws} (ha : AgeMonotone d) (hb : DrawsBounded d) {es : List (ℚ × ℚ)}
    (he : ∀ e ∈ es, e.1 ≤ e.2) {gs : List (List Metadata)} {ts : List (List ℚ)} (h : drawAll d es gs = some ts) :
    ∀ us ∈ ts, ∃ e ∈ es, Within d e us := by
  induction es generalizing gs ts with
  | nil =>
    simp only [drawAll, Option.some.injEq] at h
    subst h
    simp
  | cons e es ih =>
    cases gs with
    | nil =>
      simp only [drawAll, Option.some.injEq] at h
      subst h
      simp
    | cons g gs =>
      unfold drawAll at h
      cases h1 : drawGroup d e g with
      | none => rw [h1] at h; simp at h
      | some us =>
        rw [h1] at h
        simp only [Option.map_eq_some_iff] at h
        obtain ⟨rest, h2, rfl⟩ := h
        intro vs hvs
        rcases List.mem_cons.mp hvs with rfl | hvs
        · exact ⟨e, by simp, drawGroup_within ha hb (he e (by simp)) h1⟩
        · obtain ⟨e', he', hw⟩ := ih (fun e h => he e (by simp [h])) h2 vs hvs
          exact ⟨e', by simp [he'], hw⟩

theorem drawAll_inOrder {d : Draws} (ha : AgeMonotone d) (hb : DrawsBounded d) {es : List (ℚ × ℚ)}
    (he : ∀ e ∈ es, e.1 ≤ e.2) (hp : es.Pairwise fun a b => b.2 ≤ a.1) {gs : List (List Metadata)} {ts : List (List ℚ)}
    (h : drawAll d es gs = some ts) : InOrder ts := by
  induction es generalizing gs ts with
  | nil =>
    simp only [drawAll, Option.some.injEq] at h
    subst h
    exact List.Pairwise.nil
  | cons e es ih =>
    cases gs with
    | nil =>
      simp only [drawAll, Option.some.injEq] at h
      subst h
      exact List.Pairwise.nil
    | cons g gs =>
      unfold drawAll at h
      cases h1 : drawGroup d e g with
      | none => rw [h1] at h; simp at h
      | some us =>
        rw [h1] at h
        simp only [Option.map_eq_some_iff] at h
        obtain ⟨rest, h2, rfl⟩ := h
        have hp' := List.pairwise_cons.mp hp
        have he' : ∀ e ∈ es, e.1 ≤ e.2 := fun e h => he e (by simp [h])
        refine List.pairwise_cons.mpr ⟨?_, ih he' hp'.2 h2⟩
        intro vs hvs x hx y hy
        obtain ⟨e', hm, hw⟩ := drawAll_within ha hb he' h2 vs hvs
        have h3 := (drawGroup_within ha hb (he e (by simp)) h1 x hx).1
        have h4 := (hw y hy).2
        have h5 : d.age (max e'.2 0) ≤ d.age (max e.1 0) := ha _ _ (max_le_max_right 0 (hp'.1 e' hm))
        linarith

theorem drawAll_length {d : Draws} {es : List (ℚ × ℚ)} {gs : List (List Metadata)} {ts : List (List ℚ)}
    (h : drawAll d es gs = some ts) : ts.length ≤ es.length := by
  induction es generalizing gs ts with
  | nil =>
    simp only [drawAll, Option.some.injEq] at h
    subst h
    simp
  | cons e es ih =>
    cases gs with
    | nil =>
      simp only [drawAll, Option.some.injEq] at h
      subst h
      simp
    | cons g gs =>
      unfold drawAll at h
      cases h1 : drawGroup d e g with
      | none => rw [h1] at h; simp at h
      | some us =>
        rw [h1] at h
        simp only [Option.map_eq_some_iff] at h
        obtain ⟨rest, h2, rfl⟩ := h
        have := ih h2
        simp only [List.length_cons]
        omega

/-- **C118, part.**  If the lower and the upper ends of the extents decrease with the sequence number — which is what the
ten rounds of adjustment look for — every time drawn for a sequence number is at least every time drawn for a later one:
for any number of sequences, any metadata and any draws that keep to their bounds, including the last number, which is
never checked.  Missing: the rounds can end without reaching that, see `C118_fails`. -/
theorem C118_settled_partial (d : Draws) (ha : AgeMonotone d) (hb : DrawsBounded d) (groups : List (ℚ × Group))
    (craters : List (List Metadata)) (es : List (ℚ × ℚ)) (hes : extents groups = some es)
    (hlow : (es.map Prod.fst).Pairwise fun a b => b ≤ a) (hhigh : (es.map Prod.snd).Pairwise fun a b => b ≤ a)
    (ts : List (List ℚ)) (h : process d groups craters = .times ts) : InOrder ts := by
  have hshared : Shared es := by
    unfold extents at hes
    rw [Option.map_eq_some_iff] at hes
    obtain ⟨ns, _, rfl⟩ := hes
    exact shared_loop _ _
  have hd : ∀ es : List (ℚ × ℚ), (es.map Prod.fst).Pairwise (fun a b => b ≤ a) →
      (es.map Prod.snd).Pairwise (fun a b => b ≤ a) → decreasing es = true := by
    intro es
    induction es with
    | nil => intros; rfl
    | cons a rest ih =>
      intro h1 h2
      cases rest with
      | nil => rfl
      | cons b rest =>
        simp only [List.map_cons] at h1 h2
        have h1' := List.pairwise_cons.mp h1
        have h2' := List.pairwise_cons.mp h2
        have := ih (by simpa using h1'.2) (by simpa using h2'.2)
        unfold decreasing
        simp only [Bool.and_eq_true, decide_eq_true_eq]
        exact ⟨⟨h1'.1 _ (by simp), h2'.1 _ (by simp)⟩, this⟩
  unfold process at h
  rw [hes] at h
  simp only at h
  cases hts : drawAll d es craters with
  | none => rw [hts] at h; simp at h
  | some us =>
    rw [hts] at h
    simp only at h
    split_ifs at h
    simp only [Outcome.times.injEq] at h
    subst h
    by_cases hl : 2 ≤ es.length
    · obtain ⟨h1, h2⟩ := settled_spec hshared (hd es hlow hhigh) hl
      exact drawAll_inOrder ha hb h1 h2 hts
    · have := drawAll_length hts
      match us, this with
      | [], _ => exact List.Pairwise.nil
      | [u], _ => exact List.pairwise_singleton _ _
      | u :: v :: us, h => simp at h; omega

theorem neighbours_inOrder {ts : List (List ℚ)} (hne : ∀ us ∈ ts, us ≠ []) (h : neighbours ts = true) : InOrder ts := by
  induction ts with
  | nil => exact List.Pairwise.nil
  | cons a rest ih =>
    cases rest with
    | nil => exact List.pairwise_singleton _ _
    | cons b rest =>
      simp only [neighbours, Bool.and_eq_true] at h
      have hrest := ih (fun us h => hne us (by simp [h])) h.2
      have hab : ∀ x ∈ a, ∀ y ∈ b, y ≤ x := by
        have := h.1
        unfold notBefore at this
        simpa [List.all_eq_true] using this
      refine List.pairwise_cons.mpr ⟨?_, hrest⟩
      intro c hc
      rcases List.mem_cons.mp hc with rfl | hc
      · exact hab
      · intro x hx y hy
        obtain ⟨z, hz⟩ := List.exists_mem_of_ne_nil b (hne b (by simp))
        exact ((List.pairwise_cons.mp hrest).1 c hc z hz y hy).trans (hab x hx z hz)

theorem drawGroup_length {d : Draws} {e : ℚ × ℚ} {g : List Metadata} {ts : List ℚ} (h : drawGroup d e g = some ts) :
    ts.length = g.length := by
  induction g generalizing ts with
  | nil =>
    simp only [drawGroup, Option.some.injEq] at h
    subst h
    rfl
  | cons m ms ih =>
    unfold drawGroup at h
    cases h1 : drawTime d e m with
    | none => rw [h1] at h; simp at h
    | some t =>
      rw [h1] at h
      simp only [Option.map_eq_some_iff] at h
      obtain ⟨us, h2, rfl⟩ := h
      simp [ih h2]

theorem drawAll_ne {d : Draws} {es : List (ℚ × ℚ)} {gs : List (List Metadata)} (hg : ∀ g ∈ gs, g ≠ [])
    {ts : List (List ℚ)} (h : drawAll d es gs = some ts) : ∀ us ∈ ts, us ≠ [] := by
  induction es generalizing gs ts with
  | nil =>
    simp only [drawAll, Option.some.injEq] at h
    subst h
    simp
  | cons e es ih =>
    cases gs with
    | nil =>
      simp only [drawAll, Option.some.injEq] at h
      subst h
      simp
    | cons g gs =>
      unfold drawAll at h
      cases h1 : drawGroup d e g with
      | none => rw [h1] at h; simp at h
      | some us =>
        rw [h1] at h
        simp only [Option.map_eq_some_iff] at h
        obtain ⟨rest, h2, rfl⟩ := h
        intro vs hvs
        rcases List.mem_cons.mp hvs with rfl | hvs
        · intro hn
          have := drawGroup_length h1
          rw [hn] at this
          exact hg g (by simp) (List.length_eq_zero_iff.mp this.symm)
        · exact ih (fun g h => hg g (by simp [h])) h2 vs hvs

/-- **C118, part.**  Whatever the extents and the draws: if processing succeeds, the craters of all sequence numbers but
the last are in order. -/
theorem C118_checked_partial (d : Draws) (groups : List (ℚ × Group)) (craters : List (List Metadata))
    (hc : ∀ g ∈ craters, g ≠ []) (ts : List (List ℚ)) (h : process d groups craters = .times ts) : InOrder ts.dropLast := by
  unfold process at h
  cases hes : extents groups with
  | none => rw [hes] at h; simp at h
  | some es =>
    rw [hes] at h
    simp only at h
    cases hts : drawAll d es craters with
    | none => rw [hts] at h; simp at h
    | some us =>
      rw [hts] at h
      simp only at h
      split_ifs at h with hcons
      simp only [Outcome.times.injEq] at h
      subst h
      exact neighbours_inOrder (fun vs hvs => drawAll_ne hc hts vs (List.dropLast_subset us hvs)) hcons

/-- A constant production: the age is the number; a draw is the lower end of its bounds. -/
def linear : Draws := ⟨id, fun _ _ lo _ => lo⟩

example : AgeMonotone linear ∧ DrawsBounded linear :=
  ⟨fun _ _ h => h, fun _ _ _ _ h => ⟨le_refl _, h⟩⟩

/-- Three sequence numbers, the second without metadata: the extents settle and the times are drawn. -/
example : extents [(1, some (9, 1)), (2, none), (4, some (3, 1))] = some [(15 / 2, 10), (11 / 2, 15 / 2), (2, 11 / 2)] ∧
    process linear [(1, some (9, 1)), (2, none), (4, some (3, 1))] [[.number 9 0], [.nothing], [.time 1 0]] =
      .times [[9], [11 / 2], [2]] := by
  constructor <;> decide +kernel

/-- **C118 fails.**  Three prescribed craters with sequence numbers 1, 2, 3 and N values 1 ± 0, 9 ± 2, 9 ± 1: the ten rounds
end before the extents decrease, processing succeeds, and the crater with the last number is older than the others.  The
check of the order takes the last number out of the comparison; with two sequence numbers nothing is compared. -/
theorem C118_fails : ∃ (groups : List (ℚ × Group)) (craters : List (List Metadata)) (d : Draws) (ts : List (List ℚ)),
    AgeMonotone d ∧ DrawsBounded d ∧ (groups.map Prod.fst).Pairwise (· < ·) ∧ (∀ g ∈ craters, g ≠ []) ∧
    process d groups craters = .times ts ∧ ¬ InOrder ts := by
  refine ⟨[(1, some (1, 0)), (2, some (9, 2)), (3, some (9, 1))], [[.number 1 0], [.number 9 2], [.number 9 1]], linear,
    [[6485 / 1024], [6485 / 1024], [3243 / 512]], fun _ _ h => h, fun _ _ _ _ h => ⟨le_refl _, h⟩, ?_, ?_, ?_, ?_⟩
  · norm_num
  · simp
  · decide +kernel
  · intro h
    have := (List.pairwise_cons.mp h).1 [3243 / 512] (by simp) (6485 / 1024) (by simp) (3243 / 512) (by simp)
    norm_num at this

theorem round_pair (a b : ℚ × ℚ) :
    ∃ p q : ℚ × ℚ, round [a, b] = [((p.1 + q.2) / 2, p.2), (q.1, (p.1 + q.2) / 2)] ∧
      p = (if max (max (a.1 - a.2) 0 + (b.1 + b.2 - max (a.1 - a.2) 0) / 2) 0 > a.1 + a.2
        then (a.1 + a.2, max (max (a.1 - a.2) 0 + (b.1 + b.2 - max (a.1 - a.2) 0) / 2) 0)
        else (max (max (a.1 - a.2) 0 + (b.1 + b.2 - max (a.1 - a.2) 0) / 2) 0, a.1 + a.2)) ∧
      q = (if max (b.1 - b.2) 0 > b.1 + b.2 + (max (a.1 - a.2) 0 - (b.1 + b.2)) / 2
        then (b.1 + b.2 + (max (a.1 - a.2) 0 - (b.1 + b.2)) / 2, max (b.1 - b.2) 0)
        else (max (b.1 - b.2) 0, b.1 + b.2 + (max (a.1 - a.2) 0 - (b.1 + b.2)) / 2)) := by
  have key : ∀ p q : ℚ × ℚ, join none p [q] = [((p.1 + q.2) / 2, p.2), (q.1, (p.1 + q.2) / 2)] := by
    rintro ⟨p1, p2⟩ ⟨q1, q2⟩
    by_cases h : p1 = q2
    · subst h; simp [join, joinPrev, joinNext]
    · simp [join, joinPrev, joinNext, h]
  exact ⟨_, _, key _ _, rfl, rfl⟩

theorem again (x y z : ℚ) (hx : 0 ≤ x) (hz : 0 ≤ z) :
    round (centres [(x, y), (z, x)]) =
      [((min x y + max z x) / 2, max x y), (min z x, (min x y + max z x) / 2)] := by
  obtain ⟨⟨p, q⟩, ⟨u, v⟩, h, h1, h2⟩ := round_pair ((x + y) / 2, (y - x) / 2) ((z + x) / 2, (x - z) / 2)
  have e1 : (x + y) / 2 - (y - x) / 2 = x := by ring
  have e2 : (x + y) / 2 + (y - x) / 2 = y := by ring
  have e3 : (z + x) / 2 - (x - z) / 2 = z := by ring
  have e4 : (z + x) / 2 + (x - z) / 2 = x := by ring
  simp only [e1, e2, e3, e4, max_eq_left hx, max_eq_left hz, sub_self, zero_div, add_zero] at h1 h2
  have h' : round (centres [(x, y), (z, x)]) = [((p + v) / 2, q), (u, (p + v) / 2)] := h
  rw [h']
  split_ifs at h1 h2 <;> simp only [Prod.mk.injEq] at h1 h2 <;> obtain ⟨rfl, rfl⟩ := h1 <;> obtain ⟨rfl, rfl⟩ := h2
  all_goals simp_all [le_of_lt]

theorem dec_pair (x y z : ℚ) : decreasing [(x, y), (z, x)] = true ↔ z ≤ x ∧ x ≤ y := by
  simp [decreasing]

theorem loop_pair (x y z : ℚ) (k : ℕ) (hx : 0 ≤ x) (hy : 0 ≤ y) (hz : 0 ≤ z) : decreasing (loop (k + 2) (centres [(x, y), (z, x)])) = true := by
  unfold loop
  split_ifs with h
  · exact h
  rw [again x y z hx hz, dec_pair] at h
  rw [again x y z hx hz]
  unfold loop
  set m := (min x y + max z x) / 2 with hm
  have m0 : 0 ≤ m := by
    have := le_min hx hy
    have := hx.trans (le_max_right z x)
    rw [hm]; linarith
  split_ifs with h2
  · exact h2
  rw [again _ _ _ m0 (le_min hz hx), dec_pair] at h2
  rw [again _ _ _ m0 (le_min hz hx)]
  set m2 := (min m (max x y) + max (min z x) m) / 2 with hm2
  have m20 : 0 ≤ m2 := by
    have := le_min m0 (hx.trans (le_max_left x y))
    have := m0.trans (le_max_right (min z x) m)
    rw [hm2]; linarith
  exfalso
  apply h2
  rw [hm2]
  rcases le_total x y with a | a <;> rcases le_total z x with b | b <;>
    simp only [min_eq_left, min_eq_right, max_eq_left, max_eq_right, a, b] at hm h ⊢
  · exact absurd ⟨by linarith, by linarith⟩ h
  · rcases le_total m y with c | c <;> rcases le_total x m with e | e <;>
      simp only [min_eq_left, min_eq_right, max_eq_left, max_eq_right, c, e] <;> constructor <;> linarith
  · rcases le_total m x with c | c <;> rcases le_total z m with e | e <;>
      simp only [min_eq_left, min_eq_right, max_eq_left, max_eq_right, c, e] <;> constructor <;> linarith
  · rcases le_total m x with c | c <;> 
      simp only [min_eq_left, min_eq_right, max_eq_left, max_eq_right, c] <;> constructor <;> linarith

theorem loop_two (a b : ℚ × ℚ) (ha : 0 ≤ a.1 + a.2) (hb : 0 ≤ b.1 + b.2) : decreasing (loop 9 [a, b]) = true := by
  obtain ⟨p, q, h, hp, hq⟩ := round_pair a b
  have l1 : 0 ≤ max (a.1 - a.2) 0 := le_max_right _ _
  have l2 : 0 ≤ max (b.1 - b.2) 0 := le_max_right _ _
  have l3 : 0 ≤ max (max (a.1 - a.2) 0 + (b.1 + b.2 - max (a.1 - a.2) 0) / 2) 0 := le_max_right _ _
  have l4 : 0 ≤ b.1 + b.2 + (max (a.1 - a.2) 0 - (b.1 + b.2)) / 2 := by linarith
  have p0 : 0 ≤ p.1 ∧ 0 ≤ p.2 := by
    rw [hp]; split_ifs
    · exact ⟨ha, l3⟩
    · exact ⟨l3, ha⟩
  have q0 : 0 ≤ q.1 ∧ 0 ≤ q.2 := by
    rw [hq]; split_ifs
    · exact ⟨l4, l2⟩
    · exact ⟨l2, l4⟩
  unfold loop
  split_ifs with h0
  · exact h0
  · rw [h]
    exact loop_pair _ _ _ 6 (by linarith [p0.1, q0.2]) p0.2 q0.1

theorem pairwise_of_decreasing : ∀ es : List (ℚ × ℚ), decreasing es = true →
    (es.map Prod.fst).Pairwise (fun a b => b ≤ a) ∧ (es.map Prod.snd).Pairwise (fun a b => b ≤ a)
  | [], _ => ⟨.nil, .nil⟩
  | [_], _ => ⟨List.pairwise_singleton _ _, List.pairwise_singleton _ _⟩
  | a :: b :: rest, h => by
    have h' : (decide (b.1 ≤ a.1) && decide (b.2 ≤ a.2) && decreasing (b :: rest)) = true := h
    simp only [Bool.and_eq_true, decide_eq_true_eq] at h'
    obtain ⟨h1, h2⟩ := pairwise_of_decreasing (b :: rest) h'.2
    simp only [List.map_cons] at h1 h2 ⊢
    refine ⟨List.pairwise_cons.mpr ⟨?_, h1⟩, List.pairwise_cons.mpr ⟨?_, h2⟩⟩
    · intro y hy
      rcases List.mem_cons.mp hy with rfl | hy
      · exact h'.1.1
      · exact ((List.pairwise_cons.mp h1).1 y hy).trans h'.1.1
    · intro y hy
      rcases List.mem_cons.mp hy with rfl | hy
      · exact h'.1.2
      · exact ((List.pairwise_cons.mp h2).1 y hy).trans h'.1.2

theorem loop_short (k : ℕ) (ns : List (ℚ × ℚ)) (h : decreasing (round ns) = true) : decreasing (loop (k + 1) ns) = true := by
  unfold loop
  rw [if_pos h]
  exact h

theorem initial_two (groups : List (ℚ × Group)) (htwo : groups.length ≤ 2)
    (hg : ∀ s n sig, (s, some (n, sig)) ∈ groups → 0 ≤ n ∧ 0 ≤ sig) (ns : List (ℚ × ℚ)) (hi : initial groups = some ns) :
    ns = [] ∨ (∃ x, ns = [x]) ∨ ∃ a b, ns = [a, b] ∧ 0 ≤ a.1 + a.2 ∧ 0 ≤ b.1 + b.2 := by
  match groups, htwo with
  | [], _ =>
    simp only [initial, Option.some.injEq] at hi
    exact .inl hi.symm
  | [(_, none)], _ => simp [initial] at hi
  | [(s, some (n, sig))], _ =>
    simp only [initial, filled, List.map_cons, List.map_nil, Option.some.injEq] at hi
    exact .inr (.inl ⟨_, hi.symm⟩)
  | [(_, none), _], _ => simp [initial] at hi
  | [(s, some (n, sig)), (t, some (m, u))], _ =>
    simp only [initial, filled, List.map_cons, List.map_nil, Option.some.injEq] at hi
    have h1 := hg s n sig (by simp)
    have h2 := hg t m u (by simp)
    exact .inr (.inr ⟨_, _, hi.symm, add_nonneg h1.1 h1.2, add_nonneg h2.1 h2.2⟩)
  | [(s, some (n, sig)), (t, none)], _ =>
    simp only [initial, filled, List.map_cons, List.map_nil, Option.some.injEq] at hi
    have h1 := hg s n sig (by simp)
    refine .inr (.inr ⟨_, _, hi.symm, add_nonneg h1.1 h1.2, ?_⟩)
    simp [interpFrom]

/-- **C118, part.**  With one or two sequence numbers the times are always in order, whatever their metadata and uncertainties, even when the number of the
later one is the larger: four rounds are enough for the extents to decrease.  With three they may not be, see `C118_fails`. -/
theorem C118_two_partial (d : Draws) (ha : AgeMonotone d) (hb : DrawsBounded d) (groups : List (ℚ × Group)) (craters : List (List Metadata))
    (htwo : groups.length ≤ 2) (hg : ∀ s n sig, (s, some (n, sig)) ∈ groups → 0 ≤ n ∧ 0 ≤ sig)
    (ts : List (List ℚ)) (h : process d groups craters = .times ts) : InOrder ts := by
  have key : ∀ es, extents groups = some es → decreasing es = true := by
    intro es hes
    unfold extents at hes
    rw [Option.map_eq_some_iff] at hes
    obtain ⟨ns, hi, rfl⟩ := hes
    rcases initial_two groups htwo hg ns hi with rfl | ⟨x, rfl⟩ | ⟨a, b, rfl, h1, h2⟩
    · exact loop_short 8 [] rfl
    · exact loop_short 8 [x] rfl
    · exact loop_two a b h1 h2
  cases hes : extents groups with
  | none => unfold process at h; rw [hes] at h; simp at h
  | some es =>
    obtain ⟨h1, h2⟩ := pairwise_of_decreasing es (key es hes)
    exact C118_settled_partial d ha hb groups craters es hes h1 h2 ts h

/-- Two sequence numbers whose numbers per area increase: three rounds are needed. -/
example : process linear [(1, some (1, 0)), (2, some (9, 2))] [[.number 1 0], [.number 9 2]] = .times [[5], [4]] := by decide +kernel

/-! ### Division by zero -/

theorem joinPrev_pos {prev : Option (ℚ × ℚ)} {cur : ℚ × ℚ} (hp : ∀ p, prev = some p → 0 < p.1 ∧ 0 < p.2)
    (hc : 0 < cur.1 ∧ 0 < cur.2) :
    (∀ p ∈ (joinPrev prev cur).1.toList, 0 < p.1 ∧ 0 < p.2) ∧ 0 < (joinPrev prev cur).2.1 ∧ 0 < (joinPrev prev cur).2.2 := by
  cases prev with
  | none => simp [joinPrev, hc]
  | some p =>
    have := hp p rfl
    unfold joinPrev
    by_cases h : cur.2 ≠ p.1
    · simp only [if_pos h, Option.toList_some, List.mem_singleton, forall_eq]
      refine ⟨⟨?_, this.2⟩, hc.1, ?_⟩ <;> linarith [this.1, hc.2]
    · simp only [if_neg h, Option.toList_some, List.mem_singleton, forall_eq]
      exact ⟨this, hc⟩

theorem joinNext_pos {a b : ℚ × ℚ} (ha : 0 < a.1 ∧ 0 < a.2) (hb : 0 < b.1 ∧ 0 < b.2) :
    (0 < (joinNext a b).1.1 ∧ 0 < (joinNext a b).1.2) ∧ 0 < (joinNext a b).2.1 ∧ 0 < (joinNext a b).2.2 := by
  unfold joinNext
  by_cases h : a.1 ≠ b.2
  · simp only [if_pos h]
    refine ⟨⟨?_, ha.2⟩, hb.1, ?_⟩ <;> linarith [ha.1, hb.2]
  · simp only [if_neg h]
    exact ⟨ha, hb⟩

theorem join_pos {prev : Option (ℚ × ℚ)} {cur : ℚ × ℚ} {rest : List (ℚ × ℚ)}
    (hp : ∀ p, prev = some p → 0 < p.1 ∧ 0 < p.2) (hc : 0 < cur.1 ∧ 0 < cur.2) (hr : ∀ e ∈ rest, 0 < e.1 ∧ 0 < e.2) :
    ∀ e ∈ join prev cur rest, 0 < e.1 ∧ 0 < e.2 := by
  induction rest generalizing prev cur with
  | nil =>
    have := joinPrev_pos hp hc
    intro e he
    unfold join at he
    rcases List.mem_append.mp he with he | he
    · exact this.1 e he
    · rw [List.mem_singleton] at he
      subst he
      exact this.2
  | cons nxt rest ih =>
    have h1 := joinPrev_pos hp hc
    have h2 := joinNext_pos h1.2 (hr nxt (by simp))
    intro e he
    unfold join at he
    rcases List.mem_append.mp he with he | he
    · exact h1.1 e he
    · refine ih ?_ h2.2 (fun e h => hr e (by simp [h])) e he
      intro p hp
      rw [Option.some.injEq] at hp
      subst hp
      exact h2.1

theorem spread_pos {prev : Option ℚ} {ns : List (ℚ × ℚ)} (hp : ∀ p, prev = some p → 0 < p)
    (hn : ∀ x ∈ ns, 0 < x.1 - x.2 ∧ 0 < x.1 + x.2) : ∀ e ∈ spread prev ns, 0 < e.1 ∧ 0 < e.2 := by
  induction ns generalizing prev with
  | nil => simp [spread]
  | cons x rest ih =>
    obtain ⟨n, s⟩ := x
    have hx := hn (n, s) (by simp)
    simp only at hx
    have hlo : 0 < max (n - s) 0 := lt_max_of_lt_left hx.1
    intro e he
    unfold spread at he
    rcases List.mem_cons.mp he with rfl | he
    · have hhi : 0 < (match prev with
          | none => n + s
          | some pl => n + s + (pl - (n + s)) / 2) := by
        cases prev with
        | none => exact hx.2
        | some pl =>
          have := hp pl rfl
          simp only
          linarith
      have hlo' : 0 < (match rest with
          | [] => max (n - s) 0
          | (n', s') :: _ => max (max (n - s) 0 + (n' + s' - max (n - s) 0) / 2) 0) := by
        cases rest with
        | nil => exact hlo
        | cons y rest =>
          have := (hn y (by simp)).2
          simp only
          apply lt_max_of_lt_left
          linarith
      split_ifs
      · exact ⟨hhi, hlo'⟩
      · exact ⟨hlo', hhi⟩
    · refine ih ?_ (fun x h => hn x (by simp [h])) e he
      intro p hp
      rw [Option.some.injEq] at hp
      subst hp
      exact hlo

theorem round_pos {ns : List (ℚ × ℚ)} (hn : ∀ x ∈ ns, 0 < x.1 - x.2 ∧ 0 < x.1 + x.2) :
    ∀ e ∈ round ns, 0 < e.1 ∧ 0 < e.2 := by
  have h := spread_pos (prev := none) (by simp) hn
  unfold round
  cases hs : spread none ns with
  | nil => simp
  | cons e es =>
    rw [hs] at h
    exact join_pos (by simp) (h e (by simp)) (fun e h' => h e (by simp [h']))

theorem loop_pos {k : ℕ} {ns : List (ℚ × ℚ)} (hn : ∀ x ∈ ns, 0 < x.1 - x.2 ∧ 0 < x.1 + x.2) :
    ∀ e ∈ loop k ns, 0 < e.1 ∧ 0 < e.2 := by
  induction k generalizing ns with
  | zero => exact round_pos hn
  | succ k ih =>
    unfold loop
    split_ifs
    · exact round_pos hn
    · apply ih
      intro x hx
      unfold centres at hx
      rw [List.mem_map] at hx
      obtain ⟨e, he, rfl⟩ := hx
      have := round_pos hn e he
      constructor
      · have : (e.1 + e.2) / 2 - (e.2 - e.1) / 2 = e.1 := by ring
        simp only
        linarith
      · simp only
        linarith

theorem interp_pos {x : ℚ} {p : ℚ × ℚ} {pts : List (ℚ × ℚ)} (hx : p.1 ≤ x) (hp : ∀ q ∈ p :: pts, 0 < q.2) :
    0 < interpFrom x p pts := by
  induction pts generalizing p with
  | nil => exact hp p (by simp)
  | cons q pts ih =>
    obtain ⟨x0, y0⟩ := p
    obtain ⟨x1, y1⟩ := q
    unfold interpFrom
    have h0 : 0 < y0 := hp (x0, y0) (by simp)
    have h1 : 0 < y1 := hp (x1, y1) (by simp)
    split_ifs with hlt
    · have hx : x0 ≤ x := hx
      have hd : 0 < x1 - x0 := by linarith
      have : y0 + (x - x0) * ((y1 - y0) / (x1 - x0)) = ((x1 - x) * y0 + (x - x0) * y1) / (x1 - x0) := by
        field_simp
        ring
      rw [this]
      apply div_pos _ hd
      have ha : 0 < (x1 - x) * y0 := mul_pos (by linarith) h0
      have hb : 0 ≤ (x - x0) * y1 := mul_nonneg (by linarith) h1.le
      linarith
    · exact ih (not_lt.mp hlt) (fun q h => hp q (by simp [h]))

theorem filled_pos {groups : List (ℚ × Group)} (hg : ∀ s n sig, (s, some (n, sig)) ∈ groups → 0 < n)
    (hlast : ∀ s, groups.getLast? ≠ some (s, none)) : ∀ q ∈ filled groups, 0 < q.2 := by
  induction groups with
  | nil => simp [filled]
  | cons g rest ih =>
    obtain ⟨s, g⟩ := g
    cases rest with
    | nil =>
      cases g with
      | none => exact absurd rfl (hlast s)
      | some g =>
        have := hg s g.1 g.2 (by simp)
        simpa [filled] using this
    | cons h rest =>
      have hrec := ih (fun s n sig h => hg s n sig (List.mem_cons_of_mem _ h))
        (by intro s'; simpa [List.getLast?_cons_cons] using hlast s')
      cases g with
      | none => simpa [filled] using hrec
      | some g =>
        have := hg s g.1 g.2 (by simp)
        intro q hq
        simp only [filled, List.mem_cons] at hq
        rcases hq with rfl | hq
        · exact this
        · exact hrec q hq

theorem initial_pos {groups : List (ℚ × Group)} (hsort : (groups.map Prod.fst).Pairwise (· < ·))
    (hg : ∀ s n sig, (s, some (n, sig)) ∈ groups → 0 ≤ sig ∧ sig < n) (hlast : ∀ s, groups.getLast? ≠ some (s, none))
    {ns : List (ℚ × ℚ)} (h : initial groups = some ns) : ∀ x ∈ ns, 0 < x.1 - x.2 ∧ 0 < x.1 + x.2 := by
  unfold initial at h
  split at h
  · simp only [Option.some.injEq] at h
    subst h
    simp
  · simp at h
  · rename_i s g rest
    have hf := filled_pos (fun s n sig h => (hg s n sig h).1.trans_lt (hg s n sig h).2) hlast
    have hfirst : ∀ p pts, filled ((s, some g) :: rest) = p :: pts → p.1 = s := by
      intro p pts hp
      cases rest with
      | nil =>
        simp only [filled, List.cons.injEq] at hp
        rw [← hp.1]
      | cons b rest =>
        obtain ⟨n, sig⟩ := g
        simp only [filled, List.cons.injEq] at hp
        rw [← hp.1]
    cases hfl : filled ((s, some g) :: rest) with
    | nil => rw [hfl] at h; simp at h
    | cons p pts =>
      rw [hfl] at h hf
      simp only [Option.some.injEq] at h
      subst h
      intro x hx
      rw [List.mem_map] at hx
      obtain ⟨y, hy, rfl⟩ := hx
      obtain ⟨sy, gy⟩ := y
      cases gy with
      | some gy =>
        have := hg sy gy.1 gy.2 hy
        simp only
        constructor <;> linarith [this.1, this.2]
      | none =>
        simp only [sub_zero, add_zero, and_self]
        apply interp_pos _ hf
        rw [hfirst p pts hfl]
        rcases List.mem_cons.mp hy with h' | h'
        · simp at h'
        · simp only [List.map_cons] at hsort
          exact ((List.pairwise_cons.mp hsort).1 sy (List.mem_map.mpr ⟨_, h', rfl⟩)).le

/-- Positive extents, followed by one that begins at zero. -/
def Anchored (es : List (ℚ × ℚ)) : Prop := ∃ pre h, es = pre ++ [(0, h)] ∧ 0 < h ∧ ∀ e ∈ pre, 0 < e.1 ∧ 0 < e.2

theorem join_anchored (prev : Option (ℚ × ℚ)) (hp : ∀ p, prev = some p → 0 < p.1 ∧ 0 < p.2) (h : ℚ) (hh : 0 < h)
    (pre : List (ℚ × ℚ)) (hpre : ∀ e ∈ pre, 0 < e.1 ∧ 0 < e.2) :
    Anchored (join prev (0, h) []) ∧ ∀ cur : ℚ × ℚ, 0 < cur.1 ∧ 0 < cur.2 → Anchored (join prev cur (pre ++ [(0, h)])) := by
  have last : ∀ (prev : Option (ℚ × ℚ)) (h : ℚ), (∀ p, prev = some p → 0 < p.1 ∧ 0 < p.2) → 0 < h →
      Anchored (join prev (0, h) []) := by
    intro prev h hp hh
    cases prev with
    | none => exact ⟨[], h, rfl, hh, by simp⟩
    | some p =>
      have h0 := hp p rfl
      by_cases hc : h ≠ p.1
      · refine ⟨[((p.1 + h) / 2, p.2)], (p.1 + h) / 2, by simp [join, joinPrev, hc], by linarith [h0.1], ?_⟩
        intro e he
        rw [List.mem_singleton] at he
        subst he
        exact ⟨by simp only; linarith [h0.1], h0.2⟩
      · refine ⟨[p], h, by simp [join, joinPrev, hc], hh, ?_⟩
        intro e he
        rw [List.mem_singleton] at he
        subst he
        exact h0
  refine ⟨last prev h hp hh, ?_⟩
  have pref : ∀ (l es : List (ℚ × ℚ)), (∀ e ∈ l, 0 < e.1 ∧ 0 < e.2) → Anchored es → Anchored (l ++ es) := by
    rintro l es hl ⟨pre, h, rfl, hh, hpre⟩
    refine ⟨l ++ pre, h, by simp, hh, ?_⟩
    intro e he
    rcases List.mem_append.mp he with he | he
    · exact hl e he
    · exact hpre e he
  induction pre generalizing prev with
  | nil =>
    intro cur hc
    have h1 := joinPrev_pos hp hc
    have e : join prev cur ([] ++ [(0, h)]) = (joinPrev prev cur).1.toList ++
      join (some (joinNext (joinPrev prev cur).2 (0, h)).1) (joinNext (joinPrev prev cur).2 (0, h)).2 [] := rfl
    rw [e]
    refine pref _ _ h1.1 ?_
    unfold joinNext
    by_cases hx : (joinPrev prev cur).2.1 ≠ h
    · simp only [hx, ne_eq, not_false_eq_true, if_true]
      refine last _ _ ?_ (by linarith [h1.2.1])
      intro p hp
      rw [Option.some.injEq] at hp
      subst hp
      exact ⟨by simp only; linarith [h1.2.1], h1.2.2⟩
    · simp only [hx, if_false]
      refine last _ _ ?_ hh
      intro p hp
      rw [Option.some.injEq] at hp
      subst hp
      exact h1.2
  | cons nxt pre ih =>
    intro cur hc
    have h1 := joinPrev_pos hp hc
    have h2 := joinNext_pos h1.2 (hpre nxt (by simp))
    have e : join prev cur (nxt :: pre ++ [(0, h)]) = (joinPrev prev cur).1.toList ++
      join (some (joinNext (joinPrev prev cur).2 nxt).1) (joinNext (joinPrev prev cur).2 nxt).2 (pre ++ [(0, h)]) := rfl
    rw [e]
    refine pref _ _ h1.1 ?_
    refine ih _ ?_ (fun e h => hpre e (by simp [h])) _ h2.2
    intro p hp
    rw [Option.some.injEq] at hp
    subst hp
    exact h2.1

theorem spread_anchored (prev : Option ℚ) (hp : ∀ p, prev = some p → 0 < p) (n : ℚ) (hn : 0 ≤ n) (pre : List (ℚ × ℚ))
    (hpre : ∀ x ∈ pre, 0 < x.1 - x.2 ∧ 0 < x.1 + x.2) (hne : 0 < n ∨ prev ≠ none ∨ pre ≠ []) :
    Anchored (spread prev (pre ++ [(n, n)])) := by
  induction pre generalizing prev with
  | nil =>
    cases prev with
    | none =>
      have h0 : 0 < n := by simpa using hne
      refine ⟨[], n + n, ?_, by linarith, by simp⟩
      have : ¬ n + n < 0 := by linarith
      simp [spread, this]
    | some p =>
      have h0 := hp p rfl
      have h1 : 0 < n + n + (p - (n + n)) / 2 := by linarith
      refine ⟨[], _, ?_, h1, by simp⟩
      simp [spread, not_lt.mpr h1.le]
  | cons x pre ih =>
    obtain ⟨m, s⟩ := x
    have hx := hpre (m, s) (by simp)
    simp only at hx
    have hlo : 0 < max (m - s) 0 := lt_max_of_lt_left hx.1
    obtain ⟨q, h, hq, hh, hpos⟩ := ih (some (max (m - s) 0)) (by simpa using hx.1) (fun x h => hpre x (by simp [h])) (by simp)
    have hnext : ∀ y, (pre ++ [(n, n)]).head? = some y → 0 ≤ y.1 + y.2 := by
      intro y hy
      cases pre with
      | nil =>
        simp only [List.nil_append, List.head?_cons, Option.some.injEq] at hy
        subst hy
        simp only
        linarith
      | cons z pre =>
        simp only [List.cons_append, List.head?_cons, Option.some.injEq] at hy
        subst hy
        exact (hpre z (by simp)).2.le
    have hcons : ∃ e : ℚ × ℚ, spread prev ((m, s) :: pre ++ [(n, n)]) = e :: spread (some (max (m - s) 0)) (pre ++ [(n, n)]) ∧ 0 < e.1 ∧ 0 < e.2 := by
      refine ⟨_, rfl, ?_⟩
      have hhi : 0 < (match prev with
          | none => m + s
          | some pl => m + s + (pl - (m + s)) / 2) := by
        cases prev with
        | none => exact hx.2
        | some pl =>
          have := hp pl rfl
          simp only
          linarith
      have hlo' : 0 < (match pre ++ [(n, n)] with
          | [] => max (m - s) 0
          | (n', s') :: _ => max (max (m - s) 0 + (n' + s' - max (m - s) 0) / 2) 0) := by
        revert hnext
        cases pre ++ [(n, n)] with
        | nil => exact fun _ => hlo
        | cons y rest =>
          intro hnext
          have := hnext y rfl
          simp only
          apply lt_max_of_lt_left
          linarith
      split_ifs
      · exact ⟨hhi, hlo'⟩
      · exact ⟨hlo', hhi⟩
    obtain ⟨e, he, h1, h2⟩ := hcons
    rw [he, hq]
    refine ⟨e :: q, h, rfl, hh, ?_⟩
    intro x hx
    rcases List.mem_cons.mp hx with rfl | hx
    · exact ⟨h1, h2⟩
    · exact hpos x hx

theorem round_anchored (n : ℚ) (hn : 0 ≤ n) (pre : List (ℚ × ℚ)) (hpre : ∀ x ∈ pre, 0 < x.1 - x.2 ∧ 0 < x.1 + x.2)
    (hne : 0 < n ∨ pre ≠ []) : Anchored (round (pre ++ [(n, n)])) := by
  obtain ⟨q, h, hq, hh, hpos⟩ := spread_anchored none (by simp) n hn pre hpre (by rcases hne with h | h <;> simp [h])
  unfold round
  rw [hq]
  cases q with
  | nil => exact (join_anchored none (by simp) h hh [] (by simp)).1
  | cons e q => exact (join_anchored none (by simp) h hh q (fun x hx => hpos x (by simp [hx]))).2 e (hpos e (by simp))

theorem loop_anchored (k : ℕ) (n : ℚ) (hn : 0 ≤ n) (pre : List (ℚ × ℚ)) (hpre : ∀ x ∈ pre, 0 < x.1 - x.2 ∧ 0 < x.1 + x.2)
    (hne : 0 < n ∨ pre ≠ []) : Anchored (loop k (pre ++ [(n, n)])) := by
  induction k generalizing n pre with
  | zero => exact round_anchored n hn pre hpre hne
  | succ k ih =>
    unfold loop
    have hr := round_anchored n hn pre hpre hne
    split_ifs
    · exact hr
    · obtain ⟨q, h, hq, hh, hpos⟩ := hr
      rw [hq]
      have e : centres (q ++ [(0, h)]) = centres q ++ [(h / 2, h / 2)] := by simp [centres]
      rw [e]
      refine ih (h / 2) (by linarith) _ ?_ (.inl (by linarith))
      intro x hx
      unfold centres at hx
      rw [List.mem_map] at hx
      obtain ⟨e, he, rfl⟩ := hx
      have := hpos e he
      constructor
      · have : (e.1 + e.2) / 2 - (e.2 - e.1) / 2 = e.1 := by ring
        simp only
        linarith
      · simp only
        linarith

theorem filled_anchored (s : ℚ) (pre : List (ℚ × Group)) :
    ∃ mid, filled (pre ++ [(s, none)]) = mid ++ [(s, 0)] ∧ ∀ q ∈ mid, ∃ sig, (q.1, some (q.2, sig)) ∈ pre := by
  induction pre with
  | nil => exact ⟨[], rfl, by simp⟩
  | cons x pre ih =>
    obtain ⟨mid, h1, h2⟩ := ih
    obtain ⟨t, g⟩ := x
    have hne : ∃ y ys, pre ++ [(s, none)] = y :: ys := by cases pre <;> simp
    obtain ⟨y, ys, hy⟩ := hne
    cases g with
    | none =>
      refine ⟨mid, ?_, fun q hq => ?_⟩
      · rw [← h1, List.cons_append, hy]; rfl
      · obtain ⟨sig, h⟩ := h2 q hq
        exact ⟨sig, List.mem_cons_of_mem _ h⟩
    | some g =>
      obtain ⟨n, sig⟩ := g
      refine ⟨(t, n) :: mid, ?_, ?_⟩
      · rw [List.cons_append, List.cons_append, ← h1, hy]; rfl
      · intro q hq
        rcases List.mem_cons.mp hq with rfl | hq
        · exact ⟨sig, by simp⟩
        · obtain ⟨sig', h⟩ := h2 q hq
          exact ⟨sig', List.mem_cons_of_mem _ h⟩

theorem interp_last (X : ℚ) (p : ℚ × ℚ) (mid : List (ℚ × ℚ)) (h : ∀ q ∈ mid, q.1 ≤ X) : interpFrom X p (mid ++ [(X, 0)]) = 0 := by
  induction mid generalizing p with
  | nil => obtain ⟨a, b⟩ := p; simp [interpFrom]
  | cons q mid ih =>
    obtain ⟨a, b⟩ := p
    obtain ⟨c, e⟩ := q
    have h0 : ¬ X < c := not_lt.mpr (h (c, e) (by simp))
    rw [List.cons_append]
    unfold interpFrom
    rw [if_neg h0]
    exact ih _ (fun q hq => h q (by simp [hq]))

theorem interp_before (x X : ℚ) (hX : x < X) (p : ℚ × ℚ) (hx : p.1 ≤ x) (hp : 0 < p.2) (mid : List (ℚ × ℚ)) (h : ∀ q ∈ mid, 0 < q.2) :
    0 < interpFrom x p (mid ++ [(X, 0)]) := by
  have key : ∀ x0 y0 x1 y1 : ℚ, x0 ≤ x → x < x1 → 0 < y0 → 0 ≤ y1 → 0 < y0 + (x - x0) * ((y1 - y0) / (x1 - x0)) := by
    intro x0 y0 x1 y1 h0 h1 h2 h3
    have hd : 0 < x1 - x0 := by linarith
    have : y0 + (x - x0) * ((y1 - y0) / (x1 - x0)) = ((x1 - x) * y0 + (x - x0) * y1) / (x1 - x0) := by
      field_simp
      ring
    rw [this]
    apply div_pos _ hd
    have ha : 0 < (x1 - x) * y0 := mul_pos (by linarith) h2
    have hb : 0 ≤ (x - x0) * y1 := mul_nonneg (by linarith) h3
    linarith
  induction mid generalizing p with
  | nil =>
    obtain ⟨a, b⟩ := p
    rw [List.nil_append]
    unfold interpFrom
    rw [if_pos hX]
    exact key a b X 0 hx hX hp le_rfl
  | cons q mid ih =>
    obtain ⟨a, b⟩ := p
    obtain ⟨c, e⟩ := q
    have h0 : 0 < e := h (c, e) (by simp)
    rw [List.cons_append]
    unfold interpFrom
    split_ifs with hlt
    · exact key a b c e hx hlt hp h0.le
    · exact ih _ (not_lt.mp hlt) h0 (fun q hq => h q (by simp [hq]))

/-- The numbers per area with which the rounds begin when the last sequence number has none. -/
theorem initial_anchored (pre : List (ℚ × Group)) (s : ℚ) (hsort : ((pre ++ [(s, none)]).map Prod.fst).Pairwise (· < ·))
    (hg : ∀ t n sig, (t, some (n, sig)) ∈ pre → 0 ≤ sig ∧ sig < n) (ns : List (ℚ × ℚ)) (h : initial (pre ++ [(s, none)]) = some ns) :
    ∃ q, q ≠ [] ∧ ns = q ++ [(0, 0)] ∧ ∀ x ∈ q, 0 < x.1 - x.2 ∧ 0 < x.1 + x.2 := by
  match pre with
  | [] => simp [initial] at h
  | (t, none) :: pre => simp [initial] at h
  | (t, some g) :: pre =>
    obtain ⟨mid, hf, hmid⟩ := filled_anchored s ((t, some g) :: pre)
    rw [List.map_append, List.pairwise_append] at hsort
    obtain ⟨hs1, -, hs2⟩ := hsort
    have hlt : ∀ y ∈ (t, some g) :: pre, y.1 < s := fun y hy => hs2 y.1 (List.mem_map.mpr ⟨y, hy, rfl⟩) s (by simp)
    have hfirst : ∃ rest, mid = (t, g.1) :: rest := by
      obtain ⟨n, sig⟩ := g
      obtain ⟨y, ys, hy⟩ : ∃ y ys, pre ++ [(s, none)] = y :: ys := by cases pre <;> simp
      rw [List.cons_append, hy] at hf
      simp only [filled] at hf
      cases mid with
      | nil =>
        exfalso
        simp only [List.nil_append, List.cons.injEq, Prod.mk.injEq] at hf
        have := hlt (t, some (n, sig)) (by simp)
        simp only at this
        rw [hf.1.1] at this
        exact lt_irrefl _ this
      | cons z rest =>
        simp only [List.cons_append, List.cons.injEq] at hf
        exact ⟨rest, by rw [← hf.1]⟩
    obtain ⟨rest, rfl⟩ := hfirst
    have hi : initial ((t, some g) :: (pre ++ [(s, none)])) = some ns := h
    simp only [initial] at hi
    rw [List.cons_append] at hf
    rw [hf] at hi
    simp only [List.cons_append, Option.some.injEq] at hi
    have hposmid : ∀ q ∈ (t, g.1) :: rest, 0 < q.2 ∧ q.1 ≤ s := by
      intro q hq
      obtain ⟨sig, hm⟩ := hmid q hq
      have h1 := hg _ _ _ hm
      exact ⟨h1.1.trans_lt h1.2, (hlt _ hm).le⟩
    refine ⟨((t, some g) :: pre).map (fun x => match x.2 with | some g => g | none => (interpFrom x.1 (t, g.1) (rest ++ [(s, 0)]), 0)),
      by simp, ?_, ?_⟩
    · rw [← hi]
      simp only [List.map_cons, List.map_append, List.map_nil, List.cons_append]
      rw [interp_last s (t, g.1) rest (fun q hq => (hposmid q (by simp [hq])).2)]
      rfl
    · intro x hx
      rw [List.mem_map] at hx
      obtain ⟨y, hy, rfl⟩ := hx
      obtain ⟨sy, gy⟩ := y
      cases gy with
      | some gy =>
        have := hg sy gy.1 gy.2 hy
        simp only
        constructor <;> linarith [this.1, this.2]
      | none =>
        simp only [sub_zero, add_zero, and_self]
        refine interp_before sy s (hlt _ hy) _ ?_ (hposmid _ (by simp)).1 _ (fun q hq => (hposmid q (by simp [hq])).1)
        rcases List.mem_cons.mp hy with h' | h'
        · simp at h'
        · simp only [List.map_cons] at hs1
          exact ((List.pairwise_cons.mp hs1).1 sy (List.mem_map.mpr ⟨_, h', rfl⟩)).le

theorem drawTime_some {d : Draws} (hpos : ∀ n, 0 < n → 0 < d.age n) (hzero : 0 ≤ d.age 0) {e : ℚ × ℚ}
    (he : 0 ≤ e.1 ∧ 0 < e.2) (m : Metadata) : drawTime d e m ≠ none := by
  have hw : ∀ lo hi : ℚ, 0 ≤ lo → 0 < hi → ∃ s, halfWidth lo hi = some s := by
    intro lo hi h1 h2
    unfold halfWidth
    rw [if_neg (by linarith)]
    exact ⟨_, rfl⟩
  have hage : 0 ≤ d.age (max e.1 0) := by
    rw [max_eq_left he.1]
    rcases he.1.eq_or_lt with h | h
    · rw [← h]; exact hzero
    · exact (hpos _ h).le
  obtain ⟨s, hs⟩ := hw (max e.1 0) e.2 (le_max_right _ _) he.2
  obtain ⟨u, hu⟩ := hw (d.age (max e.1 0)) (d.age e.2) hage (hpos _ he.2)
  unfold drawTime
  simp [hs, hu]
/-- **C119, part.**  No division by zero occurs if every sequence number with metadata has an N value that exceeds its uncertainty: the other numbers,
the last one included, may have metadata or not.  Ages of positive numbers are positive, and that of zero is not negative.  Missing: uncertainties that
reach the value, see `C119_fails`. -/
theorem C119_partial (d : Draws) (hpos : ∀ n, 0 < n → 0 < d.age n) (hzero : 0 ≤ d.age 0) (groups : List (ℚ × Group))
    (craters : List (List Metadata)) (hsort : (groups.map Prod.fst).Pairwise (· < ·))
    (hg : ∀ s n sig, (s, some (n, sig)) ∈ groups → 0 ≤ sig ∧ sig < n) :
    process d groups craters ≠ .divisionByZero := by
  unfold process
  cases hes : extents groups with
  | none => simp
  | some es =>
    have hp : ∀ e ∈ es, 0 ≤ e.1 ∧ 0 < e.2 := by
      unfold extents at hes
      rw [Option.map_eq_some_iff] at hes
      obtain ⟨ns, h1, rfl⟩ := hes
      by_cases hlast : ∀ s, groups.getLast? ≠ some (s, none)
      · intro e he
        have := loop_pos (initial_pos hsort hg hlast h1) e he
        exact ⟨this.1.le, this.2⟩
      · push Not at hlast
        obtain ⟨s, hs⟩ := hlast
        obtain ⟨pre, rfl⟩ := List.getLast?_eq_some_iff.mp hs
        obtain ⟨q, hq, rfl, hqp⟩ := initial_anchored pre s hsort (fun t n sig h => hg t n sig (List.mem_append_left _ h)) ns h1
        obtain ⟨r, h, hr, hh, hrp⟩ := loop_anchored 9 0 le_rfl q hqp (.inr hq)
        rw [hr]
        intro e he
        rcases List.mem_append.mp he with he | he
        · exact ⟨(hrp e he).1.le, (hrp e he).2⟩
        · rw [List.mem_singleton] at he
          subst he
          exact ⟨le_rfl, hh⟩
    have hgroup : ∀ e, 0 ≤ e.1 ∧ 0 < e.2 → ∀ g : List Metadata, drawGroup d e g ≠ none := by
      intro e he g
      induction g with
      | nil => simp [drawGroup]
      | cons m ms ih =>
        unfold drawGroup
        cases h1 : drawTime d e m with
        | none => exact absurd h1 (drawTime_some hpos hzero he m)
        | some t => simpa using ih
    have hall : ∀ (es : List (ℚ × ℚ)) (gs : List (List Metadata)), (∀ e ∈ es, 0 ≤ e.1 ∧ 0 < e.2) → drawAll d es gs ≠ none := by
      intro es
      induction es with
      | nil => intro gs _; simp [drawAll]
      | cons e es ih =>
        intro gs he
        cases gs with
        | nil => simp [drawAll]
        | cons g gs =>
          unfold drawAll
          cases h1 : drawGroup d e g with
          | none => exact absurd h1 (hgroup e (he e (by simp)) g)
          | some t => simpa using ih gs (fun e h => he e (by simp [h]))
    simp only
    cases hts : drawAll d es craters with
    | none => exact absurd hts (hall es craters hp)
    | some us =>
      simp only
      split_ifs <;> simp

/-- Metadata only for the first of three sequence numbers. -/
example : process linear [(1, some (8, 2)), (2, none), (3, none)] [[.number 8 2], [.nothing], [.nothing]] =
    .times [[5], [2], [0]] ∧ (∀ n : ℚ, 0 < n → 0 < linear.age n) ∧ 0 ≤ linear.age 0 :=
  ⟨by decide +kernel, fun _ h => h, le_refl _⟩

/-- **C119 fails.**  When the first of two sequence numbers has an N value with an uncertainty that reaches or exceeds it, and the second, the last one, has
no metadata and so is anchored at zero, the extent of the second is empty at zero: processing ends in a division by zero, whatever the draws.  By
`C119_partial` it does not when the uncertainty is smaller. -/
theorem C119_fails (d : Draws) (s t n sig : ℚ) (hn : 0 ≤ n) (hs : n ≤ sig) (a b : List Metadata) (hb : b ≠ []) :
    process d [(s, some (n, sig)), (t, none)] [a, b] = .divisionByZero := by
  have hi : initial [(s, some (n, sig)), (t, none)] = some [(n, sig), (0, 0)] := by
    simp [initial, filled, interpFrom]
  have hr : round [(n, sig), (0, 0)] = [(0, n + sig), (0, 0)] := by
    have h1 : max (n - sig) 0 = 0 := max_eq_right (by linarith)
    have h2 : ¬ n + sig < 0 := by linarith
    simp [round, spread, join, joinPrev, joinNext, h1, h2]
  have hl : ∀ k, loop k [(n, sig), (0, 0)] = [(0, n + sig), (0, 0)] := by
    intro k
    cases k with
    | zero => exact hr
    | succ k =>
      unfold loop
      rw [hr, if_pos]
      simp [decreasing, add_nonneg hn (hn.trans hs)]
  have hes : extents [(s, some (n, sig)), (t, none)] = some [(0, n + sig), (0, 0)] := by
    unfold extents
    rw [hi, Option.map_some, hl]
  have hzero : ∀ m, drawTime d (0, 0) m = none := by
    intro m
    simp [drawTime, halfWidth]
  have hall : drawAll d [(0, n + sig), (0, 0)] [a, b] = none := by
    unfold drawAll
    cases drawGroup d (0, n + sig) a with
    | none => rfl
    | some ts =>
      obtain ⟨m, ms, rfl⟩ := List.exists_cons_of_ne_nil hb
      simp [drawAll, drawGroup, hzero]
  unfold process
  rw [hes]
  simp only [hall]

example : process linear [(1, some (1, 1)), (2, none)] [[.number 1 1], [.nothing]] = .divisionByZero :=
  C119_fails linear 1 2 1 1 (by norm_num) le_rfl _ _ (by simp)

/-! ### The size range -/

/-- **C120, part.**  While prescribed craters are set, the sampled size range ends at or below each of them and not above
where it ended before. -/
theorem C120_partial (hi : ℚ) (ds : List ℚ) : assign hi ds ≤ hi ∧ ∀ d ∈ ds, assign hi ds ≤ d := by
  have key : ∀ (ds : List ℚ) (hi : ℚ), upperEnd hi ds ≤ hi ∧ ∀ d ∈ ds, upperEnd hi ds ≤ d := by
    intro ds
    induction ds with
    | nil => intro hi; simp [upperEnd]
    | cons d ds ih =>
      intro hi
      obtain ⟨h1, h2⟩ := ih (min hi d)
      unfold upperEnd
      refine ⟨h1.trans (min_le_left _ _), ?_⟩
      intro x hx
      rcases List.mem_cons.mp hx with rfl | hx
      · exact h1.trans (min_le_right _ _)
      · exact h2 x hx
  cases ds with
  | nil => simp [assign]
  | cons d ds => exact key (d :: ds) hi

/-- After any sequence of assignments the size range ends at the smallest of its first end and the diameters of all the craters that
were ever assigned, whether they are still prescribed or not. -/
theorem C120_history (hi : ℚ) (hist : List (List ℚ)) :
    (hist.foldl assign hi ≤ hi ∧ ∀ ds ∈ hist, ∀ d ∈ ds, hist.foldl assign hi ≤ d) ∧
    (hist.foldl assign hi = hi ∨ ∃ ds ∈ hist, hist.foldl assign hi ∈ ds) := by
  have mem : ∀ (ds : List ℚ) (hi : ℚ), upperEnd hi ds = hi ∨ upperEnd hi ds ∈ ds := by
    intro ds
    induction ds with
    | nil => intro hi; exact .inl rfl
    | cons d ds ih =>
      intro hi
      unfold upperEnd
      rcases ih (min hi d) with h | h
      · rw [h]
        rcases min_choice hi d with h' | h' <;> simp [h']
      · exact .inr (List.mem_cons_of_mem _ h)
  have memA : ∀ (ds : List ℚ) (hi : ℚ), assign hi ds = hi ∨ assign hi ds ∈ ds := by
    intro ds hi
    cases ds with
    | nil => exact .inl rfl
    | cons d ds => exact mem (d :: ds) hi
  induction hist generalizing hi with
  | nil => simp
  | cons ds hist ih =>
    obtain ⟨⟨h1, h2⟩, h3⟩ := ih (assign hi ds)
    obtain ⟨p1, p2⟩ := C120_partial hi ds
    simp only [List.foldl_cons]
    refine ⟨⟨h1.trans p1, ?_⟩, ?_⟩
    · intro ds' hds' d hd
      rcases List.mem_cons.mp hds' with rfl | hds'
      · exact h1.trans (p2 d hd)
      · exact h2 ds' hds' d hd
    · rcases h3 with h3 | ⟨ds', hm, h3⟩
      · rw [h3]
        rcases memA ds hi with h | h
        · exact .inl h
        · exact .inr ⟨ds, by simp, h⟩
      · exact .inr ⟨ds', by simp [hm], h3⟩

/-- **C120 fails.**  Taking the prescribed craters away again, or replacing them by larger ones, does not give the size
range back. -/
theorem C120_fails : ∃ (hi : ℚ) (ds : List ℚ), assign (assign hi ds) [] ≠ assign hi [] ∧
    ∃ ds', assign (assign hi ds) ds' ≠ assign hi ds' :=
  ⟨10, [3], by decide +kernel, [5], by decide +kernel⟩

end Verif.Sequence
