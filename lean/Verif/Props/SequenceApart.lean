import Verif.Props.SequenceRange

/-! Properties C252 and C246 for sequence numbers with uncertain crater numbers: what happens if the ranges `n ± sig` are apart, and if they overlap. -/

namespace Verif.Sequence

/-! ### Specification -/

/-- Each range `n ± sig` lies below those of all earlier sequence numbers. -/
def Apart (l : List (ℚ × ℚ)) : Prop := l.Pairwise fun x y => y.1 + y.2 ≤ x.1 - x.2

/-! ### Helpers -/

/-- The extents for ranges that are apart: each reaches half way to its neighbours. -/
def gaps : Option ℚ → List (ℚ × ℚ) → List (ℚ × ℚ)
  | _, [] => []
  | prev, (n, s) :: rest =>
    ((match rest with
      | [] => n - s
      | (n', s') :: _ => (n - s + (n' + s')) / 2),
     (match prev with
      | none => n + s
      | some p => (n + s + p) / 2)) :: gaps (some (n - s)) rest

theorem spread_apart (prev : Option ℚ) (l : List (ℚ × ℚ)) (h0 : ∀ x ∈ l, 0 ≤ x.2 ∧ x.2 ≤ x.1) (hd : Apart l)
    (hp : ∀ p, prev = some p → ∀ x ∈ l, x.1 + x.2 ≤ p) : spread prev l = gaps prev l := by
  induction l generalizing prev with
  | nil => rfl
  | cons x l ih =>
    obtain ⟨n, s⟩ := x
    obtain ⟨hs, hn⟩ := h0 (n, s) List.mem_cons_self
    simp only at hs hn
    have hd' := List.pairwise_cons.1 hd
    have hrest := ih (some (n - s)) (fun x hx => h0 x (List.mem_cons_of_mem _ hx)) hd'.2 (fun p hp x hx => by
      cases hp; exact hd'.1 x hx)
    have hm : max (n - s) 0 = n - s := max_eq_left (by linarith)
    have hpv : ∀ p, prev = some p → n + s ≤ p := fun p h => hp p h (n, s) List.mem_cons_self
    simp only [spread, hm, hrest, gaps]
    congr 1
    cases l with
    | nil =>
      cases prev with
      | none => simp only; rw [if_neg (by linarith)]
      | some p =>
        have := hpv p rfl
        simp only
        rw [if_neg (by linarith)]
        exact Prod.ext rfl (by simp only; ring)
    | cons y l =>
      obtain ⟨n', s'⟩ := y
      have hy : n' + s' ≤ n - s := hd'.1 (n', s') List.mem_cons_self
      obtain ⟨hs', hn'⟩ := h0 (n', s') (by simp)
      simp only at hs' hn'
      have hm' : max (n - s + (n' + s' - (n - s)) / 2) 0 = (n - s + (n' + s')) / 2 := by
        rw [max_eq_left (by linarith)]; ring
      cases prev with
      | none => simp only [hm']; rw [if_neg (by linarith)]
      | some p =>
        have := hpv p rfl
        simp only [hm']
        rw [if_neg (by linarith)]
        exact Prod.ext rfl (by simp only; ring)

theorem gaps_shared (prev : Option ℚ) (l : List (ℚ × ℚ)) : Shared (gaps prev l) := by
  induction l generalizing prev with
  | nil => trivial
  | cons x l ih =>
    obtain ⟨n, s⟩ := x
    cases l with
    | nil => trivial
    | cons y l =>
      obtain ⟨n', s'⟩ := y
      exact ⟨by simp only; ring, ih (some (n - s))⟩

theorem gaps_get (prev : Option ℚ) (l : List (ℚ × ℚ)) (h0 : ∀ x ∈ l, 0 ≤ x.2 ∧ x.2 ≤ x.1) (hd : Apart l)
    (hp : ∀ p, prev = some p → ∀ x ∈ l, x.1 + x.2 ≤ p) (k : ℕ) (x : ℚ × ℚ) (hk : l[k]? = some x) :
    ∃ e, (gaps prev l)[k]? = some e ∧ 0 ≤ e.1 ∧ e.1 ≤ x.1 - x.2 ∧ x.1 + x.2 ≤ e.2 := by
  induction l generalizing prev k with
  | nil => simp at hk
  | cons y l ih =>
    obtain ⟨n, s⟩ := y
    obtain ⟨hs, hn⟩ := h0 (n, s) List.mem_cons_self
    simp only at hs hn
    have hd' := List.pairwise_cons.1 hd
    cases k with
    | zero =>
      simp only [List.getElem?_cons_zero, Option.some.injEq] at hk
      subst hk
      refine ⟨_, rfl, ?_, ?_, ?_⟩
      · cases l with
        | nil => simp only; linarith
        | cons z l => obtain ⟨hz1, hz2⟩ := h0 z (by simp); simp only; linarith
      · cases l with
        | nil => exact le_refl _
        | cons z l => have := hd'.1 z List.mem_cons_self; simp only at this ⊢; linarith
      · cases prev with
        | none => exact le_refl _
        | some p => have := hp p rfl (n, s) List.mem_cons_self; simp only at this ⊢; linarith
    | succ k =>
      simp only [List.getElem?_cons_succ] at hk
      exact ih (some (n - s)) (fun x hx => h0 x (List.mem_cons_of_mem _ hx)) hd'.2 (fun p hp x hx => by cases hp; exact hd'.1 x hx) k hk

theorem gaps_pos (prev : Option ℚ) (l : List (ℚ × ℚ)) (h0 : ∀ x ∈ l, 0 ≤ x.2 ∧ x.2 < x.1) : ∀ e ∈ gaps prev l, 0 < e.1 := by
  induction l generalizing prev with
  | nil => simp [gaps]
  | cons x l ih =>
    obtain ⟨n, s⟩ := x
    obtain ⟨hs, hn⟩ := h0 (n, s) List.mem_cons_self
    simp only at hs hn
    intro e he
    have he := List.mem_cons.1 he
    rcases he with rfl | he
    · cases l with
      | nil => simp only; linarith
      | cons z l => obtain ⟨hz1, hz2⟩ := h0 z (by simp); simp only; linarith
    · exact ih _ (fun x hx => h0 x (List.mem_cons_of_mem _ hx)) e he

theorem gaps_middle (prev : Option ℚ) (xs : List (ℚ × ℚ)) (x y z : ℚ × ℚ) (zs : List (ℚ × ℚ)) :
    (gaps prev (xs ++ x :: y :: z :: zs))[xs.length + 1]? = some ((y.1 - y.2 + (z.1 + z.2)) / 2, (y.1 + y.2 + (x.1 - x.2)) / 2) := by
  induction xs generalizing prev with
  | nil => obtain ⟨a, b⟩ := x; obtain ⟨c, e⟩ := y; obtain ⟨f, g⟩ := z; rfl
  | cons w xs ih => obtain ⟨a, b⟩ := w; exact ih (some (a - b))

theorem decreasing_of {es : List (ℚ × ℚ)} (hs : Shared es) (hle : ∀ e ∈ es, e.1 ≤ e.2) : decreasing es = true := by
  induction es with
  | nil => rfl
  | cons a es ih =>
    cases es with
    | nil => rfl
    | cons b es =>
      have h1 := hle a (by simp)
      have h2 := hle b (by simp)
      have h3 : a.1 = b.2 := hs.1
      simp only [decreasing, Bool.and_eq_true, decide_eq_true_eq]
      exact ⟨⟨by linarith, by linarith⟩, ih hs.2 fun e he => hle e (List.mem_cons_of_mem _ he)⟩

theorem gaps_length (prev : Option ℚ) (l : List (ℚ × ℚ)) : (gaps prev l).length = l.length := by
  induction l generalizing prev with
  | nil => rfl
  | cons x l ih => obtain ⟨n, s⟩ := x; simp [gaps, ih]

theorem gaps_le (l : List (ℚ × ℚ)) (h0 : ∀ x ∈ l, 0 ≤ x.2 ∧ x.2 ≤ x.1) (hd : Apart l) : ∀ e ∈ gaps none l, e.1 ≤ e.2 := by
  intro e he
  obtain ⟨k, hk⟩ := List.mem_iff_getElem?.1 he
  have hlt : k < l.length := by
    rw [← gaps_length none l]
    exact (List.getElem?_eq_some_iff.1 hk).1
  obtain ⟨e', he', -, h1, h2⟩ := gaps_get none l h0 hd (by simp) k l[k] (List.getElem?_eq_getElem hlt)
  rw [hk, Option.some.injEq] at he'
  subst he'
  have := (h0 l[k] (List.getElem_mem hlt)).1
  linarith

theorem loop_apart (l : List (ℚ × ℚ)) (h0 : ∀ x ∈ l, 0 ≤ x.2 ∧ x.2 ≤ x.1) (hd : Apart l) (k : ℕ) : loop k l = gaps none l := by
  have hr : round l = gaps none l := by
    unfold round
    rw [spread_apart none l h0 hd (by simp)]
    have hs := gaps_shared none l
    cases he : gaps none l with
    | nil => rfl
    | cons e es => rw [he] at hs; exact join_same none e es hs
  cases k with
  | zero => exact hr
  | succ k => simp only [loop, hr, decreasing_of (gaps_shared none l) (gaps_le l h0 hd), if_true]

theorem initial_known (l : List (ℚ × ℚ × ℚ)) : initial (l.map fun x => (x.1, some x.2)) = some (l.map Prod.snd) := by
  cases l with
  | nil => rfl
  | cons x l =>
    obtain ⟨p, pts, hp⟩ := filled_some x.1 x.2 (l.map fun x => (x.1, some x.2))
    simp only [List.map_cons, initial, hp, List.map_map]
    rfl

theorem drawAll_nth {d : Draws} {es : List (ℚ × ℚ)} {gs : List (List Metadata)} {ts : List (List ℚ)} (h : drawAll d es gs = some ts) (k : ℕ)
    (e : ℚ × ℚ) (he : es[k]? = some e) (g : List Metadata) (hg : gs[k]? = some g) : ∃ us, ts[k]? = some us ∧ drawGroup d e g = some us := by
  induction es generalizing gs ts k with
  | nil => simp at he
  | cons e' es ih =>
    cases gs with
    | nil => simp at hg
    | cons g' gs =>
      unfold drawAll at h
      cases h1 : drawGroup d e' g' with
      | none => rw [h1] at h; simp at h
      | some us' =>
        rw [h1] at h
        simp only [Option.map_eq_some_iff] at h
        obtain ⟨rest, h2, rfl⟩ := h
        cases k with
        | zero =>
          simp only [List.getElem?_cons_zero, Option.some.injEq] at he hg
          subst he; subst hg
          exact ⟨us', rfl, h1⟩
        | succ k =>
          simp only [List.getElem?_cons_succ] at he hg
          exact ih h2 k he hg

theorem spread_length (prev : Option ℚ) (l : List (ℚ × ℚ)) : (spread prev l).length = l.length := by
  induction l generalizing prev with
  | nil => rfl
  | cons x l ih => obtain ⟨n, s⟩ := x; simp [spread, ih]

theorem joinPrev_toList (prev : Option (ℚ × ℚ)) (cur : ℚ × ℚ) : (joinPrev prev cur).1.toList.length = prev.toList.length := by
  cases prev with
  | none => rfl
  | some p => simp only [joinPrev]; split_ifs <;> rfl

theorem join_length (prev : Option (ℚ × ℚ)) (cur : ℚ × ℚ) (rest : List (ℚ × ℚ)) :
    (join prev cur rest).length = prev.toList.length + 1 + rest.length := by
  induction rest generalizing prev cur with
  | nil => simp [join, joinPrev_toList]
  | cons n rest ih => simp only [join, List.length_append, joinPrev_toList, ih, Option.toList_some, List.length_cons, List.length_nil]; omega

theorem round_length (l : List (ℚ × ℚ)) : (round l).length = l.length := by
  have h := spread_length none l
  unfold round
  cases he : spread none l with
  | nil => rw [he] at h; exact h
  | cons e es => rw [he] at h; simp only [join_length, Option.toList_none, List.length_nil]; simpa [add_comm] using h

theorem loop_length (k : ℕ) (l : List (ℚ × ℚ)) : (loop k l).length = l.length := by
  induction k generalizing l with
  | zero => exact round_length l
  | succ k ih =>
    simp only [loop]
    split_ifs
    · exact round_length l
    · rw [ih, centres, List.length_map, round_length]

/-! ### Theorems -/

/-- **C252, part.**  If all sequence numbers have crater numbers and the ranges `n ± sig` are apart and in the order of the sequence numbers, processing succeeds
and the craters form in the order of their sequence numbers, for any number of them and any craters in each.  Missing: ranges that overlap, see
`C252_fails`. -/
theorem C252_apart_partial (d : Draws) (ha : AgeMonotone d) (hb : DrawsBounded d) (hpos : ∀ n, 0 < n → 0 < d.age n) (hzero : 0 ≤ d.age 0)
    (l : List (ℚ × ℚ × ℚ)) (hs : (l.map Prod.fst).Pairwise (· < ·)) (h0 : ∀ x ∈ l, 0 ≤ x.2.2 ∧ x.2.2 < x.2.1) (hd : Apart (l.map Prod.snd))
    (craters : List (List Metadata)) (hc : craters.length = l.length) :
    ∃ ts, process d (l.map fun x => (x.1, some x.2)) craters = .times ts ∧ ts.map List.length = craters.map List.length ∧ InOrder ts := by
  have h0' : ∀ x ∈ l.map Prod.snd, 0 ≤ x.2 ∧ x.2 < x.1 := by
    intro x hx
    obtain ⟨y, hy, rfl⟩ := List.mem_map.1 hx
    exact h0 y hy
  have hext : extents (l.map fun x => (x.1, some x.2)) = some (gaps none (l.map Prod.snd)) := by
    rw [extents, initial_known, Option.map_some, loop_apart _ (fun x hx => ⟨(h0' x hx).1, (h0' x hx).2.le⟩) hd]
  have hnodiv := C119_partial d hpos hzero (l.map fun x => (x.1, some x.2)) craters (by rw [List.map_map]; exact hs) (by
    intro s n sig h
    obtain ⟨x, hx, he⟩ := List.mem_map.1 h
    simp only [Prod.mk.injEq, Option.some.injEq] at he
    have := h0 x hx
    rw [he.2] at this
    exact this)
  cases hts : drawAll d (gaps none (l.map Prod.snd)) craters with
  | none => exact absurd (by simp only [process, hext, hts]) hnodiv
  | some ts =>
    have hlen := drawAll_lengths hts (by rw [gaps_length, List.length_map, hc])
    have hle := gaps_le _ (fun x hx => ⟨(h0' x hx).1, (h0' x hx).2.le⟩) hd
    have hord : InOrder ts := by
      by_cases h2 : 2 ≤ (gaps none (l.map Prod.snd)).length
      · obtain ⟨h3, h4⟩ := settled_spec (gaps_shared _ _) (decreasing_of (gaps_shared _ _) hle) h2
        exact drawAll_inOrder ha hb h3 h4 hts
      · have : ts.length ≤ 1 := by
          have := drawAll_length hts
          omega
        match ts, this with
        | [], _ => exact List.Pairwise.nil
        | [_], _ => exact List.pairwise_singleton _ _
    have hcons : consistent ts = true := neighbours_of_inOrder _ (hord.sublist (List.dropLast_sublist _))
    exact ⟨ts, by simp only [process, hext, hts, hcons, if_true], hlen, hord⟩

theorem filled_sig (sig : ℚ → ℚ) (l : List Entry) : filled (l.map fun x => (x.1, x.2.1.map fun v => (v, sig x.1))) = filled (groupsOf l) := by
  induction l with
  | nil => rfl
  | cons x l ih =>
    obtain ⟨s, g, ms⟩ := x
    cases l with
    | nil => cases g <;> rfl
    | cons y l =>
      obtain ⟨s', g', ms'⟩ := y
      cases g with
      | none => simpa [groupsOf, filled] using ih
      | some v => simpa [groupsOf, filled] using ih

/-- **C251, part.**  The same with uncertain numbers: the range of each crater number, promised or given, lies below those of the sequence numbers before.  The craters
of each sequence number between two others form between the ages half way from the range of its own number to those of its neighbours.  Missing:
ranges that overlap, see `C252_fails`. -/
theorem C251_uncertain_partial (d : Draws) (ha : AgeMonotone d) (hb : DrawsBounded d) (hpos : ∀ n, 0 < n → 0 < d.age n) (hzero : 0 ≤ d.age 0)
    (l : List Entry) (sig : ℚ → ℚ) (hs : (l.map Prod.fst).Pairwise (· < ·)) (hhead : ∃ a va ma rest, l = (a, some va, ma) :: rest)
    (hk : ∀ s v ms, (s, some v, ms) ∈ l → 0 ≤ sig s ∧ sig s < v) (hn : ∀ s ms, (s, none, ms) ∈ l → sig s = 0)
    (hd : l.Pairwise fun x y => ∀ v w, Nominal l x.1 v → Nominal l y.1 w → w + sig y.1 ≤ v - sig x.1) :
    ∃ ts, process d (l.map fun x => (x.1, x.2.1.map fun v => (v, sig x.1))) (l.map fun x => x.2.2) = .times ts ∧
      ts.map List.length = l.map (fun x => x.2.2.length) ∧ InOrder ts ∧
      ∀ pre x y z post, l = pre ++ x :: y :: z :: post → ∃ vx vy vz, Nominal l x.1 vx ∧ Nominal l y.1 vy ∧ Nominal l z.1 vz ∧
        ∀ us, ts[pre.length + 1]? = some us → ∀ t ∈ us,
          d.age ((vy - sig y.1 + (vz + sig z.1)) / 2) ≤ t ∧ t ≤ d.age ((vy + sig y.1 + (vx - sig x.1)) / 2) := by
  have hsig : ∀ x ∈ l, 0 ≤ sig x.1 := by
    rintro ⟨s, g, ms⟩ hx
    cases g with
    | none => exact (hn s ms hx).ge
    | some v => exact (hk s v ms hx).1
  have hpv : ∀ s v ms, (s, some v, ms) ∈ l → 0 < v := fun s v ms h => lt_of_le_of_lt (hk s v ms h).1 (hk s v ms h).2
  have hdn : l.Pairwise fun x y => ∀ v w, x.2.1 = some v → y.2.1 = some w → w ≤ v := by
    refine hd.imp_of_mem fun {x y} hx hy h v w hv hw => ?_
    obtain ⟨s, g, ms⟩ := x
    obtain ⟨s', g', ms'⟩ := y
    simp only at hv hw
    subst hv; subst hw
    have := h v w (.given s v ms hx) (.given s' w ms' hy)
    have h1 := hsig _ hx
    have h2 := hsig _ hy
    simp only at this h1 h2
    linarith
  have hf := filled_falling l hs hpv hdn
  obtain ⟨p, pts, hp⟩ : ∃ p pts, filled (groupsOf l) = p :: pts := by
    obtain ⟨a, va, ma, rest, rfl⟩ := hhead
    exact filled_some a (va, 0) _
  have hf' : Falling (p :: pts) := hp ▸ hf
  have nom : ∀ w ∈ l, Nominal l w.1 (interpFrom w.1 p pts) := fun w hw => nominal_interp l hs hf hhead p pts hp w hw
  set V : Entry → ℚ × ℚ := fun x => (interpFrom x.1 p pts, sig x.1) with hV
  have hinit : initial (l.map fun x => (x.1, x.2.1.map fun v => (v, sig x.1))) = some (l.map V) := by
    have key : ∀ x ∈ l, (match x.2.1.map (fun v => (v, sig x.1)) with
        | some g => g
        | none => (interpFrom x.1 p pts, 0)) = V x := by
      intro x hx
      obtain ⟨s, g, ms⟩ := x
      cases g with
      | none => simp only [Option.map_none, hV, hn s ms hx]
      | some v =>
        have hm := filled_given l s v ms hx
        rw [hp] at hm
        simp only [Option.map_some, Prod.mk.injEq, and_true, hV]
        exact (interp_point p pts hf' (s, v) hm).symm
    have hp' := (filled_sig sig l).trans hp
    obtain ⟨a, va, ma, rest, rfl⟩ := hhead
    simp only [List.map_cons, Option.map_some] at hp' ⊢
    simp only [initial, hp', List.map_cons, List.map_map, Option.some.injEq, List.cons.injEq]
    refine ⟨key (a, some va, ma) (by simp), List.map_congr_left fun x hx => ?_⟩
    exact key x (List.mem_cons_of_mem _ hx)
  have h0 : ∀ v ∈ l.map V, 0 ≤ v.2 ∧ v.2 ≤ v.1 := by
    intro v hv
    obtain ⟨x, hx, rfl⟩ := List.mem_map.1 hv
    refine ⟨hsig x hx, ?_⟩
    obtain ⟨s, g, ms⟩ := x
    cases g with
    | some v =>
      have hm := filled_given l s v ms hx
      rw [hp] at hm
      simp only [hV]
      rw [interp_point p pts hf' (s, v) hm]
      exact (hk s v ms hx).2.le
    | none =>
      simp only [hV, hn s ms hx]
      refine interp_nonneg s p pts hf' fun q hq => ?_
      rw [← hp] at hq
      rcases filled_mem l q hq with ⟨ms, h⟩ | ⟨h, -⟩
      · exact (hpv _ _ ms h).le
      · exact h.ge
  have hap : Apart (l.map V) := by
    rw [Apart, List.pairwise_map]
    exact hd.imp_of_mem fun {x y} hx hy h => h _ _ (nom x hx) (nom y hy)
  have hext : extents (l.map fun x => (x.1, x.2.1.map fun v => (v, sig x.1))) = some (gaps none (l.map V)) := by
    rw [extents, hinit, Option.map_some, loop_apart _ h0 hap]
  have hle := gaps_le _ h0 hap
  have hnodiv := C119_partial d hpos hzero (l.map fun x => (x.1, x.2.1.map fun v => (v, sig x.1))) (l.map fun x => x.2.2)
    (by rw [List.map_map]; exact hs) (by
    intro s n sg h
    obtain ⟨⟨s', g, ms⟩, hx, he⟩ := List.mem_map.1 h
    simp only [Prod.mk.injEq, Option.map_eq_some_iff] at he
    obtain ⟨rfl, v, rfl, rfl, rfl⟩ := he
    exact hk s' v ms hx)
  cases hts : drawAll d (gaps none (l.map V)) (l.map fun x => x.2.2) with
  | none => exact absurd (by simp only [process, hext, hts]) hnodiv
  | some ts =>
    have hlen : ts.map List.length = l.map (fun x => x.2.2.length) := by
      rw [drawAll_lengths hts (by simp [gaps_length]), List.map_map]; rfl
    have hord : InOrder ts := by
      by_cases h2 : 2 ≤ (gaps none (l.map V)).length
      · obtain ⟨h3, h4⟩ := settled_spec (gaps_shared _ _) (decreasing_of (gaps_shared _ _) hle) h2
        exact drawAll_inOrder ha hb h3 h4 hts
      · have : ts.length ≤ 1 := by
          have := drawAll_length hts
          omega
        match ts, this with
        | [], _ => exact List.Pairwise.nil
        | [_], _ => exact List.pairwise_singleton _ _
    have hcons : consistent ts = true := neighbours_of_inOrder _ (hord.sublist (List.dropLast_sublist _))
    refine ⟨ts, by simp only [process, hext, hts, hcons, if_true], hlen, hord, ?_⟩
    intro pre x y z post hl
    have hsplit : l.map V = pre.map V ++ V x :: V y :: V z :: post.map V := by rw [hl]; simp
    have hx : x ∈ l := by rw [hl]; simp
    have hy : y ∈ l := by rw [hl]; simp
    have hz : z ∈ l := by rw [hl]; simp
    refine ⟨_, _, _, nom x hx, nom y hy, nom z hz, fun us hus t ht => ?_⟩
    have hget := gaps_middle none (pre.map V) (V x) (V y) (V z) (post.map V)
    rw [← hsplit, List.length_map] at hget
    have hw := drawAll_get ha hb hts _ _ hget (hle _ (List.mem_of_getElem? hget)) us hus t ht
    have h1 := h0 (V x) (List.mem_map_of_mem hx)
    have h2 := h0 (V y) (List.mem_map_of_mem hy)
    have h3 := h0 (V z) (List.mem_map_of_mem hz)
    rwa [max_eq_left (by simp only; linarith), max_eq_left (by simp only; linarith)] at hw

/-- **C252, part.**  With one or two sequence numbers processing succeeds and the craters are in order, even if the ranges overlap. -/
theorem C252_two_partial (d : Draws) (ha : AgeMonotone d) (hb : DrawsBounded d) (hpos : ∀ n, 0 < n → 0 < d.age n) (hzero : 0 ≤ d.age 0)
    (l : List (ℚ × ℚ × ℚ)) (htwo : l.length ≤ 2) (hs : (l.map Prod.fst).Pairwise (· < ·)) (h0 : ∀ x ∈ l, 0 ≤ x.2.2 ∧ x.2.2 < x.2.1)
    (craters : List (List Metadata)) : ∃ ts, process d (l.map fun x => (x.1, some x.2)) craters = .times ts ∧ InOrder ts := by
  have hmem : ∀ s n sig, (s, some (n, sig)) ∈ (l.map fun x => (x.1, some x.2)) → 0 ≤ sig ∧ sig < n := by
    intro s n sig h
    obtain ⟨x, hx, he⟩ := List.mem_map.1 h
    simp only [Prod.mk.injEq, Option.some.injEq] at he
    have := h0 x hx
    rw [he.2] at this
    exact this
  have hnodiv := C119_partial d hpos hzero (l.map fun x => (x.1, some x.2)) craters (by rw [List.map_map]; exact hs) hmem
  have hext : extents (l.map fun x => (x.1, some x.2)) = some (loop 9 (l.map Prod.snd)) := by
    rw [extents, initial_known, Option.map_some]
  cases hts : drawAll d (loop 9 (l.map Prod.snd)) craters with
  | none => exact absurd (by simp only [process, hext, hts]) hnodiv
  | some ts =>
    have hle : ts.dropLast.length ≤ 1 := by
      have h1 := drawAll_length hts
      have h2 := loop_length 9 (l.map Prod.snd)
      rw [List.length_map] at h2
      rw [List.length_dropLast]
      omega
    have hcons : consistent ts = true := by
      unfold consistent
      match h : ts.dropLast, hle with
      | [], _ => rfl
      | [_], _ => rfl
    have hp : process d (l.map fun x => (x.1, some x.2)) craters = .times ts := by simp only [process, hext, hts, hcons, if_true]
    refine ⟨ts, hp, C118_two_partial d ha hb _ craters (by simpa using htwo) (fun s n sig h => ?_) ts hp⟩
    obtain ⟨h1, h2⟩ := hmem s n sig h
    exact ⟨by linarith, h1⟩

/-- **C252 fails** for four craters with the numbers 11 ± 7, 10 ± 4, 9 ± 0 and 7 ± 6: the numbers decrease as they should, but with every increasing chronology and
whatever is drawn the list is rejected.  The ten rounds leave the second and the third with ranges that are out of order. -/
theorem C252_fails (d : Draws) (ha : StrictMono d.age) (hzero : 0 ≤ d.age 0) :
    process d [(1, some (11, 7)), (2, some (10, 4)), (3, some (9, 0)), (4, some (7, 6))]
      [[.number 11 7], [.number 10 4], [.number 9 0], [.number 7 6]] = .inconsistent := by
  have hpos : ∀ n, 0 < n → 0 < d.age n := fun n hn => lt_of_le_of_lt hzero (ha hn)
  have hext : extents [(1, some (11, 7)), (2, some (10, 4)), (3, some (9, 0)), (4, some (7, 6))] =
      some [(18773 / 2048, 18), (18773 / 2048, 18773 / 2048), (9387 / 1024, 18773 / 2048), (1, 9387 / 1024)] := by decide +kernel
  have hw : ∀ lo hi : ℚ, 0 < lo → 0 < hi → ∃ w, halfWidth lo hi = some w := by
    intro lo hi h3 h4
    unfold halfWidth
    rw [if_neg (by linarith)]
    exact ⟨_, rfl⟩
  have hsome : ∀ (lo hi n sig : ℚ), 0 < lo → 0 < hi → ∃ t, drawTime d (lo, hi) (.number n sig) = some t := by
    intro lo hi n sig h1 h2
    obtain ⟨w, hw1⟩ := hw lo hi h1 h2
    obtain ⟨w', hw2⟩ := hw (d.age lo) (d.age hi) (hpos _ h1) (hpos _ h2)
    simp only [drawTime, max_eq_left h1.le, hw1, hw2]
    exact ⟨_, rfl⟩
  obtain ⟨t1, ht1⟩ := hsome (18773 / 2048) 18 11 7 (by norm_num) (by norm_num)
  obtain ⟨t4, ht4⟩ := hsome 1 (9387 / 1024) 7 6 (by norm_num) (by norm_num)
  have ht2 : drawTime d (18773 / 2048, 18773 / 2048) (.number 10 4) = some (d.age (18773 / 2048)) := by
    have hw1 : halfWidth (18773 / 2048) (18773 / 2048) = some 0 := by decide +kernel
    obtain ⟨w', hw2⟩ := hw (d.age (18773 / 2048)) (d.age (18773 / 2048)) (hpos _ (by norm_num)) (hpos _ (by norm_num))
    simp only [drawTime, max_eq_left (by norm_num : (0 : ℚ) ≤ 18773 / 2048), hw1, hw2, gt_iff_lt, lt_irrefl, and_false, if_false]
    norm_num
  have ht3 : drawTime d (9387 / 1024, 18773 / 2048) (.number 9 0) = some (d.age (9387 / 1024)) := by
    obtain ⟨w, hw1⟩ := hw (9387 / 1024) (18773 / 2048) (by norm_num) (by norm_num)
    obtain ⟨w', hw2⟩ := hw (d.age (9387 / 1024)) (d.age (18773 / 2048)) (hpos _ (by norm_num)) (hpos _ (by norm_num))
    simp only [drawTime, max_eq_left (by norm_num : (0 : ℚ) ≤ 9387 / 1024), hw1, hw2, gt_iff_lt, lt_irrefl, false_and, if_false]
    norm_num
  have hlt : d.age (18773 / 2048) < d.age (9387 / 1024) := ha (by norm_num)
  have hcons : consistent [[t1], [d.age (18773 / 2048)], [d.age (9387 / 1024)], [t4]] = false := by
    simp [consistent, neighbours, notBefore, not_le.2 hlt]
  simp only [process, hext, drawAll, drawGroup, ht1, ht2, ht3, ht4, Option.map_some, hcons]
  rfl

/-- **C246, part.**  Under the same conditions the craters of a sequence number whose number is exactly known form exactly at their age, however uncertain the
numbers of the other sequence numbers are.  Missing: an uncertain number whose range reaches beyond the exactly known one, see `C246_uncertain_fails`. -/
theorem C246_apart_partial (d : Draws) (num : ℚ → ℚ) (ha : AgeMonotone d) (hpos : ∀ n, 0 < n → 0 < d.age n)
    (hinv : ∀ t, 0 ≤ t → d.age (num t) = t) (l : List (ℚ × ℚ × ℚ)) (h0 : ∀ x ∈ l, 0 ≤ x.2.2 ∧ x.2.2 < x.2.1) (hd : Apart (l.map Prod.snd))
    (craters : List (List Metadata)) (ts : List (List ℚ)) (h : process d (l.map fun x => (x.1, some x.2)) craters = .times ts)
    (k : ℕ) (s n : ℚ) (hk : l[k]? = some (s, n, 0)) (g : List Metadata) (hg : craters[k]? = some g) (he : ∀ m ∈ g, Exact num n m) :
    ts[k]? = some (g.map (ownAge d)) := by
  have h0' : ∀ x ∈ l.map Prod.snd, 0 ≤ x.2 ∧ x.2 < x.1 := by
    intro x hx
    obtain ⟨y, hy, rfl⟩ := List.mem_map.1 hx
    exact h0 y hy
  have hext : extents (l.map fun x => (x.1, some x.2)) = some (gaps none (l.map Prod.snd)) := by
    rw [extents, initial_known, Option.map_some, loop_apart _ (fun x hx => ⟨(h0' x hx).1, (h0' x hx).2.le⟩) hd]
  simp only [process, hext] at h
  cases hts : drawAll d (gaps none (l.map Prod.snd)) craters with
  | none => rw [hts] at h; simp at h
  | some ts' =>
    rw [hts] at h
    simp only at h
    split_ifs at h
    rw [Outcome.times.injEq] at h
    subst h
    obtain ⟨e, hge, -, h2, h3⟩ := gaps_get none (l.map Prod.snd) (fun x hx => ⟨(h0' x hx).1, (h0' x hx).2.le⟩) hd (by simp) k (n, 0)
      (by rw [List.getElem?_map, hk]; rfl)
    have h1 := gaps_pos none (l.map Prod.snd) h0' e (List.mem_of_getElem? hge)
    obtain ⟨us, hus, hdr⟩ := drawAll_nth hts k e hge g hg
    rw [drawGroup_exact ha hpos hinv h1 (by simpa using h2) (by simpa using h3) he] at hdr
    rw [hus, ← hdr]

/-- **C246 fails** for an exactly known number after an uncertain one whose range reaches below it, although the numbers themselves are in order: the crater forms
later than its age, at that of a number smaller by a quarter of the overlap. -/
theorem C246_uncertain_fails (d : Draws) (hpos : ∀ n, 0 < n → 0 < d.age n) (a b n sig v : ℚ) (hsig : sig < n)
    (hover : n - sig < v) (hv : v ≤ n) :
    ∃ t, process d [(a, some (n, sig)), (b, some (v, 0))] [[.number n sig], [.number v 0]] = .times [[t], [d.age (v - (v - (n - sig)) / 4)]] := by
  have hs : 0 < sig := by linarith
  have hm : max (n - sig) 0 = n - sig := max_eq_left (by linarith)
  have hv0 : max v 0 = v := max_eq_left (by linarith)
  set m := (n - sig + v) / 2 with hmdef
  have e1 : max (n - sig + (v - (n - sig)) / 2) 0 = m := by rw [max_eq_left (by linarith)]; simp only [hmdef]; ring
  have e2 : v + (n - sig - v) / 2 = m := by simp only [hmdef]; ring
  have hmv : m < v := by simp only [hmdef]; linarith
  have hr : round [(n, sig), (v, 0)] = [((m + v) / 2, n + sig), (m, (m + v) / 2)] := by
    simp only [round, spread, hm, add_zero, sub_zero, hv0, e1, e2]
    rw [if_neg (by linarith), if_pos hmv]
    simp [join, joinPrev, joinNext, hmv.ne]
  have hdec : decreasing [((m + v) / 2, n + sig), (m, (m + v) / 2)] = true := by
    rw [dec_pair]; constructor <;> linarith
  have hext : extents [(a, some (n, sig)), (b, some (v, 0))] = some [((m + v) / 2, n + sig), (m, (m + v) / 2)] := by
    have hi : initial [(a, some (n, sig)), (b, some (v, 0))] = some [(n, sig), (v, 0)] := initial_known [(a, n, sig), (b, v, 0)]
    rw [extents, hi, Option.map_some]
    simp only [loop, hr, hdec, if_true]
  have hw : ∀ lo hi : ℚ, 0 < lo → 0 < hi → ∃ w, halfWidth lo hi = some w := by
    intro lo hi h3 h4
    unfold halfWidth
    rw [if_neg (by linarith)]
    exact ⟨_, rfl⟩
  have hm0 : 0 < m := by simp only [hmdef]; linarith
  obtain ⟨t, ht⟩ : ∃ t, drawTime d ((m + v) / 2, n + sig) (.number n sig) = some t := by
    obtain ⟨w, hw1⟩ := hw ((m + v) / 2) (n + sig) (by linarith) (by linarith)
    obtain ⟨w', hw2⟩ := hw (d.age ((m + v) / 2)) (d.age (n + sig)) (hpos _ (by linarith)) (hpos _ (by linarith))
    simp only [drawTime, max_eq_left (by linarith : (0 : ℚ) ≤ (m + v) / 2), hw1, hw2]
    exact ⟨_, rfl⟩
  have hsnd : drawTime d (m, (m + v) / 2) (.number v 0) = some (d.age (v - (v - (n - sig)) / 4)) := by
    obtain ⟨w, hw1⟩ := hw m ((m + v) / 2) hm0 (by linarith)
    obtain ⟨w', hw2⟩ := hw (d.age m) (d.age ((m + v) / 2)) (hpos _ hm0) (hpos _ (by linarith))
    simp only [drawTime, max_eq_left hm0.le, hw1, hw2, gt_iff_lt, lt_irrefl, false_and, if_false, min_eq_right (by linarith : (m + v) / 2 ≤ v),
      max_eq_left (by linarith : m ≤ (m + v) / 2), max_eq_right (by linarith : 0 ≤ (m + v) / 2), Option.some.injEq]
    congr 1
    simp only [hmdef]; ring
  refine ⟨t, ?_⟩
  simp only [process, hext, drawAll, drawGroup, ht, hsnd, Option.map_some]
  rfl

/-- The numbers 20 ± 3, 12 ± 0 and 8 ± 4 are apart; the second crater forms at 12 whatever is drawn for the others. -/
example : ∃ ts, process linear ([(1, 20, 3), (2, 12, 0), (3, 8, 4)].map fun x : ℚ × ℚ × ℚ => (x.1, some x.2)) [[.number 20 3], [.number 12 0], [.number 8 4]] =
    .times ts ∧ InOrder ts ∧ ts[1]? = some [12] := by
  have h0 : ∀ x ∈ [((1 : ℚ), (20 : ℚ), (3 : ℚ)), (2, 12, 0), (3, 8, 4)], 0 ≤ x.2.2 ∧ x.2.2 < x.2.1 := by simp; norm_num
  have hd : Apart ([((1 : ℚ), (20 : ℚ), (3 : ℚ)), (2, 12, 0), (3, 8, 4)].map Prod.snd) := by simp [Apart]; norm_num
  obtain ⟨ts, h, -, ho⟩ := C252_apart_partial linear (fun _ _ h => h) (fun _ _ _ _ h => ⟨le_refl _, h⟩) (fun _ h => h) (le_refl _)
    [(1, 20, 3), (2, 12, 0), (3, 8, 4)] (by simp; norm_num) h0 hd [[.number 20 3], [.number 12 0], [.number 8 4]] rfl
  exact ⟨ts, h, ho, C246_apart_partial linear id (fun _ _ h => h) (fun _ h => h) (fun _ _ => rfl) _ h0 hd _ ts h 1 2 12 rfl _ rfl (by simp [Exact])⟩

/-- Sequence numbers 0, 2 and 10 with the numbers 16 ± 1 and 6 ± 2 at the ends and nothing for the second: 14 is promised for it, and its craters form between 11 and
14.5. -/
example : ∃ ts, process linear [(0, some (16, 1)), (2, none), (10, some (6, 2))] [[.number 16 1], [.nothing, .nothing], [.number 6 2]] = .times ts ∧ InOrder ts ∧
    ∀ us, ts[1]? = some us → ∀ t ∈ us, 11 ≤ t ∧ t ≤ 29 / 2 := by
  set l : List Entry := [(0, some 16, [.number 16 1]), (2, none, [.nothing, .nothing]), (10, some 6, [.number 6 2])] with hl
  have hs : (l.map Prod.fst).Pairwise (· < ·) := by simp [hl]; norm_num
  have hkk : ∀ s v ms, (s, some v, ms) ∈ l → 0 < v := by
    simp only [hl, List.mem_cons, Prod.mk.injEq, Option.some.injEq, List.not_mem_nil, or_false, reduceCtorEq, false_and, and_false, false_or]
    rintro s v ms (⟨-, rfl, -⟩ | ⟨-, rfl, -⟩) <;> norm_num
  have hdd : l.Pairwise fun x y => ∀ v w, x.2.1 = some v → y.2.1 = some w → w ≤ v := by simp [hl]; norm_num
  have n0 : Nominal l 0 16 := .given _ _ [.number 16 1] (by simp [hl])
  have n2 : Nominal l 10 6 := .given _ _ [.number 6 2] (by simp [hl])
  have n1 : Nominal l 2 14 := by
    have h := Nominal.between (l := l) [] [(2, none, [.nothing, .nothing])] [] 0 16 2 10 6 [.number 16 1] [.number 6 2] (some 6) rfl (by simp) (by simp) (.inl rfl)
    norm_num at h
    exact h
  have u := fun s v w hv hw => C251_unique l hs hkk hdd s v w hv hw
  obtain ⟨ts, h, -, ho, hr⟩ := C251_uncertain_partial linear (fun _ _ h => h) (fun _ _ _ _ h => ⟨le_refl _, h⟩) (fun _ h => h) (le_refl _) l
    (fun s => if s = 0 then 1 else if s = 10 then 2 else 0) hs ⟨0, 16, _, _, rfl⟩
    (by
      simp only [hl, List.mem_cons, Prod.mk.injEq, Option.some.injEq, List.not_mem_nil, or_false, reduceCtorEq, false_and, and_false, false_or]
      rintro s v ms (⟨rfl, rfl, -⟩ | ⟨rfl, rfl, -⟩) <;> norm_num)
    (by
      simp only [hl, List.mem_cons, Prod.mk.injEq, List.not_mem_nil, or_false, reduceCtorEq, false_and, and_false, false_or, true_and]
      rintro s ms ⟨rfl, -⟩
      norm_num)
    (by
      refine List.Pairwise.cons ?_ (List.Pairwise.cons ?_ (List.pairwise_singleton _ _))
      · intro y hy v w hv hw
        simp only [List.mem_cons, List.not_mem_nil, or_false] at hy
        rcases hy with rfl | rfl
        · rw [u _ _ _ hv n0, u _ _ _ hw n1]; norm_num
        · rw [u _ _ _ hv n0, u _ _ _ hw n2]; norm_num
      · intro y hy v w hv hw
        simp only [List.mem_cons, List.not_mem_nil, or_false] at hy
        subst hy
        rw [u _ _ _ hv n1, u _ _ _ hw n2]; norm_num)
  refine ⟨ts, by simpa [hl] using h, ho, fun us hus t ht => ?_⟩
  obtain ⟨vx, vy, vz, hx, hy, hz, hb⟩ := hr [] _ _ _ [] rfl
  have := hb us hus t ht
  rw [u _ _ _ hx n0, u _ _ _ hy n1, u _ _ _ hz n2] at this
  simp only [linear, id] at this
  norm_num at this
  exact this

/-- Ranges that overlap with two sequence numbers: 10 ± 4 and 9 ± 5. -/
example : ∃ ts, process linear ([(1, 10, 4), (2, 9, 5)].map fun x : ℚ × ℚ × ℚ => (x.1, some x.2)) [[.number 10 4], [.number 9 5]] = .times ts ∧ InOrder ts :=
  C252_two_partial linear (fun _ _ h => h) (fun _ _ _ _ h => ⟨le_refl _, h⟩) (fun _ h => h) (le_refl _) [(1, 10, 4), (2, 9, 5)] (by simp) (by simp)
    (by simp; norm_num) _

/-- 10 ± 4 followed by exactly 8: the second crater forms at 7.5 instead. -/
example : ∃ t, process linear [(1, some (10, 4)), (2, some (8, 0))] [[.number 10 4], [.number 8 0]] = .times [[t], [15 / 2]] := by
  obtain ⟨t, h⟩ := C246_uncertain_fails linear (fun _ h => h) 1 2 10 4 8 (by norm_num) (by norm_num) (by norm_num)
  exact ⟨t, by rw [h]; simp only [linear, id]; norm_num⟩

example : StrictMono linear.age ∧ 0 ≤ linear.age 0 := ⟨fun _ _ h => h, le_refl _⟩

end Verif.Sequence
