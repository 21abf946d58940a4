import Verif.Props.SequenceGroup

/-! Property C251: prescribed craters that have a sequence number only. -/

namespace Verif.Sequence

/-! ### Specification -/

/-- A sequence number, the exact number of craters that is given for it if any, and the metadata of its craters. -/
abbrev Entry := ℚ × Option ℚ × List Metadata

/-- The number of craters that the user guide promises for a sequence number: the one given, zero for the last sequence number if nothing is given for it, and
otherwise the one on the straight line between the nearest sequence numbers on both sides that have a number. -/
inductive Nominal (l : List Entry) : ℚ → ℚ → Prop
  | given (s v : ℚ) (ms : List Metadata) (h : (s, some v, ms) ∈ l) : Nominal l s v
  | last (pre : List Entry) (s : ℚ) (ms : List Metadata) (h : l = pre ++ [(s, none, ms)]) : Nominal l s 0
  | between (pre mid post : List Entry) (a va s b vb : ℚ) (ma mb : List Metadata) (gb : Option ℚ)
      (h : l = pre ++ (a, some va, ma) :: (mid ++ (b, gb, mb) :: post)) (hmid : ∀ x ∈ mid, x.2.1 = none) (hs : ∃ x ∈ mid, x.1 = s)
      (hb : gb = some vb ∨ gb = none ∧ post = [] ∧ vb = 0) : Nominal l s (va + (s - a) * ((vb - va) / (b - a)))

/-! ### Helpers -/

/-- Points in increasing order whose values do not increase. -/
def Falling (pts : List (ℚ × ℚ)) : Prop := pts.Pairwise fun p q => p.1 < q.1 ∧ q.2 ≤ p.2

theorem line_le {x x' x0 y0 x1 y1 : ℚ} (h : x ≤ x') (h1 : x0 < x1) (hy : y1 ≤ y0) :
    y0 + (x' - x0) * ((y1 - y0) / (x1 - x0)) ≤ y0 + (x - x0) * ((y1 - y0) / (x1 - x0)) := by
  have hs : (y1 - y0) / (x1 - x0) ≤ 0 := div_nonpos_of_nonpos_of_nonneg (by linarith) (by linarith)
  nlinarith [mul_nonneg (sub_nonneg.2 h) (neg_nonneg.2 hs)]

theorem line_end {x0 y0 x1 y1 : ℚ} (h1 : x0 < x1) : y0 + (x1 - x0) * ((y1 - y0) / (x1 - x0)) = y1 := by
  have : x1 - x0 ≠ 0 := by linarith
  field_simp
  ring

theorem interp_le (x : ℚ) (p : ℚ × ℚ) (pts : List (ℚ × ℚ)) (hf : Falling (p :: pts)) (hx : p.1 ≤ x) : interpFrom x p pts ≤ p.2 := by
  induction pts generalizing p with
  | nil => exact le_refl _
  | cons q pts ih =>
    obtain ⟨x0, y0⟩ := p
    obtain ⟨x1, y1⟩ := q
    have hf' := List.pairwise_cons.1 hf
    obtain ⟨h1, h2⟩ := hf'.1 (x1, y1) List.mem_cons_self
    simp only at h1 h2 hx ⊢
    rw [interpFrom]
    split_ifs with hc
    · have := line_le hx h1 h2
      simpa using this
    · exact (ih (x1, y1) hf'.2 (not_lt.1 hc)).trans h2

theorem interp_anti (x x' : ℚ) (h : x ≤ x') (p : ℚ × ℚ) (pts : List (ℚ × ℚ)) (hf : Falling (p :: pts)) :
    interpFrom x' p pts ≤ interpFrom x p pts := by
  induction pts generalizing p with
  | nil => exact le_refl _
  | cons q pts ih =>
    obtain ⟨x0, y0⟩ := p
    obtain ⟨x1, y1⟩ := q
    have hf' := List.pairwise_cons.1 hf
    obtain ⟨h1, h2⟩ := hf'.1 (x1, y1) List.mem_cons_self
    simp only at h1 h2
    rw [interpFrom, interpFrom]
    by_cases hc' : x' < x1
    · rw [if_pos hc', if_pos (lt_of_le_of_lt h hc')]
      exact line_le h h1 h2
    · rw [if_neg hc']
      by_cases hc : x < x1
      · rw [if_pos hc]
        have a := interp_le x' (x1, y1) pts hf'.2 (not_lt.1 hc')
        have b := line_le hc.le h1 h2
        rw [line_end h1] at b
        exact a.trans b
      · rw [if_neg hc]
        exact ih (x1, y1) hf'.2

theorem interp_point (p : ℚ × ℚ) (pts : List (ℚ × ℚ)) (hf : Falling (p :: pts)) (q : ℚ × ℚ) (hq : q ∈ p :: pts) : interpFrom q.1 p pts = q.2 := by
  induction pts generalizing p with
  | nil =>
    obtain rfl : q = p := by simpa using hq
    rfl
  | cons r pts ih =>
    obtain ⟨x0, y0⟩ := p
    obtain ⟨x1, y1⟩ := r
    have hf' := List.pairwise_cons.1 hf
    rw [interpFrom]
    rcases List.mem_cons.1 hq with rfl | hq
    · rw [if_pos (hf'.1 (x1, y1) List.mem_cons_self).1]; simp
    · have hle : x1 ≤ q.1 := by
        rcases List.mem_cons.1 hq with rfl | hq
        · exact le_refl _
        · exact ((List.pairwise_cons.1 hf'.2).1 q hq).1.le
      rw [if_neg (not_lt.2 hle)]
      exact ih _ hf'.2 hq

theorem interp_line (p : ℚ × ℚ) (pts A C : List (ℚ × ℚ)) (a na b nb x : ℚ) (hf : Falling (p :: pts)) (h : p :: pts = A ++ (a, na) :: (b, nb) :: C)
    (ha : a ≤ x) (hb : x < b) : interpFrom x p pts = na + (x - a) * ((nb - na) / (b - a)) := by
  induction A generalizing p pts with
  | nil =>
    simp only [List.nil_append, List.cons.injEq] at h
    obtain ⟨rfl, rfl⟩ := h
    rw [interpFrom, if_pos hb]
  | cons r A ih =>
    simp only [List.cons_append, List.cons.injEq] at h
    obtain ⟨rfl, rfl⟩ := h
    obtain ⟨x0, y0⟩ := p
    have hf' := (List.pairwise_cons.1 hf).2
    cases A with
    | nil =>
      simp only [List.nil_append] at hf' ih ⊢
      rw [interpFrom, if_neg (not_lt.2 ha)]
      exact ih _ _ hf' rfl
    | cons q A =>
      obtain ⟨x1, y1⟩ := q
      simp only [List.cons_append] at hf' ih ⊢
      have hle : x1 ≤ x := ((List.pairwise_cons.1 hf').1 (a, na) (by simp)).1.le.trans ha
      rw [interpFrom, if_neg (not_lt.2 hle)]
      exact ih _ _ hf' rfl

/-- The groups that are made of the entries. -/
def groupsOf (l : List Entry) : List (ℚ × Group) := l.map fun x => (x.1, x.2.1.map fun v => (v, (0 : ℚ)))

theorem filled_mem (l : List Entry) (q : ℚ × ℚ) (hq : q ∈ filled (groupsOf l)) :
    (∃ ms, (q.1, some q.2, ms) ∈ l) ∨ q.2 = 0 ∧ ∃ pre ms, l = pre ++ [(q.1, none, ms)] := by
  induction l with
  | nil => simp [groupsOf, filled] at hq
  | cons x l ih =>
    obtain ⟨s, g, ms⟩ := x
    cases l with
    | nil =>
      cases g with
      | none =>
        simp only [groupsOf, List.map_cons, List.map_nil, Option.map_none, filled, List.mem_singleton] at hq
        subst hq
        exact .inr ⟨rfl, [], ms, rfl⟩
      | some v =>
        simp only [groupsOf, List.map_cons, List.map_nil, Option.map_some, filled, List.mem_singleton] at hq
        subst hq
        exact .inl ⟨ms, by simp⟩
    | cons y l =>
      have lift : q ∈ filled (groupsOf (y :: l)) → (∃ ms', (q.1, some q.2, ms') ∈ (s, g, ms) :: y :: l) ∨
          q.2 = 0 ∧ ∃ pre ms', (s, g, ms) :: y :: l = pre ++ [(q.1, none, ms')] := by
        intro hq
        rcases ih hq with ⟨ms', h⟩ | ⟨h0, pre, ms', h⟩
        · exact .inl ⟨ms', List.mem_cons_of_mem _ h⟩
        · exact .inr ⟨h0, (s, g, ms) :: pre, ms', by rw [h]; rfl⟩
      cases g with
      | none => exact lift (by simpa [groupsOf, filled] using hq)
      | some v =>
        have hq' : q = (s, v) ∨ q ∈ filled (groupsOf (y :: l)) := by simpa [groupsOf, filled] using hq
        rcases hq' with rfl | hq'
        · exact .inl ⟨ms, by simp⟩
        · exact lift hq'

theorem filled_falling (l : List Entry) (hs : (l.map Prod.fst).Pairwise (· < ·)) (hk : ∀ s v ms, (s, some v, ms) ∈ l → 0 < v)
    (hd : l.Pairwise fun x y => ∀ v w, x.2.1 = some v → y.2.1 = some w → w ≤ v) : Falling (filled (groupsOf l)) := by
  induction l with
  | nil => exact List.Pairwise.nil
  | cons x l ih =>
    obtain ⟨s, g, ms⟩ := x
    simp only [List.map_cons, List.pairwise_cons] at hs hd
    have hi := ih hs.2 (fun s v ms h => hk s v ms (List.mem_cons_of_mem _ h)) hd.2
    cases l with
    | nil => cases g <;> simp [groupsOf, filled, Falling]
    | cons y l =>
      cases g with
      | none => simpa [groupsOf, filled] using hi
      | some v =>
        have e : filled (groupsOf ((s, some v, ms) :: y :: l)) = (s, v) :: filled (groupsOf (y :: l)) := by simp [groupsOf, filled]
        rw [e]
        refine List.pairwise_cons.2 ⟨fun q hq => ?_, hi⟩
        rcases filled_mem (y :: l) q hq with ⟨ms', h⟩ | ⟨h0, pre, ms', h⟩
        · exact ⟨hs.1 q.1 (List.mem_map.2 ⟨_, h, rfl⟩), hd.1 _ h v q.2 rfl rfl⟩
        · refine ⟨hs.1 q.1 (by rw [h]; simp), ?_⟩
          rw [h0]
          exact (hk s v ms (by simp)).le

theorem filled_append (A : List Entry) (y : Entry) (ys : List Entry) :
    filled (groupsOf (A ++ y :: ys)) = (A.filterMap fun x => x.2.1.map fun v => (x.1, v)) ++ filled (groupsOf (y :: ys)) := by
  induction A with
  | nil => rfl
  | cons x A ih =>
    obtain ⟨s, g, ms⟩ := x
    obtain ⟨z, zs, hz⟩ : ∃ z zs, A ++ y :: ys = z :: zs := by cases A <;> simp
    rw [hz] at ih
    rw [List.cons_append, hz]
    cases g with
    | none =>
      have e : filled (groupsOf ((s, none, ms) :: z :: zs)) = filled (groupsOf (z :: zs)) := by simp [groupsOf, filled]
      rw [e, ih]; rfl
    | some v =>
      have e : filled (groupsOf ((s, some v, ms) :: z :: zs)) = (s, v) :: filled (groupsOf (z :: zs)) := by simp [groupsOf, filled]
      rw [e, ih]; rfl

theorem filled_given (l : List Entry) (s v : ℚ) (ms : List Metadata) (h : (s, some v, ms) ∈ l) : (s, v) ∈ filled (groupsOf l) := by
  obtain ⟨A, B, rfl⟩ := List.append_of_mem h
  rw [filled_append]
  refine List.mem_append_right _ ?_
  cases B <;> simp [groupsOf, filled]

theorem filled_last (pre : List Entry) (s : ℚ) (ms : List Metadata) : (s, 0) ∈ filled (groupsOf (pre ++ [(s, none, ms)])) := by
  rw [filled_append]
  exact List.mem_append_right _ (by simp [groupsOf, filled])

/-- The nearest entry with a number before. -/
theorem last_known (A : List Entry) (h : ∃ x ∈ A, x.2.1 ≠ none) :
    ∃ pre a va ma mid, A = pre ++ (a, some va, ma) :: mid ∧ ∀ x ∈ mid, x.2.1 = none := by
  induction A with
  | nil => simp at h
  | cons x A ih =>
    by_cases hA : ∃ y ∈ A, y.2.1 ≠ none
    · obtain ⟨pre, a, va, ma, mid, hA, hm⟩ := ih hA
      exact ⟨x :: pre, a, va, ma, mid, by rw [hA]; rfl, hm⟩
    · push Not at hA
      obtain ⟨y, hy, hn⟩ := h
      rcases List.mem_cons.1 hy with rfl | hy
      · obtain ⟨a, g, ma⟩ := y
        cases g with
        | none => exact absurd rfl hn
        | some va => exact ⟨[], a, va, ma, A, rfl, hA⟩
      · exact absurd (hA y hy) hn

/-- The nearest entry with a number after, or the last one. -/
theorem next_known (B : List Entry) (h : B ≠ []) :
    ∃ mid b gb mb post vb, B = mid ++ (b, gb, mb) :: post ∧ (∀ x ∈ mid, x.2.1 = none) ∧ (gb = some vb ∨ gb = none ∧ post = [] ∧ vb = 0) := by
  induction B with
  | nil => exact absurd rfl h
  | cons x B ih =>
    obtain ⟨b, g, mb⟩ := x
    cases g with
    | some vb => exact ⟨[], b, some vb, mb, B, vb, rfl, by simp, .inl rfl⟩
    | none =>
      cases B with
      | nil => exact ⟨[], b, none, mb, [], 0, rfl, by simp, .inr ⟨rfl, rfl, rfl⟩⟩
      | cons y B =>
        obtain ⟨mid, b', gb, mb', post, vb, hB, hm, hb⟩ := ih (by simp)
        refine ⟨(b, none, mb) :: mid, b', gb, mb', post, vb, by rw [hB]; rfl, fun z hz => ?_, hb⟩
        rcases List.mem_cons.1 hz with rfl | hz
        · rfl
        · exact hm z hz

theorem nominal_interp (l : List Entry) (hs : (l.map Prod.fst).Pairwise (· < ·)) (hf : Falling (filled (groupsOf l)))
    (hhead : ∃ a va ma rest, l = (a, some va, ma) :: rest) (p : ℚ × ℚ) (pts : List (ℚ × ℚ)) (hp : filled (groupsOf l) = p :: pts)
    (x : Entry) (hx : x ∈ l) : Nominal l x.1 (interpFrom x.1 p pts) := by
  obtain ⟨s, g, ms⟩ := x
  rw [hp] at hf
  cases g with
  | some v =>
    have hm := filled_given l s v ms hx
    rw [hp] at hm
    rw [show interpFrom s p pts = v from interp_point p pts hf (s, v) hm]
    exact .given s v ms hx
  | none =>
    obtain ⟨A, B, hl⟩ := List.append_of_mem hx
    by_cases hB : B = []
    · subst hB
      have hm := filled_last A s ms
      rw [← hl, hp] at hm
      rw [show interpFrom s p pts = 0 from interp_point p pts hf (s, 0) hm]
      exact .last A s ms hl
    · have hA : ∃ x ∈ A, x.2.1 ≠ none := by
        obtain ⟨a, va, ma, rest, hh⟩ := hhead
        cases A with
        | nil =>
          rw [hl] at hh
          simp at hh
        | cons x A =>
          rw [hl] at hh
          simp only [List.cons_append, List.cons.injEq] at hh
          exact ⟨x, by simp, by rw [hh.1]; simp⟩
      obtain ⟨pre, a, va, ma, m1, rfl, h1⟩ := last_known A hA
      obtain ⟨m2, b, gb, mb, post, vb, rfl, h2, hb⟩ := next_known B hB
      have hl' : l = pre ++ (a, some va, ma) :: ((m1 ++ (s, none, ms) :: m2) ++ (b, gb, mb) :: post) := by
        rw [hl]; simp
      have hmid : ∀ x ∈ m1 ++ (s, none, ms) :: m2, x.2.1 = none := by
        intro x hx
        rcases List.mem_append.1 hx with hx | hx
        · exact h1 x hx
        · rcases List.mem_cons.1 hx with rfl | hx
          · rfl
          · exact h2 x hx
      have hnone : (m1 ++ (s, none, ms) :: m2).filterMap (fun x => x.2.1.map fun v => (x.1, v)) = [] := by
        rw [List.filterMap_eq_nil_iff]
        intro x hx
        rw [hmid x hx]; rfl
      obtain ⟨C, hC⟩ : ∃ C, filled (groupsOf ((b, gb, mb) :: post)) = (b, vb) :: C := by
        rcases hb with rfl | ⟨rfl, rfl, rfl⟩
        · cases post with
          | nil => exact ⟨[], by simp [groupsOf, filled]⟩
          | cons y post => exact ⟨filled (groupsOf (y :: post)), by simp [groupsOf, filled]⟩
        · exact ⟨[], by simp [groupsOf, filled]⟩
      have hfill : p :: pts = (pre.filterMap fun x => x.2.1.map fun v => (x.1, v)) ++ (a, va) :: (b, vb) :: C := by
        rw [← hp, hl', show pre ++ (a, some va, ma) :: ((m1 ++ (s, none, ms) :: m2) ++ (b, gb, mb) :: post) =
          (pre ++ (a, some va, ma) :: (m1 ++ (s, none, ms) :: m2)) ++ (b, gb, mb) :: post by simp, filled_append, hC, List.filterMap_append,
          List.filterMap_cons, hnone]
        simp
      have hsort : a < s ∧ s < b := by
        rw [hl'] at hs
        simp only [List.map_append, List.map_cons, List.pairwise_append, List.pairwise_cons, List.mem_append, List.mem_cons] at hs
        obtain ⟨-, ⟨h3, h4, -, h5⟩, -⟩ := hs
        exact ⟨h3 s (.inl (.inr (.inl rfl))), h5 s (.inr (.inl rfl)) b (.inl rfl)⟩
      rw [show interpFrom s p pts = va + (s - a) * ((vb - va) / (b - a)) from interp_line p pts _ C a va b vb s hf hfill hsort.1.le hsort.2]
      exact .between pre (m1 ++ (s, none, ms) :: m2) post a va s b vb ma mb gb hl' hmid ⟨(s, none, ms), by simp, rfl⟩ hb

/-- The promised number is unique. -/
theorem nominal_value (l : List Entry) (hs : (l.map Prod.fst).Pairwise (· < ·)) (hf : Falling (filled (groupsOf l)))
    (p : ℚ × ℚ) (pts : List (ℚ × ℚ)) (hp : filled (groupsOf l) = p :: pts) (s v : ℚ) (h : Nominal l s v) : v = interpFrom s p pts := by
  rw [hp] at hf
  cases h with
  | given s v ms h =>
    have hm := filled_given l s v ms h
    rw [hp] at hm
    exact (interp_point p pts hf (s, v) hm).symm
  | last pre s ms h =>
    have hm := filled_last pre s ms
    rw [← h, hp] at hm
    exact (interp_point p pts hf (s, 0) hm).symm
  | between pre mid post a va s b vb ma mb gb h hmid hx hb =>
    obtain ⟨C, hC⟩ : ∃ C, filled (groupsOf ((b, gb, mb) :: post)) = (b, vb) :: C := by
      rcases hb with rfl | ⟨rfl, rfl, rfl⟩
      · cases post with
        | nil => exact ⟨[], by simp [groupsOf, filled]⟩
        | cons y post => exact ⟨filled (groupsOf (y :: post)), by simp [groupsOf, filled]⟩
      · exact ⟨[], by simp [groupsOf, filled]⟩
    have hnone : mid.filterMap (fun x => x.2.1.map fun v => (x.1, v)) = [] := by
      rw [List.filterMap_eq_nil_iff]
      intro x hx
      rw [hmid x hx]; rfl
    have hfill : p :: pts = (pre.filterMap fun x => x.2.1.map fun v => (x.1, v)) ++ (a, va) :: (b, vb) :: C := by
      rw [← hp, h, show pre ++ (a, some va, ma) :: (mid ++ (b, gb, mb) :: post) = (pre ++ (a, some va, ma) :: mid) ++ (b, gb, mb) :: post by simp,
        filled_append, hC, List.filterMap_append, List.filterMap_cons, hnone]
      simp
    obtain ⟨x, hx, rfl⟩ := hx
    rw [h] at hs
    simp only [List.map_append, List.map_cons, List.pairwise_append, List.pairwise_cons, List.mem_append, List.mem_cons] at hs
    obtain ⟨-, ⟨h3, -, -, h5⟩, -⟩ := hs
    have hxm : x.1 ∈ mid.map Prod.fst := List.mem_map_of_mem hx
    exact (interp_line p pts _ C a va b vb x.1 hf hfill (h3 x.1 (.inl hxm)).le (h5 x.1 hxm b (.inl rfl))).symm

theorem interp_nonneg (x : ℚ) (p : ℚ × ℚ) (pts : List (ℚ × ℚ)) (hf : Falling (p :: pts)) (h0 : ∀ q ∈ p :: pts, 0 ≤ q.2) : 0 ≤ interpFrom x p pts := by
  induction pts generalizing p with
  | nil => exact h0 p (by simp)
  | cons q pts ih =>
    obtain ⟨x0, y0⟩ := p
    obtain ⟨x1, y1⟩ := q
    have hf' := List.pairwise_cons.1 hf
    obtain ⟨h1, h2⟩ := hf'.1 (x1, y1) List.mem_cons_self
    rw [interpFrom]
    split_ifs with hc
    · have b := line_le hc.le h1 h2
      rw [line_end h1] at b
      exact (h0 (x1, y1) (by simp)).trans b
    · exact ih _ hf'.2 fun q hq => h0 q (List.mem_cons_of_mem _ hq)

theorem halves_get (prev : Option ℚ) (xs : List ℚ) (x y z : ℚ) (zs : List ℚ) :
    (halves prev (xs ++ x :: y :: z :: zs))[xs.length + 1]? = some ((y + z) / 2, (x + y) / 2) := by
  induction xs generalizing prev with
  | nil => rfl
  | cons w xs ih => exact ih (some w)

theorem halves_length (prev : Option ℚ) (xs : List ℚ) : (halves prev xs).length = xs.length := by
  induction xs generalizing prev with
  | nil => rfl
  | cons w xs ih => simp [halves, ih]

theorem drawAll_get {d : Draws} (ha : AgeMonotone d) (hb : DrawsBounded d) {es : List (ℚ × ℚ)} {gs : List (List Metadata)} {ts : List (List ℚ)}
    (h : drawAll d es gs = some ts) (k : ℕ) (e : ℚ × ℚ) (he : es[k]? = some e) (hle : e.1 ≤ e.2) (us : List ℚ) (hu : ts[k]? = some us) :
    Within d e us := by
  induction es generalizing gs ts k with
  | nil => simp at he
  | cons e' es ih =>
    cases gs with
    | nil =>
      simp only [drawAll, Option.some.injEq] at h
      subst h
      simp at hu
    | cons g gs =>
      unfold drawAll at h
      cases h1 : drawGroup d e' g with
      | none => rw [h1] at h; simp at h
      | some us' =>
        rw [h1] at h
        simp only [Option.map_eq_some_iff] at h
        obtain ⟨rest, h2, rfl⟩ := h
        cases k with
        | zero =>
          simp only [List.getElem?_cons_zero, Option.some.injEq] at he hu
          subst he; subst hu
          exact drawGroup_within ha hb hle h1
        | succ k =>
          simp only [List.getElem?_cons_succ] at he hu
          exact ih h2 k he hu

theorem drawAll_lengths {d : Draws} {es : List (ℚ × ℚ)} {gs : List (List Metadata)} {ts : List (List ℚ)} (h : drawAll d es gs = some ts)
    (hl : es.length = gs.length) : ts.map List.length = gs.map List.length := by
  induction es generalizing gs ts with
  | nil =>
    cases gs with
    | nil => simp only [drawAll, Option.some.injEq] at h; subst h; rfl
    | cons => simp at hl
  | cons e es ih =>
    cases gs with
    | nil => simp at hl
    | cons g gs =>
      unfold drawAll at h
      cases h1 : drawGroup d e g with
      | none => rw [h1] at h; simp at h
      | some us =>
        rw [h1] at h
        simp only [Option.map_eq_some_iff] at h
        obtain ⟨rest, h2, rfl⟩ := h
        simp only [List.map_cons, List.cons.injEq]
        exact ⟨drawGroup_length h1, ih h2 (by simpa using hl)⟩

/-! ### Theorems -/

/-- **C251, part.**  Some sequence numbers have craters whose numbers are exactly known and do not increase, beginning with the first, and others have craters
with nothing else.  Processing succeeds and gives a time to every crater.  The craters of each sequence number between two others form between the ages half
way, in numbers, from the number promised for it to those of its neighbours.  Uncertain numbers: see `C251_uncertain_partial`.  Missing: the range is not centred at
the promised number, see `C251_centre_fails`. -/
theorem C251_range_partial (d : Draws) (num root : ℚ → ℚ) (hr : root 0 = 0) (ha : AgeMonotone d) (hb : DrawsBounded d)
    (hpos : ∀ n, 0 < n → 0 < d.age n) (hzero : 0 ≤ d.age 0) (l : List Entry) (hs : (l.map Prod.fst).Pairwise (· < ·))
    (hhead : ∃ a va ma rest, l = (a, some va, ma) :: rest)
    (hk : ∀ s v ms, (s, some v, ms) ∈ l → 0 < v ∧ ms ≠ [] ∧ ∀ m ∈ ms, Exact num v m)
    (hn : ∀ s ms, (s, none, ms) ∈ l → ∀ m ∈ ms, m = .nothing)
    (hd : l.Pairwise fun x y => ∀ v w, x.2.1 = some v → y.2.1 = some w → w ≤ v) :
    ∃ ts, processCraters d num root (l.map fun x => (x.1, x.2.2)) = .times ts ∧ ts.map List.length = l.map (fun x => x.2.2.length) ∧
      ∀ pre x y z post, l = pre ++ x :: y :: z :: post → ∃ vx vy vz, Nominal l x.1 vx ∧ Nominal l y.1 vy ∧ Nominal l z.1 vz ∧ 0 ≤ vz ∧ vz ≤ vy ∧ vy ≤ vx ∧
        ∀ us, ts[pre.length + 1]? = some us → ∀ t ∈ us, d.age ((vy + vz) / 2) ≤ t ∧ t ≤ d.age ((vx + vy) / 2) := by
  have hg : (l.map fun x => (x.1, x.2.2)).map (fun x => (x.1, combine num root x.2)) = groupsOf l := by
    rw [List.map_map]
    refine List.map_congr_left fun x hx => ?_
    obtain ⟨s, g, ms⟩ := x
    simp only [Function.comp_apply, Prod.mk.injEq, true_and]
    cases g with
    | some v => exact combine_exact hr (hk s v ms hx).2.1 (hk s v ms hx).2.2
    | none =>
      have : ms.filterMap (contribution num) = [] := by
        rw [List.filterMap_eq_nil_iff]
        intro m hm
        rw [hn s ms hx m hm]; rfl
      simp [combine, this]
  have hf := filled_falling l hs (fun s v ms h => (hk s v ms h).1) hd
  obtain ⟨p, pts, hp⟩ : ∃ p pts, filled (groupsOf l) = p :: pts := by
    obtain ⟨a, va, ma, rest, rfl⟩ := hhead
    exact filled_some a (va, 0) _
  have hf' : Falling (p :: pts) := hp ▸ hf
  set V : Entry → ℚ := fun x => interpFrom x.1 p pts with hV
  have hinit : initial (groupsOf l) = some ((l.map V).map fun v => (v, (0 : ℚ))) := by
    have key : ∀ x ∈ l, (match x.2.1.map (fun v => (v, (0 : ℚ))) with
        | some g => g
        | none => (interpFrom x.1 p pts, 0)) = (V x, 0) := by
      intro x hx
      obtain ⟨s, g, ms⟩ := x
      cases g with
      | none => rfl
      | some v =>
        have hm := filled_given l s v ms hx
        rw [hp] at hm
        simp only [Option.map_some, Prod.mk.injEq, and_true, hV]
        exact (interp_point p pts hf' (s, v) hm).symm
    obtain ⟨a, va, ma, rest, rfl⟩ := hhead
    simp only [groupsOf, List.map_cons, Option.map_some] at hp ⊢
    simp only [initial, hp, List.map_cons, List.map_map, Option.some.injEq, List.cons.injEq]
    refine ⟨key (a, some va, ma) (by simp), List.map_congr_left fun x hx => ?_⟩
    exact key x (List.mem_cons_of_mem _ hx)
  have h0 : ∀ v ∈ l.map V, 0 ≤ v := by
    intro v hv
    obtain ⟨x, -, rfl⟩ := List.mem_map.1 hv
    refine interp_nonneg x.1 p pts hf' fun q hq => ?_
    rw [← hp] at hq
    rcases filled_mem l q hq with ⟨ms, h⟩ | ⟨h, -⟩
    · exact (hk _ _ ms h).1.le
    · exact h.ge
  have hmono : (l.map V).Pairwise (· ≥ ·) := by
    rw [List.pairwise_map] at hs ⊢
    exact hs.imp fun h => interp_anti _ _ h.le p pts hf'
  have hext : extents (groupsOf l) = some (halves none (l.map V)) := by
    rw [extents, hinit, Option.map_some, loop_exact _ h0 hmono]
  have hdec := halves_decreasing none (l.map V) hmono (by simp)
  have hnodiv := C119_partial d hpos hzero (groupsOf l) (l.map fun x => x.2.2) (by rw [groupsOf, List.map_map]; exact hs) (by
    intro s n sig h
    obtain ⟨⟨s', g, ms⟩, hx, he⟩ := List.mem_map.1 h
    simp only [Prod.mk.injEq, Option.map_eq_some_iff] at he
    obtain ⟨rfl, v, rfl, rfl, rfl⟩ := he
    exact ⟨le_refl _, (hk s' v ms hx).1⟩)
  have hproc : processCraters d num root (l.map fun x => (x.1, x.2.2)) = process d (groupsOf l) (l.map fun x => x.2.2) := by
    rw [processCraters, hg, List.map_map]; rfl
  cases hts : drawAll d (halves none (l.map V)) (l.map fun x => x.2.2) with
  | none => exact absurd (by simp only [process, hext, hts]) hnodiv
  | some ts =>
    have hlen : ts.map List.length = l.map (fun x => x.2.2.length) := by
      rw [drawAll_lengths hts (by simp [halves_length]), List.map_map]; rfl
    have hord : consistent ts = true := by
      by_cases h2 : 2 ≤ (halves none (l.map V)).length
      · obtain ⟨h3, h4⟩ := settled_spec (halves_shared _ _) hdec h2
        have := drawAll_inOrder ha hb h3 h4 hts
        exact neighbours_of_inOrder _ (this.sublist (List.dropLast_sublist _))
      · have : ts.length ≤ 1 := by
          have := drawAll_length hts
          omega
        match ts, this with
        | [], _ => rfl
        | [_], _ => rfl
    refine ⟨ts, by rw [hproc]; simp only [process, hext, hts, hord, if_true], hlen, ?_⟩
    intro pre x y z post hl
    have nom : ∀ w ∈ l, Nominal l w.1 (V w) := fun w hw => nominal_interp l hs hf hhead p pts hp w hw
    have hsplit : l.map V = pre.map V ++ V x :: V y :: V z :: post.map V := by rw [hl]; simp
    have hm := hmono
    rw [hsplit, List.pairwise_append] at hm
    obtain ⟨-, hm, -⟩ := hm
    simp only [List.pairwise_cons] at hm
    have hxy : V y ≤ V x := hm.1 (V y) (by simp)
    have hyz : V z ≤ V y := hm.2.1 (V z) (by simp)
    have hz0 : 0 ≤ V z := h0 _ (List.mem_map.2 ⟨z, by rw [hl]; simp, rfl⟩)
    refine ⟨V x, V y, V z, nom x (by rw [hl]; simp), nom y (by rw [hl]; simp), nom z (by rw [hl]; simp), hz0, hyz, hxy, fun us hus t ht => ?_⟩
    have hget := halves_get none (pre.map V) (V x) (V y) (V z) (post.map V)
    rw [← hsplit, List.length_map] at hget
    have hw := drawAll_get ha hb hts _ _ hget (by simp only; linarith) us hus t ht
    rwa [max_eq_left (by simp only; linarith), max_eq_left (by simp only; linarith)] at hw

/-- A sequence number has at most one promised number. -/
theorem C251_unique (l : List Entry) (hs : (l.map Prod.fst).Pairwise (· < ·)) (hk : ∀ s v ms, (s, some v, ms) ∈ l → 0 < v)
    (hd : l.Pairwise fun x y => ∀ v w, x.2.1 = some v → y.2.1 = some w → w ≤ v) (s v w : ℚ) (hv : Nominal l s v) (hw : Nominal l s w) : v = w := by
  have hf := filled_falling l hs hk hd
  cases hp : filled (groupsOf l) with
  | cons p pts => rw [nominal_value l hs hf p pts hp s v hv, nominal_value l hs hf p pts hp s w hw]
  | nil =>
    exfalso
    cases hv with
    | given s v ms h => have := filled_given l s v ms h; rw [hp] at this; simp at this
    | last pre s ms h => have := filled_last pre s ms; rw [← h, hp] at this; simp at this
    | between pre mid post a va s b vb ma mb gb h => have := filled_given l a va ma (by rw [h]; simp); rw [hp] at this; simp at this

/-- **C251 fails** for the centre of the range.  One sequence number `s` without metadata lies between two whose numbers are known, and every draw gives the
centre of its normal distribution.  The crater forms at the age of a number half of which is the promised one and half the mean of the neighbours; this is the
promised number exactly if `s` is half way between the neighbours. -/
theorem C251_centre_fails (d : Draws) (num root : ℚ → ℚ) (hr : root 0 = 0) (ha : AgeMonotone d) (hmean : ∀ m s lo hi, lo ≤ m → m ≤ hi → d.normal m s lo hi = m)
    (hpos : ∀ n, 0 < n → 0 < d.age n) (a s b va vb : ℚ) (has : a < s) (hsb : s < b) (hv : vb < va) (hvb : 0 < vb) :
    let vs := va + (s - a) * ((vb - va) / (b - a))
    processCraters d num root [(a, [.number va 0]), (s, [.nothing]), (b, [.number vb 0])] =
      .times [[d.age va], [d.age ((vs + (va + vb) / 2) / 2)], [d.age vb]] ∧
    ((vs + (va + vb) / 2) / 2 = vs ↔ s = (a + b) / 2) := by
  intro vs
  have hba : 0 < b - a := by linarith
  have h1 : vb < vs := by
    have : vs - vb = (va - vb) * ((b - s) / (b - a)) := by simp only [vs]; field_simp; ring
    have h : 0 < (va - vb) * ((b - s) / (b - a)) := mul_pos (by linarith) (div_pos (by linarith) hba)
    linarith
  have h2 : vs < va := by
    have : va - vs = (va - vb) * ((s - a) / (b - a)) := by simp only [vs]; field_simp; ring
    have h : 0 < (va - vb) * ((s - a) / (b - a)) := mul_pos (by linarith) (div_pos (by linarith) hba)
    linarith
  constructor
  · have hc : ∀ v, combine num root [.number v 0] = some (v, 0) := fun v => by simp [combine, contribution, hr]
    have hc0 : combine num root [.nothing] = none := by simp [combine, contribution]
    have hi : initial [(a, some (va, (0 : ℚ))), (s, none), (b, some (vb, 0))] = some ([va, vs, vb].map fun v => (v, (0 : ℚ))) := by
      simp [initial, filled, interpFrom, hsb, vs]
    have he : extents [(a, some (va, (0 : ℚ))), (s, none), (b, some (vb, 0))] = some [((va + vs) / 2, va), ((vs + vb) / 2, (va + vs) / 2), (vb, (vs + vb) / 2)] := by
      rw [extents, hi, Option.map_some, loop_exact]
      · rfl
      · intro v hv'
        simp only [List.mem_cons, List.not_mem_nil, or_false] at hv'
        rcases hv' with rfl | rfl | rfl <;> linarith
      · simp only [List.pairwise_cons, List.mem_cons, List.not_mem_nil, or_false, forall_eq_or_imp, forall_eq, ge_iff_le, false_imp_iff, implies_true,
          List.Pairwise.nil, and_true]
        refine ⟨⟨?_, ?_⟩, ?_⟩ <;> linarith
    have hw : ∀ lo hi : ℚ, 0 < lo → 0 < hi → ∃ w, halfWidth lo hi = some w := by
      intro lo hi h3 h4
      unfold halfWidth
      rw [if_neg (by linarith)]
      exact ⟨_, rfl⟩
    have hnum : ∀ lo hi v : ℚ, 0 < lo → lo ≤ v → v ≤ hi → drawTime d (lo, hi) (.number v 0) = some (d.age v) := by
      intro lo hi v h3 h4 h5
      obtain ⟨w, hw1⟩ := hw lo hi h3 (by linarith)
      obtain ⟨w', hw2⟩ := hw (d.age lo) (d.age hi) (hpos _ h3) (hpos _ (by linarith))
      simp only [drawTime, max_eq_left h3.le, hw1, hw2, gt_iff_lt, lt_irrefl, false_and, if_false, min_eq_left h5, max_eq_left h4]
      rw [max_eq_right (by linarith)]
    have hno : ∀ lo hi : ℚ, 0 < lo → lo ≤ hi → drawTime d (lo, hi) .nothing = some (d.age ((lo + hi) / 2)) := by
      intro lo hi h3 h5
      have h4 : 0 < hi := by linarith
      obtain ⟨w, hw1⟩ := hw lo hi h3 h4
      obtain ⟨w', hw2⟩ := hw (d.age lo) (d.age hi) (hpos _ h3) (hpos _ h4)
      simp only [drawTime, max_eq_left h3.le, hw1, hw2, hmean _ _ lo hi (by linarith : lo ≤ (lo + hi) / 2) (by linarith), ite_self]
      rw [max_eq_left (by linarith)]
    have hdraw : drawAll d [((va + vs) / 2, va), ((vs + vb) / 2, (va + vs) / 2), (vb, (vs + vb) / 2)] [[.number va 0], [.nothing], [.number vb 0]] =
        some [[d.age va], [d.age ((vs + (va + vb) / 2) / 2)], [d.age vb]] := by
      simp only [drawAll, drawGroup, hnum ((va + vs) / 2) va va (by linarith) (by linarith) (le_refl _),
        hno ((vs + vb) / 2) ((va + vs) / 2) (by linarith) (by linarith), hnum vb ((vs + vb) / 2) vb hvb (le_refl _) (by linarith), Option.map_some,
        Option.some.injEq, List.cons.injEq, and_true, true_and]
      ring_nf
    have hcons : consistent [[d.age va], [d.age ((vs + (va + vb) / 2) / 2)], [d.age vb]] = true := by
      have : d.age ((vs + (va + vb) / 2) / 2) ≤ d.age va := ha _ _ (by linarith)
      simp [consistent, neighbours, notBefore, this]
    simp only [processCraters, List.map_cons, List.map_nil, hc, hc0, process, he, hdraw, hcons, if_true]
  · have e : (vs + (va + vb) / 2) / 2 - vs = (va - vb) * ((s - (a + b) / 2) / (b - a)) / 2 := by simp only [vs]; field_simp; ring
    constructor
    · intro h
      rw [h, sub_self] at e
      have h3 : (va - vb) * ((s - (a + b) / 2) / (b - a)) = 0 := by linarith
      rcases mul_eq_zero.1 h3 with h4 | h4
      · linarith
      · rcases div_eq_zero_iff.1 h4 with h5 | h5 <;> linarith
    · intro h
      rw [h, sub_self, zero_div, mul_zero, zero_div] at e
      linarith

/-- Sequence numbers 0, 2, 5, 10 with the numbers 16 and 6 at the ends: 14 and 11 are promised for the others. -/
example : ∃ l : List Entry, l = [(0, some 16, [.number 16 0]), (2, none, [.nothing]), (5, none, [.nothing, .nothing]), (10, some 6, [.number 6 0])] ∧
    (l.map Prod.fst).Pairwise (· < ·) ∧ Nominal l 2 14 ∧ Nominal l 5 11 := by
  refine ⟨_, rfl, by simp; norm_num, ?_, ?_⟩
  · have h := Nominal.between (l := [(0, some 16, [.number 16 0]), (2, none, [.nothing]), (5, none, [.nothing, .nothing]), (10, some 6, [.number 6 0])])
      [] [(2, none, [.nothing]), (5, none, [.nothing, .nothing])] [] 0 16 2 10 6 [.number 16 0] [.number 6 0] (some 6) rfl (by simp) (by simp) (.inl rfl)
    norm_num at h
    exact h
  · have h := Nominal.between (l := [(0, some 16, [.number 16 0]), (2, none, [.nothing]), (5, none, [.nothing, .nothing]), (10, some 6, [.number 6 0])])
      [] [(2, none, [.nothing]), (5, none, [.nothing, .nothing])] [] 0 16 5 10 6 [.number 16 0] [.number 6 0] (some 6) rfl (by simp) (by simp) (.inl rfl)
    norm_num at h
    exact h

/-- The hypotheses of `C251_range_partial` are met by this list and linear ages. -/
example : ∃ ts, processCraters linear id id ([(0, some 16, [.number 16 0]), (2, none, [.nothing]), (5, none, [.nothing, .nothing]),
    (10, some 6, [.number 6 0])].map fun x : Entry => (x.1, x.2.2)) = .times ts ∧ ts.map List.length = [1, 1, 2, 1] := by
  obtain ⟨ts, h, hl, -⟩ := C251_range_partial linear id id rfl (fun _ _ h => h) (fun _ _ _ _ h => ⟨le_refl _, h⟩) (fun _ h => h) (le_refl _)
    [(0, some 16, [.number 16 0]), (2, none, [.nothing]), (5, none, [.nothing, .nothing]), (10, some 6, [.number 6 0])] (by simp; norm_num)
    ⟨0, 16, _, _, rfl⟩ (by simp [Exact]; rintro s v ms (⟨-, rfl, rfl⟩ | ⟨-, rfl, rfl⟩) <;> norm_num) (by simp; rintro s ms (⟨-, rfl⟩ | ⟨-, rfl⟩) <;> simp)
    (by simp; norm_num)
  exact ⟨ts, h, by simpa using hl⟩

end Verif.Sequence
