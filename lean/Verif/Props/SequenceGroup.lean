import Verif.Model.SequenceGroup
import Verif.Props.Sequence
import Mathlib.Algebra.BigOperators.Group.List.Basic
import Mathlib.Algebra.Order.BigOperators.Group.List

/-! Property C246: craters that share a sequence number. -/

namespace Verif.Sequence

/-! ### Specification -/

/-- The metadata of a crater give the number exactly, without uncertainty. -/
def Exact (num : ℚ → ℚ) (v : ℚ) : Metadata → Prop
  | .nothing => False
  | .number mean sig => mean = v ∧ sig = 0
  | .time mean sig => 0 ≤ mean ∧ num mean = v ∧ sig = 0

/-- The age that the metadata of a crater give. -/
def ownAge (d : Draws) : Metadata → ℚ
  | .nothing => 0
  | .number mean _ => d.age mean
  | .time mean _ => mean

/-! ### Helpers -/

theorem contribution_exact {num : ℚ → ℚ} {v : ℚ} {m : Metadata} (h : Exact num v m) : contribution num m = some (v, 0) := by
  cases m with
  | nothing => exact h.elim
  | number mean sig => obtain ⟨rfl, rfl⟩ := h; rfl
  | time mean sig =>
    obtain ⟨h0, rfl, rfl⟩ := h
    simp only [contribution, sub_zero, add_zero, max_eq_left h0, sub_self, zero_div, Option.some.injEq, Prod.mk.injEq, and_true]
    ring

theorem contributions_exact {num : ℚ → ℚ} {v : ℚ} {ms : List Metadata} (h : ∀ m ∈ ms, Exact num v m) :
    ms.filterMap (contribution num) = List.replicate ms.length (v, 0) := by
  induction ms with
  | nil => rfl
  | cons m ms ih =>
    rw [List.filterMap_cons, contribution_exact (h m (List.mem_cons_self ..)), ih fun x hx => h x (List.mem_cons_of_mem _ hx)]
    rfl

theorem combine_exact {num root : ℚ → ℚ} (hr : root 0 = 0) {v : ℚ} {ms : List Metadata} (hne : ms ≠ []) (h : ∀ m ∈ ms, Exact num v m) :
    combine num root ms = some (v, 0) := by
  have hl : (ms.length : ℚ) ≠ 0 := by
    have : ms.length ≠ 0 := by simpa using hne
    exact_mod_cast this
  unfold combine
  rw [contributions_exact h]
  have h0 : List.replicate ms.length (v, (0 : ℚ)) ≠ [] := by simpa using hne
  simp only [h0, if_false, List.map_replicate, List.sum_replicate, List.length_replicate, nsmul_eq_mul, Option.some.injEq, Prod.mk.injEq]
  exact ⟨by field_simp, by simp [hr]⟩

theorem filled_some (s : ℚ) (g : ℚ × ℚ) (rest : List (ℚ × Group)) : ∃ p pts, filled ((s, some g) :: rest) = p :: pts := by
  obtain ⟨n, sig⟩ := g
  cases rest with
  | nil => exact ⟨_, _, rfl⟩
  | cons a rest => exact ⟨(s, n), filled (a :: rest), by simp [filled]⟩

theorem initial_exact (l : List (ℚ × ℚ)) :
    initial (l.map fun x => (x.1, some (x.2, (0 : ℚ)))) = some (l.map fun x => (x.2, 0)) := by
  cases l with
  | nil => rfl
  | cons x l =>
    obtain ⟨p, pts, hp⟩ := filled_some x.1 (x.2, 0) (l.map fun x => (x.1, some (x.2, (0 : ℚ))))
    simp only [List.map_cons, initial, hp, List.map_map]
    rfl

/-- Half way to the next number. -/
def below (v : ℚ) : List ℚ → ℚ
  | [] => v
  | w :: _ => (v + w) / 2

/-- Half way to the previous number. -/
def above (v : ℚ) : Option ℚ → ℚ
  | none => v
  | some p => (p + v) / 2

/-- The extents for exactly known numbers: each reaches half way to its neighbours. -/
def halves : Option ℚ → List ℚ → List (ℚ × ℚ)
  | _, [] => []
  | prev, v :: rest => (below v rest, above v prev) :: halves (some v) rest

theorem spread_exact (prev : Option ℚ) (vs : List ℚ) (h0 : ∀ v ∈ vs, 0 ≤ v) (hd : vs.Pairwise (· ≥ ·))
    (hp : ∀ p, prev = some p → ∀ v ∈ vs, v ≤ p) : spread prev (vs.map fun v => (v, 0)) = halves prev vs := by
  induction vs generalizing prev with
  | nil => rfl
  | cons v vs ih =>
    have hv : 0 ≤ v := h0 v (List.mem_cons_self ..)
    rw [List.pairwise_cons] at hd
    have hrest := ih (some v) (fun x hx => h0 x (List.mem_cons_of_mem _ hx)) hd.2 (fun p hp x hx => by
      cases hp; exact hd.1 x hx)
    simp only [List.map_cons, spread, sub_zero, add_zero, max_eq_left hv, hrest, halves]
    congr 1
    have hw : ∀ w vs', vs = w :: vs' → 0 ≤ w ∧ w ≤ v := by
      rintro w vs' rfl
      exact ⟨h0 w (by simp), hd.1 w (by simp)⟩
    have hpv : ∀ p, prev = some p → v ≤ p := fun p h => hp p h v (List.mem_cons_self ..)
    clear ih hrest hp hd h0
    cases vs with
    | nil =>
      cases prev with
      | none => simp [below, above]
      | some p =>
        have := hpv p rfl
        simp only [List.map_nil, below, above]
        rw [if_neg (by linarith)]
        exact Prod.ext rfl (by simp only; ring)
    | cons w vs =>
      obtain ⟨w0, wv⟩ := hw w vs rfl
      have hm : max (v + (w + 0 - v) / 2) 0 = (v + w) / 2 := by
        rw [max_eq_left (by linarith)]
        ring
      cases prev with
      | none =>
        simp only [List.map_cons, hm, below, above]
        rw [if_neg (by linarith)]
      | some p =>
        have := hpv p rfl
        simp only [List.map_cons, hm, below, above]
        rw [if_neg (by linarith)]
        exact Prod.ext rfl (by simp only; ring)

theorem join_same (prev : Option (ℚ × ℚ)) (cur : ℚ × ℚ) (rest : List (ℚ × ℚ)) (h : Shared (prev.toList ++ cur :: rest)) :
    join prev cur rest = prev.toList ++ cur :: rest := by
  have hprev : ∀ cur rest, Shared (prev.toList ++ cur :: rest) → joinPrev prev cur = (prev, cur) := by
    intro cur rest h
    cases prev with
    | none => rfl
    | some p =>
      have : p.1 = cur.2 := h.1
      simp [joinPrev, this]
  induction rest generalizing prev cur with
  | nil => simp only [join, hprev cur [] h]
  | cons nxt rest ih =>
    have hc : Shared (cur :: nxt :: rest) := by
      cases prev with
      | none => exact h
      | some p => exact h.2
    have hn : joinNext cur nxt = (cur, nxt) := by simp [joinNext, hc.1]
    simp only [join, hprev cur _ h, hn]
    rw [ih (some cur) nxt hc]
    · rfl
    · intro c r hh
      have : cur.1 = c.2 := hh.1
      simp [joinPrev, this]

theorem halves_shared (prev : Option ℚ) (vs : List ℚ) : Shared (halves prev vs) := by
  induction vs generalizing prev with
  | nil => trivial
  | cons v vs ih =>
    cases vs with
    | nil => trivial
    | cons w vs => exact ⟨rfl, ih (some v)⟩

theorem round_exact (vs : List ℚ) (h0 : ∀ v ∈ vs, 0 ≤ v) (hd : vs.Pairwise (· ≥ ·)) :
    round (vs.map fun v => (v, 0)) = halves none vs := by
  unfold round
  rw [spread_exact none vs h0 hd (by simp)]
  have hs := halves_shared none vs
  cases he : halves none vs with
  | nil => rfl
  | cons e es => exact join_same none e es (by rw [he] at hs; exact hs)

theorem halves_decreasing (prev : Option ℚ) (vs : List ℚ) (hd : vs.Pairwise (· ≥ ·)) (hp : ∀ p, prev = some p → ∀ v ∈ vs, v ≤ p) :
    decreasing (halves prev vs) = true := by
  induction vs generalizing prev with
  | nil => rfl
  | cons v vs ih =>
    rw [List.pairwise_cons] at hd
    cases vs with
    | nil => rfl
    | cons w vs =>
      have hrest := ih (some v) hd.2 (fun p hp x hx => by cases hp; exact hd.1 x hx)
      have hw : w ≤ v := hd.1 w (by simp)
      simp only [halves] at hrest ⊢
      simp only [decreasing, Bool.and_eq_true, decide_eq_true_eq]
      refine ⟨⟨?_, ?_⟩, hrest⟩
      · cases vs with
        | nil => simp only [below]; linarith
        | cons x vs =>
          have := (List.pairwise_cons.1 hd.2).1 x (by simp)
          simp only [below]; linarith
      · cases prev with
        | none => simp only [above]; linarith
        | some p =>
          have := hp p rfl v (by simp)
          simp only [above]; linarith

theorem loop_exact (vs : List ℚ) (h0 : ∀ v ∈ vs, 0 ≤ v) (hd : vs.Pairwise (· ≥ ·)) (k : ℕ) :
    loop k (vs.map fun v => (v, 0)) = halves none vs := by
  have hr := round_exact vs h0 hd
  cases k with
  | zero => exact hr
  | succ k => simp only [loop, hr, halves_decreasing none vs hd (by simp), if_true]

theorem drawTime_exact {d : Draws} {num : ℚ → ℚ} (hm : AgeMonotone d) (hpos : ∀ n, 0 < n → 0 < d.age n)
    (hinv : ∀ t, 0 ≤ t → d.age (num t) = t) {e : ℚ × ℚ} {v : ℚ} (h0 : 0 < e.1) (h1 : e.1 ≤ v) (h2 : v ≤ e.2) {m : Metadata}
    (h : Exact num v m) : drawTime d e m = some (ownAge d m) := by
  have hx : max e.1 0 = e.1 := max_eq_left h0.le
  have hw : ∀ a b : ℚ, 0 < a → 0 < b → ∃ s, halfWidth a b = some s := by
    intro a b ha hb
    unfold halfWidth
    rw [if_neg (by linarith)]
    exact ⟨_, rfl⟩
  obtain ⟨s, hs⟩ := hw e.1 e.2 h0 (by linarith)
  obtain ⟨u, hu⟩ := hw (d.age e.1) (d.age e.2) (hpos _ h0) (hpos _ (by linarith))
  simp only [drawTime, hx, hs, hu, Option.some.injEq]
  cases m with
  | nothing => exact h.elim
  | number mean sig =>
    obtain ⟨rfl, rfl⟩ := h
    simp only [gt_iff_lt, lt_irrefl, false_and, if_false, ownAge, min_eq_left h2, max_eq_left h1]
    rw [max_eq_right (by linarith)]
  | time mean sig =>
    obtain ⟨h3, rfl, rfl⟩ := h
    have a1 := hm _ _ h1
    have a2 := hm _ _ h2
    rw [hinv mean h3] at a1 a2
    simp only [gt_iff_lt, lt_irrefl, false_and, if_false, ownAge, min_eq_left a2, max_eq_left a1]

theorem drawGroup_exact {d : Draws} {num : ℚ → ℚ} (hm : AgeMonotone d) (hpos : ∀ n, 0 < n → 0 < d.age n)
    (hinv : ∀ t, 0 ≤ t → d.age (num t) = t) {e : ℚ × ℚ} {v : ℚ} (h0 : 0 < e.1) (h1 : e.1 ≤ v) (h2 : v ≤ e.2) {ms : List Metadata}
    (h : ∀ m ∈ ms, Exact num v m) : drawGroup d e ms = some (ms.map (ownAge d)) := by
  induction ms with
  | nil => rfl
  | cons m ms ih =>
    simp only [drawGroup, drawTime_exact hm hpos hinv h0 h1 h2 (h m (List.mem_cons_self ..)), ih fun x hx => h x (List.mem_cons_of_mem _ hx)]
    rfl

theorem drawAll_exact {d : Draws} {num : ℚ → ℚ} (hm : AgeMonotone d) (hpos : ∀ n, 0 < n → 0 < d.age n)
    (hinv : ∀ t, 0 ≤ t → d.age (num t) = t) (prev : Option ℚ) (l : List (ℚ × List Metadata)) (h0 : ∀ x ∈ l, 0 < x.1)
    (hd : (l.map Prod.fst).Pairwise (· ≥ ·)) (hp : ∀ p, prev = some p → ∀ x ∈ l, x.1 ≤ p) (h : ∀ x ∈ l, ∀ m ∈ x.2, Exact num x.1 m) :
    drawAll d (halves prev (l.map Prod.fst)) (l.map Prod.snd) = some (l.map fun x => x.2.map (ownAge d)) := by
  induction l generalizing prev with
  | nil => rfl
  | cons x l ih =>
    rw [List.map_cons, List.pairwise_cons] at hd
    have hx := h0 x (List.mem_cons_self ..)
    have hrest := ih (some x.1) (fun y hy => h0 y (List.mem_cons_of_mem _ hy)) hd.2
      (fun p hp y hy => by cases hp; exact hd.1 _ (List.mem_map_of_mem hy)) (fun y hy => h y (List.mem_cons_of_mem _ hy))
    simp only [List.map_cons, halves, drawAll, hrest, Option.map_some]
    have hlo : 0 < below x.1 (l.map Prod.fst) ∧ below x.1 (l.map Prod.fst) ≤ x.1 := by
      cases l with
      | nil => exact ⟨hx, le_rfl⟩
      | cons y l =>
        have hy := h0 y (by simp)
        have hyx : y.1 ≤ x.1 := hd.1 y.1 (by simp)
        simp only [List.map_cons, below]
        constructor <;> linarith
    have hhi : x.1 ≤ above x.1 prev := by
      cases prev with
      | none => exact le_rfl
      | some p =>
        have := hp p rfl x (List.mem_cons_self ..)
        simp only [above]; linarith
    rw [drawGroup_exact hm hpos hinv hlo.1 hlo.2 hhi (h x (List.mem_cons_self ..))]

theorem neighbours_of_inOrder (ts : List (List ℚ)) (h : InOrder ts) : neighbours ts = true := by
  induction ts with
  | nil => rfl
  | cons a ts ih =>
    rw [InOrder, List.pairwise_cons] at h
    cases ts with
    | nil => rfl
    | cons b ts =>
      simp only [neighbours, Bool.and_eq_true, notBefore, List.all_eq_true, decide_eq_true_eq]
      exact ⟨h.1 b (by simp), ih h.2⟩

theorem ownAge_exact {d : Draws} {num : ℚ → ℚ} (hinv : ∀ t, 0 ≤ t → d.age (num t) = t) {v : ℚ} {m : Metadata} (h : Exact num v m) :
    ownAge d m = d.age v := by
  cases m with
  | nothing => exact h.elim
  | number mean sig => rw [← h.1]; rfl
  | time mean sig => rw [← h.2.1, hinv mean h.1]; rfl

/-! ### Theorems -/

/-- **C246, part.**  If all craters of a sequence number have the same number without uncertainty, given as a number or as an age, and the numbers do not
increase with the sequence number, every crater forms exactly at the age that its metadata give, for any number of sequence numbers and of craters in
each.  `num` is the number of craters made since an age and `d.age` its inverse.  Missing: craters of one sequence number with different numbers, see
`C246_shared_fails`. -/
theorem C246_exact_partial (d : Draws) (num root : ℚ → ℚ) (hr : root 0 = 0) (hm : AgeMonotone d) (hpos : ∀ n, 0 < n → 0 < d.age n)
    (hinv : ∀ t, 0 ≤ t → d.age (num t) = t) (l : List (ℚ × ℚ × List Metadata)) (hne : ∀ x ∈ l, x.2.2 ≠ []) (h0 : ∀ x ∈ l, 0 < x.2.1)
    (hd : (l.map fun x => x.2.1).Pairwise (· ≥ ·)) (h : ∀ x ∈ l, ∀ m ∈ x.2.2, Exact num x.2.1 m) :
    processCraters d num root (l.map fun x => (x.1, x.2.2)) = .times (l.map fun x => x.2.2.map (ownAge d)) := by
  have hg : (l.map fun x => (x.1, x.2.2)).map (fun x => (x.1, combine num root x.2)) =
      (l.map fun x => (x.1, x.2.1)).map fun x => (x.1, some (x.2, (0 : ℚ))) := by
    rw [List.map_map, List.map_map]
    apply List.map_congr_left
    intro x hx
    simp only [Function.comp, combine_exact hr (hne x hx) (h x hx)]
  have hv : (l.map fun x => (x.1, x.2.1)).map (fun x => (x.2, (0 : ℚ))) = (l.map fun x => x.2.1).map fun v => (v, (0 : ℚ)) := by
    rw [List.map_map, List.map_map]; rfl
  have he : extents ((l.map fun x => (x.1, x.2.2)).map fun x => (x.1, combine num root x.2)) = some (halves none (l.map fun x => x.2.1)) := by
    unfold extents
    rw [hg, initial_exact, hv, Option.map_some, loop_exact _ _ hd]
    intro v hv
    obtain ⟨x, hx, rfl⟩ := List.mem_map.1 hv
    exact (h0 x hx).le
  have hfst : (l.map fun x => x.2.1) = (l.map fun x => x.2).map Prod.fst := by rw [List.map_map]; rfl
  have hsnd : (l.map fun x => (x.1, x.2.2)).map Prod.snd = (l.map fun x => x.2).map Prod.snd := by rw [List.map_map, List.map_map]; rfl
  have hdraw := drawAll_exact hm hpos hinv none (l.map fun x => x.2)
    (fun y hy => by obtain ⟨x, hx, rfl⟩ := List.mem_map.1 hy; exact h0 x hx) (by rw [← hfst]; exact hd) (by simp)
    (fun y hy => by obtain ⟨x, hx, rfl⟩ := List.mem_map.1 hy; exact h x hx)
  have hres : (l.map fun x => x.2).map (fun x => x.2.map (ownAge d)) = l.map fun x => x.2.2.map (ownAge d) := by rw [List.map_map]; rfl
  rw [hres] at hdraw
  have hord : InOrder (l.map fun x => x.2.2.map (ownAge d)) := by
    unfold InOrder
    rw [List.pairwise_map] at hd ⊢
    refine hd.imp_of_mem fun {a b} ha hb hab x hx y hy => ?_
    obtain ⟨m, hm', rfl⟩ := List.mem_map.1 hx
    obtain ⟨k, hk, rfl⟩ := List.mem_map.1 hy
    rw [ownAge_exact hinv (h a ha m hm'), ownAge_exact hinv (h b hb k hk)]
    exact hm _ _ hab
  unfold processCraters process
  rw [he, hsnd]
  simp only [hfst, hdraw]
  rw [if_pos]
  exact neighbours_of_inOrder _ (hord.sublist (List.dropLast_sublist _))

/-- Three sequence numbers, the second with two craters, one of which has an age instead of a number. -/
example : ∃ l : List (ℚ × ℚ × List Metadata), (∀ x ∈ l, x.2.2 ≠ []) ∧ (∀ x ∈ l, 0 < x.2.1) ∧ (l.map fun x => x.2.1).Pairwise (· ≥ ·) ∧
    (∀ x ∈ l, ∀ m ∈ x.2.2, Exact id x.2.1 m) ∧ AgeMonotone linear ∧ (∀ t, 0 ≤ t → linear.age (id t) = t) ∧ l.length = 3 :=
  ⟨[(1, 9, [.number 9 0]), (2, 5, [.number 5 0, .time 5 0]), (7, 1, [.time 1 0])], by simp, by simp, by norm_num,
    by simp [Exact], fun _ _ h => h, fun _ _ => rfl, rfl⟩

/-- The extents with a single sequence number. -/
theorem extents_one (s n sig : ℚ) (hn : 0 ≤ n) (hs : 0 ≤ sig) : extents [(s, some (n, sig))] = some [(max (n - sig) 0, n + sig)] := by
  have : ¬ max (n - sig) 0 > n + sig := by
    rw [not_lt]
    exact max_le (by linarith) (by linarith)
  simp [extents, initial, filled, loop, round, spread, this, join, joinPrev, decreasing]

/-- **C246 fails** for craters of one sequence number whose numbers are exactly known but different: whatever they are, all of them form at the same
time, the age of their mean, and none at its own unless its number is the mean. -/
theorem C246_shared_fails (d : Draws) (num root : ℚ → ℚ) (hr : root 0 = 0) (hpos : ∀ n, 0 < n → 0 < d.age n) (s : ℚ) (ns : List ℚ)
    (hne : ns ≠ []) (h0 : ∀ n ∈ ns, 0 < n) :
    processCraters d num root [(s, ns.map fun n => .number n 0)] = .times [ns.map fun _ => d.age (ns.sum / ns.length)] := by
  have hc : (ns.map fun n => Metadata.number n 0).filterMap (contribution num) = ns.map fun n => (n, (0 : ℚ)) := by
    rw [List.filterMap_map]
    induction ns with
    | nil => rfl
    | cons n ns ih =>
      by_cases h : ns = []
      · subst h; rfl
      · rw [List.filterMap_cons]
        simp only [Function.comp, contribution, List.map_cons, List.cons.injEq, true_and]
        exact ih h fun x hx => h0 x (List.mem_cons_of_mem _ hx)
  have hsum : 0 < ns.sum := by
    cases ns with
    | nil => exact absurd rfl hne
    | cons n ns =>
      rw [List.sum_cons]
      have : 0 ≤ ns.sum := List.sum_nonneg fun x hx => (h0 x (List.mem_cons_of_mem _ hx)).le
      have := h0 n (List.mem_cons_self ..)
      linarith
  have hlen : (0 : ℚ) < ns.length := by
    have : 0 < ns.length := List.length_pos_iff.2 hne
    exact_mod_cast this
  have hmean : 0 < ns.sum / ns.length := div_pos hsum hlen
  set mu := ns.sum / ns.length with hmu
  have hcomb : combine num root (ns.map fun n => .number n 0) = some (mu, 0) := by
    unfold combine
    rw [hc]
    have hz : ((ns.map fun n => (n, (0 : ℚ))).map fun x => x.2 ^ 2).sum = 0 := by
      rw [List.map_map]
      simp [Function.comp_def]
    have hf : ((ns.map fun n => (n, (0 : ℚ))).map Prod.fst) = ns := by rw [List.map_map]; simp [Function.comp_def]
    simp only [List.map_eq_nil_iff, hne, if_false, hz, hr, zero_div, hf, List.length_map, hmu]
  have hx := extents_one s mu 0 hmean.le le_rfl
  simp only [sub_zero, add_zero, max_eq_left hmean.le] at hx
  have hw : ∀ a : ℚ, 0 < a → halfWidth a a = some 0 := by
    intro a ha
    simp only [halfWidth, sub_self, zero_div, ite_self]
    rw [if_neg (by linarith)]
  have hdraw : ∀ ks : List ℚ, drawGroup d (mu, mu) (ks.map fun n => .number n 0) = some (ks.map fun _ => d.age mu) := by
    intro ks
    induction ks with
    | nil => rfl
    | cons k ks ih =>
      have : drawTime d (mu, mu) (.number k 0) = some (d.age mu) := by
        simp only [drawTime, max_eq_left hmean.le, hw mu hmean, hw _ (hpos mu hmean), gt_iff_lt, lt_irrefl, false_and, if_false,
          Option.some.injEq]
        rw [max_eq_right (min_le_right k mu), max_eq_right hmean.le]
      simp only [List.map_cons, drawGroup, this, ih, Option.map_some]
  unfold processCraters process
  simp only [List.map_cons, List.map_nil, hcomb, hx, drawAll, hdraw, Option.map_some]
  rfl

/-- Two craters, of numbers 1 and 3, both get the age of 2. -/
example : ∃ ns : List ℚ, ns ≠ [] ∧ (∀ n ∈ ns, 0 < n) ∧ ns.sum / ns.length = 2 ∧ 2 ∉ ns := ⟨[1, 3], by simp, by simp, by norm_num, by norm_num⟩

/-- The number of a sequence number lies between the least and the largest number of its craters, and combining `k` craters makes the uncertainty
smaller: its square is at most that of the largest divided by `k`.  `hroot`: the root is that of the sum of the squares. -/
theorem C246_combined (num root : ℚ → ℚ) (ms : List Metadata) (n sig : ℚ) (h : combine num root ms = some (n, sig)) (lo hi big : ℚ)
    (hroot : root ((ms.filterMap (contribution num)).map fun x => x.2 ^ 2).sum ^ 2 =
      ((ms.filterMap (contribution num)).map fun x => x.2 ^ 2).sum)
    (hb : ∀ x ∈ ms.filterMap (contribution num), lo ≤ x.1 ∧ x.1 ≤ hi ∧ x.2 ^ 2 ≤ big ^ 2) :
    lo ≤ n ∧ n ≤ hi ∧ ((ms.filterMap (contribution num)).length : ℚ) * sig ^ 2 ≤ big ^ 2 := by
  simp only [combine] at h
  set l := ms.filterMap (contribution num) with hl
  split_ifs at h with hne
  simp only [Option.some.injEq, Prod.mk.injEq] at h
  obtain ⟨rfl, rfl⟩ := h
  have hlen : (0 : ℚ) < l.length := by
    have : 0 < l.length := List.length_pos_iff.2 hne
    exact_mod_cast this
  have key : ∀ l : List (ℚ × ℚ), (∀ x ∈ l, lo ≤ x.1 ∧ x.1 ≤ hi ∧ x.2 ^ 2 ≤ big ^ 2) →
      l.length * lo ≤ (l.map Prod.fst).sum ∧ (l.map Prod.fst).sum ≤ l.length * hi ∧ (l.map fun x => x.2 ^ 2).sum ≤ l.length * big ^ 2 := by
    intro l
    induction l with
    | nil => simp
    | cons x l ih =>
      intro hx
      obtain ⟨a, b, c⟩ := ih fun y hy => hx y (List.mem_cons_of_mem _ hy)
      obtain ⟨a', b', c'⟩ := hx x (List.mem_cons_self ..)
      simp only [List.map_cons, List.sum_cons, List.length_cons, Nat.cast_add, Nat.cast_one]
      refine ⟨by linarith, by linarith, by linarith⟩
  obtain ⟨a, b, c⟩ := key l hb
  refine ⟨by rw [le_div_iff₀ hlen]; linarith, by rw [div_le_iff₀ hlen]; linarith, ?_⟩
  rw [div_pow, hroot]
  rw [mul_div_assoc', div_le_iff₀ (by positivity)]
  nlinarith

/-- Four craters with uncertainties of 2: that of the mean is 1. -/
example : ∃ root : ℚ → ℚ, combine id root [.number 3 2, .number 5 2, .number 5 2, .number 7 2] = some (5, 1) ∧ root 16 ^ 2 = 16 :=
  ⟨fun _ => 4, by decide +kernel, by norm_num⟩

end Verif.Sequence
