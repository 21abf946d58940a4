import Verif.Model.Promotion
import Mathlib.Data.List.Forall2
import Mathlib.Tactic.Linarith

/-! Property C262: replacing the morphology model keeps the lists of craters. -/

namespace Verif.Promotion

variable {F V : Type}

/-- The craters of the emplaced list, as they are read. -/
def Counting.emplacedCraters (s : Counting F V) : List (Crater F V) := s.emplaced.map s.heap

/-- The observed craters, as they are read. -/
def Counting.observedCraters (s : Counting F V) : List (Crater F V) := s.observed.map fun p => s.heap p.2

/-- `c'` is `c` made anew for model `m`. -/
def Anew (k : Maker F V) (m : ℕ) (c c' : Crater F V) : Prop :=
  c'.id = c.id ∧ c'.fixed = c.fixed ∧ c'.model = m ∧ k.convert m c.fixed c.vars = some c'.vars

/-- The craters up to some place are made anew, and from there on they are as before; that place is the end if all went well, and otherwise that of a crater which the new
model refuses. -/
def UpTo (k : Maker F V) (m : ℕ) (ok : Bool) (cs cs' : List (Crater F V)) : Prop :=
  ∃ a a' b, cs = a ++ b ∧ cs' = a' ++ b ∧ List.Forall₂ (Anew k m) a a' ∧
    (ok = true → b = []) ∧ (ok = false → ∃ c, b.head? = some c ∧ k.convert m c.fixed c.vars = none)

/-- What holds in every state that can be reached. -/
structure Inv (k : Maker F V) (s : Counting F V) : Prop where
  ids : ∀ r < s.next, (s.heap r).id = k.hash (s.heap r).fixed
  emplaced : ∀ r ∈ s.emplaced, r < s.next
  observed : ∀ p ∈ s.observed, p.2 < s.next ∧ (s.heap p.2).id = p.1
  keys : (s.observed.map Prod.fst).Nodup

theorem loop_spec (make : Crater F V → Option (Crater F V)) (h : ℕ → Crater F V) (n : ℕ) (rs : List ℕ) (hr : ∀ r ∈ rs, r < n) :
    n ≤ (loop make h n rs).2.1 ∧ (∀ r < n, (loop make h n rs).1 r = h r) ∧
    ∃ a a' b, rs = a ++ b ∧ (loop make h n rs).2.2.1 = a' ++ b ∧
      List.Forall₂ (fun r r' => n ≤ r' ∧ r' < (loop make h n rs).2.1 ∧ make (h r) = some ((loop make h n rs).1 r')) a a' ∧
      ((loop make h n rs).2.2.2 = true → b = []) ∧
      ((loop make h n rs).2.2.2 = false → ∃ r, b.head? = some r ∧ make (h r) = none) ∧
      ∀ i, n ≤ i → i < (loop make h n rs).2.1 → ∃ r ∈ rs, make (h r) = some ((loop make h n rs).1 i) := by
  induction rs generalizing h n with
  | nil => exact ⟨le_refl _, fun _ _ => rfl, [], [], [], rfl, rfl, .nil, fun _ => rfl, by simp [loop], fun i h1 h2 => absurd h2 (by simpa [loop] using h1)⟩
  | cons r rs ih =>
    rcases hm : make (h r) with _ | c
    · simp only [loop, hm]
      exact ⟨le_refl _, fun _ _ => trivial, [], [], r :: rs, rfl, rfl, .nil, by simp, fun _ => ⟨r, by simp, hm⟩, fun i h1 h2 => absurd h2 (not_lt.mpr h1)⟩
    · simp only [loop, hm]
      obtain ⟨h1, h2, a, a', b, e1, e2, e3, e4, e5, e6⟩ := ih (Function.update h n c) (n + 1) (fun x hx => (hr x (by simp [hx])).trans (Nat.lt_succ_self n))
      have hold : ∀ x < n, Function.update h n c x = h x := fun x hx => Function.update_of_ne (by omega) _ _
      have hn : (loop make (Function.update h n c) (n + 1) rs).1 n = c := by
        rw [h2 n (Nat.lt_succ_self n)]
        exact Function.update_self ..
      refine ⟨by omega, fun x hx => (h2 x (by omega)).trans (hold x hx), r :: a, n :: a', b, by rw [e1]; rfl, by rw [e2]; rfl, ?_, e4, ?_, ?_⟩
      · refine .cons ⟨le_refl _, by omega, by rw [hn, hm]⟩ ?_
        have hmem : ∀ x ∈ a, x < n := fun x hx => hr x (by rw [e1]; simp [hx])
        clear e1 e2 e6
        induction e3 with
        | nil => exact .nil
        | cons hx _ ih2 =>
          refine .cons ⟨by omega, hx.2.1, ?_⟩ (ih2 fun x hx => hmem x (by simp [hx]))
          rw [← hold _ (hmem _ (by simp))]
          exact hx.2.2
      · intro hf
        obtain ⟨x, hx, hx'⟩ := e5 hf
        refine ⟨x, hx, ?_⟩
        rw [← hold x]
        · exact hx'
        · apply hr
          rw [e1]
          have : x ∈ b := List.mem_of_mem_head? hx
          simp [this]
      · intro i hi hi'
        rcases Nat.lt_or_ge n i with hlt | hge
        · obtain ⟨x, hx, hx'⟩ := e6 i hlt hi'
          exact ⟨x, by simp [hx], by rw [← hold x (hr x (by simp [hx]))]; exact hx'⟩
        · obtain rfl : i = n := by omega
          exact ⟨r, by simp, by rw [hn, hm]⟩

theorem promote_anew {k : Maker F V} {m : ℕ} {c c' : Crater F V} (hc : c.id = k.hash c.fixed) (h : k.promote m c = some c') :
    Anew k m c c' ∧ c'.id = k.hash c'.fixed := by
  unfold Maker.promote at h
  rw [Option.map_eq_some_iff] at h
  obtain ⟨v, hv, rfl⟩ := h
  exact ⟨⟨hc.symm, rfl, rfl, hv⟩, rfl⟩

theorem promote_none {k : Maker F V} {m : ℕ} {c : Crater F V} (h : k.promote m c = none) : k.convert m c.fixed c.vars = none := by
  simpa [Maker.promote] using h

/-- The loop in terms of craters. -/
theorem loop_upTo (k : Maker F V) (m : ℕ) (h : ℕ → Crater F V) (n : ℕ) (rs : List ℕ) (hr : ∀ r ∈ rs, r < n) (hid : ∀ r < n, (h r).id = k.hash (h r).fixed) :
    UpTo k m (loop (k.promote m) h n rs).2.2.2 (rs.map h) ((loop (k.promote m) h n rs).2.2.1.map (loop (k.promote m) h n rs).1) := by
  obtain ⟨_, h2, a, a', b, e1, e2, e3, e4, e5, _⟩ := loop_spec (k.promote m) h n rs hr
  generalize loop (k.promote m) h n rs = q at *
  have hb : b.map q.1 = b.map h := List.map_congr_left fun x hx => h2 x (hr x (by rw [e1]; simp [hx]))
  refine ⟨a.map h, a'.map q.1, b.map h, by rw [e1]; simp, by rw [e2]; simp [hb], ?_, fun ho => by rw [e4 ho]; rfl, fun ho => ?_⟩
  · have hmem : ∀ x ∈ a, x < n := fun x hx => hr x (by rw [e1]; simp [hx])
    clear e1 e2
    induction e3 with
    | nil => exact .nil
    | cons hx _ ih => exact .cons (promote_anew (hid _ (hmem _ (by simp))) hx.2.2).1 (ih fun x hx => hmem x (by simp [hx]))
  · obtain ⟨r, hr1, hr2⟩ := e5 ho
    exact ⟨h r, by simp [hr1], promote_none hr2⟩

/-- The loop in terms of references. -/
theorem loop_refs (k : Maker F V) (m : ℕ) (h : ℕ → Crater F V) (n : ℕ) (rs : List ℕ) (hr : ∀ r ∈ rs, r < n) (hid : ∀ r < n, (h r).id = k.hash (h r).fixed) :
    (∀ r < (loop (k.promote m) h n rs).2.1, ((loop (k.promote m) h n rs).1 r).id = k.hash ((loop (k.promote m) h n rs).1 r).fixed) ∧
    List.Forall₂ (fun r r' => r' < (loop (k.promote m) h n rs).2.1 ∧ ((loop (k.promote m) h n rs).1 r').id = (h r).id) rs (loop (k.promote m) h n rs).2.2.1 ∧
    ((loop (k.promote m) h n rs).2.2.2 = true → ∀ r ∈ (loop (k.promote m) h n rs).2.2.1, n ≤ r) := by
  obtain ⟨h1, h2, a, a', b, e1, e2, e3, e4, e5, e6⟩ := loop_spec (k.promote m) h n rs hr
  generalize loop (k.promote m) h n rs = q at *
  refine ⟨?_, ?_, ?_⟩
  · intro r hr'
    rcases Nat.lt_or_ge r n with hlt | hge
    · rw [h2 r hlt]; exact hid r hlt
    · obtain ⟨x, hx, hx'⟩ := e6 r hge hr'
      exact (promote_anew (hid x (hr x hx)) hx').2
  · have hmem : ∀ x ∈ a, x < n := fun x hx => hr x (by rw [e1]; simp [hx])
    have hmb : ∀ x ∈ b, x < n := fun x hx => hr x (by rw [e1]; simp [hx])
    rw [e2, e1]
    clear e1 e2 e4 e5 e6
    induction e3 with
    | nil =>
      simp only [List.nil_append]
      rw [List.forall₂_same]
      exact fun x hx => ⟨by have := hmb x hx; omega, by rw [h2 x (hmb x hx)]⟩
    | cons hx _ ih =>
      exact .cons ⟨hx.2.1, (promote_anew (hid _ (hmem _ (by simp))) hx.2.2).1.1⟩ (ih fun x hx => hmem x (by simp [hx]))
  · intro ho r hr'
    rw [e2, e4 ho, List.append_nil] at hr'
    clear e1 e2
    induction e3 with
    | nil => simp at hr'
    | cons hx _ ih =>
      rcases List.mem_cons.mp hr' with rfl | hr'
      · exact hx.1
      · exact ih hr'

theorem zip_spec {R : ℕ → ℕ → Prop} (d : List (ℕ × ℕ)) (rs : List ℕ) (h : List.Forall₂ R (d.map Prod.snd) rs) :
    (∀ q ∈ (d.map Prod.fst).zip rs, ∃ p ∈ d, q.1 = p.1 ∧ R p.2 q.2) ∧ ((d.map Prod.fst).zip rs).map Prod.fst = d.map Prod.fst ∧
      ((d.map Prod.fst).zip rs).map Prod.snd = rs := by
  have hl : (d.map Prod.fst).length = rs.length := by simpa using h.length_eq
  refine ⟨?_, List.map_fst_zip hl.le, List.map_snd_zip hl.ge⟩
  clear hl
  induction d generalizing rs with
  | nil => simp
  | cons p d ih =>
    rw [List.map_cons, List.forall₂_cons_left_iff] at h
    obtain ⟨r, rs', h1, h2, rfl⟩ := h
    intro q hq
    simp only [List.map_cons, List.zip_cons_cons, List.mem_cons] at hq
    rcases hq with rfl | hq
    · exact ⟨p, by simp, rfl, h1⟩
    · obtain ⟨p', hp, hq⟩ := ih rs' h2 q hq
      exact ⟨p', by simp [hp], hq⟩

theorem forall₂_mem {R : ℕ → ℕ → Prop} {a b : List ℕ} (h : List.Forall₂ R a b) : ∀ y ∈ b, ∃ x ∈ a, R x y := by
  induction h with
  | nil => simp
  | cons hx _ ih =>
    intro y hy
    rcases List.mem_cons.mp hy with rfl | hy
    · exact ⟨_, by simp, hx⟩
    · obtain ⟨x, h1, h2⟩ := ih y hy
      exact ⟨x, by simp [h1], h2⟩

/-- Everything about the setter. -/
theorem set_spec (k : Maker F V) (s : Counting F V) (hs : Inv k s) (m : ℕ) :
    Inv k (setMorphology k s m).1 ∧ (setMorphology k s m).1.model = m ∧ (setMorphology k s m).1.observed.map Prod.fst = s.observed.map Prod.fst ∧
    (∃ ok, UpTo k m ok s.emplacedCraters (setMorphology k s m).1.emplacedCraters ∧
      (ok = true → UpTo k m (setMorphology k s m).2 s.observedCraters (setMorphology k s m).1.observedCraters) ∧
      (ok = false → (setMorphology k s m).2 = false ∧ (setMorphology k s m).1.observedCraters = s.observedCraters)) ∧
    ((setMorphology k s m).2 = true → ∀ r ∈ (setMorphology k s m).1.emplaced, ∀ p ∈ (setMorphology k s m).1.observed, r ≠ p.2) := by
  have u1 := loop_upTo k m s.heap s.next s.emplaced hs.emplaced hs.ids
  have r1 := loop_refs k m s.heap s.next s.emplaced hs.emplaced hs.ids
  have l1 := loop_spec (k.promote m) s.heap s.next s.emplaced hs.emplaced
  unfold setMorphology
  simp only
  generalize loop (k.promote m) s.heap s.next s.emplaced = e at *
  obtain ⟨hn, hold, -⟩ := l1
  obtain ⟨i1, f1, -⟩ := r1
  have hobs : ∀ r ∈ s.observed.map Prod.snd, r < e.2.1 := by
    intro r hr
    obtain ⟨p, hp, rfl⟩ := List.mem_map.mp hr
    have := (hs.observed p hp).1
    omega
  have u2 := loop_upTo k m e.1 e.2.1 (s.observed.map Prod.snd) hobs i1
  have r2 := loop_refs k m e.1 e.2.1 (s.observed.map Prod.snd) hobs i1
  have l2 := loop_spec (k.promote m) e.1 e.2.1 (s.observed.map Prod.snd) hobs
  generalize loop (k.promote m) e.1 e.2.1 (s.observed.map Prod.snd) = o at *
  obtain ⟨hn2, hold2, -⟩ := l2
  obtain ⟨i2, f2, g2⟩ := r2
  obtain ⟨z1, z2, z3⟩ := zip_spec s.observed o.2.2.1 f2
  have hem : ∀ r ∈ e.2.2.1, r < e.2.1 := by
    intro r hr
    obtain ⟨x, -, hx⟩ := forall₂_mem f1 r hr
    exact hx.1
  have hview : ∀ d : List (ℕ × ℕ), (∀ p ∈ d, p.2 < s.next) → d.map (fun p => e.1 p.2) = d.map fun p => s.heap p.2 :=
    fun d hd => List.map_congr_left fun p hp => hold p.2 (hd p hp)
  by_cases hok : e.2.2.2 = true
  · rw [if_pos hok]
    refine ⟨⟨i2, fun r hr => by have := hem r hr; show r < o.2.1; omega, ?_, by rw [z2]; exact hs.keys⟩, rfl, z2, ⟨true, ?_, fun _ => ?_, by simp⟩, ?_⟩
    · intro q hq
      obtain ⟨p, hp, h1, h2, h3⟩ := z1 q hq
      refine ⟨h2, ?_⟩
      show (o.1 q.2).id = q.1
      rw [h3, hold p.2 (hs.observed p hp).1, h1]
      exact (hs.observed p hp).2
    · rw [hok] at u1
      have : e.2.2.1.map o.1 = e.2.2.1.map e.1 := List.map_congr_left fun r hr => hold2 r (hem r hr)
      simpa only [Counting.emplacedCraters, this] using u1
    · have h1 : s.observedCraters = (s.observed.map Prod.snd).map e.1 := by
        rw [List.map_map]
        exact (hview s.observed fun p hp => (hs.observed p hp).1).symm
      have h2 : ((s.observed.map Prod.fst).zip o.2.2.1).map (fun p => o.1 p.2) = o.2.2.1.map o.1 := by
        rw [← z3, List.map_map, z3]
        rfl
      rw [h1]
      simpa only [Counting.observedCraters, h2] using u2
    · intro ho r hr p hp
      have h1 := hem r hr
      have h2 : p.2 ∈ o.2.2.1 := by rw [← z3]; exact List.mem_map_of_mem hp
      have := g2 ho p.2 h2
      omega
  · rw [if_neg hok]
    have hok' : e.2.2.2 = false := by simpa using hok
    rw [hok'] at u1
    refine ⟨⟨i1, hem, ?_, hs.keys⟩, rfl, rfl, ⟨false, u1, by simp, fun _ => ⟨rfl, ?_⟩⟩, by simp⟩
    · intro p hp
      have := hs.observed p hp
      refine ⟨by show p.2 < e.2.1; omega, ?_⟩
      show (e.1 p.2).id = p.1
      rw [hold p.2 this.1]
      exact this.2
    · exact hview s.observed fun p hp => (hs.observed p hp).1

theorem put_mem {id r : ℕ} {d : List (ℕ × ℕ)} {q : ℕ × ℕ} (h : q ∈ put id r d) : q = (id, r) ∨ q ∈ d := by
  unfold put at h
  split_ifs at h with hi
  · obtain ⟨p, hp, rfl⟩ := List.mem_map.mp h
    split_ifs
    · exact .inl rfl
    · exact .inr hp
  · rcases List.mem_append.mp h with h | h
    · exact .inr h
    · exact .inl (by simpa using h)

theorem put_keys {id r : ℕ} {d : List (ℕ × ℕ)} (h : (d.map Prod.fst).Nodup) : ((put id r d).map Prod.fst).Nodup := by
  unfold put
  split_ifs with hi
  · have : (d.map fun p => if p.1 = id then (id, r) else p).map Prod.fst = d.map Prod.fst := by
      rw [List.map_map]
      refine List.map_congr_left fun p _ => ?_
      simp only [Function.comp_apply]
      split_ifs with hp
      · exact hp.symm
      · rfl
    rw [this]
    exact h
  · rw [List.map_append, List.nodup_append]
    refine ⟨h, by simp, ?_⟩
    intro a ha b hb
    have : b = id := by simpa using hb
    subst this
    rintro rfl
    exact hi ha

theorem inv_alloc (k : Maker F V) (s : Counting F V) (hs : Inv k s) (f : F) (v : V) (em : List ℕ) (ob : List (ℕ × ℕ))
    (he : em = s.emplaced ∨ em = s.emplaced ++ [s.next]) (ho : ob = s.observed ∨ ob = put (k.hash f) s.next s.observed) :
    Inv k { alloc k s f v with emplaced := em, observed := ob } := by
  have hold : ∀ x < s.next, Function.update s.heap s.next ⟨k.hash f, s.model, f, v⟩ x = s.heap x := fun x hx => Function.update_of_ne (by omega) _ _
  have hnew : Function.update s.heap s.next ⟨k.hash f, s.model, f, v⟩ s.next = ⟨k.hash f, s.model, f, v⟩ := Function.update_self ..
  have h1 : ∀ p ∈ s.observed, p.2 < s.next + 1 ∧ (Function.update s.heap s.next ⟨k.hash f, s.model, f, v⟩ p.2).id = p.1 := by
    intro p hp
    have := hs.observed p hp
    exact ⟨by omega, by rw [hold _ this.1]; exact this.2⟩
  refine ⟨?_, ?_, ?_, ?_⟩
  · intro r hr
    have hr : r < s.next + 1 := hr
    show (Function.update s.heap s.next _ r).id = k.hash (Function.update s.heap s.next _ r).fixed
    rcases Nat.lt_or_ge r s.next with h | h
    · rw [hold r h]; exact hs.ids r h
    · obtain rfl : r = s.next := by omega
      rw [hnew]
  · intro r hr
    show r < s.next + 1
    rcases he with rfl | rfl
    · have := hs.emplaced r hr; omega
    · rcases List.mem_append.mp hr with h | h
      · have := hs.emplaced r h; omega
      · have : r = s.next := by simpa using h
        omega
  · intro p hp
    rcases ho with rfl | rfl
    · exact h1 p hp
    · rcases put_mem hp with rfl | hp
      · exact ⟨Nat.lt_succ_self _, by show (Function.update s.heap s.next _ s.next).id = _; rw [hnew]⟩
      · exact h1 p hp
  · rcases ho with rfl | rfl
    · exact hs.keys
    · exact put_keys hs.keys

theorem inv_step (k : Maker F V) (s : Counting F V) (hs : Inv k s) (e : Event F V) : Inv k (step k s e) := by
  cases e with
  | form f v counted => exact inv_alloc k s hs f v _ _ (.inr rfl) (by cases counted <;> simp)
  | loadEmplaced f v => exact inv_alloc k s hs f v _ _ (.inr rfl) (.inl rfl)
  | loadObserved f v => exact inv_alloc k s hs f v _ _ (.inl rfl) (.inr rfl)
  | assign r g =>
    have hu : ∀ x, (Function.update s.heap r { s.heap r with vars := g (s.heap r).vars } x).id = (s.heap x).id ∧
        (Function.update s.heap r { s.heap r with vars := g (s.heap r).vars } x).fixed = (s.heap x).fixed := by
      intro x
      by_cases hx : x = r
      · subst hx; rw [Function.update_self]; exact ⟨rfl, rfl⟩
      · rw [Function.update_of_ne hx]; exact ⟨rfl, rfl⟩
    refine ⟨fun x hx => ?_, hs.emplaced, fun p hp => ⟨(hs.observed p hp).1, ?_⟩, hs.keys⟩
    · show (Function.update s.heap r _ x).id = k.hash (Function.update s.heap r _ x).fixed
      rw [(hu x).1, (hu x).2]
      exact hs.ids x hx
    · exact (hu p.2).1.trans (hs.observed p hp).2
  | remove id =>
    exact ⟨hs.ids, hs.emplaced, fun p hp => hs.observed p (List.mem_filter.mp hp).1, hs.keys.sublist (List.Sublist.map _ List.filter_sublist)⟩
  | reset => exact ⟨hs.ids, by simp [step], by simp [step], by simp [step]⟩
  | morphology m => exact (set_spec k s hs m).1

theorem inv_run (k : Maker F V) (h : ℕ → Crater F V) (m : ℕ) (es : List (Event F V)) : Inv k (run k h m es) := by
  unfold run
  have h0 : Inv k (⟨h, 0, [], [], m⟩ : Counting F V) := ⟨by simp, by simp, by simp, by simp⟩
  generalize (⟨h, 0, [], [], m⟩ : Counting F V) = s at h0
  induction es generalizing s with
  | nil => exact h0
  | cons e es ih => exact ih _ (inv_step k s h0 e)

theorem upTo_map {α : Type} {k : Maker F V} {m : ℕ} {ok : Bool} {cs cs' : List (Crater F V)} (h : UpTo k m ok cs cs') (g : Crater F V → α)
    (hg : ∀ c c', Anew k m c c' → g c' = g c) : cs'.map g = cs.map g := by
  obtain ⟨a, a', b, rfl, rfl, h3, -⟩ := h
  rw [List.map_append, List.map_append]
  congr 1
  induction h3 with
  | nil => rfl
  | cons hx _ ih => rw [List.map_cons, List.map_cons, hg _ _ hx, ih]

theorem upTo_true {k : Maker F V} {m : ℕ} {cs cs' : List (Crater F V)} (h : UpTo k m true cs cs') : List.Forall₂ (Anew k m) cs cs' := by
  obtain ⟨a, a', b, rfl, rfl, h3, h4, -⟩ := h
  rw [h4 rfl, List.append_nil, List.append_nil]
  exact h3

/-- C262: after any history, replacing the morphology model keeps the ids and the fixed attributes of the emplaced craters in their order and the ids under which the observed
craters are kept, each still with the crater that has it.  If no crater is refused, every crater is made anew for the new model from its own attributes. -/
theorem C262_lists (k : Maker F V) (h : ℕ → Crater F V) (m₀ : ℕ) (es : List (Event F V)) (m : ℕ) (s s' : Counting F V) (ok : Bool)
    (hs : s = run k h m₀ es) (hm : setMorphology k s m = (s', ok)) :
    s'.model = m ∧ s'.emplacedCraters.map (fun c => (c.id, c.fixed)) = s.emplacedCraters.map (fun c => (c.id, c.fixed)) ∧
    s'.observed.map Prod.fst = s.observed.map Prod.fst ∧ (∀ p ∈ s'.observed, (s'.heap p.2).id = p.1) ∧
    (ok = true → List.Forall₂ (Anew k m) s.emplacedCraters s'.emplacedCraters ∧ List.Forall₂ (Anew k m) s.observedCraters s'.observedCraters) := by
  obtain ⟨h1, h2, h3, ⟨o, h4, h5, h6⟩, -⟩ := set_spec k s (hs ▸ inv_run k h m₀ es) m
  rw [hm] at h1 h2 h3 h4 h5 h6
  refine ⟨h2, upTo_map h4 _ fun c c' hc => by rw [hc.1, hc.2.1], h3, fun p hp => (h1.observed p hp).2, ?_⟩
  rintro rfl
  cases o with
  | false => exact absurd (h6 rfl).1 (by simp)
  | true => exact ⟨upTo_true h4, upTo_true (h5 rfl)⟩

/-- **C262 fails** when the new model refuses a crater: the exception comes after the model was replaced, and leaves the lists with craters of two models.  Exactly the craters
before the refused one, emplaced before observed, are made anew. -/
theorem C262_refused_fails (k : Maker F V) (h : ℕ → Crater F V) (m₀ : ℕ) (es : List (Event F V)) (m : ℕ) (s s' : Counting F V)
    (hs : s = run k h m₀ es) (hm : setMorphology k s m = (s', false)) :
    s'.model = m ∧
    ((UpTo k m false s.emplacedCraters s'.emplacedCraters ∧ s'.observedCraters = s.observedCraters) ∨
      (List.Forall₂ (Anew k m) s.emplacedCraters s'.emplacedCraters ∧ UpTo k m false s.observedCraters s'.observedCraters)) := by
  obtain ⟨-, h2, -, ⟨o, h4, h5, h6⟩, -⟩ := set_spec k s (hs ▸ inv_run k h m₀ es) m
  rw [hm] at h2 h4 h5 h6
  refine ⟨h2, ?_⟩
  cases o with
  | false => exact .inl ⟨h4, (h6 rfl).2⟩
  | true => exact .inr ⟨upTo_true h4, h5 rfl⟩

/-- A crater that was formed and counted is one object: what is assigned to it as an observed crater is read from the emplaced list as well. -/
theorem C262_shared (k : Maker F V) (h : ℕ → Crater F V) (m₀ : ℕ) (es : List (Event F V)) (f : F) (v : V) (g : V → V) :
    ∃ r, (k.hash f, r) ∈ (run k h m₀ (es ++ [.form f v true])).observed ∧
      ((run k h m₀ (es ++ [.form f v true, .assign r g])).emplacedCraters.getLast?).map (·.vars) = some (g v) := by
  refine ⟨(run k h m₀ es).next, ?_, ?_⟩
  · simp only [run, List.foldl_append, List.foldl_cons, List.foldl_nil, step, if_true, put]
    split_ifs with hi
    · obtain ⟨p, hp, he⟩ := List.mem_map.mp hi
      exact List.mem_map.mpr ⟨p, hp, by simp [he]⟩
    · simp
  · simp [run, step, Counting.emplacedCraters, alloc]

/-- **C262 fails** for craters that are both emplaced and observed: after the model was replaced they are different objects.  Whatever is assigned to an observed crater then is
not seen in the emplaced list, neither before nor when that list is saved. -/
theorem C262_shared_fails (k : Maker F V) (h : ℕ → Crater F V) (m₀ : ℕ) (es : List (Event F V)) (m : ℕ) (s s' : Counting F V)
    (hs : s = run k h m₀ es) (hm : setMorphology k s m = (s', true)) (p : ℕ × ℕ) (hp : p ∈ s'.observed) (g : V → V) :
    p.2 ∉ s'.emplaced ∧ (step k s' (.assign p.2 g)).emplacedCraters = s'.emplacedCraters := by
  obtain ⟨-, -, -, -, h5⟩ := set_spec k s (hs ▸ inv_run k h m₀ es) m
  rw [hm] at h5
  have hne : ∀ r ∈ s'.emplaced, r ≠ p.2 := fun r hr => h5 rfl r hr p hp
  refine ⟨fun hmem => hne _ hmem rfl, ?_⟩
  exact List.map_congr_left fun r hr => Function.update_of_ne (hne r hr) _ _

/-- C262: after any history, also one in which models were replaced, an observed crater is removed by the id that the crater itself has: no other crater leaves the observed
craters, the ids stay different from each other, and the emplaced craters are as before. -/
theorem C262_removed (k : Maker F V) (h : ℕ → Crater F V) (m₀ : ℕ) (es : List (Event F V)) (id : ℕ) (s s' : Counting F V)
    (hs : s = run k h m₀ es) (hs' : s' = run k h m₀ (es ++ [.remove id])) :
    (∀ c, c ∈ s'.observedCraters ↔ c ∈ s.observedCraters ∧ c.id ≠ id) ∧ (s'.observedCraters.map (·.id)).Nodup ∧ s'.emplacedCraters = s.emplacedCraters := by
  have hi := inv_run k h m₀ es
  have hi' := inv_run k h m₀ (es ++ [.remove id])
  have he : s' = step k s (.remove id) := by rw [hs, hs', run, List.foldl_append]; rfl
  rw [← hs] at hi
  rw [← hs'] at hi'
  refine ⟨fun c => ?_, ?_, by rw [he]; rfl⟩
  · rw [he]
    simp only [Counting.observedCraters, step, List.mem_map, List.mem_filter, decide_eq_true_eq]
    constructor
    · rintro ⟨p, ⟨hp, hne⟩, rfl⟩
      exact ⟨⟨p, hp, rfl⟩, by rw [(hi.observed p hp).2]; exact hne⟩
    · rintro ⟨⟨p, hp, rfl⟩, hne⟩
      exact ⟨p, ⟨hp, by rw [← (hi.observed p hp).2]; exact hne⟩, rfl⟩
  · have : s'.observedCraters.map (·.id) = s'.observed.map Prod.fst := by
      rw [Counting.observedCraters, List.map_map]
      exact List.map_congr_left fun p hp => (hi'.observed p hp).2
    rw [this]
    exact hi'.keys

/-- Two craters, the first of which is counted, and a new model that refuses the fixed attribute 7. -/
def sample : Maker ℕ ℕ := ⟨fun f => f + 100, fun _ f v => if f = 7 then none else some v⟩

/-- A model is replaced: both craters are made anew. -/
example : ∃ s', setMorphology sample (run sample (fun _ => ⟨0, 0, 0, 0⟩) 0 [.form 1 5 true, .form 2 6 false]) 1 = (s', true) ∧
    s'.emplacedCraters = [⟨101, 1, 1, 5⟩, ⟨102, 1, 2, 6⟩] ∧ s'.observedCraters = [⟨101, 1, 1, 5⟩] := by
  refine ⟨_, Prod.ext rfl ?_, ?_, ?_⟩ <;> simp [setMorphology, run, step, alloc, put, loop, Maker.promote, sample, Counting.emplacedCraters, Counting.observedCraters, Function.update]

/-- The second crater is refused: the first is made anew among the emplaced craters, and is as before among the observed ones. -/
example : ∃ s', setMorphology sample (run sample (fun _ => ⟨0, 0, 0, 0⟩) 0 [.form 1 5 true, .form 7 6 false]) 1 = (s', false) ∧
    s'.emplacedCraters = [⟨101, 1, 1, 5⟩, ⟨107, 0, 7, 6⟩] ∧ s'.observedCraters = [⟨101, 0, 1, 5⟩] := by
  refine ⟨_, Prod.ext rfl ?_, ?_, ?_⟩ <;> simp [setMorphology, run, step, alloc, put, loop, Maker.promote, sample, Counting.emplacedCraters, Counting.observedCraters, Function.update]

end Verif.Promotion
