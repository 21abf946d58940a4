import Verif.Model.Batch
import Verif.Props.Emplace
import Verif.Props.Region
import Mathlib.Order.Interval.Finset.Nat
import Mathlib.Tactic.Linarith

/-!
C215: craters that are emplaced together do not influence each other.
-/

namespace Verif.Batch

open Emplace (nextBatch process)

/-- Two states that agree on a region. -/
def Agree (r : Region) (g h : Ground) : Prop :=
  (∀ f ∈ r.faces, g.face f = h.face f ∧ g.ejecta f = h.ejecta f) ∧ ∀ n ∈ r.nodes, g.node n = h.node n

/-- Two states that agree outside a region. -/
def Same (r : Region) (g h : Ground) : Prop :=
  (∀ f, f ∉ r.faces → g.face f = h.face f ∧ g.ejecta f = h.ejecta f) ∧ ∀ n, n ∉ r.nodes → g.node n = h.node n

/-- A change that reads and writes only a region. -/
structure Local (r : Region) (op : Ground → Ground) : Prop where
  outside : ∀ g, Same r (op g) g
  inside : ∀ g h, Agree r g h → Agree r (op g) (op h)

theorem view_congr {r : Region} {g h : Ground} (a : Agree r g h) : r.view g = r.view h := by
  ext x
  · simp only [Region.view]; split_ifs with hx
    · exact (a.1 x hx).1
    · rfl
  · simp only [Region.view]; split_ifs with hx
    · exact a.2 x hx
    · rfl
  · simp only [Region.view]; split_ifs with hx
    · exact (a.1 x hx).2
    · rfl

theorem local_step (r : Region) (k : Ground → Ground) : Local r (r.step k) where
  outside g := by
    refine ⟨fun f hf => ?_, fun n hn => ?_⟩
    · simp [Region.step, Region.put, hf]
    · simp [Region.step, Region.put, hn]
  inside g h a := by
    refine ⟨fun f hf => ?_, fun n hn => ?_⟩
    · simp [Region.step, Region.put, hf, view_congr a]
    · simp [Region.step, Region.put, hn, view_congr a]

theorem local_clear (r : Region) (I : Finset ℕ) (hI : I ⊆ r.faces) : Local r (clearInterior I) where
  outside g := by
    refine ⟨fun f hf => ⟨rfl, ?_⟩, fun n hn => rfl⟩
    have : f ∉ I := fun h => hf (hI h)
    simp [clearInterior, this]
  inside g h a := by
    refine ⟨fun f hf => ⟨(a.1 f hf).1, ?_⟩, a.2⟩
    simp [clearInterior, (a.1 f hf).2]

theorem local_comp {r : Region} {p q : Ground → Ground} (hp : Local r p) (hq : Local r q) : Local r (fun g => q (p g)) where
  outside g := by
    have h1 := hp.outside g
    have h2 := hq.outside (p g)
    exact ⟨fun f hf => ⟨(h2.1 f hf).1.trans (h1.1 f hf).1, (h2.1 f hf).2.trans (h1.1 f hf).2⟩, fun n hn => (h2.2 n hn).trans (h1.2 n hn)⟩
  inside g h a := hq.inside _ _ (hp.inside _ _ a)

theorem local_form (k : Bool) (c : Crater) (hI : c.interior ⊆ c.ejectaRegion.faces) : Local c.ejectaRegion (fun g => form k g c) := by
  constructor
  · intro g
    unfold form
    split_ifs with h1 h2
    · exact (local_comp (local_comp (local_comp (local_comp (local_comp (local_step _ _) (local_step _ _)) (local_clear _ _ hI))
        (local_step _ _)) (local_step _ _)) (local_step _ _)).outside g
    · exact (local_comp (local_comp (local_comp (local_comp (local_step _ _) (local_clear _ _ hI))
        (local_step _ _)) (local_step _ _)) (local_step _ _)).outside g
    · exact ⟨fun f _ => ⟨rfl, rfl⟩, fun n _ => rfl⟩
  · intro g h a
    unfold form
    dsimp only
    rw [view_congr a]
    split_ifs with h1 h2
    · exact (local_comp (local_comp (local_comp (local_comp (local_comp (local_step _ _) (local_step _ _)) (local_clear _ _ hI))
        (local_step _ _)) (local_step _ _)) (local_step _ _)).inside g h a
    · exact (local_comp (local_comp (local_comp (local_comp (local_step _ _) (local_clear _ _ hI))
        (local_step _ _)) (local_step _ _)) (local_step _ _)).inside g h a
    · exact a

/-- Changes of disjoint regions commute. -/
theorem local_comm {r s : Region} {p q : Ground → Ground} (hp : Local r p) (hq : Local s q) (hf : Disjoint r.faces s.faces)
    (hn : Disjoint r.nodes s.nodes) (g : Ground) : q (p g) = p (q g) := by
  have key : ∀ {r s : Region} {p q : Ground → Ground}, Local r p → Local s q → Disjoint r.faces s.faces → Disjoint r.nodes s.nodes →
      Agree r (q (p g)) (p (q g)) := by
    intro r s p q hp hq hf hn
    have h1 : Agree r (q (p g)) (p g) := by
      refine ⟨fun f hf' => (hq.outside (p g)).1 f ?_, fun n hn' => (hq.outside (p g)).2 n ?_⟩
      · exact Finset.disjoint_left.mp hf hf'
      · exact Finset.disjoint_left.mp hn hn'
    have h2 : Agree r g (q g) := by
      refine ⟨fun f hf' => ?_, fun n hn' => ((hq.outside g).2 n ?_).symm⟩
      · have := (hq.outside g).1 f (Finset.disjoint_left.mp hf hf')
        exact ⟨this.1.symm, this.2.symm⟩
      · exact Finset.disjoint_left.mp hn hn'
    have h3 := hp.inside _ _ h2
    exact ⟨fun f hf' => ⟨(h1.1 f hf').1.trans (h3.1 f hf').1, (h1.1 f hf').2.trans (h3.1 f hf').2⟩,
      fun n hn' => (h1.2 n hn').trans (h3.2 n hn')⟩
  have a1 := key hp hq hf hn
  have a2 := key hq hp hf.symm hn.symm
  have o1 : ∀ x, x ∉ r.faces → x ∉ s.faces → (q (p g)).face x = (p (q g)).face x ∧ (q (p g)).ejecta x = (p (q g)).ejecta x := by
    intro x hr hs
    have e1 := (hq.outside (p g)).1 x hs
    have e2 := (hp.outside g).1 x hr
    have e3 := (hp.outside (q g)).1 x hr
    have e4 := (hq.outside g).1 x hs
    exact ⟨by rw [e1.1, e2.1, e3.1, e4.1], by rw [e1.2, e2.2, e3.2, e4.2]⟩
  have o2 : ∀ x, x ∉ r.nodes → x ∉ s.nodes → (q (p g)).node x = (p (q g)).node x := by
    intro x hr hs
    rw [(hq.outside (p g)).2 x hs, (hp.outside g).2 x hr, (hp.outside (q g)).2 x hr, (hq.outside g).2 x hs]
  ext x
  · by_cases hr : x ∈ r.faces
    · exact (a1.1 x hr).1
    · by_cases hs : x ∈ s.faces
      · exact ((a2.1 x hs).1).symm
      · exact (o1 x hr hs).1
  · by_cases hr : x ∈ r.nodes
    · exact a1.2 x hr
    · by_cases hs : x ∈ s.nodes
      · exact (a2.2 x hs).symm
      · exact o2 x hr hs
  · by_cases hr : x ∈ r.faces
    · exact (a1.1 x hr).2
    · by_cases hs : x ∈ s.faces
      · exact ((a2.1 x hs).2).symm
      · exact (o1 x hr hs).2

/-- Craters that are kept apart: their ejecta reach no common face and no common node. -/
def Apart (x y : Crater) : Prop :=
  Disjoint x.ejectaRegion.faces y.ejectaRegion.faces ∧ Disjoint x.ejectaRegion.nodes y.ejectaRegion.nodes

/-- Folding over craters of a list in another order, when the single steps commute for craters that are apart. -/
theorem fold_perm {α : Type} (op : α → Crater → α) {b b' : List Crater} (hp : b.Perm b') (hb : b.Pairwise Apart)
    (hc : ∀ x ∈ b, ∀ y ∈ b, Apart x y → ∀ g, op (op g x) y = op (op g y) x) (g : α) : b.foldl op g = b'.foldl op g := by
  apply hp.foldl_eq'
  have h : b.Pairwise fun x y => x ∈ b → y ∈ b → ∀ g, op (op g x) y = op (op g y) x :=
    hb.imp fun {x y} hxy hx hy g => hc x hx y hy hxy g
  intro x hx y hy z
  have : ∀ x ∈ b, ∀ y ∈ b, (x ∈ b → y ∈ b → ∀ g, op (op g x) y = op (op g y) x) := by
    intro x hx y hy
    by_cases e : x = y
    · subst e; intro _ _ g; rfl
    · have : Std.Symm fun x y => x ∈ b → y ∈ b → ∀ g, op (op g x) y = op (op g y) x := ⟨fun x y hxy hy hx g => (hxy hx hy g).symm⟩
      exact h.forall hx hy e
  exact this x hx y hy hx hy z

/-- The batches that the queue makes. -/
theorem batches_apart [DecidableEq Crater] (q : List Crater) :
    (process overlap (fun _ => false) q.length q).batches.flatten = q ∧
      ∀ b ∈ (process overlap (fun _ => false) q.length q).batches, b.Pairwise Apart := by
  obtain ⟨h1, -, -, -, h2⟩ := Emplace.C46_exactly_once overlap (fun _ => false) q (fun _ _ => rfl) q.length le_rfl
  exact ⟨h1, fun b hb => (h2 b hb).imp fun {x y} h => ⟨h.2, h.1⟩⟩

/-- **C215**, for the surface: let the craters of each batch of the queue be formed in any order; elevations of faces and nodes and the layer of
ejecta are the same in the end.  (Forming them at the same time, each on its own region, amounts to this as well.) -/
theorem C215_any_order [DecidableEq Crater] (k : Bool) (g : Ground) (q : List Crater)
    (hI : ∀ c ∈ q, c.interior ⊆ c.ejectaRegion.faces) (other : List (List Crater))
    (h : List.Forall₂ List.Perm (process overlap (fun _ => false) q.length q).batches other) :
    emplace k g other = q.foldl (form k) g := by
  obtain ⟨hflat, hap⟩ := batches_apart q
  have hI' : ∀ b ∈ (process overlap (fun _ => false) q.length q).batches, ∀ c ∈ b, c.interior ⊆ c.ejectaRegion.faces := by
    intro b hb c hc
    refine hI c ?_
    rw [← hflat]
    exact List.mem_flatten.mpr ⟨b, hb, hc⟩
  have key : ∀ (bs other : List (List Crater)) (g : Ground), List.Forall₂ List.Perm bs other → (∀ b ∈ bs, b.Pairwise Apart) →
      (∀ b ∈ bs, ∀ c ∈ b, c.interior ⊆ c.ejectaRegion.faces) → emplace k g other = bs.flatten.foldl (form k) g := by
    intro bs other g h
    induction h generalizing g with
    | nil => intro _ _; rfl
    | @cons b b' bs bs' hp _ ih =>
      intro ha hI
      have e : emplace k g (b' :: bs') = emplace k (b'.foldl (form k) g) bs' := rfl
      rw [e, ih _ (fun x hx => ha x (List.mem_cons_of_mem _ hx)) (fun x hx => hI x (List.mem_cons_of_mem _ hx)), List.flatten_cons,
        List.foldl_append, fold_perm (form k) hp (ha b List.mem_cons_self)]
      intro x hx y hy hxy g
      exact local_comm (local_form k x (hI b List.mem_cons_self x hx)) (local_form k y (hI b List.mem_cons_self y hy)) hxy.1 hxy.2 g
  rw [key _ _ g h hap hI', hflat]

/-- The condition on the interior holds for the regions that are taken from the mesh: the faces inside the rim with their neighbours are
faces of the ejecta region, since ejecta reach farther than the rim. -/
theorem C215_interior (m : Verif.Region.Mesh) (hm : m.Good) (dist : ℕ → ℝ) (half : ℝ) (hhalf : ∀ f < m.nFace, dist f ≤ half) (nearest : ℕ)
    (hnear : nearest < m.nFace) (radius reach : ℝ) (hr : 0 < radius) (hreach : radius ≤ reach) (tagged ejecta inner : Verif.Region.Local)
    (h1 : Verif.Region.extractRegion m dist half nearest (1.5 * radius) false = some tagged)
    (h2 : Verif.Region.extractRegion m dist half nearest reach false = some ejecta)
    (h3 : Verif.Region.extractSubregion m dist tagged radius = some inner) :
    inner.faces ⊆ ejecta.faces ∧ inner.faces ⊆ tagged.faces := by
  obtain ⟨-, hbuf, -, -⟩ := Verif.Region.C67_region m hm dist half hhalf nearest hnear reach false ejecta h2
  obtain ⟨-, hbuf1, hlt, -⟩ := Verif.Region.C67_region m hm dist half hhalf nearest hnear (1.5 * radius) false tagged h1
  have hrad : tagged.radius = 1.5 * radius := by
    unfold Verif.Region.extractRegion at h1
    simp only at h1
    split_ifs at h1 <;> (cases h1; rfl)
  have hlt' : radius < tagged.radius := by rw [hrad]; linarith
  unfold Verif.Region.extractSubregion at h3
  rw [if_pos hlt'] at h3
  simp only at h3
  split_ifs at h3
  cases h3
  have hc : ∀ f ∈ tagged.faces.filter (fun f => dist f ≤ radius), f < m.nFace := fun f hf => (hlt f (Finset.mem_filter.mp hf).1).1
  constructor
  · intro g hg
    obtain ⟨f, hf, ht⟩ := (Verif.Region.mem_withBuffer hm hc).mp hg
    exact hbuf f g ht ((Finset.mem_filter.mp hf).2.trans hreach)
  · intro g hg
    obtain ⟨f, hf, ht⟩ := (Verif.Region.mem_withBuffer hm hc).mp hg
    exact hbuf1 f g ht ((Finset.mem_filter.mp hf).2.trans (by linarith))

/-- Three craters. -/
noncomputable def one : Crater := ⟨⟨{0, 1}, {0, 1, 2}⟩, {0}, {0, 1}, 1, 5, true, true, ⟨id, id, fun _ g => g, id, id⟩⟩

/-- Far from the first. -/
noncomputable def two : Crater := ⟨⟨{5, 6}, {6, 7}⟩, {5}, {5}, 2, 3, true, true, ⟨id, id, fun _ g => g, id, id⟩⟩

/-- Overlapping both. -/
noncomputable def three : Crater := ⟨⟨{1, 5}, {2, 6}⟩, {1}, {1}, 3, 4, true, true, ⟨id, id, fun _ g => g, id, id⟩⟩

/-- The first two go into one batch, and can be formed in the other order. -/
example : nextBatch overlap [one, two, three] = [one, two] ∧ (∀ c ∈ [one, two, three], c.interior ⊆ c.ejectaRegion.faces) ∧
    List.Forall₂ List.Perm [[one, two], [three]] [[two, one], [three]] := by
  refine ⟨?_, ?_, .cons (List.Perm.swap _ _ _) (.cons (List.Perm.refl _) .nil)⟩
  · have h1 : Disjoint one.ejectaRegion.nodes two.ejectaRegion.nodes := by unfold one two; decide
    have h2 : Disjoint one.ejectaRegion.faces two.ejectaRegion.faces := by unfold one two; decide
    have h3 : ¬ Disjoint (one.ejectaRegion.nodes ∪ two.ejectaRegion.nodes) three.ejectaRegion.nodes := by unfold one two three; decide
    simp only [nextBatch, Emplace.peek, overlap, Finset.empty_union]
    rw [if_pos ⟨Finset.disjoint_empty_left _, Finset.disjoint_empty_left _⟩, if_pos ⟨h1, h2⟩, if_neg (fun h => h3 h.1)]
  · simp [one, two, three]

/-! ### The count -/

/-- The crater is counted. -/
def Counted (c : Crater) : Prop := c.large ∧ c.countable ∧ c.marked.Nonempty

theorem mem_mark {m : Marks} {c : Crater} {f i : ℕ} : i ∈ mark m c f ↔ i ∈ m.ids f ∨ (f ∈ c.marked ∧ i = c.id) := by
  unfold mark
  split_ifs with h
  · simp [h, or_comm]
  · simp [h]

theorem mem_ids {d : ℕ → ℝ} {m : Marks} {c : Crater} (h : Counted c) {f i : ℕ} :
    i ∈ (count d m c).ids f ↔ i ∈ mark m c f ∧ ¬ (f ∈ c.interior ∧ Cut d m c i) := by
  unfold Counted at h
  unfold count
  rw [if_pos h]
  dsimp only
  split_ifs with hf
  · simp [hf]
  · simp [hf]

theorem mem_observed {d : ℕ → ℝ} {m : Marks} {c : Crater} (h : Counted c) {i : ℕ} :
    i ∈ (count d m c).observed ↔ (i = c.id ∨ i ∈ m.observed) ∧ (¬ Cut d m c i ∨ ∃ f, i ∈ (count d m c).ids f) := by
  unfold Counted at h
  unfold count
  rw [if_pos h]
  simp

theorem count_not {d : ℕ → ℝ} {m : Marks} {c : Crater} (h : ¬ Counted c) : count d m c = m := by
  unfold Counted at h
  unfold count
  rw [if_neg h]

/-- Every mark belongs to a crater that is counted. -/
def Known (m : Marks) : Prop := ∀ f, ∀ i ∈ m.ids f, i ∈ m.observed

theorem known_count {d : ℕ → ℝ} {m : Marks} (hm : Known m) (c : Crater) : Known (count d m c) := by
  by_cases h : Counted c
  · intro f i hi
    rw [mem_observed h]
    refine ⟨?_, .inr ⟨f, hi⟩⟩
    rw [mem_ids h, mem_mark] at hi
    rcases hi.1 with hi | hi
    · exact .inr (hm f i hi)
    · exact .inl hi.2
  · rw [count_not h]; exact hm

/-- What the count needs of a crater: its interior lies in the marked region, and its size is the one on record. -/
structure Proper (d : ℕ → ℝ) (c : Crater) : Prop where
  interior : c.interior ⊆ c.marked
  size : d c.id = c.diameter

theorem not_cut_self {d : ℕ → ℝ} {c : Crater} (h : Proper d c) (m : Marks) : ¬ Cut d m c c.id := by
  rintro ⟨-, -, h3⟩
  rw [h.size] at h3
  exact lt_irrefl _ h3

theorem cut_count {d : ℕ → ℝ} {m : Marks} (hm : Known m) {x y : Crater} (hx : Proper d x) (hy : Proper d y) (cx : Counted x)
    (hd : Disjoint x.marked y.marked) (i : ℕ) : Cut d (count d m x) y i ↔ Cut d m y i := by
  have hids : ∀ f ∈ y.interior, (i ∈ mark (count d m x) y f ↔ i ∈ mark m y f) := by
    intro f hf
    have hfy := hy.interior hf
    have hfx : f ∉ x.marked := fun h => Finset.disjoint_left.mp hd h hfy
    have hfi : f ∉ x.interior := fun h => hfx (hx.interior h)
    rw [mem_mark, mem_mark, mem_ids cx, mem_mark]
    tauto
  unfold Cut
  constructor
  · rintro ⟨h1, ⟨f, hf, hi⟩, h3⟩
    have hi' := (hids f hf).mp hi
    refine ⟨?_, ⟨f, hf, hi'⟩, h3⟩
    rcases mem_mark.mp hi' with h | h
    · exact .inl (hm f i h)
    · exact .inr h.2
  · rintro ⟨h1, ⟨f, hf, hi⟩, h3⟩
    have hi' := (hids f hf).mpr hi
    refine ⟨?_, ⟨f, hf, hi'⟩, h3⟩
    rcases mem_mark.mp hi' with h | h
    · exact .inl (known_count hm x f i h)
    · exact .inr h.2

theorem count_ids {d : ℕ → ℝ} {m : Marks} (hm : Known m) {x y : Crater} (hx : Proper d x) (hy : Proper d y) (cx : Counted x) (cy : Counted y)
    (hd : Disjoint x.marked y.marked) (f i : ℕ) : i ∈ (count d (count d m x) y).ids f ↔
      (i ∈ m.ids f ∨ (f ∈ x.marked ∧ i = x.id) ∨ (f ∈ y.marked ∧ i = y.id)) ∧ ¬ (f ∈ x.interior ∧ Cut d m x i) ∧
        ¬ (f ∈ y.interior ∧ Cut d m y i) := by
  rw [mem_ids cy, mem_mark, mem_ids cx, mem_mark, cut_count hm hx hy cx hd]
  have h1 : f ∈ y.marked → f ∉ x.interior := fun h h' => Finset.disjoint_left.mp hd (hx.interior h') h
  tauto

theorem count_observed {d : ℕ → ℝ} {m : Marks} (hm : Known m) {x y : Crater} (hx : Proper d x) (hy : Proper d y) (cx : Counted x)
    (cy : Counted y) (hd : Disjoint x.marked y.marked) (i : ℕ) : i ∈ (count d (count d m x) y).observed ↔
      (i = x.id ∨ i = y.id ∨ i ∈ m.observed) ∧
        ((¬ Cut d m x i ∧ ¬ Cut d m y i) ∨ ∃ f, i ∈ (count d (count d m x) y).ids f) := by
  rw [mem_observed cy, mem_observed cx, cut_count hm hx hy cx hd]
  have hyself : ∃ f, y.id ∈ (count d (count d m x) y).ids f := by
    obtain ⟨f, hf⟩ := cy.2.2
    refine ⟨f, ?_⟩
    rw [mem_ids cy, mem_mark]
    exact ⟨.inr ⟨hf, rfl⟩, fun h => not_cut_self hy _ h.2⟩
  have up : ¬ Cut d m y i → (∃ f, i ∈ (count d m x).ids f) → ∃ f, i ∈ (count d (count d m x) y).ids f := by
    rintro hc ⟨f, hf⟩
    refine ⟨f, ?_⟩
    rw [mem_ids cy, mem_mark, cut_count hm hx hy cx hd]
    exact ⟨.inl hf, fun h => hc h.2⟩
  have down : i ≠ y.id → (∃ f, i ∈ (count d (count d m x) y).ids f) → ∃ f, i ∈ (count d m x).ids f := by
    rintro hne ⟨f, hf⟩
    rw [mem_ids cy, mem_mark] at hf
    rcases hf.1 with h | h
    · exact ⟨f, h⟩
    · exact absurd h.2 hne
  by_cases hiy : i = y.id
  · subst hiy
    simp [hyself]
  · constructor
    · rintro ⟨h1 | ⟨h1, h2⟩, h3⟩
      · exact absurd h1 hiy
      · refine ⟨by tauto, ?_⟩
        rcases h3 with h3 | h3
        · rcases h2 with h2 | h2
          · exact .inl ⟨h2, h3⟩
          · exact .inr (up h3 h2)
        · exact .inr h3
    · rintro ⟨h1, h2⟩
      rcases h2 with h2 | h2
      · exact ⟨.inr ⟨by tauto, .inl h2.1⟩, .inl h2.2⟩
      · exact ⟨.inr ⟨by tauto, .inr (down hiy h2)⟩, .inr h2⟩

theorem count_comm {d : ℕ → ℝ} {m : Marks} (hm : Known m) {x y : Crater} (hx : Proper d x) (hy : Proper d y)
    (hd : Disjoint x.marked y.marked) : count d (count d m x) y = count d (count d m y) x := by
  by_cases cx : Counted x
  · by_cases cy : Counted y
    · have hids : ∀ f i, i ∈ (count d (count d m x) y).ids f ↔ i ∈ (count d (count d m y) x).ids f := by
        intro f i
        rw [count_ids hm hx hy cx cy hd, count_ids hm hy hx cy cx hd.symm]
        tauto
      ext f i
      · exact hids f i
      · rw [count_observed hm hx hy cx cy hd, count_observed hm hy hx cy cx hd.symm]
        simp only [hids]
        tauto
    · rw [count_not cy, count_not cy]
  · rw [count_not cx, count_not cx]

/-- **C215**, for the count: when the marked region of each crater lies within the reach of its ejecta, the marks on the faces and the
craters that are counted are the same too, in whichever order the craters of each batch are taken.  Missing: ejecta that end before the
marked region does, see `C215_marks_fails`. -/
theorem C215_count_partial [DecidableEq Crater] (d : ℕ → ℝ) (m : Marks) (hm : Known m) (q : List Crater) (hq : ∀ c ∈ q, Proper d c)
    (hE : ∀ c ∈ q, c.marked ⊆ c.ejectaRegion.faces) (other : List (List Crater))
    (h : List.Forall₂ List.Perm (process overlap (fun _ => false) q.length q).batches other) :
    countAll d m other = q.foldl (count d) m := by
  obtain ⟨hflat, hap⟩ := batches_apart q
  have hmem : ∀ b ∈ (process overlap (fun _ => false) q.length q).batches, ∀ c ∈ b, c ∈ q := by
    intro b hb c hc
    rw [← hflat]
    exact List.mem_flatten.mpr ⟨b, hb, hc⟩
  let op : {m // Known m} → Crater → {m // Known m} := fun m c => ⟨count d m.1 c, known_count m.2 c⟩
  have hval : ∀ (l : List Crater) (m : {m // Known m}), (l.foldl op m).1 = l.foldl (count d) m.1 := by
    intro l
    induction l with
    | nil => intro m; rfl
    | cons c l ih => intro m; exact ih (op m c)
  have key : ∀ (bs other : List (List Crater)) (m : {m // Known m}), List.Forall₂ List.Perm bs other → (∀ b ∈ bs, b.Pairwise Apart) →
      (∀ b ∈ bs, ∀ c ∈ b, c ∈ q) → countAll d m.1 other = bs.flatten.foldl (count d) m.1 := by
    intro bs other m h
    induction h generalizing m with
    | nil => intro _ _; rfl
    | @cons b b' bs bs' hp _ ih =>
      intro ha hI
      have e : countAll d m.1 (b' :: bs') = countAll d (b'.foldl op m).1 bs' := by rw [hval]; rfl
      have hf := fold_perm op hp (ha b List.mem_cons_self) (fun x hx y hy hxy g => by
        have hxq := hI b List.mem_cons_self x hx
        have hyq := hI b List.mem_cons_self y hy
        apply Subtype.ext
        exact count_comm g.2 (hq x hxq) (hq y hyq)
          (Finset.disjoint_of_subset_left (hE x hxq) (Finset.disjoint_of_subset_right (hE y hyq) hxy.1))) m
      rw [e, ih _ (fun x hx => ha x (List.mem_cons_of_mem _ hx)) (fun x hx => hI x (List.mem_cons_of_mem _ hx)), List.flatten_cons,
        List.foldl_append, ← hf, hval]
  rw [key _ _ ⟨m, hm⟩ h hap hmem, hflat]

/-- **C215 fails** for the marks on the faces when ejecta end close to the rim (they are thin, or `ejecta_truncation` is below 1.5), since the
region that is marked reaches to 1.5 radii: where the marked region of a crater lies in the interior of a larger crater of the same batch,
its marks are cut out if it comes first, and stay if it comes second. -/
theorem C215_marks_fails (d : ℕ → ℝ) (m : Marks) (x y : Crater) (hx : Proper d x) (cx : Counted x) (cy : Counted y)
    (hxy : x.diameter < y.diameter) (f : ℕ) (h1 : f ∈ x.marked) (h2 : f ∈ y.interior) :
    x.id ∉ (count d (count d m x) y).ids f ∧ x.id ∈ (count d (count d m y) x).ids f := by
  have hin : x.id ∈ (count d m x).ids f := by
    rw [mem_ids cx, mem_mark]
    exact ⟨.inr ⟨h1, rfl⟩, fun h => not_cut_self hx _ h.2⟩
  constructor
  · rw [mem_ids cy]
    rintro ⟨-, h⟩
    refine h ⟨h2, .inl ?_, ⟨f, h2, mem_mark.mpr (.inl hin)⟩, ?_⟩
    · rw [mem_observed cx]
      exact ⟨.inl rfl, .inr ⟨f, hin⟩⟩
    · rw [hx.size]; exact hxy
  · rw [mem_ids cx, mem_mark]
    exact ⟨.inr ⟨h1, rfl⟩, fun h => not_cut_self hx _ h.2⟩

/-- Faces 1 m apart on a line; a crater of radius 10 m at 20 m and one of radius 12 m at 43 m, with ejecta that end at the rim: they are
apart, and face 33 is marked by the first and inside the second. -/
example : ∃ (d : ℕ → ℝ) (x y : Crater), Apart x y ∧ Proper d x ∧ Proper d y ∧ Counted x ∧ Counted y ∧ x.diameter < y.diameter ∧
    (∀ f, f ∈ x.ejectaRegion.faces ↔ 10 ≤ f ∧ f ≤ 30) ∧ (∀ f, f ∈ x.marked ↔ 5 ≤ f ∧ f ≤ 35) ∧
    (∀ f, f ∈ y.interior ↔ 31 ≤ f ∧ f ≤ 55) ∧ y.interior = y.ejectaRegion.faces ∧ 33 ∈ x.marked ∧ 33 ∈ y.interior := by
  let k : Recipe := ⟨id, id, fun _ g => g, id, id⟩
  refine ⟨fun i => if i = 1 then 20 else 24, ⟨⟨Finset.Icc 10 30, Finset.Icc 10 31⟩, Finset.Icc 10 30, Finset.Icc 5 35, 1, 20, true, true, k⟩,
    ⟨⟨Finset.Icc 31 55, Finset.Icc 32 56⟩, Finset.Icc 31 55, Finset.Icc 25 61, 2, 24, true, true, k⟩, ⟨?_, ?_⟩, ⟨?_, ?_⟩, ⟨?_, ?_⟩,
    ⟨rfl, rfl, ?_⟩, ⟨rfl, rfl, ?_⟩, ?_, ?_, ?_, ?_, rfl, ?_, ?_⟩
  · decide
  · decide
  · decide
  · simp
  · decide
  · simp
  · decide
  · decide
  · norm_num
  · simp
  · simp
  · simp
  · decide
  · decide

end Verif.Batch
