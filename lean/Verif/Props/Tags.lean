import Verif.Model.Tags

/-! Properties C24-C27, C83: tags on faces and the crater count. -/

namespace Verif.Tags

/-- Every face has the full number of layers. -/
def Shaped (s : Layers) : Prop := ∀ f, (s f).length = nLayers

theorem sortTags_perm (s : Layers) (R : List ℕ) (f : ℕ) : (sortTags s R f).Perm (s f) := by
  unfold sortTags
  split_ifs
  · exact List.mergeSort_perm _ _
  · exact List.Perm.refl _

theorem shaped_cleared : Shaped cleared := fun _ => by simp [cleared]

theorem shaped_sort {s : Layers} (h : Shaped s) (R) : Shaped (sortTags s R) := fun f => by
  rw [(sortTags_perm s R f).length_eq]; exact h f

theorem shaped_set {s : Layers} (h : Shaped s) (R i t) : Shaped (setLayer s R i t) := fun f => by
  unfold setLayer; split_ifs <;> simp [h f]

theorem shaped_addTag {s : Layers} (h : Shaped s) (R t) : Shaped (addTag s R t) := by
  unfold addTag
  split
  · exact shaped_set h _ _ _
  · exact shaped_set (shaped_sort h _) _ _ _

theorem shaped_removeTag {s : Layers} (h : Shaped s) (R t) : Shaped (removeTag s R t) := fun f => by
  unfold removeTag; split_ifs <;> simp [h f]

theorem addTag_some {s : Layers} {R : List ℕ} {i : ℕ} (h : freeLayer s R = some i) (tag : ℕ) :
    addTag s R tag = setLayer s R i tag := by
  unfold addTag; rw [h]

theorem addTag_none {s : Layers} {R : List ℕ} (h : freeLayer s R = none) (tag : ℕ) :
    addTag s R tag = setLayer (sortTags s R) R (nLayers - 1) tag := by
  unfold addTag; rw [h]

theorem freeLayer_some {s : Layers} {R : List ℕ} {i : ℕ} (h : freeLayer s R = some i) :
    i < nLayers ∧ ∀ f ∈ R, (s f)[i]? = some 0 := by
  unfold freeLayer at h
  have h1 := List.find?_some h
  have h2 := List.mem_of_find?_eq_some h
  refine ⟨by simpa using h2, ?_⟩
  intro f hf
  simpa using List.all_eq_true.mp h1 f hf

/-- In a list sorted in descending order that contains 0, the last entry is 0. -/
theorem last_zero (l : List ℕ) (h0 : 0 ∈ l) :
    (l.mergeSort (fun a b => decide (b ≤ a)))[l.length - 1]? = some 0 := by
  set m := l.mergeSort (fun a b => decide (b ≤ a)) with hm
  have hp : m.Perm l := List.mergeSort_perm _ _
  have hs : m.Pairwise (fun a b => b ≤ a) := by
    have := List.pairwise_mergeSort (le := fun a b : ℕ => decide (b ≤ a))
      (fun a b c h1 h2 => by simp at *; omega) (fun a b => by simp; omega) l
    simpa [hm] using this
  have h0' : 0 ∈ m := hp.mem_iff.mpr h0
  have hlen : m.length = l.length := hp.length_eq
  obtain ⟨i, hi, he⟩ := List.getElem_of_mem h0'
  have hlt : l.length - 1 < m.length := by omega
  rw [List.getElem?_eq_getElem hlt]
  congr 1
  rcases Nat.lt_or_ge i (l.length - 1) with h | h
  · have := List.pairwise_iff_getElem.mp hs i (l.length - 1) hi hlt h
    omega
  · have : i = l.length - 1 := by omega
    subst this
    exact he

theorem mem_set_of_mem {l : List ℕ} {i t x : ℕ} (hx : x ∈ l) (h : l[i]? ≠ some x) : x ∈ l.set i t := by
  obtain ⟨j, hj, e⟩ := List.getElem_of_mem hx
  have : i ≠ j := by
    rintro rfl
    exact h (by rw [List.getElem?_eq_getElem hj, e])
  apply List.mem_of_getElem? (i := j)
  rw [List.getElem?_set_ne this, List.getElem?_eq_getElem hj, e]

/-! ### C24 -/

/-- After `add_tag` every face of the region carries the tag and the other faces are unchanged. -/
theorem C24_marks (s : Layers) (hs : Shaped s) (R : List ℕ) (tag : ℕ) :
    (∀ f ∈ R, tag ∈ addTag s R tag f) ∧ ∀ f ∉ R, addTag s R tag f = s f := by
  have hset : ∀ (s : Layers), Shaped s → ∀ i < nLayers, ∀ f ∈ R, tag ∈ setLayer s R i tag f := by
    intro s hs i hi f hf
    have hl : i < (s f).length := by rw [hs f]; exact hi
    unfold setLayer
    rw [if_pos hf]
    exact List.mem_set hl tag
  constructor
  · intro f hf
    rcases hi : freeLayer s R with _ | i
    · rw [addTag_none hi]
      exact hset _ (shaped_sort hs R) _ (by decide) f hf
    · rw [addTag_some hi]
      exact hset s hs i (freeLayer_some hi).1 f hf
  · intro f hf
    rcases hi : freeLayer s R with _ | i
    · rw [addTag_none hi]
      simp [setLayer, sortTags, hf]
    · rw [addTag_some hi]
      simp [setLayer, hf]

/-- Nobody else's tag is lost on any face that still has an empty layer. -/
theorem C24_keeps (s : Layers) (hs : Shaped s) (R : List ℕ) (tag f x : ℕ) (hfree : 0 ∈ s f)
    (hx : x ∈ s f) (h0 : x ≠ 0) : x ∈ addTag s R tag f := by
  by_cases hf : f ∈ R
  · rcases hi : freeLayer s R with _ | i
    swap
    · rw [addTag_some hi]
      have := (freeLayer_some hi).2 f hf
      simp only [setLayer, if_pos hf]
      apply mem_set_of_mem hx
      rw [this]
      simpa using h0.symm
    · rw [addTag_none hi]
      have hx' : x ∈ sortTags s R f := (sortTags_perm s R f).mem_iff.mpr hx
      have hl : sortTags s R f = (s f).mergeSort (fun a b => decide (b ≤ a)) := by simp [sortTags, hf]
      simp only [setLayer, if_pos hf]
      apply mem_set_of_mem hx'
      have := last_zero (s f) hfree
      rw [hs f] at this
      rw [hl, this]
      simpa using h0.symm
  · rw [(C24_marks s hs R tag).2 f hf]
    exact hx

/-- A tag appears on a face only if it was there or is the new one on its region. -/
theorem C24_nothing_new (s : Layers) (R : List ℕ) (tag f x : ℕ) (hx : x ∈ addTag s R tag f) :
    x ∈ s f ∨ (x = tag ∧ f ∈ R) := by
  have hset : ∀ (s : Layers) i, x ∈ setLayer s R i tag f → x ∈ s f ∨ (x = tag ∧ f ∈ R) := by
    intro s i h
    unfold setLayer at h
    split_ifs at h with hf
    · rcases List.mem_or_eq_of_mem_set h with h | h
      · exact Or.inl h
      · exact Or.inr ⟨h, hf⟩
    · exact Or.inl h
  rcases hi : freeLayer s R with _ | i
  swap
  · rw [addTag_some hi] at hx
    exact hset s _ hx
  · rw [addTag_none hi] at hx
    rcases hset _ _ hx with h | h
    · exact Or.inl ((sortTags_perm s R f).mem_iff.mp h)
    · exact Or.inr h

/-- On a face without an empty layer one tag is lost: the one with the smallest number. -/
theorem C24_full_face (s : Layers) (hs : Shaped s) (R : List ℕ) (tag f : ℕ) (hf : f ∈ R)
    (hfull : 0 ∉ s f) : ∃ m ∈ s f, (∀ x ∈ s f, m ≤ x) ∧
      (addTag s R tag f).Perm (tag :: (s f).erase m) := by
  have hnone : freeLayer s R = none := by
    rcases e : freeLayer s R with _ | i
    · rfl
    · have := (freeLayer_some e).2 f hf
      exact absurd (List.mem_of_getElem? this) hfull
  have e : addTag s R tag f =
      ((s f).mergeSort (fun a b => decide (b ≤ a))).set (nLayers - 1) tag := by
    unfold addTag
    rw [hnone]
    simp [setLayer, sortTags, hf]
  set l := (s f).mergeSort (fun a b => decide (b ≤ a)) with hl
  have hp : l.Perm (s f) := List.mergeSort_perm _ _
  have hs' : l.Pairwise (fun a b => b ≤ a) := by
    have := List.pairwise_mergeSort (le := fun a b : ℕ => decide (b ≤ a))
      (fun a b c h1 h2 => by simp at *; omega) (fun a b => by simp; omega) (s f)
    simpa [hl] using this
  have hlen : l.length = 8 := by rw [hp.length_eq, hs f]; rfl
  have hlt : 7 < l.length := by omega
  have hdecomp : l = l.take 7 ++ [l[7]] := by
    conv_lhs => rw [← List.take_append_drop 7 l]
    congr 1
    rw [List.drop_eq_getElem_cons hlt, List.drop_eq_nil_of_le (by omega)]
  refine ⟨l[7], hp.mem_iff.mp (List.getElem_mem _), ?_, ?_⟩
  · intro x hx
    obtain ⟨i, hi, rfl⟩ := List.getElem_of_mem (hp.mem_iff.mpr hx)
    rcases Nat.lt_or_ge i 7 with h | h
    · exact List.pairwise_iff_getElem.mp hs' i 7 hi hlt h
    · have : i = 7 := by omega
      subst this; exact le_rfl
  · rw [e]
    have hset : l.set (nLayers - 1) tag = l.take 7 ++ [tag] := by
      conv_lhs => rw [hdecomp]
      rw [List.set_append_right _ _ (by simp [hlen, nLayers])]
      simp [hlen, nLayers]
    rw [hset]
    have h1 : (s f).Perm (l[7] :: l.take 7) := by
      refine hp.symm.trans ?_
      conv_lhs => rw [hdecomp]
      exact List.perm_append_comm
    have h2 : ((s f).erase l[7]).Perm (l.take 7) := by
      have := h1.erase l[7]
      simpa using this
    exact List.perm_append_comm.trans (List.Perm.cons _ h2.symm)

example : Shaped cleared ∧ 0 ∈ cleared 3 := ⟨shaped_cleared, by decide⟩
example : Shaped (fun _ => [1, 2, 3, 4, 5, 6, 7, 8]) ∧ 0 ∉ [1, 2, 3, 4, 5, 6, 7, 8] :=
  ⟨fun _ => rfl, by decide⟩

/-! ### C25 -/

/-- `remove_tag` deletes the tag from the region, keeps every other tag in its layer, and leaves the
other faces alone. -/
theorem C25_remove (s : Layers) (R : List ℕ) (tag : ℕ) (h0 : tag ≠ 0) :
    (∀ f ∈ R, tag ∉ removeTag s R tag f) ∧ (∀ f ∉ R, removeTag s R tag f = s f) ∧
    ∀ (f i x : ℕ), x ≠ tag → (s f)[i]? = some x → (removeTag s R tag f)[i]? = some x := by
  refine ⟨?_, ?_, ?_⟩
  · intro f hf h
    simp only [removeTag, if_pos hf, List.mem_map] at h
    obtain ⟨t, _, e⟩ := h
    split_ifs at e with ht
    · exact h0 e.symm
    · exact ht e
  · intro f hf; simp [removeTag, hf]
  · intro f i x hx h
    unfold removeTag
    split_ifs
    · rw [List.getElem?_map, h]; simp [hx]
    · exact h

/-- `sort_tags` keeps the tags of each face, in descending order on the region, so that the empty
layers are last. -/
theorem C25_sort (s : Layers) (R : List ℕ) (f : ℕ) :
    (sortTags s R f).Perm (s f) ∧ (f ∈ R → (sortTags s R f).Pairwise (fun a b => b ≤ a)) ∧
    (f ∉ R → sortTags s R f = s f) := by
  refine ⟨sortTags_perm s R f, ?_, ?_⟩
  · intro hf
    have := List.pairwise_mergeSort (le := fun a b : ℕ => decide (b ≤ a))
      (fun a b c h1 h2 => by simp at *; omega) (fun a b => by simp; omega) (s f)
    simpa [sortTags, hf] using this
  · intro hf; simp [sortTags, hf]

example : (5 : ℕ) ≠ 0 := by decide

/-! ### C26 -/

/-- `id` is on some face. -/
def Tagged (c : Count) (id : ℕ) : Prop := ∃ f < c.nFace, id ∈ c.tags f

theorem onSurface_iff (c : Count) (id : ℕ) : c.onSurface id = true ↔ Tagged c id := by
  simp [Count.onSurface, Count.faces, Tagged]

theorem mem_removeTag {s : Layers} {R tag f x} (hx : x ≠ 0) :
    x ∈ removeTag s R tag f ↔ x ∈ s f ∧ ¬ (f ∈ R ∧ x = tag) := by
  unfold removeTag
  split_ifs with hf
  · simp only [List.mem_map, hf, true_and]
    constructor
    · rintro ⟨t, ht, e⟩
      split_ifs at e with h
      · exact absurd e.symm hx
      · subst e; exact ⟨ht, h⟩
    · rintro ⟨h1, h2⟩
      exact ⟨x, h1, by simp [h2]⟩
  · simp [hf]

/-- What one cookie cut does. -/
theorem cutOne_spec (rim : List ℕ) (c : Count) (id : ℕ) :
    (cutOne rim c id).nFace = c.nFace ∧ (cutOne rim c id).tags = removeTag c.tags rim id ∧
    ∀ o, o ∈ (cutOne rim c id).observed ↔
      o ∈ c.observed ∧ (o.id = id → Tagged (cutOne rim c id) id) := by
  unfold cutOne
  simp only
  by_cases h : (⟨c.nFace, removeTag c.tags rim id, c.observed⟩ : Count).onSurface id = true
  · rw [if_pos h]
    refine ⟨rfl, rfl, ?_⟩
    intro o
    simp only [iff_self_and]
    intro _ _
    exact (onSurface_iff _ _).mp h
  · rw [if_neg h]
    refine ⟨rfl, rfl, ?_⟩
    intro o
    have hn : ¬ Tagged (⟨c.nFace, removeTag c.tags rim id, pop c.observed id⟩ : Count) id := fun ht =>
      h ((onSurface_iff _ _).mpr ht)
    simp only [pop, List.mem_filter, ne_eq, decide_not, Bool.not_eq_eq_eq_not,
      Bool.not_true, decide_eq_false_iff_not, and_congr_right_iff]
    intro _
    constructor
    · intro h1 h2; exact absurd h2 h1
    · intro h1 h2; exact hn (h1 h2)

theorem cut_nFace (rim : List ℕ) (ids : List ℕ) : ∀ c, (cut rim c ids).nFace = c.nFace := by
  induction ids with
  | nil => intro c; rfl
  | cons id ids ih => intro c; simp only [cut]; rw [ih]; exact (cutOne_spec rim c id).1

theorem cut_tags (rim : List ℕ) (ids : List ℕ) : ∀ c f x, x ≠ 0 →
    (x ∈ (cut rim c ids).tags f ↔ x ∈ c.tags f ∧ ¬ (f ∈ rim ∧ x ∈ ids)) := by
  induction ids with
  | nil => intro c f x _; simp [cut]
  | cons id ids ih =>
    intro c f x hx
    simp only [cut]
    rw [ih _ f x hx, (cutOne_spec rim c id).2.1, mem_removeTag hx]
    simp only [List.mem_cons]
    tauto

theorem cut_observed (rim : List ℕ) (ids : List ℕ) : ∀ c o, (∀ id ∈ ids, id ≠ 0) →
    (o ∈ (cut rim c ids).observed ↔
      o ∈ c.observed ∧ (o.id ∈ ids → Tagged (cut rim c ids) o.id)) := by
  induction ids with
  | nil => intro c o _; simp [cut]
  | cons id ids ih =>
    intro c o h0
    have hid : id ≠ 0 := h0 id (by simp)
    simp only [cut]
    rw [ih _ _ (fun i hi => h0 i (by simp [hi])), (cutOne_spec rim c id).2.2]
    simp only [List.mem_cons]
    have mono : Tagged (cut rim (cutOne rim c id) ids) id → Tagged (cutOne rim c id) id := by
      rintro ⟨f, hf, hx⟩
      rw [cut_nFace] at hf
      exact ⟨f, hf, ((cut_tags rim ids _ f id hid).mp hx).1⟩
    have conv : o.id = id → id ∉ ids → Tagged (cutOne rim c id) id →
        Tagged (cut rim (cutOne rim c id) ids) id := by
      rintro _ hni ⟨f, hf, hx⟩
      refine ⟨f, by rw [cut_nFace]; exact hf, (cut_tags rim ids _ f id hid).mpr ⟨hx, ?_⟩⟩
      rintro ⟨_, h⟩; exact hni h
    constructor
    · rintro ⟨⟨h1, h2⟩, h3⟩
      refine ⟨h1, ?_⟩
      rintro (h | h)
      · by_cases hi : id ∈ ids
        · exact h3 (h ▸ hi)
        · exact h ▸ conv h hi (h2 h)
      · exact h3 h
    · rintro ⟨h1, h2⟩
      refine ⟨⟨h1, ?_⟩, fun h => h2 (Or.inr h)⟩
      intro h
      exact mono (h ▸ h2 (Or.inl h))

theorem mem_insert (obs : List Crater) (c o : Crater) :
    o ∈ insert obs c ↔ o = c ∨ (o ∈ obs ∧ o.id ≠ c.id) := by
  unfold insert
  split_ifs with h
  · simp only [List.mem_map]
    constructor
    · rintro ⟨a, ha, e⟩
      split_ifs at e with hid
      · exact Or.inl e.symm
      · subst e; exact Or.inr ⟨ha, hid⟩
    · rintro (rfl | ⟨h1, h2⟩)
      · simp only [List.any_eq_true, decide_eq_true_eq] at h
        obtain ⟨a, ha, e⟩ := h
        exact ⟨a, ha, by simp [e]⟩
      · exact ⟨o, h1, by simp [h2]⟩
  · simp only [List.any_eq_true, decide_eq_true_eq, not_exists, not_and] at h
    simp only [List.mem_append, List.mem_singleton]
    constructor
    · rintro (h1 | h1)
      · exact Or.inr ⟨h1, h o h1⟩
      · exact Or.inl h1
    · rintro (h1 | h1)
      · exact Or.inr h1
      · exact Or.inl h1.1

theorem removes_spec (c : Count) (rim : List ℕ) (new : Crater) (id : ℕ) :
    id ∈ removes c rim new ↔ id > 0 ∧ (∃ o ∈ c.observed, o.id = id ∧ o.diameter < new.diameter) ∧
      ∃ f ∈ rim, id ∈ c.tags f := by
  simp only [removes, List.mem_map, List.mem_filter, Bool.and_eq_true, decide_eq_true_eq,
    List.any_eq_true, List.contains_iff_mem]
  constructor
  · rintro ⟨o, ⟨h1, ⟨h2, h3⟩, h4⟩, rfl⟩
    exact ⟨h2, ⟨o, h1, rfl, h4⟩, h3⟩
  · rintro ⟨h1, ⟨o, h2, rfl, h3⟩, h4⟩
    exact ⟨o, ⟨h2, ⟨h1, h4⟩, h3⟩, rfl⟩

/-- Craters have distinct ids. -/
def DistinctIds (c : Count) : Prop := ∀ o ∈ c.observed, ∀ o' ∈ c.observed, o.id = o'.id → o = o'

/-- The state of the count when the new crater is large enough: it is tagged and recorded. -/
theorem add_large (c : Count) (hs : Shaped c.tags) (new : Crater) (R rim : List ℕ)
    (hR : minFaces ≤ R.length) (hin : ∀ f ∈ R, f < c.nFace) :
    add c new R rim =
      (let c2 : Count := ⟨c.nFace, addTag c.tags R new.id, insert c.observed new⟩
       cut rim c2 (removes c2 rim new)) := by
  unfold add
  rw [if_neg (not_lt.mpr hR)]
  simp only
  have hne : R ≠ [] := by rintro rfl; simp [minFaces] at hR
  obtain ⟨f, hf⟩ := List.exists_mem_of_ne_nil R hne
  have : (⟨c.nFace, addTag c.tags R new.id, c.observed⟩ : Count).onSurface new.id = true := by
    rw [onSurface_iff]
    exact ⟨f, hin f hf, (C24_marks c.tags hs R new.id).1 f hf⟩
  rw [if_pos this]

/-- Adding a crater removes from the list only craters that are strictly smaller and have no tag left
anywhere; the new crater is in the list; nothing else enters it. -/
theorem C26_add (c : Count) (hs : Shaped c.tags) (hd : DistinctIds c) (new : Crater) (R rim : List ℕ)
    (hR : minFaces ≤ R.length) (hin : ∀ f ∈ R, f < c.nFace)
    (hnew : new.id ≠ 0) :
    new ∈ (add c new R rim).observed ∧ Tagged (add c new R rim) new.id ∧
    (∀ o ∈ c.observed, o.id ≠ new.id → o ∉ (add c new R rim).observed →
      o.diameter < new.diameter ∧ ¬ Tagged (add c new R rim) o.id) ∧
    (∀ o ∈ (add c new R rim).observed, o = new ∨ (o ∈ c.observed ∧ o.id ≠ new.id)) := by
  rw [add_large c hs new R rim hR hin]
  simp only
  set c2 : Count := ⟨c.nFace, addTag c.tags R new.id, insert c.observed new⟩ with hc2
  have hd2 : DistinctIds c2 := by
    intro o ho o' ho' e
    rcases (mem_insert _ _ _).mp ho with rfl | ⟨h1, h2⟩ <;>
      rcases (mem_insert _ _ _).mp ho' with rfl | ⟨h1', h2'⟩
    · rfl
    · exact absurd e.symm h2'
    · exact absurd e h2
    · exact hd o h1 o' h1' e
  have hids : ∀ id ∈ removes c2 rim new, id ≠ 0 := fun id h =>
    Nat.pos_iff_ne_zero.mp ((removes_spec c2 rim new id).mp h).1
  have hnr : new.id ∉ removes c2 rim new := by
    intro h
    obtain ⟨_, ⟨o, ho, e, hlt⟩, _⟩ := (removes_spec c2 rim new _).mp h
    have := hd2 o ho new ((mem_insert _ _ _).mpr (Or.inl rfl)) e
    rw [this] at hlt
    exact lt_irrefl _ hlt
  refine ⟨?_, ?_, ?_, ?_⟩
  · rw [cut_observed rim _ c2 new hids]
    exact ⟨(mem_insert _ _ _).mpr (Or.inl rfl), fun h => absurd h hnr⟩
  · have hne : R ≠ [] := by rintro rfl; simp [minFaces] at hR
    obtain ⟨f, hf⟩ := List.exists_mem_of_ne_nil R hne
    refine ⟨f, by rw [cut_nFace]; exact hin f hf, (cut_tags rim _ c2 f _ hnew).mpr ⟨?_, ?_⟩⟩
    · exact (C24_marks c.tags hs R new.id).1 f hf
    · rintro ⟨_, h⟩; exact hnr h
  · intro o ho hid hno
    have h2 : o ∈ c2.observed := (mem_insert _ _ _).mpr (Or.inr ⟨ho, hid⟩)
    have h3 : ¬ (o.id ∈ removes c2 rim new → Tagged (cut rim c2 (removes c2 rim new)) o.id) := fun h =>
      hno ((cut_observed rim _ c2 o hids).mpr ⟨h2, h⟩)
    push Not at h3
    obtain ⟨_, ⟨o', ho', e, hlt⟩, _⟩ := (removes_spec c2 rim new _).mp h3.1
    have : o' = o := hd2 o' ho' o h2 e
    rw [this] at hlt
    exact ⟨hlt, h3.2⟩
  · intro o ho
    exact (mem_insert _ _ _).mp ((cut_observed rim _ c2 o hids).mp ho).1

/-- A crater too small for the mesh changes nothing. -/
theorem C26_small (c : Count) (new : Crater) (R rim : List ℕ) (h : R.length < 100) :
    add c new R rim = c := by
  unfold add
  exact if_pos h

/-- No crater of the same size or larger loses a tag on a face that has an empty layer. -/
theorem C26_keeps_larger (c : Count) (hs : Shaped c.tags) (hd : DistinctIds c) (new : Crater)
    (R rim : List ℕ) (hR : minFaces ≤ R.length) (hin : ∀ f ∈ R, f < c.nFace) (o : Crater)
    (ho : o ∈ c.observed) (hid : o.id ≠ new.id) (h0 : o.id ≠ 0) (hsize : new.diameter ≤ o.diameter)
    (f : ℕ) (hfree : 0 ∈ c.tags f) (hf : o.id ∈ c.tags f) :
    o.id ∈ (add c new R rim).tags f := by
  rw [add_large c hs new R rim hR hin]
  simp only
  rw [cut_tags rim _ _ f _ h0]
  refine ⟨C24_keeps c.tags hs R new.id f o.id hfree hf h0, ?_⟩
  rintro ⟨_, h⟩
  obtain ⟨_, ⟨o', ho', e, hlt⟩, _⟩ := (removes_spec _ rim new _).mp h
  rcases (mem_insert _ _ _).mp ho' with rfl | ⟨h1, h2⟩
  · exact hid e.symm
  · have := hd o' h1 o ho e
    rw [this] at hlt
    exact absurd hsize (not_le.mpr hlt)

/-! Histories of additions. -/

/-- One addition: crater, its region and its rim interior. -/
structure Addition where
  crater : Crater
  region : List ℕ
  rim : List ℕ

/-- A sequence of additions. -/
def addAll : Count → List Addition → Count
  | c, [] => c
  | c, a :: as => addAll (add c a.crater a.region a.rim) as

/-- Regions lie on the mesh, ids are not 0. -/
def Addition.Ok (n : ℕ) (a : Addition) : Prop :=
  (∀ f ∈ a.region, f < n) ∧ (∀ f ∈ a.rim, f < n) ∧ a.crater.id ≠ 0

/-- Before each addition every face of its region has an empty layer. -/
def RoomFor : Count → List Addition → Prop
  | _, [] => True
  | c, a :: as => (∀ f ∈ a.region, 0 ∈ c.tags f) ∧ RoomFor (add c a.crater a.region a.rim) as

/-- What holds of every count that was built by additions with room. -/
structure Sound (c : Count) : Prop where
  shaped : Shaped c.tags
  distinct : DistinctIds c
  visible : ∀ o ∈ c.observed, Tagged c o.id
  nonzero : ∀ o ∈ c.observed, o.id ≠ 0
  known : ∀ id, id ≠ 0 → Tagged c id → ∃ o ∈ c.observed, o.id = id

theorem shaped_cut (rim ids) : ∀ c : Count, Shaped c.tags → Shaped (cut rim c ids).tags := by
  induction ids with
  | nil => intro c h; exact h
  | cons id ids ih =>
    intro c h
    apply ih
    rw [(cutOne_spec rim c id).2.1]
    exact shaped_removeTag h _ _

theorem sound_add (c : Count) (h : Sound c) (a : Addition) (ha : a.Ok c.nFace)
    (hroom : ∀ f ∈ a.region, 0 ∈ c.tags f) : Sound (add c a.crater a.region a.rim) := by
  obtain ⟨hs, hd, hv, hn, hk⟩ := h
  obtain ⟨h1, h2, h3⟩ := ha
  rcases Nat.lt_or_ge a.region.length minFaces with hR | hR
  · rw [C26_small c a.crater a.region a.rim hR]
    exact ⟨hs, hd, hv, hn, hk⟩
  · have hadd := C26_add c hs hd a.crater a.region a.rim hR h1 h3
    have heq := add_large c hs a.crater a.region a.rim hR h1
    simp only at heq
    set c2 : Count := ⟨c.nFace, addTag c.tags a.region a.crater.id, insert c.observed a.crater⟩ with hc2
    have hids : ∀ id ∈ removes c2 a.rim a.crater, id ≠ 0 := fun id h =>
      Nat.pos_iff_ne_zero.mp ((removes_spec c2 a.rim a.crater id).mp h).1
    have tag_keep : ∀ id ≠ 0, Tagged c id → Tagged c2 id := by
      rintro id hid ⟨f, hf, hx⟩
      refine ⟨f, hf, ?_⟩
      by_cases hfr : f ∈ a.region
      · exact C24_keeps c.tags hs a.region a.crater.id f id (hroom f hfr) hx hid
      · show id ∈ addTag c.tags a.region a.crater.id f
        rw [(C24_marks c.tags hs a.region a.crater.id).2 f hfr]; exact hx
    have obs_nonzero : ∀ o ∈ (add c a.crater a.region a.rim).observed, o.id ≠ 0 := by
      intro o ho
      rcases hadd.2.2.2 o ho with rfl | ⟨h, _⟩
      · exact h3
      · exact hn o h
    refine ⟨?_, ?_, ?_, obs_nonzero, ?_⟩
    · rw [heq]; exact shaped_cut _ _ _ (shaped_addTag hs _ _)
    · intro o ho o' ho' e
      rcases hadd.2.2.2 o ho with rfl | ⟨g1, g2⟩ <;> rcases hadd.2.2.2 o' ho' with rfl | ⟨g1', g2'⟩
      · rfl
      · exact absurd e.symm g2'
      · exact absurd e g2
      · exact hd o g1 o' g1' e
    · intro o ho
      have h0 := obs_nonzero o ho
      have ho' := ho
      rcases hadd.2.2.2 o ho with rfl | ⟨g1, g2⟩
      · exact hadd.2.1
      · rw [heq] at ho ⊢
        have hcut := (cut_observed a.rim _ c2 o hids).mp ho
        by_cases hr : o.id ∈ removes c2 a.rim a.crater
        · exact hcut.2 hr
        · obtain ⟨f, hf, hx⟩ := tag_keep o.id h0 (hv o g1)
          refine ⟨f, by rw [cut_nFace]; exact hf, (cut_tags a.rim _ c2 f _ h0).mpr ⟨hx, ?_⟩⟩
          rintro ⟨_, h⟩; exact hr h
    · intro id hid ht
      by_cases he : id = a.crater.id
      · exact ⟨a.crater, hadd.1, he.symm⟩
      · have : Tagged c id := by
          rw [heq] at ht
          obtain ⟨f, hf, hx⟩ := ht
          rw [cut_nFace] at hf
          have hx := ((cut_tags a.rim _ c2 f id hid).mp hx).1
          rcases C24_nothing_new _ _ _ _ _ hx with h | ⟨h, _⟩
          · exact ⟨f, hf, h⟩
          · exact absurd h he
        obtain ⟨o, ho, rfl⟩ := hk id hid this
        refine ⟨o, ?_, rfl⟩
        by_contra hno
        exact (hadd.2.2.1 o ho he hno).2 ht

theorem add_nFace (c : Count) (new R rim) : (add c new R rim).nFace = c.nFace := by
  unfold add
  split_ifs
  · rfl
  · simp only
    split_ifs
    · rw [cut_nFace]
    · rfl

theorem sound_history (n : ℕ) (as : List Addition) (hok : ∀ a ∈ as, a.Ok n)
    (hroom : RoomFor ⟨n, cleared, []⟩ as) : Sound (addAll ⟨n, cleared, []⟩ as) := by
  have gen : ∀ (as : List Addition) (c : Count), c.nFace = n → Sound c → (∀ a ∈ as, a.Ok n) →
      RoomFor c as → Sound (addAll c as) := by
    intro as
    induction as with
    | nil => intro c _ h _ _; exact h
    | cons a as ih =>
      intro c hc h hok hr
      obtain ⟨hr1, hr2⟩ := hr
      apply ih _ _ _ (fun b hb => hok b (by simp [hb])) hr2
      · rw [add_nFace]; exact hc
      · exact sound_add c h a (hc ▸ hok a (by simp)) hr1
  have h0 : Sound ⟨n, cleared, []⟩ := by
    refine ⟨shaped_cleared, by intro o ho; simp at ho, by simp, by simp, ?_⟩
    rintro id hid ⟨f, _, hx⟩
    simp [cleared] at hx
    exact absurd hx.2 hid
  exact gen as _ rfl h0 hok hroom

/-- Over every history of additions that never runs out of layers: the observed craters are exactly
those that have a tag on the surface. -/
theorem C26_history (n : ℕ) (as : List Addition) (hok : ∀ a ∈ as, a.Ok n)
    (hroom : RoomFor ⟨n, cleared, []⟩ as) (id : ℕ) (hid : id ≠ 0) :
    Tagged (addAll ⟨n, cleared, []⟩ as) id ↔ ∃ o ∈ (addAll ⟨n, cleared, []⟩ as).observed, o.id = id := by
  have h := sound_history n as hok hroom
  constructor
  · exact h.known id hid
  · rintro ⟨o, ho, rfl⟩; exact h.visible o ho

example : (⟨⟨7, 50⟩, List.range 120, List.range 60⟩ : Addition).Ok 200 := by
  refine ⟨?_, ?_, by decide⟩ <;> intro f hf <;> simp at hf ⊢ <;> omega

/-! ### C27 -/

theorem removeAll_tags (ids : List ℕ) : ∀ c f x, x ≠ 0 → f < c.nFace →
    (x ∈ (removeAll c ids).tags f ↔ x ∈ c.tags f ∧ x ∉ ids) := by
  induction ids with
  | nil => intro c f x _ _; simp [removeAll]
  | cons id ids ih =>
    intro c f x hx hf
    simp only [removeAll]
    rw [ih (remove c id) f x hx hf]
    simp only [remove]
    rw [mem_removeTag hx]
    simp only [Count.faces, List.mem_range, hf, true_and, List.mem_cons, not_or]
    tauto

theorem removeAll_observed (ids : List ℕ) : ∀ c, (removeAll c ids).observed =
    c.observed.filter fun o => decide (o.id ∉ ids) := by
  induction ids with
  | nil => intro c; simp [removeAll]
  | cons id ids ih =>
    intro c
    simp only [removeAll]
    rw [ih]
    simp only [remove, pop, List.filter_filter]
    apply List.filter_congr
    intro o _
    by_cases h1 : o.id = id <;> by_cases h2 : o.id ∈ ids <;> simp [h1, h2]

theorem removeAll_nFace (ids : List ℕ) : ∀ c, (removeAll c ids).nFace = c.nFace := by
  induction ids with
  | nil => intro c; rfl
  | cons id ids ih => intro c; simp only [removeAll]; rw [ih]; rfl

theorem mem_ids (c : Count) (id : ℕ) : id ∈ idsOnSurface c ↔ id ≠ 0 ∧ Tagged c id := by
  unfold idsOnSurface
  rw [List.mem_mergeSort, List.mem_dedup]
  simp only [List.mem_filter, List.mem_flatMap, Count.faces, List.mem_range, decide_eq_true_eq, Tagged]
  constructor
  · rintro ⟨h1, h2⟩; exact ⟨by omega, h1⟩
  · rintro ⟨h1, h2⟩; exact ⟨h2, by omega⟩

theorem find_id (obs : List Crater) (hd : ∀ o ∈ obs, ∀ o' ∈ obs, o.id = o'.id → o = o') (o : Crater)
    (ho : o ∈ obs) : obs.find? (fun x => x.id = o.id) = some o := by
  rcases e : obs.find? (fun x => decide (x.id = o.id)) with _ | x
  · have := List.find?_eq_none.mp e o ho
    simp at this
  · have h1 := List.find?_some e
    have h2 := List.mem_of_find?_eq_some e
    exact e.trans <| congrArg some (hd x h2 o ho (by simpa using h1))

theorem mem_toRemove (c : Count) (hd : DistinctIds c) (hidden : Crater → Bool) (id : ℕ) :
    id ∈ toRemove c hidden ↔ id ≠ 0 ∧ Tagged c id ∧ ∀ o ∈ c.observed, o.id = id → hidden o = true := by
  unfold toRemove
  rw [List.mem_filter, mem_ids, and_assoc]
  apply and_congr_right
  intro _
  apply and_congr_right
  intro _
  split
  · rename_i e
    simp only [true_iff]
    intro o ho e'
    have := List.find?_eq_none.mp e o ho
    simp [e'] at this
  · rename_i o e
    have h1 := List.find?_some e
    have h2 := List.mem_of_find?_eq_some e
    constructor
    · intro h o' ho' e'
      have : o' = o := hd o' ho' o h2 (by simp at h1; rw [e', h1])
      rw [this]; exact h
    · intro h
      exact h o h2 (by simpa using h1)

/-- After `tally` every crater id on the surface belongs to an observed crater below its visibility
limit; craters below the limit keep all their tags and stay in the list; and the others are gone from
both. -/
theorem C27_tally (c : Count) (hd : DistinctIds c) (hidden : Crater → Bool) :
    (∀ id ≠ 0, Tagged (tally c hidden) id →
      ∃ o ∈ (tally c hidden).observed, o.id = id ∧ hidden o = false) ∧
    (∀ o ∈ c.observed, o.id ≠ 0 → hidden o = false →
      o ∈ (tally c hidden).observed ∧
      ∀ f < c.nFace, o.id ∈ c.tags f → o.id ∈ (tally c hidden).tags f) ∧
    (∀ o ∈ c.observed, o.id ≠ 0 → hidden o = true → Tagged c o.id →
      o ∉ (tally c hidden).observed ∧ ¬ Tagged (tally c hidden) o.id) := by
  unfold tally
  refine ⟨?_, ?_, ?_⟩
  · rintro id hid ⟨f, hf, hx⟩
    rw [removeAll_nFace] at hf
    obtain ⟨h1, h2⟩ := (removeAll_tags _ c f id hid hf).mp hx
    rw [mem_toRemove c hd] at h2
    push Not at h2
    obtain ⟨o, ho, e, hh⟩ := h2 hid ⟨f, hf, h1⟩
    refine ⟨o, ?_, e, by simpa using hh⟩
    rw [removeAll_observed, List.mem_filter]
    refine ⟨ho, ?_⟩
    simp only [decide_eq_true_eq]
    rw [mem_toRemove c hd]
    push Not
    intro _ _
    exact ⟨o, ho, rfl, hh⟩
  · intro o ho h0 hh
    have hn : o.id ∉ toRemove c hidden := by
      rw [mem_toRemove c hd]
      push Not
      intro _ _
      exact ⟨o, ho, rfl, by simp [hh]⟩
    refine ⟨?_, ?_⟩
    · rw [removeAll_observed, List.mem_filter]
      exact ⟨ho, by simp [hn]⟩
    · intro f hf hx
      exact (removeAll_tags _ c f _ h0 hf).mpr ⟨hx, hn⟩
  · intro o ho h0 hh ht
    have hm : o.id ∈ toRemove c hidden := by
      rw [mem_toRemove c hd]
      refine ⟨h0, ht, ?_⟩
      intro o' ho' e
      rw [hd o' ho' o ho e]; exact hh
    refine ⟨?_, ?_⟩
    · rw [removeAll_observed, List.mem_filter]
      simp [hm]
    · rintro ⟨f, hf, hx⟩
      rw [removeAll_nFace] at hf
      exact ((removeAll_tags _ c f _ h0 hf).mp hx).2 hm

/-- A second tally with the same measurements changes nothing. -/
theorem C27_idempotent (c : Count) (hd : DistinctIds c) (hidden : Crater → Bool) :
    tally (tally c hidden) hidden = tally c hidden := by
  have hd' : DistinctIds (tally c hidden) := by
    intro o ho o' ho' e
    unfold tally at ho ho'
    rw [removeAll_observed, List.mem_filter] at ho ho'
    exact hd o ho.1 o' ho'.1 e
  have : toRemove (tally c hidden) hidden = [] := by
    rw [List.eq_nil_iff_forall_not_mem]
    intro id h
    obtain ⟨h0, ht, hh⟩ := (mem_toRemove _ hd' hidden id).mp h
    obtain ⟨o, ho, e, hf⟩ := (C27_tally c hd hidden).1 id h0 ht
    have := hh o ho e
    rw [this] at hf
    cases hf
  show removeAll (tally c hidden) (toRemove (tally c hidden) hidden) = _
  rw [this]
  rfl

example : DistinctIds ⟨2, fun f => if f = 0 then [7, 0, 0, 0, 0, 0, 0, 0] else [7, 9, 0, 0, 0, 0, 0, 0], [⟨7, 50⟩, ⟨9, 20⟩]⟩ := by
  intro o ho o' ho' h
  simp only [List.mem_cons, List.not_mem_nil, or_false] at ho ho'
  rcases ho with rfl | rfl <;> rcases ho' with rfl | rfl <;> simp_all

/-! ### C92 -/

/-- A crater whose tags have all been overwritten (by C24 this happens on full faces) stays in the
list for ever: tally never looks at it. -/
theorem C92_ghost_fails (c : Count) (hd : DistinctIds c) (hidden : Crater → Bool) (o : Crater)
    (ho : o ∈ c.observed) (h0 : o.id ≠ 0) (ht : ¬ Tagged c o.id) :
    o ∈ (tally c hidden).observed ∧ ¬ Tagged (tally c hidden) o.id := by
  have hn : o.id ∉ toRemove c hidden := by
    rw [mem_toRemove c hd]
    rintro ⟨_, h, _⟩; exact ht h
  refine ⟨?_, ?_⟩
  · unfold tally
    rw [removeAll_observed, List.mem_filter]
    exact ⟨ho, by simp [hn]⟩
  · rintro ⟨f, hf, hx⟩
    have hf' : f < c.nFace := by unfold tally at hf; rw [removeAll_nFace] at hf; exact hf
    unfold tally at hx
    exact ht ⟨f, hf', ((removeAll_tags _ c f _ h0 hf').mp hx).1⟩

/-- As long as no face runs out of layers, after any history of additions and a tally every observed
crater is still on the surface and below its visibility limit. -/
theorem C92_on_surface_partial (n : ℕ) (as : List Addition) (hok : ∀ a ∈ as, a.Ok n)
    (hroom : RoomFor ⟨n, cleared, []⟩ as) (hidden : Crater → Bool) (o : Crater)
    (ho : o ∈ (tally (addAll ⟨n, cleared, []⟩ as) hidden).observed) :
    Tagged (tally (addAll ⟨n, cleared, []⟩ as) hidden) o.id ∧ hidden o = false := by
  have h := sound_history n as hok hroom
  set c := addAll ⟨n, cleared, []⟩ as
  have ho' : o ∈ c.observed := by
    unfold tally at ho
    rw [removeAll_observed, List.mem_filter] at ho
    exact ho.1
  have h0 := h.nonzero o ho'
  obtain ⟨f, hf, hx⟩ := h.visible o ho'
  have hh : hidden o = false := by
    by_contra hn
    exact ((C27_tally c h.distinct hidden).2.2 o ho' h0 (by simpa using hn) ⟨f, hf, hx⟩).1 ho
  refine ⟨⟨f, ?_, ((C27_tally c h.distinct hidden).2.1 o ho' h0 hh).2 f hf hx⟩, hh⟩
  unfold tally
  rw [removeAll_nFace]
  exact hf

example : RoomFor ⟨200, cleared, []⟩ [⟨⟨7, 50⟩, List.range 120, List.range 60⟩] :=
  ⟨fun _ _ => by simp [cleared, nLayers], trivial⟩

/-! A reachable state with such a crater: nine craters of the same size over the same 100 faces. -/

/-- The same layers on each of the first 100 faces. -/
def uni (L : List ℕ) : Layers := fun f => if f < 100 then L else List.replicate nLayers 0

/-- What adding a tag does to the layers of one such face. -/
def addOne (L : List ℕ) (t : ℕ) : List ℕ :=
  match (List.range nLayers).find? (fun i => L[i]? == some 0) with
  | some i => L.set i t
  | none => (L.mergeSort (fun a b => decide (b ≤ a))).set (nLayers - 1) t

theorem free_uni (L : List ℕ) : freeLayer (uni L) (List.range 100) =
    (List.range nLayers).find? (fun i => L[i]? == some 0) := by
  unfold freeLayer
  congr 1
  funext i
  by_cases h : L[i]? = some 0
  · have h1 : (L[i]? == some 0) = true := by simp [h]
    rw [h1, List.all_eq_true]
    intro f hf
    simp only [List.mem_range] at hf
    simp [uni, hf, h]
  · have h1 : (L[i]? == some 0) = false := by simp [h]
    rw [h1, List.all_eq_false]
    exact ⟨0, by simp, by simp [uni, h]⟩

theorem add_uni (L : List ℕ) (t : ℕ) : addTag (uni L) (List.range 100) t = uni (addOne L t) := by
  unfold addOne
  rcases h : (List.range nLayers).find? (fun i => L[i]? == some 0) with _ | i
  · rw [addTag_none ((free_uni L).trans h)]
    funext f
    by_cases hf : f < 100 <;> simp [setLayer, sortTags, uni, hf]
  · rw [addTag_some ((free_uni L).trans h)]
    funext f
    by_cases hf : f < 100 <;> simp [setLayer, uni, hf]

theorem add_uni_count (L : List ℕ) (hL : L.length = nLayers) (obs : List Crater) (c : Crater) :
    add ⟨100, uni L, obs⟩ c (List.range 100) [] = ⟨100, uni (addOne L c.id), insert obs c⟩ := by
  have hs : Shaped (uni L) := fun f => by unfold uni; split_ifs <;> simp [hL]
  rw [add_large _ hs c _ _ (by simp [minFaces]) (by simp)]
  simp only [add_uni]
  have : ∀ c2 : Count, removes c2 [] c = [] := by intro c2; simp [removes]
  rw [this]
  rfl

/-- Nine craters with ids 1 to 9 over the same faces. -/
def nine : List Addition := [1, 2, 3, 4, 5, 6, 7, 8, 9].map fun k => ⟨⟨k, 10⟩, List.range 100, []⟩

/-- The first of nine craters is still listed as observed after them, with or without a tally, although
none of its tags is left; the other eight are on the surface. -/
theorem C92_ghost_reachable_fails (hidden : Crater → Bool) :
    let c := addAll ⟨100, cleared, []⟩ nine
    (⟨1, 10⟩ : Crater) ∈ (tally c hidden).observed ∧ ¬ Tagged (tally c hidden) 1 ∧ ¬ Tagged c 1 := by
  have h0 : (cleared : Layers) = uni (List.replicate nLayers 0) := by
    funext f; unfold cleared uni; split_ifs <;> rfl
  have key : addAll ⟨100, cleared, []⟩ nine =
      ⟨100, uni [8, 7, 6, 5, 4, 3, 2, 9], [1, 2, 3, 4, 5, 6, 7, 8, 9].map fun k => ⟨k, 10⟩⟩ := by
    rw [h0]
    simp only [nine, List.map_nil, List.map_cons, addAll]
    repeat rw [add_uni_count _ (by decide +kernel)]
    congr 1
    apply congrArg uni
    have h8 : [1, 2, 3, 4, 5, 6, 7].foldl addOne (List.replicate nLayers 0) = [1, 2, 3, 4, 5, 6, 7, 0] := by
      decide +kernel
    have h9 : [1, 2, 3, 4, 5, 6, 7, 8].mergeSort (fun a b => decide (b ≤ a)) =
        [8, 7, 6, 5, 4, 3, 2, 1] := by
      simp [List.mergeSort, List.MergeSort.Internal.splitInTwo]
    have h10 : addOne [1, 2, 3, 4, 5, 6, 7, 8] 9 = [8, 7, 6, 5, 4, 3, 2, 9] := by
      unfold addOne
      rw [h9]
      decide
    exact (congrArg (fun L => addOne (addOne L 8) 9) h8).trans h10
  intro c
  have hd : DistinctIds c := by
    intro o ho o' ho' e
    rw [show c = _ from key] at ho ho'
    simp only [List.mem_map] at ho ho'
    obtain ⟨k, _, rfl⟩ := ho
    obtain ⟨k', _, rfl⟩ := ho'
    simp only at e
    rw [e]
  have ht : ¬ Tagged c 1 := by
    rw [show c = _ from key]
    rintro ⟨f, hf, h⟩
    simp only at hf
    simp [uni, hf] at h
  have ho : (⟨1, 10⟩ : Crater) ∈ c.observed := by
    rw [show c = _ from key]
    simp only [List.mem_map]
    exact ⟨1, by simp, rfl⟩
  have := C92_ghost_fails c hd hidden ⟨1, 10⟩ ho (by decide) ht
  exact ⟨this.1, this.2, ht⟩

/-! ### C83 -/

/-- The rim options given to `tally` reach its first crater only. -/
theorem C83_options_fails {α : Type} (a : α) (as : List α) (fitCenter fitEllipse : Bool) (b : α)
    (hb : b ∈ as) : (a, fitCenter, fitEllipse) ∈ rimOptions fitCenter fitEllipse (a :: as) ∧
      (b, false, false) ∈ rimOptions fitCenter fitEllipse (a :: as) := by
  simp only [rimOptions, List.mem_cons, List.mem_map]
  exact ⟨by simp, Or.inr ⟨b, hb, rfl⟩⟩

/-- With both options off, or a single crater, every crater gets what was asked for. -/
theorem C83_options_partial {α : Type} (as : List α) (fitCenter fitEllipse : Bool)
    (h : (fitCenter = false ∧ fitEllipse = false) ∨ as.length ≤ 1) :
    rimOptions fitCenter fitEllipse as = as.map fun a => (a, fitCenter, fitEllipse) := by
  rcases h with ⟨rfl, rfl⟩ | h
  · cases as <;> rfl
  · match as, h with
    | [], _ => rfl
    | [a], _ => rfl

example : (2 : ℕ) ∈ [2, 3] := by decide
example : ([5] : List ℕ).length ≤ 1 := by decide

end Verif.Tags
