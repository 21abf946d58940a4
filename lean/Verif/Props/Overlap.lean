import Verif.Model.Overlap
import Verif.Props.Tags

/-! Property C137: operations on a region of a surface with a high-resolution local region act on the part shared with it. -/

namespace Verif.Overlap

/-- The value an array aligned with a list of indices has for an index. -/
def valueAt (idx : List ℕ) (vals : List ℝ) (i : ℕ) : Option ℝ := (idx.zip vals).lookup i

theorem select_isin (l others : List ℕ) : select (isin l others) l = l.filter fun i => others.contains i := by
  induction l with
  | nil => rfl
  | cons a l ih =>
    have : select (isin (a :: l) others) (a :: l) =
        if others.contains a then a :: select (isin l others) l else select (isin l others) l := rfl
    rw [this, ih, List.filter_cons]

theorem lookup_select (l others : List ℕ) (v : List ℝ) (hv : v.length = l.length) (f : ℕ) (hf : f ∈ others) :
    valueAt (select (isin l others) l) (select (isin l others) v) f = valueAt l v f := by
  unfold valueAt
  induction l generalizing v with
  | nil => rfl
  | cons a l ih =>
    rcases v with _ | ⟨x, v⟩
    · simp at hv
    have h1 : ∀ {α : Type} (y : α) (ys : List α), select (isin (a :: l) others) (y :: ys) =
        if others.contains a then y :: select (isin l others) ys else select (isin l others) ys := fun _ _ => rfl
    rw [h1, h1]
    have ih' := ih v (by simpa using hv)
    by_cases ha : others.contains a = true
    · rw [if_pos ha, if_pos ha, List.zip_cons_cons, List.zip_cons_cons, List.lookup_cons, List.lookup_cons, ih']
    · rw [if_neg ha, if_neg ha, ih', List.zip_cons_cons, List.lookup_cons]
      have : (f == a) = false := by
        rw [beq_eq_false_iff_ne]
        rintro rfl
        exact ha (List.contains_iff_mem.mpr hf)
      rw [this]

theorem overlap_faces {r loc : Region} {s : Shared} (h : overlap r loc = some s) :
    s.region.faces = r.faces.filter (fun f => loc.faces.contains f) ∧ s.faceMask = isin r.faces loc.faces := by
  unfold overlap at h
  dsimp only at h
  rw [select_isin] at h
  split_ifs at h with h1 h2 h3 h4 <;> (cases h; exact ⟨rfl, rfl⟩)

theorem any_isin (l others : List ℕ) : (isin l others).any id = true ↔ ∃ i ∈ l, i ∈ others := by
  simp [isin]

theorem select_true {α : Type} {β : Type} (l : List β) (v : List α) (h : v.length = l.length) :
    select (l.map fun _ => true) v = v := by
  induction l generalizing v with
  | nil => rw [List.length_eq_zero_iff.mp h]; rfl
  | cons b l ih =>
    rcases v with _ | ⟨x, v⟩
    · simp at h
    · have : select ((b :: l).map fun _ => true) (x :: v) = x :: select (l.map fun _ => true) v := rfl
      rw [this, ih v (by simpa using h)]

/-- C137: the part of a region that is shared with the local region has exactly the faces of both, in the order of the region; it exists
if the region lies in the local region or the two share a face, a node and an edge, and only if they share a face. -/
theorem C137_shared (r loc : Region) :
    (∀ s, overlap r loc = some s → ∀ f, f ∈ s.region.faces ↔ f ∈ r.faces ∧ f ∈ loc.faces) ∧
      (∀ s, overlap r loc = some s → s.region.faces.Sublist r.faces) ∧
      ((∃ s, overlap r loc = some s) ↔ (∃ f ∈ r.faces, f ∈ loc.faces) ∧
        ((∀ f ∈ r.faces, f ∈ loc.faces) ∨ (∃ n ∈ r.nodes, n ∈ loc.nodes) ∧ ∃ e ∈ r.edges, e ∈ loc.edges)) := by
  refine ⟨fun s h f => ?_, fun s h => ?_, ?_⟩
  · rw [(overlap_faces h).1, List.mem_filter, List.contains_iff_mem]
  · rw [(overlap_faces h).1]
    exact List.filter_sublist
  · unfold overlap
    dsimp only
    rw [select_isin]
    have hl : ((r.faces.filter fun f => loc.faces.contains f).length = r.faces.length) ↔ ∀ f ∈ r.faces, f ∈ loc.faces := by
      rw [List.length_filter_eq_length_iff]
      simp only [List.contains_iff_mem]
    simp only [hl, any_isin]
    split_ifs with h1 h2 h3 h4
    · exact ⟨fun _ => ⟨h1, .inl h2⟩, fun _ => ⟨_, rfl⟩⟩
    · exact ⟨fun _ => ⟨h1, .inr ⟨h3, h4⟩⟩, fun _ => ⟨_, rfl⟩⟩
    · exact ⟨fun ⟨_, hs⟩ => by simp at hs, fun ⟨_, hs⟩ => hs.elim (fun h => absurd h h2) fun h => absurd h.2 h4⟩
    · exact ⟨fun ⟨_, hs⟩ => by simp at hs, fun ⟨_, hs⟩ => hs.elim (fun h => absurd h h2) fun h => absurd h.1 h3⟩
    · exact ⟨fun ⟨_, hs⟩ => by simp at hs, fun ⟨hs, _⟩ => absurd hs h1⟩

/-- The nodes and edges of the shared part: those of the region that are in the local region too, or all of the region if it lies in the
local region entirely.  The masks by which faces, nodes and edges are marked have one mark for each of the region, and mark just the shared
ones. -/
theorem C137_masks (r loc : Region) (s : Shared) (h : overlap r loc = some s) :
    (∀ n, n ∈ s.region.nodes ↔ n ∈ r.nodes ∧ ((∀ f ∈ r.faces, f ∈ loc.faces) ∨ n ∈ loc.nodes)) ∧
    (∀ e, e ∈ s.region.edges ↔ e ∈ r.edges ∧ ((∀ f ∈ r.faces, f ∈ loc.faces) ∨ e ∈ loc.edges)) ∧
    (∀ i : ℕ, s.faceMask[i]? = (r.faces[i]?).map fun f => decide (f ∈ s.region.faces)) ∧
    (∀ i : ℕ, s.nodeMask[i]? = (r.nodes[i]?).map fun n => decide (n ∈ s.region.nodes)) ∧
    ∀ i : ℕ, s.edgeMask[i]? = (r.edges[i]?).map fun e => decide (e ∈ s.region.edges) := by
  have hall : ∀ (l : List ℕ) (i : ℕ), (l.map fun _ => true)[i]? = (l[i]?).map fun x => decide (x ∈ l) := by
    intro l i
    rw [List.getElem?_map]
    rcases hx : l[i]? with _ | x
    · rfl
    · simp [List.mem_of_getElem? hx]
  have hin : ∀ (l others : List ℕ) (i : ℕ), (isin l others)[i]? =
      (l[i]?).map fun x => decide (x ∈ l.filter fun y => others.contains y) := by
    intro l others i
    rw [isin, List.getElem?_map]
    rcases hx : l[i]? with _ | x
    · rfl
    · have := List.mem_of_getElem? hx
      simp [List.mem_filter, this]
  have hf := overlap_faces h
  refine ⟨?_, ?_, fun i => by rw [hf.2, hf.1, hin], ?_⟩
  all_goals
    unfold overlap at h
    dsimp only at h
    rw [select_isin] at h
    have hl : ((r.faces.filter fun f => loc.faces.contains f).length = r.faces.length) ↔ ∀ f ∈ r.faces, f ∈ loc.faces := by
      rw [List.length_filter_eq_length_iff]
      simp only [List.contains_iff_mem]
    split_ifs at h with h1 h2 h3 h4 <;> cases h <;> rw [hl] at h2
  · intro n; exact ⟨fun hn => ⟨hn, .inl h2⟩, fun hn => hn.1⟩
  · intro n; simp only [select_isin, List.mem_filter, List.contains_iff_mem, h2, false_or]
  · intro n; exact ⟨fun hn => ⟨hn, .inl h2⟩, fun hn => hn.1⟩
  · intro n; simp only [select_isin, List.mem_filter, List.contains_iff_mem, h2, false_or]
  · exact ⟨hall _, hall _⟩
  · simp only [select_isin]
    exact ⟨hin _ _, hin _ _⟩

/-- A value per face (or node) of the region goes to its own face (or node) of the shared part: distances, bearings and diffusivities. -/
theorem C137_aligned (r loc : Region) (s : Shared) (h : overlap r loc = some s) :
    (∀ v : List ℝ, v.length = r.faces.length → ∀ f ∈ s.region.faces,
      valueAt s.region.faces (sharedFaceValues s v) f = valueAt r.faces v f) ∧
    (∀ v : List ℝ, v.length = r.nodes.length → ∀ n ∈ s.region.nodes,
      valueAt s.region.nodes (sharedNodeValues s v) n = valueAt r.nodes v n) := by
  constructor
  · intro v hv f hf
    have hm := ((C137_shared r loc).1 s h f).mp hf
    obtain ⟨h1, h2⟩ := overlap_faces h
    unfold sharedFaceValues
    rw [h1, h2, ← select_isin]
    exact lookup_select r.faces loc.faces v hv f hm.2
  · intro v hv n hn
    unfold overlap at h
    dsimp only at h
    unfold sharedNodeValues
    split_ifs at h with h1 h2 h3 h4
    · cases h
      simp only
      rw [select_true _ _ hv]
    · cases h
      simp only at hn ⊢
      rw [select_isin, List.mem_filter, List.contains_iff_mem] at hn
      exact lookup_select r.nodes loc.nodes v hv n hn.2

theorem addAt_outside (e : ℕ → ℝ) (faces : List ℕ) (d : List ℝ) (f : ℕ) (hf : f ∉ faces) : addAt e faces d f = e f := by
  unfold addAt
  have : (faces.zip d).lookup f = none := by
    rw [List.lookup_eq_none_iff]
    rintro ⟨a, b⟩ hab
    have := (List.of_mem_zip hab).1
    simp only [bne_iff_ne, ne_eq]
    rintro rfl
    exact hf this
  rw [this]

/-- C137 for diffusion: a valid amount is accepted, faces outside the region or outside the local region keep their elevation, and
the shared part is diffused like a region of its own whose faces have the amounts given for them. -/
theorem C137_diffusion (kernel : Region → List ℝ → List ℝ) (r loc : Region) (e : ℕ → ℝ) (ks : List ℝ)
    (hl : ks.length = r.faces.length) (hk : ∀ k ∈ ks, 0 ≤ k) :
    ∃ e', diffuse kernel loc r e (.array ks) = .ok e' ∧ (∀ f, f ∉ r.faces ∨ f ∉ loc.faces → e' f = e f) ∧
      ∀ s, overlap r loc = some s → ∃ ks', ks'.length = s.region.faces.length ∧
        (∀ f ∈ s.region.faces, valueAt s.region.faces ks' f = valueAt r.faces ks f) ∧
        diffusePlain kernel s.region e (.array ks') = .ok e' := by
  unfold diffuse
  rcases ho : overlap r loc with _ | s
  · exact ⟨e, rfl, fun _ _ => rfl, fun s hs => by cases hs⟩
  obtain ⟨h1, h2⟩ := overlap_faces ho
  have hm : ks.length = s.faceMask.length := by rw [h2, isin, List.length_map, hl]
  simp only [restrict, if_pos hm]
  set ks' := select s.faceMask ks with hks'
  have hlen : ks'.length = s.region.faces.length := by
    rw [hks', h2, h1, ← select_isin]
    clear hk ho h1 h2 hm hks'
    generalize r.faces = l at *
    induction l generalizing ks with
    | nil => rfl
    | cons a l ih =>
      rcases ks with _ | ⟨x, ks⟩
      · simp at hl
      have hs : ∀ {α : Type} (y : α) (ys : List α), select (isin (a :: l) loc.faces) (y :: ys) =
          if loc.faces.contains a then y :: select (isin l loc.faces) ys else select (isin l loc.faces) ys := fun _ _ => rfl
      rw [hs, hs]
      have := ih ks (by simpa using hl)
      split_ifs <;> simp [this]
  have hmem : ∀ k ∈ ks', k ∈ ks := by
    have : ∀ (bs : List Bool) (xs : List ℝ), ∀ k ∈ select bs xs, k ∈ xs := by
      intro bs
      induction bs with
      | nil => intro xs k hk; simp [select] at hk
      | cons b bs ih =>
        intro xs k hk
        rcases xs with _ | ⟨x, xs⟩
        · simp [select] at hk
        · have : select (b :: bs) (x :: xs) = if b then x :: select bs xs else select bs xs := rfl
          rw [this] at hk
          split_ifs at hk
          · rcases List.mem_cons.mp hk with rfl | hk
            · simp
            · exact List.mem_cons_of_mem _ (ih xs k hk)
          · exact List.mem_cons_of_mem _ (ih xs k hk)
    exact this _ _
  have hneg : ¬ ∃ x ∈ ks', x < 0 := by
    rintro ⟨x, hx, h0⟩
    exact absurd (hk x (hmem x hx)) (not_le.mpr h0)
  have hout : ∀ f, f ∉ r.faces ∨ f ∉ loc.faces → f ∉ s.region.faces := by
    intro f hf hin
    have := ((C137_shared r loc).1 s ho f).mp hin
    tauto
  have hal := (C137_aligned r loc s ho).1 ks hl
  have hp : ∃ e', diffusePlain kernel s.region e (.array ks') = .ok e' ∧ ∀ f, f ∉ r.faces ∨ f ∉ loc.faces → e' f = e f := by
    simp only [diffusePlain, toArray, if_pos hlen, if_neg hneg]
    split_ifs with h0
    · exact ⟨e, rfl, fun _ _ => rfl⟩
    · exact ⟨_, rfl, fun f hf => addAt_outside e _ _ f (hout f hf)⟩
  obtain ⟨e', he, hf⟩ := hp
  refine ⟨e', he, hf, fun s' hs' => ?_⟩
  cases hs'
  exact ⟨ks', hlen, hal, he⟩

/-- C137 for one diffusivity for all faces. -/
theorem C137_uniform_diffusion (kernel : Region → List ℝ → List ℝ) (r loc : Region) (e : ℕ → ℝ) (k : ℝ) (hk : 0 ≤ k) :
    ∃ e', diffuse kernel loc r e (.scalar k) = .ok e' ∧ (∀ f, f ∉ r.faces ∨ f ∉ loc.faces → e' f = e f) ∧
      ∀ s, overlap r loc = some s → diffusePlain kernel s.region e (.scalar k) = .ok e' := by
  unfold diffuse
  rcases ho : overlap r loc with _ | s
  · exact ⟨e, rfl, fun _ _ => rfl, fun s hs => by cases hs⟩
  simp only [restrict]
  have hout : ∀ f, f ∉ r.faces ∨ f ∉ loc.faces → f ∉ s.region.faces := by
    intro f hf hin
    have := ((C137_shared r loc).1 s ho f).mp hin
    tauto
  have hneg : ¬ ∃ x ∈ s.region.faces.map (fun _ => k), x < 0 := by
    rintro ⟨x, hx, h0⟩
    obtain ⟨_, _, rfl⟩ := List.mem_map.mp hx
    exact absurd hk (not_le.mpr h0)
  have hp : ∃ e', diffusePlain kernel s.region e (.scalar k) = .ok e' ∧ ∀ f, f ∉ r.faces ∨ f ∉ loc.faces → e' f = e f := by
    simp only [diffusePlain, toArray, if_neg hneg]
    split_ifs with h0
    · exact ⟨e, rfl, fun _ _ => rfl⟩
    · exact ⟨_, rfl, fun f hf => addAt_outside e _ _ f (hout f hf)⟩
  obtain ⟨e', he, hf⟩ := hp
  exact ⟨e', he, hf, fun s' hs' => by cases hs'; exact he⟩

/-- C137 for slope collapse and noise: nothing outside the region or the local region moves. -/
theorem C137_collapse_noise (change : Region → (ℕ → ℝ) → List ℝ) (r loc : Region) (e : ℕ → ℝ) :
    (∀ f, f ∉ r.faces ∨ f ∉ loc.faces → applyLocal change loc r e f = e f) ∧
      ∀ s, overlap r loc = some s → (change s.region e).length = s.region.faces.length → ∀ f ∈ r.faces, f ∈ loc.faces →
        ∃ x, valueAt s.region.faces (change s.region e) f = some x ∧ applyLocal change loc r e f = e f + x := by
  constructor
  · intro f hf
    unfold applyLocal
    rcases ho : overlap r loc with _ | s
    · rfl
    · apply addAt_outside
      intro hin
      have := ((C137_shared r loc).1 s ho f).mp hin
      tauto
  · intro s hs hl f h1 h2
    have hin := ((C137_shared r loc).1 s hs f).mpr ⟨h1, h2⟩
    have hx : ∃ x, (s.region.faces.zip (change s.region e)).lookup f = some x := by
      by_contra hno
      have hn : (s.region.faces.zip (change s.region e)).lookup f = none := by
        rcases h : (s.region.faces.zip (change s.region e)).lookup f with _ | x
        · rfl
        · exact absurd ⟨x, h⟩ hno
      rw [List.lookup_eq_none_iff] at hn
      obtain ⟨i, hi, he⟩ := List.getElem_of_mem hin
      have hz : (f, (change s.region e)[i]'(by omega)) ∈ s.region.faces.zip (change s.region e) := by
        rw [← he]
        have hi' : i < (s.region.faces.zip (change s.region e)).length := by simp [hl]; omega
        have := List.getElem_mem hi'
        rwa [List.getElem_zip] at this
      have := hn _ hz
      simp at this
    obtain ⟨x, hx⟩ := hx
    refine ⟨x, hx, ?_⟩
    unfold applyLocal
    rw [hs]
    simp only [addAt, hx]

/-- C137 for tags: unless the superdomain is asked for, the faces of both regions carry the tag and all others keep what they have; with
the superdomain all faces of the region carry it. -/
theorem C137_tags (t : Tags.Layers) (ht : Tags.Shaped t) (r loc : Region) (tag : ℕ) :
    (∀ f, f ∉ r.faces ∨ f ∉ loc.faces → addTag t loc r tag false f = t f) ∧
      ((∃ s, overlap r loc = some s) → ∀ f ∈ r.faces, f ∈ loc.faces → tag ∈ addTag t loc r tag false f) ∧
      (∀ f ∈ r.faces, tag ∈ addTag t loc r tag true f) ∧ ∀ f ∉ r.faces, addTag t loc r tag true f = t f := by
  refine ⟨fun f hf => ?_, fun ⟨s, hs⟩ f h1 h2 => ?_, ?_, ?_⟩
  · simp only [addTag, Bool.false_eq_true, if_false]
    rcases ho : overlap r loc with _ | s
    · rfl
    · apply (Tags.C24_marks t ht s.region.faces tag).2
      intro hin
      have := ((C137_shared r loc).1 s ho f).mp hin
      tauto
  · simp only [addTag, Bool.false_eq_true, if_false, hs]
    exact (Tags.C24_marks t ht s.region.faces tag).1 f (((C137_shared r loc).1 s hs f).mpr ⟨h1, h2⟩)
  · simpa [addTag] using (Tags.C24_marks t ht r.faces tag).1
  · simpa [addTag] using (Tags.C24_marks t ht r.faces tag).2

/-- The marks of local faces are true exactly for the faces of the local region. -/
theorem C137_identifiers (n : ℕ) (indices : List ℕ) (i : ℕ) (hi : i < n) :
    (isLocal n indices)[i]? = some (decide (i ∈ indices)) := by
  simp [isLocal, isin, hi]

/-- A region and a local region with three and four faces. -/
def exRegion : Region := ⟨[4, 2, 7], [1, 2], [5, 6]⟩
def exLocal : Region := ⟨[1, 2, 3, 4], [2, 3], [6, 8]⟩

example : ∃ s, overlap exRegion exLocal = some s ∧ s.region.faces = [4, 2] ∧ s.region.nodes = [2] ∧ s.region.edges = [6] :=
  ⟨⟨⟨[4, 2], [2], [6]⟩, [true, true, false], [false, true], [false, true]⟩, by decide, rfl, rfl, rfl⟩

/-- C137, the gap: regions keep the edges of their inner faces only, so a region and the local region can share faces of their margins
without an edge; those faces are then left out of every operation, for example they are not tagged.  The
witness is a chain of faces with the edge `i` before face `i`: the region around face 0 and the local region around face 2, which share
face 1. -/
theorem C137_margin_fails : ∃ (r loc : Region) (f : ℕ), f ∈ r.faces ∧ f ∈ loc.faces ∧
    (∃ n ∈ r.nodes, n ∈ loc.nodes) ∧ ∀ tag, addTag Tags.cleared loc r tag false f = Tags.cleared f := by
  refine ⟨⟨[0, 1], [0, 1, 2], [0, 1]⟩, ⟨[1, 2, 3], [1, 2, 3, 4], [2, 3]⟩, 1, by simp, by simp, ⟨1, by simp, by simp⟩, fun tag => ?_⟩
  have : overlap ⟨[0, 1], [0, 1, 2], [0, 1]⟩ ⟨[1, 2, 3], [1, 2, 3, 4], [2, 3]⟩ = none := by rfl
  simp [addTag, this]

end Verif.Overlap
