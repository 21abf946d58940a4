import Verif.Model.Region
import Mathlib.Tactic.Linarith
import Mathlib.Tactic.NormNum
import Mathlib.Tactic.IntervalCases

/-! Property C67: extracting regions. -/

namespace Verif.Region

/-- Node `n` is a node of face `f`. -/
def Mesh.HasNode (m : Mesh) (f n : ℕ) : Prop := some n ∈ m.faceNode f

/-- The tables describe one mesh: the faces listed for a node are exactly those that have it, and face and edge tables list
only faces with a common node. -/
structure Mesh.Good (m : Mesh) : Prop where
  node_face : ∀ f < m.nFace, ∀ n, m.HasNode f n → some f ∈ m.nodeFace n
  face_node : ∀ f n, some f ∈ m.nodeFace n → f < m.nFace ∧ m.HasNode f n
  face_face : ∀ f g, some g ∈ m.faceFace f → g < m.nFace ∧ ∃ n, m.HasNode f n ∧ m.HasNode g n
  edge_face : ∀ f e g, some e ∈ m.faceEdge f → some g ∈ m.edgeFace e → g < m.nFace ∧ ∃ n, m.HasNode f n ∧ m.HasNode g n
  node_lt : ∀ f < m.nFace, ∀ n, m.HasNode f n → n < m.nNode
  has_node : ∀ f < m.nFace, ∃ n, m.HasNode f n

/-- Two faces touch. -/
def Mesh.Touch (m : Mesh) (f g : ℕ) : Prop := f < m.nFace ∧ g < m.nFace ∧ ∃ n, m.HasNode f n ∧ m.HasNode g n

theorem mem_gather {t : ℕ → List (Option ℕ)} {s : Finset ℕ} {x : ℕ} : x ∈ gather t s ↔ ∃ i ∈ s, some x ∈ t i := by
  unfold gather
  simp [List.mem_filterMap]

/-- The buffer consists exactly of the touching faces. -/
theorem mem_withBuffer {m : Mesh} (hm : m.Good) {core : Finset ℕ} (hc : ∀ f ∈ core, f < m.nFace) {g : ℕ} :
    g ∈ withBuffer m core ↔ ∃ f ∈ core, m.Touch f g := by
  unfold withBuffer
  simp only [Finset.mem_union, mem_gather]
  constructor
  · rintro (((h | ⟨f, hf, h⟩) | ⟨n, ⟨f, hf, h1⟩, h2⟩) | ⟨e, ⟨f, hf, h1⟩, h2⟩)
    · obtain ⟨n, hn⟩ := hm.has_node g (hc g h)
      exact ⟨g, h, hc g h, hc g h, n, hn, hn⟩
    · obtain ⟨h1, h2⟩ := hm.face_face f g h
      exact ⟨f, hf, hc f hf, h1, h2⟩
    · obtain ⟨h3, h4⟩ := hm.face_node g n h2
      exact ⟨f, hf, hc f hf, h3, n, h1, h4⟩
    · obtain ⟨h3, h4⟩ := hm.edge_face f e g h1 h2
      exact ⟨f, hf, hc f hf, h3, h4⟩
  · rintro ⟨f, hf, _, hg, n, hn, hgn⟩
    exact .inl (.inr ⟨n, ⟨f, hf, hn⟩, hm.node_face g hg n hgn⟩)

theorem filter_lt {m : Mesh} {dist : ℕ → ℝ} {r : ℝ} :
    ∀ f ∈ (Finset.range m.nFace).filter (fun f => dist f ≤ r), f < m.nFace := by
  intro f hf
  exact Finset.mem_range.mp (Finset.mem_filter.mp hf).1

/-- Everything the property says about a region around a location, for all meshes and radii: it contains every face within
the radius, every face touching one of those, no other face (unless none was in reach and one was asked for), and all nodes
of its faces. -/
theorem C67_region (m : Mesh) (hm : m.Good) (dist : ℕ → ℝ) (half : ℝ) (hhalf : ∀ f < m.nFace, dist f ≤ half) (nearest : ℕ)
    (hnear : nearest < m.nFace) (r : ℝ) (one : Bool) (l : Local)
    (h : extractRegion m dist half nearest r one = some l) :
    (∀ f < m.nFace, dist f ≤ r → f ∈ l.faces) ∧
    (∀ f g, m.Touch f g → dist f ≤ r → g ∈ l.faces) ∧
    (∀ f ∈ l.faces, f < m.nFace ∧ ∀ n, m.HasNode f n → n ∈ l.nodes) ∧
    (∀ g ∈ l.faces, ∃ f, m.Touch f g ∧ (dist f ≤ r ∨ (f = nearest ∧ one = true ∧ ∀ k < m.nFace, r < dist k))) := by
  unfold extractRegion at h
  simp only at h
  split_ifs at h with h1 h2 h3
  · cases h
    have hnone : ∀ k < m.nFace, r < dist k := by
      intro k hk
      by_contra hc
      have : k ∈ (Finset.range m.nFace).filter (fun f => dist f ≤ r) :=
        Finset.mem_filter.mpr ⟨Finset.mem_range.mpr hk, not_lt.mp hc⟩
      rw [h2] at this
      simp at this
    have hc : ∀ f ∈ ({nearest} : Finset ℕ), f < m.nFace := by simpa using hnear
    refine ⟨fun f hf hd => absurd (hnone f hf) (not_lt.mpr hd), fun f g ht hd => absurd (hnone f ht.1) (not_lt.mpr hd), ?_, ?_⟩
    · intro f hf
      obtain ⟨_, _, ht⟩ := (mem_withBuffer hm hc).mp hf
      exact ⟨ht.2.1, fun n hn => mem_gather.mpr ⟨f, hf, hn⟩⟩
    · intro g hg
      obtain ⟨f, hf, ht⟩ := (mem_withBuffer hm hc).mp hg
      exact ⟨f, ht, .inr ⟨by simpa using hf, h3, hnone⟩⟩
  · cases h
    have key : ∀ f g, m.Touch f g → dist f ≤ r →
        g ∈ withBuffer m ((Finset.range m.nFace).filter fun f => dist f ≤ r) := by
      intro f g ht hd
      exact (mem_withBuffer hm filter_lt).mpr ⟨f, Finset.mem_filter.mpr ⟨Finset.mem_range.mpr ht.1, hd⟩, ht⟩
    refine ⟨?_, key, ?_, ?_⟩
    · intro f hf hd
      obtain ⟨n, hn⟩ := hm.has_node f hf
      exact key f f ⟨hf, hf, n, hn, hn⟩ hd
    · intro f hf
      obtain ⟨_, _, ht⟩ := (mem_withBuffer hm filter_lt).mp hf
      exact ⟨ht.2.1, fun n hn => mem_gather.mpr ⟨f, hf, hn⟩⟩
    · intro g hg
      obtain ⟨f, hf, ht⟩ := (mem_withBuffer hm filter_lt).mp hg
      exact ⟨f, ht, .inl (Finset.mem_filter.mp hf).2⟩
  · cases h
    refine ⟨fun f hf _ => Finset.mem_range.mpr hf, fun f g ht _ => Finset.mem_range.mpr ht.2.1, ?_, ?_⟩
    · intro f hf
      have hf := Finset.mem_range.mp hf
      exact ⟨hf, fun n hn => Finset.mem_range.mpr (hm.node_lt f hf n hn)⟩
    · intro g hg
      have hg := Finset.mem_range.mp hg
      obtain ⟨n, hn⟩ := hm.has_node g hg
      exact ⟨g, ⟨hg, hg, n, hn, hn⟩, .inl ((hhalf g hg).trans (not_lt.mp h1))⟩

/-- A region is reported as absent exactly when no face is within the radius and no face was insisted on. -/
theorem C67_absent (m : Mesh) (dist : ℕ → ℝ) (half : ℝ) (nearest : ℕ) (r : ℝ) (one : Bool) :
    extractRegion m dist half nearest r one = none ↔ one = false ∧ r < half ∧ ∀ f < m.nFace, r < dist f := by
  have he : (Finset.range m.nFace).filter (fun f => dist f ≤ r) = ∅ ↔ ∀ f < m.nFace, r < dist f := by
    rw [Finset.filter_eq_empty_iff]
    simp
  unfold extractRegion
  simp only
  split_ifs with h1 h2 h3
  · simp [h3]
  · simp only [Bool.not_eq_true] at h3
    simp only [h3, h1, true_and, true_iff]
    exact he.mp h2
  · rw [he] at h2
    simp only [false_iff, not_and]
    exact fun _ _ => h2
  · simp [h1]

/-- A smaller region taken out of a region has the same faces as that smaller region taken directly. -/
theorem C67_subregion_faces_partial (m : Mesh) (dist : ℕ → ℝ) (half : ℝ) (nearest : ℕ) (hm : m.Good)
    (hnear : nearest < m.nFace) (r r' : ℝ) (one : Bool) (hr : r' < r) (hh : r' < half) (hhalf : ∀ f < m.nFace, dist f ≤ half)
    (l : Local) (h : extractRegion m dist half nearest r one = some l) :
    (extractSubregion m dist l r').map (·.faces) = (extractRegion m dist half nearest r' false).map (·.faces) := by
  have hrad : l.radius = r := by
    unfold extractRegion at h
    simp only at h
    split_ifs at h <;> cases h <;> rfl
  obtain ⟨h1, _, h3, _⟩ := C67_region m hm dist half hhalf nearest hnear r one l h
  have core : l.faces.filter (fun f => dist f ≤ r') = (Finset.range m.nFace).filter (fun f => dist f ≤ r') := by
    ext f
    simp only [Finset.mem_filter, Finset.mem_range]
    constructor
    · rintro ⟨a, b⟩
      exact ⟨(h3 f a).1, b⟩
    · rintro ⟨a, b⟩
      exact ⟨h1 f a (b.trans hr.le), b⟩
  unfold extractSubregion extractRegion
  rw [if_pos (by rw [hrad]; exact hr), if_pos hh, core]
  simp only
  split_ifs <;> simp_all

/-- Two triangles with a common side. -/
def pair : Mesh where
  nFace := 2
  nNode := 4
  nEdge := 5
  faceNode := fun f => if f = 0 then [some 0, some 1, some 2] else if f = 1 then [some 1, some 2, some 3] else []
  faceEdge := fun f => if f = 0 then [some 0, some 1, some 2] else if f = 1 then [some 2, some 3, some 4] else []
  faceFace := fun f => if f = 0 then [some 1, none, none] else if f = 1 then [some 0, none, none] else []
  nodeFace := fun n => if n = 0 then [some 0, none] else if n = 1 then [some 0, some 1] else if n = 2 then [some 0, some 1]
    else if n = 3 then [some 1, none] else []
  edgeFace := fun e => if e = 2 then [some 0, some 1] else if e < 2 then [some 0, none] else if e < 5 then [some 1, none] else []

theorem pair_node (f n : ℕ) : pair.HasNode f n ↔ (f = 0 ∧ n ≤ 2) ∨ (f = 1 ∧ 1 ≤ n ∧ n ≤ 3) := by
  unfold Mesh.HasNode pair
  simp only
  split_ifs with h1 h2
  · subst h1; simp; omega
  · subst h2; simp; omega
  · simp; omega

theorem pair_good : pair.Good := by
  refine ⟨?_, ?_, ?_, ?_, ?_, ?_⟩
  · intro f hf n hn
    rw [pair_node] at hn
    rcases hn with ⟨rfl, hn⟩ | ⟨rfl, h1, h2⟩
    · interval_cases n <;> simp [pair]
    · interval_cases n <;> simp [pair]
  · intro f n h
    simp only [pair] at h
    rw [pair_node]
    split_ifs at h with a b c d <;> simp at h <;> simp only [pair] <;> omega
  · intro f g h
    simp only [pair] at h
    split_ifs at h with a b <;> simp at h
    · exact ⟨by simp [pair, h], 1, by rw [pair_node]; omega, by rw [pair_node]; omega⟩
    · exact ⟨by simp [pair, h], 1, by rw [pair_node]; omega, by rw [pair_node]; omega⟩
  · intro f e g h h'
    refine ⟨?_, 1, ?_, ?_⟩
    · simp only [pair] at h' ⊢
      split_ifs at h' <;> simp at h' <;> omega
    · simp only [pair] at h
      rw [pair_node]
      split_ifs at h <;> simp at h <;> omega
    · simp only [pair] at h'
      rw [pair_node]
      split_ifs at h' <;> simp at h' <;> omega
  · intro f hf n hn
    rw [pair_node] at hn
    simp only [pair]
    omega
  · intro f hf
    simp only [pair] at hf
    exact ⟨1, by rw [pair_node]; omega⟩

/-- The two faces meet the hypotheses of the theorems above: only the first is within the distance, and the region has both. -/
example : pair.Good ∧ (∀ f < pair.nFace, (fun f : ℕ => (f : ℝ)) f ≤ 2) ∧ 0 < pair.nFace ∧
    ∃ l, extractRegion pair (fun f => (f : ℝ)) 2 0 0.5 false = some l := by
  refine ⟨pair_good, ?_, by simp [pair], ?_⟩
  · intro f hf
    have : f < 2 := hf
    have h : (f : ℝ) < 2 := by exact_mod_cast this
    exact h.le
  · rw [← Option.isSome_iff_exists, ← Option.ne_none_iff_isSome, Ne, C67_absent]
    rintro ⟨_, _, h⟩
    have := h 0 (by simp [pair])
    norm_num at this

/-- Which nodes of its faces a smaller region taken out of a region has: exactly those of the faces within the radius.  So a node of one of its faces that lies only on
faces beyond the radius is always missing, whereas the same region taken directly has it. -/
theorem C67_subregion_nodes_exact_partial (m : Mesh) (dist : ℕ → ℝ) (half : ℝ) (nearest : ℕ) (hm : m.Good) (hnear : nearest < m.nFace) (r r' : ℝ) (one : Bool)
    (hr : r' < r) (hhalf : ∀ f < m.nFace, dist f ≤ half) (l l' : Local) (h : extractRegion m dist half nearest r one = some l)
    (h' : extractSubregion m dist l r' = some l') (n : ℕ) :
    (n ∈ l'.nodes ↔ ∃ f < m.nFace, dist f ≤ r' ∧ m.HasNode f n) ∧
      ∀ f ∈ l'.faces, m.HasNode f n → (∀ g < m.nFace, m.HasNode g n → r' < dist g) → n ∉ l'.nodes ∧
        ∀ l'', extractRegion m dist half nearest r' false = some l'' → f ∈ l''.faces → n ∈ l''.nodes := by
  have hrad : l.radius = r := by
    unfold extractRegion at h
    simp only at h
    split_ifs at h <;> cases h <;> rfl
  obtain ⟨h1, _, h3, _⟩ := C67_region m hm dist half hhalf nearest hnear r one l h
  have key : n ∈ l'.nodes ↔ ∃ f < m.nFace, dist f ≤ r' ∧ m.HasNode f n := by
    unfold extractSubregion at h'
    rw [if_pos (by rw [hrad]; exact hr)] at h'
    simp only at h'
    split_ifs at h' with he
    cases h'
    simp only [mem_gather, Finset.mem_filter]
    constructor
    · rintro ⟨f, ⟨a, b⟩, c⟩
      exact ⟨f, (h3 f a).1, b, c⟩
    · rintro ⟨f, a, b, c⟩
      exact ⟨f, ⟨h1 f a (b.trans hr.le), b⟩, c⟩
  refine ⟨key, fun f _ hn hg => ⟨?_, ?_⟩⟩
  · rw [key]
    rintro ⟨g, a, b, c⟩
    exact absurd (hg g a c) (not_lt.mpr b)
  · intro l'' hl'' hf
    exact ((C67_region m hm dist half hhalf nearest hnear r' false l'' hl'').2.2.1 f hf).2 n hn

/-- The node list of a subregion lacks nodes of its buffer faces: of the two triangles, the region of radius 2 around the
first is complete, its subregion of radius 1 has both faces but not the far node of the second. -/
theorem C67_subregion_nodes_fails : ∃ (m : Mesh) (dist : ℕ → ℝ) (half : ℝ) (l l' : Local), m.Good ∧
    extractRegion m dist half 0 2 false = some l ∧ extractSubregion m dist l 1 = some l' ∧
    1 ∈ l'.faces ∧ m.HasNode 1 3 ∧ 3 ∈ l.nodes ∧ 3 ∉ l'.nodes := by
  let dist : ℕ → ℝ := fun f => if f = 0 then 0 else 3 / 2
  have hh : ∀ f < pair.nFace, dist f ≤ 10 := by
    intro f _
    by_cases h : f = 0 <;> simp [dist, h] ; norm_num
  have hsome : ∃ l, extractRegion pair dist 10 0 2 false = some l := by
    apply Option.ne_none_iff_exists'.mp
    rw [Ne, C67_absent]
    rintro ⟨_, _, h⟩
    have := h 0 (by simp [pair])
    norm_num [dist] at this
  obtain ⟨l, hl⟩ := hsome
  obtain ⟨h1, h2, h3, h4⟩ := C67_region pair pair_good dist 10 hh 0 (by simp [pair]) 2 false l hl
  have hf0 : 0 ∈ l.faces := h1 0 (by simp [pair]) (by norm_num [dist])
  have hf1 : 1 ∈ l.faces := h1 1 (by simp [pair]) (by norm_num [dist])
  have hrad : l.radius = 2 := by
    unfold extractRegion at hl
    simp only at hl
    split_ifs at hl <;> cases hl <;> rfl
  have hcore : l.faces.filter (fun f => dist f ≤ 1) = {0} := by
    ext f
    simp only [Finset.mem_filter, Finset.mem_singleton]
    constructor
    · rintro ⟨_, b⟩
      by_contra hc
      simp only [dist, if_neg hc] at b
      norm_num at b
    · rintro rfl
      exact ⟨hf0, by norm_num [dist]⟩
  refine ⟨pair, dist, 10, l, ⟨withBuffer pair {0}, gather pair.faceNode {0}, gather pair.faceEdge {0}, 1⟩, pair_good, hl, ?_, ?_,
    ?_, ?_, ?_⟩
  · unfold extractSubregion
    rw [if_pos (by rw [hrad]; norm_num)]
    simp only [hcore]
    rw [if_neg (by simp)]
  · refine (mem_withBuffer pair_good (by simp [pair])).mpr ⟨0, by simp, ?_⟩
    exact ⟨by simp [pair], by simp [pair], 1, by rw [pair_node]; omega, by rw [pair_node]; omega⟩
  · rw [pair_node]; omega
  · exact (h3 1 hf1).2 3 (by rw [pair_node]; omega)
  · simp [mem_gather, pair]

end Verif.Region
