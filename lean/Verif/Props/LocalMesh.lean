import Verif.Model.LocalMesh
import Verif.Props.Region

/-!
# The mesh of a region (C239)
-/

namespace Verif.LocalMesh

open Verif.Region

/-- The table `tab` of a region, with the rows `rows` and entries that are places in `values`, has in each row the entries of the whole mesh: a place
stands for the element there, and elements that are not in the region are left out. -/
def Faithful (t : ℕ → List (Option ℕ)) (rows values : List ℕ) (tab : List (List (Option ℕ))) : Prop :=
  tab.length = rows.length ∧ ∀ (i r : ℕ), rows[i]? = some r → ∃ row, tab[i]? = some row ∧
    List.Forall₂ (fun x y => ∀ a, y = some a ↔ ∃ g, x = some g ∧ values[a]? = some g) (t r) row

/-- Row `i` of the table has every entry of row `r` of the whole mesh. -/
def Whole (t : ℕ → List (Option ℕ)) (values : List ℕ) (tab : List (List (Option ℕ))) (i r : ℕ) : Prop :=
  ∃ row, tab[i]? = some row ∧ List.Forall₂ (fun x y => ∀ g, x = some g ↔ ∃ a, y = some a ∧ values[a]? = some g) (t r) row

/-- The tables for edges describe the same mesh: an edge of a face lists the face, and the other way round. -/
structure Edges (m : Mesh) : Prop where
  face : ∀ f < m.nFace, ∀ e, some e ∈ m.faceEdge f → e < m.nEdge ∧ some f ∈ m.edgeFace e
  edge : ∀ e f, some f ∈ m.edgeFace e → f < m.nFace ∧ some e ∈ m.faceEdge f

theorem place_iff {values : List ℕ} (hv : values.Nodup) (g a : ℕ) : place values g = some a ↔ values[a]? = some g := by
  unfold place
  constructor
  · intro h
    split_ifs at h with hg
    simp only [Option.some.injEq] at h
    subst h
    have hlt := List.idxOf_lt_length_of_mem hg
    rw [List.getElem?_eq_getElem hlt, List.getElem_idxOf]
  · intro h
    have hg := List.mem_of_getElem? h
    obtain ⟨ha, e⟩ := List.getElem?_eq_some_iff.mp h
    rw [if_pos hg, ← e, hv.idxOf_getElem]

theorem faithful_remap (t : ℕ → List (Option ℕ)) (rows values : List ℕ) (hv : values.Nodup) : Faithful t rows values (remap t rows values) := by
  refine ⟨by simp [remap], fun i r hr => ⟨_, by simp only [remap, List.getElem?_map, hr, Option.map_some]; rfl, ?_⟩⟩
  rw [List.forall₂_map_right_iff, List.forall₂_same]
  intro x _ a
  rw [Option.bind_eq_some_iff]
  simp only [place_iff hv]

theorem whole_remap (t : ℕ → List (Option ℕ)) (rows values : List ℕ) (hv : values.Nodup) (i r : ℕ) (hr : rows[i]? = some r)
    (hall : ∀ g, some g ∈ t r → g ∈ values) : Whole t values (remap t rows values) i r := by
  refine ⟨_, by simp only [remap, List.getElem?_map, hr, Option.map_some]; rfl, ?_⟩
  rw [List.forall₂_map_right_iff, List.forall₂_same]
  intro x hx g
  simp only [Option.bind_eq_some_iff, place_iff hv]
  constructor
  · rintro rfl
    obtain ⟨a, ha⟩ := List.mem_iff_getElem?.mp (hall g hx)
    exact ⟨a, ⟨g, rfl, ha⟩, ha⟩
  · rintro ⟨a, ⟨g', rfl, h1⟩, h2⟩
    rw [h1] at h2
    exact h2

theorem mem_row {t : ℕ → List (Option ℕ)} {rows values : List ℕ} (hv : values.Nodup) {i r a g : ℕ} (hr : rows[i]? = some r)
    (hg : values[a]? = some g) : (∃ row, (remap t rows values)[i]? = some row ∧ some a ∈ row) ↔ some g ∈ t r := by
  simp only [remap, List.getElem?_map, hr, Option.map_some, Option.some.injEq, exists_eq_left', List.mem_map, Option.bind_eq_some_iff, place_iff hv]
  constructor
  · rintro ⟨x, hx, g', rfl, h⟩
    rw [hg] at h
    cases h
    exact hx
  · intro h
    exact ⟨some g, h, g, rfl, hg⟩

/-- C239.  All tables of a region say what those of the whole mesh say of its faces, nodes and edges. -/
theorem C239_faithful (m : Mesh) (l : Local) :
    let T := tables m l
    (∀ f, f ∈ T.faces ↔ f ∈ l.faces) ∧ (∀ n, n ∈ T.nodes ↔ n ∈ l.nodes) ∧ (∀ e, e ∈ T.edges ↔ e ∈ l.edges) ∧
      T.faces.Nodup ∧ T.nodes.Nodup ∧ T.edges.Nodup ∧
      Faithful m.faceNode T.faces T.nodes T.faceNode ∧ Faithful m.faceEdge T.faces T.edges T.faceEdge ∧ Faithful m.edgeFace T.edges T.faces T.edgeFace ∧
      Faithful m.faceFace T.faces T.faces T.faceFace ∧ Faithful m.nodeFace T.nodes T.faces T.nodeFace := by
  have hf := Finset.sort_nodup l.faces (· ≤ ·)
  have hn := Finset.sort_nodup l.nodes (· ≤ ·)
  have he := Finset.sort_nodup l.edges (· ≤ ·)
  refine ⟨fun f => by simp [tables], fun f => by simp [tables], fun f => by simp [tables], hf, hn, he, ?_, ?_, ?_, ?_, ?_⟩
  · exact faithful_remap _ _ _ hn
  · exact faithful_remap _ _ _ he
  · exact faithful_remap _ _ _ hf
  · exact faithful_remap _ _ _ hf
  · exact faithful_remap _ _ _ hf

/-- C239.  The mesh of a region around a location is complete: every face has all its nodes, and every edge both its faces.  Every face within the radius has all its edges and all the
faces next to it, and every node of such a face has all its faces. -/
theorem C239_complete (m : Mesh) (hm : m.Good) (he : Edges m) (dist : ℕ → ℝ) (half : ℝ) (hhalf : ∀ f < m.nFace, dist f ≤ half) (nearest : ℕ)
    (hnear : nearest < m.nFace) (r : ℝ) (one : Bool) (l : Local) (h : extractRegion m dist half nearest r one = some l) :
    let T := tables m l
    (∀ (i f : ℕ), T.faces[i]? = some f → Whole m.faceNode T.nodes T.faceNode i f) ∧
    (∀ (i e : ℕ), T.edges[i]? = some e → Whole m.edgeFace T.faces T.edgeFace i e) ∧
    (∀ (i f : ℕ), T.faces[i]? = some f → dist f ≤ r → Whole m.faceEdge T.edges T.faceEdge i f ∧ Whole m.faceFace T.faces T.faceFace i f) ∧
    (∀ (i n f : ℕ), T.nodes[i]? = some n → f < m.nFace → m.HasNode f n → dist f ≤ r → Whole m.nodeFace T.faces T.nodeFace i n) := by
  obtain ⟨h1, h2, h3, h4⟩ := C67_region m hm dist half hhalf nearest hnear r one l h
  have hf := Finset.sort_nodup l.faces (· ≤ ·)
  have hn := Finset.sort_nodup l.nodes (· ≤ ·)
  have hE := Finset.sort_nodup l.edges (· ≤ ·)
  -- faces of an edge of the region
  have hedge : ∀ e ∈ l.edges, ∀ g, some g ∈ m.edgeFace e → g ∈ l.faces := by
    intro e hel g hg
    unfold extractRegion at h
    simp only at h
    split_ifs at h with a b c
    · cases h
      simp only [withBuffer, Finset.mem_union]
      exact .inr (mem_gather.mpr ⟨e, hel, hg⟩)
    · cases h
      simp only [withBuffer, Finset.mem_union]
      exact .inr (mem_gather.mpr ⟨e, hel, hg⟩)
    · cases h
      exact Finset.mem_range.mpr (he.edge e g hg).1
  have hcore : ∀ f < m.nFace, dist f ≤ r → ∀ e, some e ∈ m.faceEdge f → e ∈ l.edges := by
    intro f hlt hd e hfe
    have hfound : f ∈ (Finset.range m.nFace).filter (fun f => dist f ≤ r) := Finset.mem_filter.mpr ⟨Finset.mem_range.mpr hlt, hd⟩
    unfold extractRegion at h
    simp only at h
    split_ifs at h with a b c
    · rw [b] at hfound; simp at hfound
    · cases h
      exact mem_gather.mpr ⟨f, hfound, hfe⟩
    · cases h
      exact Finset.mem_range.mpr (he.face f hlt e hfe).1
  refine ⟨fun i f hi => ?_, fun i e hi => ?_, fun i f hi hd => ⟨?_, ?_⟩, fun i n f hi hlt hfn hd => ?_⟩
  · refine whole_remap _ _ _ hn i f hi fun g hg => ?_
    have : f ∈ l.faces := by simpa [tables] using List.mem_of_getElem? hi
    simpa [tables] using (h3 f this).2 g hg
  · refine whole_remap _ _ _ hf i e hi fun g hg => ?_
    have : e ∈ l.edges := by simpa [tables] using List.mem_of_getElem? hi
    simpa [tables] using hedge e this g hg
  · refine whole_remap _ _ _ hE i f hi fun g hg => ?_
    have : f ∈ l.faces := by simpa [tables] using List.mem_of_getElem? hi
    simpa [tables] using hcore f (h3 f this).1 hd g hg
  · refine whole_remap _ _ _ hf i f hi fun g hg => ?_
    have : f ∈ l.faces := by simpa [tables] using List.mem_of_getElem? hi
    obtain ⟨hg1, hg2⟩ := hm.face_face f g hg
    simpa [tables] using h2 f g ⟨(h3 f this).1, hg1, hg2⟩ hd
  · refine whole_remap _ _ _ hf i n hi fun g hg => ?_
    obtain ⟨hg1, hg2⟩ := hm.face_node g n hg
    simpa [tables] using h2 f g ⟨hlt, hg1, n, hfn, hg2⟩ hd

/-- C239.  The tables of a region agree with each other: a face of the region lists an edge of the region exactly if the edge lists the face, and likewise for nodes. -/
theorem C239_agree (m : Mesh) (hm : m.Good) (he : Edges m) (dist : ℕ → ℝ) (half : ℝ) (hhalf : ∀ f < m.nFace, dist f ≤ half) (nearest : ℕ)
    (hnear : nearest < m.nFace) (r : ℝ) (one : Bool) (l : Local) (h : extractRegion m dist half nearest r one = some l) (i k : ℕ) :
    let T := tables m l
    (i < T.faces.length → k < T.edges.length →
      ((∃ row, T.faceEdge[i]? = some row ∧ some k ∈ row) ↔ ∃ row, T.edgeFace[k]? = some row ∧ some i ∈ row)) ∧
    (i < T.faces.length → k < T.nodes.length →
      ((∃ row, T.faceNode[i]? = some row ∧ some k ∈ row) ↔ ∃ row, T.nodeFace[k]? = some row ∧ some i ∈ row)) := by
  obtain ⟨_, _, h3, _⟩ := C67_region m hm dist half hhalf nearest hnear r one l h
  have hf := Finset.sort_nodup l.faces (· ≤ ·)
  have hn := Finset.sort_nodup l.nodes (· ≤ ·)
  have hE := Finset.sort_nodup l.edges (· ≤ ·)
  refine ⟨fun hi hk => ?_, fun hi hk => ?_⟩
  · have hi' := List.getElem?_eq_getElem hi
    have hk' := List.getElem?_eq_getElem hk
    rw [show (∃ row, (tables m l).faceEdge[i]? = some row ∧ some k ∈ row) ↔ _ from mem_row hE hi' hk',
      show (∃ row, (tables m l).edgeFace[k]? = some row ∧ some i ∈ row) ↔ _ from mem_row hf hk' hi']
    have hfl : (tables m l).faces[i] < m.nFace := (h3 _ ((Finset.mem_sort (· ≤ ·)).mp (List.mem_of_getElem? hi'))).1
    exact ⟨fun x => (he.face _ hfl _ x).2, fun x => (he.edge _ _ x).2⟩
  · have hi' := List.getElem?_eq_getElem hi
    have hk' := List.getElem?_eq_getElem hk
    rw [show (∃ row, (tables m l).faceNode[i]? = some row ∧ some k ∈ row) ↔ _ from mem_row hn hi' hk',
      show (∃ row, (tables m l).nodeFace[k]? = some row ∧ some i ∈ row) ↔ _ from mem_row hf hk' hi']
    have hfl : (tables m l).faces[i] < m.nFace := (h3 _ ((Finset.mem_sort (· ≤ ·)).mp (List.mem_of_getElem? hi'))).1
    exact ⟨fun x => hm.node_face _ hfl _ x, fun x => (hm.face_node _ _ x).2⟩

/-- C239 fails for a region taken out of a region: the row of a face lacks each node that lies only on faces beyond the radius, so that the face is no polygon of the
region's mesh. -/
theorem C239_subregion_fails (m : Mesh) (dist : ℕ → ℝ) (half : ℝ) (nearest : ℕ) (hm : m.Good) (hnear : nearest < m.nFace) (r r' : ℝ) (one : Bool)
    (hr : r' < r) (hhalf : ∀ f < m.nFace, dist f ≤ half) (l l' : Local) (h : extractRegion m dist half nearest r one = some l)
    (h' : extractSubregion m dist l r' = some l') (i f n : ℕ) (hi : (tables m l').faces[i]? = some f) (hn : m.HasNode f n)
    (hg : ∀ g < m.nFace, m.HasNode g n → r' < dist g) : ¬ Whole m.faceNode (tables m l').nodes (tables m l').faceNode i f := by
  have hf : f ∈ l'.faces := by simpa [tables] using List.mem_of_getElem? hi
  have hnot := ((C67_subregion_nodes_exact_partial m dist half nearest hm hnear r r' one hr hhalf l l' h h' n).2 f hf hn hg).1
  rintro ⟨row, _, hall⟩
  obtain ⟨j, hj⟩ := List.mem_iff_getElem?.mp hn
  have hlen := hall.length_eq
  have hj1 : j < (m.faceNode f).length := (List.getElem?_eq_some_iff.mp hj).1
  have hj2 : j < row.length := hlen ▸ hj1
  have := (List.forall₂_iff_get.mp hall).2 j hj1 hj2
  have hx : (m.faceNode f).get ⟨j, hj1⟩ = some n := by simpa using (List.getElem?_eq_some_iff.mp hj).2
  obtain ⟨a, _, ha⟩ := (this n).mp hx
  exact hnot (by simpa [tables] using List.mem_of_getElem? ha)

/-- The two triangles meet the hypotheses. -/
example : Edges pair := by
  refine ⟨?_, ?_⟩
  · intro f hf e h
    simp only [pair] at hf h ⊢
    split_ifs at h with a b <;> simp at h <;> rcases h with rfl | rfl | rfl <;> simp [*]
  · intro e f h
    simp only [pair] at h ⊢
    split_ifs at h with a b c <;> simp at h
    · rcases h with rfl | rfl <;> simp [a]
    · subst h
      interval_cases e <;> simp
    · subst h
      interval_cases e <;> simp_all

/-- The smaller region within the region of both triangles: the second triangle is left with two of its three nodes. -/
example : (tables pair ⟨{0, 1}, {0, 1, 2}, {0, 1, 2}, 1⟩).faceNode = [[some 0, some 1, some 2], [some 1, some 2, none]] := by
  have hs : ({0, 1} : Finset ℕ).sort (· ≤ ·) = [0, 1] := (List.toFinset_sort (· ≤ ·) (l := [0, 1]) (by simp)).mpr (by simp)
  have ht : ({0, 1, 2} : Finset ℕ).sort (· ≤ ·) = [0, 1, 2] := (List.toFinset_sort (· ≤ ·) (l := [0, 1, 2]) (by simp)).mpr (by simp)
  simp only [tables, hs, ht]
  decide

end Verif.LocalMesh
