import Verif.Model.Attr
import Verif.Props.SurfaceData

/-! Property C139: reading mesh data through a region. -/

namespace Verif.Attr

open Verif.SurfaceData

/-- The kinds of mesh elements. -/
inductive Kind
  | face
  | node
  | edge

/-- Number of elements of a kind. -/
def Counts.of (c : Counts) : Kind → ℕ
  | .face => c.face
  | .node => c.node
  | .edge => c.edge

/-- The elements of a kind in the region. -/
def Indices.of (r : Indices) : Kind → List ℕ
  | .face => r.face
  | .node => r.node
  | .edge => r.edge

/-- A closed mesh of the sphere (Euler's formula) in which every node has three edges, as the Voronoi meshes of
points in general position. -/
structure Voronoi (c : Counts) : Prop where
  /-- Euler's formula. -/
  euler : c.face + c.node = c.edge + 2
  /-- Every edge has two nodes and every node three edges. -/
  degree : 3 * c.node = 2 * c.edge
  /-- Not a tetrahedron. -/
  large : 4 < c.face

/-- On every such mesh, a variable on faces, nodes or edges read through a region has exactly the values of the
region's faces, nodes or edges, in the order of the region.  What is missing: meshes of other shape, see
`C139_kind_fails`. -/
theorem C139_slice_partial {α : Type} (c : Counts) (hc : Voronoi c) (r : Indices) (ds : String → Option (Arr α))
    (name : String) (k : Kind) (row : ℕ → α) (h : ds name = some ⟨some (c.of k), row⟩) :
    ∃ l, getAttr c r ds name = .rows l ∧ l.length = (r.of k).length ∧
      ∀ (j i : ℕ), (r.of k)[j]? = some i → l[j]? = some (row i) := by
  obtain ⟨e1, e2, e3⟩ := hc
  refine ⟨(r.of k).map row, ?_, List.length_map _, fun j i hi => by rw [List.getElem?_map, hi]; rfl⟩
  unfold getAttr
  rw [h]
  unfold slice
  dsimp only
  cases k
  · have e : c.of .face = c.face := rfl
    rw [if_pos e]; rfl
  · have e : c.of .node = c.node := rfl
    rw [if_neg (by omega), if_pos e]; rfl
  · have e : c.of .edge = c.edge := rfl
    rw [if_neg (by omega), if_neg (by omega), if_pos e]; rfl

/-- Arrays of any other length, and names that do not exist, are errors; single values are returned as they
are. -/
theorem C139_other {α : Type} (c : Counts) (r : Indices) (ds : String → Option (Arr α)) (name : String) :
    (ds name = none → getAttr c r ds name = .error) ∧
    (∀ n row, ds name = some ⟨some n, row⟩ → (∀ k, n ≠ c.of k) → getAttr c r ds name = .error) ∧
    (∀ row, ds name = some ⟨none, row⟩ → getAttr c r ds name = .value (row 0)) := by
  refine ⟨fun h => ?_, fun n row h hk => ?_, fun row h => ?_⟩
  · unfold getAttr; rw [h]
  · unfold getAttr
    rw [h]
    unfold slice
    dsimp only
    have k1 : n ≠ c.face := hk .face
    have k2 : n ≠ c.node := hk .node
    have k3 : n ≠ c.edge := hk .edge
    rw [if_neg k1, if_neg k2, if_neg k3]
  · unfold getAttr; rw [h]; rfl

/-- What is put in through a region is what is read through it: after an overwrite with data of the size of the
region's faces (nodes) the region shows exactly these data, whether the variable existed (of this kind) or not,
and another region shows the old values wherever it does not overlap.  `hd`: the region has not as many nodes
as faces. -/
theorem C139_read_back_partial (c : Counts) (hc : Voronoi c) (m : Mesh) (hm : m = ⟨c.face, c.node⟩) (s : Store)
    (r : Region) (es : List ℕ) (hr : r.Wf m) (name : String) (face : Bool)
    (hd : r.faces.length ≠ r.nodes.length) (l : List ℝ) (hl : l.length = (r.of face).length)
    (hv : ∀ v, s name = some v → v.face = face) :
    ∃ s', addData m s r name (.array l) { overwrite := true } = some s' ∧
      getAttr c ⟨r.faces, r.nodes, es⟩ (ofStore m s') name = .rows l ∧
      ∀ v (r' : Region) (es' : List ℕ), s name = some v → (∀ i ∈ r'.of face, i ∉ r.of face) →
        getAttr c ⟨r'.faces, r'.nodes, es'⟩ (ofStore m s') name =
          getAttr c ⟨r'.faces, r'.nodes, es'⟩ (ofStore m s) name := by
  obtain ⟨e1, e2, e3⟩ := hc
  have key : ∀ (st : Store) (w : ℕ → ℝ) (q : Region) (eq : List ℕ), st name = some ⟨face, w⟩ →
      getAttr c ⟨q.faces, q.nodes, eq⟩ (ofStore m st) name = .rows ((q.of face).map w) := by
    intro st w q eq hst
    unfold getAttr ofStore
    rw [hst, Option.map_some]
    unfold slice
    dsimp only
    subst hm
    cases face
    · have hsz : (⟨c.face, c.node⟩ : Mesh).size false = c.node := rfl
      rw [hsz, if_neg (by omega), if_pos rfl]; rfl
    · have hsz : (⟨c.face, c.node⟩ : Mesh).size true = c.face := rfl
      rw [hsz, if_pos rfl]; rfl
  have hn : (r.of face).Nodup := by
    cases face
    · exact hr.nodes
    · exact hr.faces
  have fin : ∀ (old w : ℕ → ℝ), Updated false true (r.of face) l old w → (r.of face).map w = l := by
    intro old w hw
    apply List.ext_getElem?
    intro j
    rw [List.getElem?_map]
    rcases hj : (r.of face)[j]? with _ | i
    · have : l[j]? = none := by
        rw [List.getElem?_eq_none_iff] at hj ⊢
        omega
      rw [this]; rfl
    · have hjl : j < l.length := by
        have := (List.getElem?_eq_some_iff.mp hj).1
        omega
      have hx : l[j]? = some l[j] := List.getElem?_eq_getElem hjl
      rw [hx]
      have := hw.2 j i l[j] hj hx
      simp only [Option.map_some, this, expected]
      rfl
  obtain ⟨h1, h2⟩ := C35_region_partial m s r hr name face hd l hl { overwrite := true }
  rcases hs : s name with _ | v
  · obtain ⟨s', ha, _, w, hw, hu⟩ := h2 hs
    refine ⟨s', ha, ?_, fun v r' es' hv' => by cases hv'⟩
    rw [key s' w r es hw, fin _ w hu]
  · obtain ⟨s', ha, _, w, hw, hu⟩ := h1 v hs (hv v hs)
    refine ⟨s', ha, ?_, fun v' r' es' hv' hdis => ?_⟩
    · rw [key s' w r es hw, fin _ w hu]
    · have hvf : s name = some ⟨face, v.vals⟩ := by
        rw [hs, ← hv v hs]
      rw [key s' w r' es' hw, key s v.vals r' es' hvf]
      congr 1
      apply List.map_congr_left
      intro i hi
      exact hu.1 i (hdis i hi)

/-- On a mesh with as many nodes as faces the values of nodes are not available: the numbers of the region's
faces are used to pick nodes, without any error, whatever the region and the values.  Such a mesh, with three edges at each node, has four
faces. -/
theorem C139_kind_fails {α : Type} (c : Counts) (r : Indices) (ds : String → Option (Arr α)) (name : String) (row : ℕ → α)
    (h1 : c.face + c.node = c.edge + 2) (h2 : 3 * c.node = 2 * c.edge) (h : c.face = c.node) (hd : ds name = some ⟨some c.node, row⟩) :
    getAttr c r ds name = .rows (r.face.map row) ∧ c.face = 4 := by
  refine ⟨?_, by omega⟩
  unfold getAttr
  rw [hd]
  simp [slice, h]

example : ∃ (c : Counts) (r : Indices), c.face + c.node = c.edge + 2 ∧ 3 * c.node = 2 * c.edge ∧ c.face = c.node ∧
    r.face.map (fun i => i) ≠ r.node.map fun i => i :=
  ⟨⟨4, 4, 6⟩, ⟨[0], [1, 2, 3], [3, 4, 5]⟩, rfl, rfl, rfl, by decide⟩

/-- The icosphere of subdivision 1: 42 faces, 80 nodes and 120 edges. -/
example : Voronoi ⟨42, 80, 120⟩ := ⟨rfl, rfl, by decide⟩

example : (⟨[2], [3, 4, 5]⟩ : Region).Wf ⟨42, 80⟩ ∧
    (⟨[2], [3, 4, 5]⟩ : Region).faces.length ≠ (⟨[2], [3, 4, 5]⟩ : Region).nodes.length :=
  ⟨⟨by simp, by simp, by simp, by simp⟩, by simp⟩

end Verif.Attr
