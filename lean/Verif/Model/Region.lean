import Mathlib.Data.Real.Basic
import Mathlib.Data.Finset.Union
import Mathlib.Data.Finset.Range
import Mathlib.Algebra.Order.Archimedean.Real.Basic

/-!
Model of `Surface.extract_region` (`cratermaker/components/surface/__init__.py`, lines 249-323) and
`LocalSurface.extract_subregion` (lines 2644-2699).
-/

namespace Verif.Region

/-- The connectivity tables of a mesh; `none` is the fill value `INT_FILL_VALUE` that pads rows. Belongs to `surface/__init__.py` lines 299-304. -/
structure Mesh where
  nFace : ℕ
  nNode : ℕ
  nEdge : ℕ
  faceNode : ℕ → List (Option ℕ)
  faceEdge : ℕ → List (Option ℕ)
  faceFace : ℕ → List (Option ℕ)
  nodeFace : ℕ → List (Option ℕ)
  edgeFace : ℕ → List (Option ℕ)

/-- `np.unique(table[rows].ravel())` without fill values. Belongs to `surface/__init__.py` lines 299-304. -/
def gather (table : ℕ → List (Option ℕ)) (rows : Finset ℕ) : Finset ℕ :=
  rows.biUnion fun i => ((table i).filterMap id).toFinset

/-- The index sets of a `LocalSurface`, and its radius. Belongs to `surface/__init__.py` lines 276-323. -/
structure Local where
  faces : Finset ℕ
  nodes : Finset ℕ
  edges : Finset ℕ
  radius : ℝ

/-- `surface/__init__.py` lines 299-304 and 2676-2684: the faces given and all faces in the tables of those faces, their nodes and their edges. -/
def withBuffer (m : Mesh) (core : Finset ℕ) : Finset ℕ :=
  core ∪ gather m.faceFace core ∪ gather m.nodeFace (gather m.faceNode core) ∪ gather m.edgeFace (gather m.faceEdge core)

/-- `extract_region`, `surface/__init__.py` lines 276-323.  `dist f` is the distance of face `f` from the location, `half` is half the
circumference of the target (the comparison of angles in line 282 is that of distances), `nearest` the face returned by
`find_nearest_face`. -/
noncomputable def extractRegion (m : Mesh) (dist : ℕ → ℝ) (half : ℝ) (nearest : ℕ) (r : ℝ) (atLeastOne : Bool) : Option Local :=
  if r < half then
    let found := (Finset.range m.nFace).filter fun f => dist f ≤ r
    if found = ∅ then
      if atLeastOne then
        let faces := withBuffer m {nearest}
        some ⟨faces, gather m.faceNode faces, gather m.faceEdge {nearest}, r⟩
      else none
    else
      let faces := withBuffer m found
      some ⟨faces, gather m.faceNode faces, gather m.faceEdge found, r⟩
  else some ⟨Finset.range m.nFace, Finset.range m.nNode, Finset.range m.nEdge, r⟩

/-- `extract_subregion`, `surface/__init__.py` lines 2661-2699. -/
noncomputable def extractSubregion (m : Mesh) (dist : ℕ → ℝ) (l : Local) (r : ℝ) : Option Local :=
  if r < l.radius then
    let core := l.faces.filter fun f => dist f ≤ r
    if core = ∅ then none
    else some ⟨withBuffer m core, gather m.faceNode core, gather m.faceEdge core, r⟩
  else some ⟨l.faces, l.nodes, l.edges, r⟩

end Verif.Region
