import Verif.Model.Region
import Mathlib.Data.Finset.Sort

/-!
# The mesh of a region

Models the tables of a region, `LocalSurface.face_node_connectivity`, `face_edge_connectivity`, `edge_face_connectivity`, `face_face_connectivity`
and `node_face_connectivity` (`cratermaker/components/surface/__init__.py`, lines 4222-4302), with `_remap_connectivity_to_local` (lines 3935-3980), for the regions
that `extract_region` gives.
-/

namespace Verif.LocalMesh

open Verif.Region

/-- The place of a global index in a list of indices, `surface/__init__.py` lines 3970-3972; `none` is the fill value. -/
def place (values : List ℕ) (g : ℕ) : Option ℕ := if g ∈ values then some (values.idxOf g) else none

/-- `_remap_connectivity_to_local`, `surface/__init__.py` lines 3974-3980. -/
def remap (t : ℕ → List (Option ℕ)) (rows values : List ℕ) : List (List (Option ℕ)) :=
  rows.map fun r => (t r).map fun x => x.bind (place values)

/-- The tables of a region with the lists of its faces, nodes and edges. Belongs to `surface/__init__.py` lines 4222-4302. -/
structure Tables where
  faces : List ℕ
  nodes : List ℕ
  edges : List ℕ
  faceNode : List (List (Option ℕ))
  faceEdge : List (List (Option ℕ))
  edgeFace : List (List (Option ℕ))
  faceFace : List (List (Option ℕ))
  nodeFace : List (List (Option ℕ))

/-- The lists of a region, which `np.unique` has sorted (`surface/__init__.py` lines 299-308), and its tables, lines 4222-4302. -/
def tables (m : Mesh) (l : Local) : Tables :=
  let F := l.faces.sort (· ≤ ·)
  let N := l.nodes.sort (· ≤ ·)
  let E := l.edges.sort (· ≤ ·)
  ⟨F, N, E, remap m.faceNode F N, remap m.faceEdge F E, remap m.edgeFace E F, remap m.faceFace F F, remap m.nodeFace N F⟩

end Verif.LocalMesh
