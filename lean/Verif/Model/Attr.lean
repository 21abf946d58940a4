import Verif.Model.SurfaceData

/-! `LocalSurface.__getattr__` (`surface/__init__.py`): reading mesh data through a region.

Line numbers refer to `/repo/cratermaker/components/surface/__init__.py`. -/

namespace Verif.Attr

open Verif.SurfaceData

/-- An array of the dataset: its leading length (`none` for a zero-dimensional array) and its rows. Belongs to `surface/__init__.py` lines 2103-2113. -/
structure Arr (α : Type) where
  /-- `arr.shape[0]`. -/
  len : Option ℕ
  /-- The rows; a zero-dimensional array has its value as row 0. -/
  row : ℕ → α

/-- Numbers of faces, nodes and edges of the whole surface. Belongs to `surface/__init__.py` lines 2103-2113. -/
structure Counts where
  /-- `surface.n_face`. -/
  face : ℕ
  /-- `surface.n_node`. -/
  node : ℕ
  /-- `surface.n_edge`. -/
  edge : ℕ

/-- The indices of a region. Belongs to `surface/__init__.py` lines 2103-2113. -/
structure Indices where
  /-- `face_indices`. -/
  face : List ℕ
  /-- `node_indices`. -/
  node : List ℕ
  /-- `edge_indices`. -/
  edge : List ℕ

/-- What an attribute access gives. Belongs to `surface/__init__.py` lines 2103-2113. -/
inductive Read (α : Type)
  /-- A single value. -/
  | value (x : α)
  /-- The selected rows. -/
  | rows (l : List α)
  /-- AttributeError. -/
  | error

/-- `surface/__init__.py` lines 2103-2113: the rows are selected by the first of the three counts that equals the leading length. -/
def slice {α : Type} (c : Counts) (r : Indices) (a : Arr α) : Read α :=
  match a.len with
  | none => .value (a.row 0)
  | some n =>
    if n = c.face then .rows (r.face.map a.row)
    else if n = c.node then .rows (r.node.map a.row)
    else if n = c.edge then .rows (r.edge.map a.row)
    else .error

/-- `LocalSurface.__getattr__`, `surface/__init__.py` lines 2090-2118, for a dataset given as a function of the name. -/
def getAttr {α : Type} (c : Counts) (r : Indices) (ds : String → Option (Arr α)) (name : String) : Read α :=
  match ds name with
  | some a => slice c r a
  | none => .error

/-- The dataset of a store of face and node variables. Belongs to `surface/__init__.py` lines 2103-2113. -/
def ofStore (m : Mesh) (s : Store) : String → Option (Arr ℝ) := fun n =>
  (s n).map fun v => ⟨some (m.size v.face), v.vals⟩

end Verif.Attr
