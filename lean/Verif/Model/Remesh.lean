import Verif.Model.Geometry
import Verif.Model.SurfaceData

/-!
Model of what a surface keeps of its mesh (`cratermaker/components/surface/__init__.py` lines 81-106, 1363-1384, 1515-1705,
1750-1785 and 1840-1876) when the mesh is made anew for the same object, as `set_superdomain` of a surface with a local region does
(`cratermaker/components/surface/hireslocal.py` lines 425-494).  Floats are reals; arrays are lists.  The local region that such a
surface keeps is in `Model/LocalIndex.lean`, a change of the target body in `Model/Geometry.lean`; here the radius is fixed.
-/

namespace Verif.Remesh

open Verif.Geometry (Grid Vec mean least smallFac)

/-- The quantities that are computed when first read and then kept one by one, `surface/__init__.py` lines 81-106: `_area`,
`_smallest_length`, `_face_x` to `_face_z` (here together), `_node_x` to `_node_z`, `_edge_face_distance`, `_edge_lengths`,
`_edge_indices`, the bins of faces, and the tree of face centres.  The trees of nodes and edges are kept like that of the faces and left
out, as is the property `pix`, which is a setting of a surface with a local region (`hireslocal.py` lines 749-760). -/
inductive Slot
  | area | smallestLength | facePos | nodePos | faceDistance | edgeLength | edges | bins | tree
deriving DecidableEq

/-- A value that is read. Belongs to `surface/__init__.py` lines 1515-1705. -/
inductive Value
  | one (x : ℝ)
  | many (l : List ℝ)
  | points (l : List Vec)
  | indices (l : List ℕ)
  | bins (l : List (List ℕ))

/-- The surface object: its present mesh (`uxds.uxgrid`), `_face_area`, which is set together with `_face_size`, `_pix_mean`,
`_pix_std`, `_pix_min` and `_pix_max`, and the other quantities kept. Belongs to `surface/__init__.py` lines 81-106. -/
structure State where
  grid : Grid
  areas : Option (List ℝ) := none
  kept : Slot → Option Value := fun _ => none

/-- `uxgrid.face_areas.values * self.radius**2`, `surface/__init__.py` line 1378. -/
def meshAreas (r : ℝ) (g : Grid) : List ℝ := g.areas.map fun x => x * r ^ 2

/-- The getter of `face_area`, `surface/__init__.py` lines 1524-1529; those of `face_size` and of `pix_mean` (1485-1490 and 1531-1536)
do the same. -/
def sized (r : ℝ) (s : State) : State × List ℝ :=
  match s.areas with
  | some a => (s, a)
  | none => ({ s with areas := some (meshAreas r s.grid) }, meshAreas r s.grid)

/-- How a kept quantity is computed when it is first read, `surface/__init__.py` lines 1518-1522 (total area), 1538-1543 (smallest length),
1555-1605 (positions), 1618-1622 (edges), 1624-1650 (bins), 1750-1785 (distances and lengths) and 1840-1850 (the tree of the face centres,
of which the points are kept here).  `none` is an exception. -/
noncomputable def compute (r : ℝ) (s : State) : Slot → State × Option Value
  | .area => let p := sized r s; (p.1, some (.one p.2.sum))
  | .smallestLength => let p := sized r s; (p.1, some (.one (least (p.2.map Real.sqrt) * smallFac)))
  | .facePos => (s, some (.points (s.grid.faces.map (Vec.scale r))))
  | .nodePos => (s, some (.points (s.grid.nodes.map (Vec.scale r))))
  | .faceDistance => (s, some (.many (s.grid.faceAngles.map fun a => r * a)))
  | .edgeLength => (s, some (.many (s.grid.nodeAngles.map fun a => r * a)))
  | .edges => (s, some (.indices (List.range s.grid.nodeAngles.length)))
  | .bins => let p := sized r s; (p.1, (SurfaceData.faceBins p.2).map .bins)
  | .tree => (s, some (.points s.grid.faces))

/-- The getter of a kept quantity, for instance `area`, `surface/__init__.py` lines 1517-1522. -/
noncomputable def readSlot (r : ℝ) (s : State) (q : Slot) : State × Option Value :=
  match s.kept q with
  | some v => (s, some v)
  | none =>
    let p := compute r s q
    ({ p.1 with kept := fun x => if x = q then p.2 else p.1.kept x }, p.2)

/-- What a user asks of a surface: face areas, face sizes, their mean, the number of faces (`surface/__init__.py` line 1709), one of the kept
quantities, or the face nearest to a point (`find_nearest_face`, `surface/__init__.py` lines 579-608). -/
inductive Ask
  | areas
  | sizes
  | pixMean
  | faceCount
  | kept (q : Slot)
  | nearest (p : Vec)

/-- The answer, and the surface afterwards; `near pts p` is the number that a tree of the points `pts` finds for `p`.  The tree that is
kept is only used to find faces. Belongs to `surface/__init__.py` lines 599-608 and 1485-1536. -/
noncomputable def ask (near : List Vec → Vec → ℕ) (r : ℝ) (s : State) : Ask → State × Option Value
  | .areas => let p := sized r s; (p.1, some (.many p.2))
  | .sizes => let p := sized r s; (p.1, some (.many (p.2.map Real.sqrt)))
  | .pixMean => let p := sized r s; (p.1, some (.one (mean (p.2.map Real.sqrt))))
  | .faceCount => (s, some (.indices [s.grid.areas.length]))
  | .kept q => readSlot r s q
  | .nearest p =>
    let t := readSlot r s .tree
    (t.1, match t.2 with
      | some (.points l) => some (.indices [near l p])
      | _ => none)

/-- What happens to a surface object: something is asked, or it is loaded again (`_load_from_files`, `hireslocal.py` line 493): `none`, the
mesh on disk is the one for the settings; `some g`, a new mesh `g` is made. Belongs to `surface/__init__.py` lines 1197-1226. -/
inductive Event
  | asked (a : Ask)
  | loaded (new : Option Grid)

/-- One event.  Making a new mesh computes the face areas (`_generate_grid`, `surface/__init__.py` line 1178), then the new mesh is read in
(lines 1099-1102); nothing else is dropped. -/
noncomputable def event (near : List Vec → Vec → ℕ) (r : ℝ) (s : State) : Event → State
  | .asked a => (ask near r s a).1
  | .loaded none => s
  | .loaded (some g) => { s with grid := g, areas := some (meshAreas r g) }

/-- Several events in turn. Belongs to `surface/__init__.py` lines 1197-1226. -/
noncomputable def run (near : List Vec → Vec → ℕ) (r : ℝ) (s : State) (es : List Event) : State := es.foldl (event near r) s

end Verif.Remesh
