import Mathlib.Analysis.Real.Sqrt
import Mathlib.Algebra.Order.BigOperators.Group.List

/-!
Model of the lengths, areas and coordinates a surface computes on first use and keeps
(`cratermaker/components/surface/__init__.py`), and of the conversion of elevations to Cartesian
coordinates.  Floats are reals; arrays are lists.
-/

namespace Verif.Geometry

/-- A point in space. Belongs to `surface/mod.rs` lines 483-506. -/
structure Vec where
  x : ℝ
  y : ℝ
  z : ℝ

/-- A point scaled by a factor. Belongs to `surface/__init__.py` lines 1478-1543. -/
def Vec.scale (c : ℝ) (v : Vec) : Vec := ⟨c * v.x, c * v.y, c * v.z⟩

/-- The distance from the centre, `np.linalg.norm`. Belongs to `surface/__init__.py` lines 1036-1053. -/
noncomputable def Vec.norm (v : Vec) : ℝ := Real.sqrt (v.x ^ 2 + v.y ^ 2 + v.z ^ 2)

/-- What the grid file holds, on the unit sphere: face areas (`uxgrid.face_areas`), the positions of faces
and nodes (`face_x` ... `node_z`), and the angles between the faces and between the nodes of each edge
(computed from the coordinates, `compute_edge_distances`, `surface/mod.rs` lines 483-506; an angle of zero
if one of them is missing). -/
structure Grid where
  areas : List ℝ
  faces : List Vec
  nodes : List Vec
  faceAngles : List ℝ
  nodeAngles : List ℝ

/-- A surface: its target's radius and what has been computed so far (`surface/__init__.py` lines 89-107). -/
structure Surf where
  radius : ℝ
  area : Option (List ℝ) := none
  size : Option (List ℝ) := none
  pixMean : Option ℝ := none
  pix : Option ℝ := none
  total : Option ℝ := none
  smallest : Option ℝ := none
  facePos : Option (List Vec) := none
  nodePos : Option (List Vec) := none
  faceDist : Option (List ℝ) := none
  edgeLen : Option (List ℝ) := none

/-- The mean of a list. Belongs to `surface/__init__.py` lines 1363-1384. -/
noncomputable def mean (l : List ℝ) : ℝ := l.sum / l.length

/-- The least element, `np.min`; zero for an empty list, which no mesh has. Belongs to `surface/__init__.py` lines 1478-1543. -/
noncomputable def least : List ℝ → ℝ
  | [] => 0
  | [a] => a
  | a :: b :: l => min a (least (b :: l))

/-- `_compute_face_size`, `surface/__init__.py` lines 1363-1384 (the standard deviation and the extrema of the sizes are left
out; they are set together with the mean). -/
noncomputable def computeFaceSize (g : Grid) (s : Surf) : Surf :=
  let a := g.areas.map fun x => x * s.radius ^ 2
  let z := a.map fun x => Real.sqrt x
  { s with area := some a, size := some z, pixMean := some (mean z) }

/-- What can be read. Belongs to `surface/__init__.py` lines 1478-1543. -/
inductive Query
  | faceArea | faceSize | pixMean | pix | area | smallestLength | facePos | nodePos | faceDistance | edgeLength
deriving DecidableEq

/-- What is read: numbers or points. Belongs to `surface/__init__.py` lines 1478-1543. -/
inductive Value
  | one (x : ℝ)
  | many (l : List ℝ)
  | points (l : List Vec)

/-- `face_area`, `surface/__init__.py` lines 1525-1529. -/
noncomputable def readArea (g : Grid) (s : Surf) : Surf × List ℝ :=
  match s.area with
  | some a => (s, a)
  | none => (computeFaceSize g s, (g.areas.map fun x => x * s.radius ^ 2))

/-- `face_size`, `surface/__init__.py` lines 1532-1536. -/
noncomputable def readSize (g : Grid) (s : Surf) : Surf × List ℝ :=
  match s.size with
  | some a => (s, a)
  | none => (computeFaceSize g s, (g.areas.map fun x => x * s.radius ^ 2).map fun x => Real.sqrt x)

/-- `pix_mean`, `surface/__init__.py` lines 1486-1490. -/
noncomputable def readPixMean (g : Grid) (s : Surf) : Surf × ℝ :=
  match s.pixMean with
  | some a => (s, a)
  | none => (computeFaceSize g s, mean ((g.areas.map fun x => x * s.radius ^ 2).map fun x => Real.sqrt x))

/-- `_SMALLFAC`, `cratermaker/constants.py` line 19. -/
noncomputable def smallFac : ℝ := 1e-5

/-- The properties of `surface/__init__.py` lines 1478-1543, 1556-1605 and 1751-1778: computed when first read, then kept.  The
coordinates `x`, `y`, `z` of faces and of nodes are kept separately in the code; here together. -/
noncomputable def read (g : Grid) (s : Surf) : Query → Surf × Value
  | .faceArea => let r := readArea g s; (r.1, .many r.2)
  | .faceSize => let r := readSize g s; (r.1, .many r.2)
  | .pixMean => let r := readPixMean g s; (r.1, .one r.2)
  | .pix =>
    match s.pix with
    | some p => (s, .one p)
    | none => let r := readPixMean g s; ({ r.1 with pix := some r.2 }, .one r.2)
  | .area =>
    match s.total with
    | some a => (s, .one a)
    | none => let r := readArea g s; ({ r.1 with total := some r.2.sum }, .one r.2.sum)
  | .smallestLength =>
    match s.smallest with
    | some a => (s, .one a)
    | none =>
      let r := readSize g s
      ({ r.1 with smallest := some (least r.2 * smallFac) }, .one (least r.2 * smallFac))
  | .facePos =>
    match s.facePos with
    | some p => (s, .points p)
    | none => let p := g.faces.map (Vec.scale s.radius); ({ s with facePos := some p }, .points p)
  | .nodePos =>
    match s.nodePos with
    | some p => (s, .points p)
    | none => let p := g.nodes.map (Vec.scale s.radius); ({ s with nodePos := some p }, .points p)
  | .faceDistance =>
    match s.faceDist with
    | some p => (s, .many p)
    | none => let p := g.faceAngles.map fun a => s.radius * a; ({ s with faceDist := some p }, .many p)
  | .edgeLength =>
    match s.edgeLen with
    | some p => (s, .many p)
    | none => let p := g.nodeAngles.map fun a => s.radius * a; ({ s with edgeLen := some p }, .many p)

/-- The setter of `target`, `surface/__init__.py` lines 1470-1475; `r` is the radius of the new target.  Nothing that has been
computed is dropped. -/
def setTarget (r : ℝ) (s : Surf) : Surf := { s with radius := r }

/-- A sequence of reads: the surface at the end and what was read. Belongs to `surface/__init__.py` lines 1478-1543. -/
noncomputable def reads (g : Grid) : Surf → List Query → Surf × List Value
  | s, [] => (s, [])
  | s, q :: qs =>
    let r := read g s q
    let t := reads g r.1 qs
    (t.1, r.2 :: t.2)

/-- `_compute_elevation_to_cartesian`, `surface/__init__.py` lines 1036-1053, for one point. -/
noncomputable def toCartesian (p : Vec) (h : ℝ) : Vec :=
  ⟨p.x + h * (p.x / p.norm), p.y + h * (p.y / p.norm), p.z + h * (p.z / p.norm)⟩

/-- The points of an exported mesh, `to_vtk_mesh` `surface/__init__.py` lines 2960-2974: `node_xyz + elevation * node_xyz / radius`. -/
noncomputable def vtkPoint (radius : ℝ) (p : Vec) (h : ℝ) : Vec :=
  ⟨p.x + h * (p.x / radius), p.y + h * (p.y / radius), p.z + h * (p.z / radius)⟩

end Verif.Geometry
