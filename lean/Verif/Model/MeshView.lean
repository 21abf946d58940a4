import Verif.Model.SurfaceExport

/-!
# Meshes of craters and of the surface for three-dimensional views

Models `Counting.to_vtk_mesh` (`cratermaker/components/counting/__init__.py`, lines 1120-1286) for a list of craters, the sizes in
`Counting.pyvista_plotter` (lines 808-831) and the choice of the data in `LocalSurface.to_vtk_mesh`
(`cratermaker/components/surface/__init__.py`, lines 2947-2958).  Numbers are real.
-/

namespace Verif.MeshView

/-- A line of points given by longitude and latitude in degrees. Belongs to `counting/__init__.py` lines 1172-1190. -/
abbrev Ring := List (ℝ × ℝ)

/-- An outline: a polygon with its exterior and interiors, a collection, or a line. Belongs to `counting/__init__.py` lines 1177-1186. -/
inductive Geom
  | polygon (exterior : Ring) (interiors : List Ring)
  | many (parts : List Geom)
  | line (coords : Ring)

mutual
/-- `_rings`, `counting/__init__.py` lines 1177-1186. -/
def Geom.rings : Geom → List Ring
  | .polygon e is => e :: is
  | .many gs => ringsOf gs
  | .line c => [c]
/-- The loop over the parts in `_rings`, `counting/__init__.py` lines 1182-1184. -/
def ringsOf : List Geom → List Ring
  | [] => []
  | g :: gs => g.rings ++ ringsOf gs
end

/-- What matters of a crater: the outline `to_geoseries` gives with and without measured properties, the place where it was emplaced and the one measured,
its face, the radius of the projectile and the diameter of the floor. Belongs to `counting/__init__.py` lines 1192-1241. -/
structure Crater where
  outline : Bool → Geom
  location : ℝ × ℝ
  measuredLocation : ℝ × ℝ
  face : ℕ
  projectileRadius : ℝ
  floorDiameter : ℝ

/-- The surface: radius, elevations and sizes of the faces. Belongs to `counting/__init__.py` lines 1192-1241. -/
structure Surf where
  radius : ℝ
  elevation : ℕ → ℝ
  faceSize : ℕ → ℝ

/-- `lonlat_to_xyz`, `counting/__init__.py` lines 1161-1170. -/
noncomputable def toXyz (R : ℝ) (p : ℝ × ℝ) (z : ℝ) : ℝ × ℝ × ℝ :=
  let lon := p.1 * (Real.pi / 180)
  let lat := p.2 * (Real.pi / 180)
  ((R + z) * Real.cos lat * Real.cos lon, (R + z) * Real.cos lat * Real.sin lon, (R + z) * Real.sin lat)

/-- A mesh: points, and lines as lists of positions among the points. Belongs to `counting/__init__.py` lines 1203-1224. -/
structure Mesh where
  points : List (ℝ × ℝ × ℝ)
  lines : List (List ℕ)

/-- One step of the loop of `draw_rings`, `counting/__init__.py` lines 1207-1217; the second component is `point_id`. -/
noncomputable def addRing (R : ℝ) (s : Mesh × ℕ) (r : Ring) : Mesh × ℕ :=
  let xyz := r.map fun p => toXyz R p 0
  (⟨s.1.points ++ xyz, s.1.lines ++ [(List.range xyz.length).map fun i => s.2 + i]⟩, s.2 + xyz.length)

/-- `draw_rings`, `counting/__init__.py` lines 1192-1224. -/
noncomputable def drawRings (measured : Bool) (s : Surf) (cs : List Crater) : Mesh :=
  ((ringsOf (cs.map fun c => c.outline measured)).foldl (addRing s.radius) (⟨[], []⟩, 0)).1

/-- The height of the point of a crater, `counting/__init__.py` lines 1233-1239. -/
noncomputable def height (factor : ℝ) (style : String) (s : Surf) (c : Crater) : ℝ :=
  let z := s.elevation c.face
  if style = "points" then z + factor * s.faceSize c.face / 2
  else if style = "spheres" then z + factor * c.projectileRadius
  else if style = "impacts" then z + Real.sqrt factor * c.floorDiameter / 2
  else z

/-- `draw_points`, `counting/__init__.py` lines 1226-1252: the location is the one where the crater was emplaced (line 1240). -/
noncomputable def drawPoints (factor : ℝ) (style : String) (s : Surf) (cs : List Crater) : Mesh :=
  ⟨cs.map fun c => toXyz s.radius c.location (height factor style s c), []⟩

/-- `Counting.to_vtk_mesh` for a list of craters, `counting/__init__.py` lines 1254-1258 and 1283-1286; `none` is the ValueError. -/
noncomputable def craterMesh (measured : Bool) (factor : ℝ) (style : String) (s : Surf) (cs : List Crater) : Option Mesh :=
  let style := style.toLower
  if style ∈ ["rings", "points", "impacts", "spheres"] then
    some (if style = "rings" then drawRings measured s cs else drawPoints factor style s cs)
  else none

/-- The size with which the point of a crater is shown, `counting/__init__.py` lines 811-831. -/
noncomputable def shownSize (factor : ℝ) (style : String) (s : Surf) (c : Crater) : Option ℝ :=
  if style = "points" then some (factor * s.faceSize c.face)
  else if style = "impacts" then some (factor * c.floorDiameter)
  else if style = "spheres" then some (factor * c.projectileRadius)
  else none

/-! ### The data of a mesh of the surface -/

open SurfaceExport (Files)

/-- Exceptions. Belongs to `surface/__init__.py` lines 2947-2958. -/
inductive Err
  | value
  | index
  deriving DecidableEq, Repr

/-- A dataset given: one state, or the states of several intervals with their numbers. Belongs to `surface/__init__.py` lines 2922-2930. -/
inductive Given (D : Type)
  | state (d : D)
  | series (l : List (ℤ × D))

/-- `isel(interval=k)`, `surface/__init__.py` line 2958: position `k`, counted from the end if it is negative. -/
def isel {D : Type} (l : List (ℤ × D)) (k : ℤ) : Option (ℤ × D) :=
  if 0 ≤ k then l[k.toNat]? else if -k ≤ l.length then l[(l.length + k).toNat]? else none

/-- The data `LocalSurface.to_vtk_mesh` uses, `surface/__init__.py` lines 2947-2958.  Simplification: several intervals without the choice of one
raise where the nodes are moved (line 2968). -/
def meshData {D T : Type} (current : D) (files : Files D T) (uxds : Option (Given D)) (interval : Option ℤ) : Except Err D :=
  match uxds, interval with
  | none, none => .ok current
  | none, some k =>
    match SurfaceExport.read files (some k) with
    | [] => .error .index
    | x :: _ => .ok x.2.data
  | some (.state d), none => .ok d
  | some (.series _), none => .error .value
  | some (.state _), some _ => .error .value
  | some (.series l), some k =>
    match isel l k with
    | none => .error .index
    | some x => .ok x.2

end Verif.MeshView
