import Mathlib.Analysis.SpecialFunctions.Pow.Real
import Mathlib.Analysis.SpecialFunctions.Trigonometric.Basic
import Mathlib.Analysis.Real.Sqrt
import Mathlib.Algebra.BigOperators.Group.List.Basic

/-!
# Face sizes of a mesh

Models `Surface._compute_face_size`, `cratermaker/components/surface/__init__.py:1363-1384`, with the
properties `pix_mean`, `pix_std`, `pix_min`, `pix_max` and `area`, lines 1484-1522; the settings of
`cratermaker/components/surface/icosphere.py` lines 78-111 and
`cratermaker/components/surface/arbitrary_resolution.py` lines 64-79.

Simplified: floats are reals; the areas of the faces on the unit sphere (uxarray) are a list.  The
subdivision of the icosahedron (trimesh, external) is modelled by its counts of vertices, edges and
triangles.
-/

namespace Verif.MeshSize

noncomputable section

open Classical

/-- What `_compute_face_size` stores, `surface/__init__.py` lines 1378-1383. -/
structure Sizes where
  faceArea : List ℝ
  faceSize : List ℝ
  mean : ℝ
  std : ℝ
  min : ℝ
  max : ℝ

/-- `ndarray.mean()`. Belongs to `surface/__init__.py` lines 1378-1383. -/
def mean (l : List ℝ) : ℝ := l.sum / l.length

/-- `ndarray.std()`: the root of the mean squared deviation. Belongs to `surface/__init__.py` lines 1378-1383. -/
def std (l : List ℝ) : ℝ := Real.sqrt (mean (l.map fun x => (x - mean l) ^ 2))

/-- `_compute_face_size`, `surface/__init__.py` lines 1378-1383; `none`: `min` of an empty array raises ValueError. -/
def compute (unitAreas : List ℝ) (radius : ℝ) : Option Sizes :=
  let areas := unitAreas.map fun a => a * radius ^ 2
  let sizes := areas.map Real.sqrt
  match sizes with
  | [] => none
  | x :: xs => some ⟨areas, sizes, mean sizes, std sizes, xs.foldl min x, xs.foldl max x⟩

/-- `Surface.area`, `surface/__init__.py` lines 1517-1522. -/
def Sizes.area (s : Sizes) : ℝ := s.faceArea.sum

/-- Vertices, edges and triangles of a triangulated sphere. Belongs to `icosphere.py` line 90. -/
structure Counts where
  vertices : ℕ
  edges : ℕ
  triangles : ℕ

/-- The icosahedron, `icosphere(0)` in `icosphere.py:90`. -/
def icosahedron : Counts := ⟨12, 30, 20⟩

/-- One subdivision: a new vertex on each edge, each edge cut in two, three new edges and four
triangles for each triangle. Belongs to `icosphere.py` line 90. -/
def Counts.subdivide (c : Counts) : Counts :=
  ⟨c.vertices + c.edges, 2 * c.edges + 3 * c.triangles, 4 * c.triangles⟩

/-- `icosphere(level)`, `icosphere.py:90`. -/
def icosphere : ℕ → Counts
  | 0 => icosahedron
  | n + 1 => (icosphere n).subdivide

/-- The mesh made from the vertices, `icosphere.py:90-92` with `surface/__init__.py:1171`: the faces
are the cells around the vertices, the nodes of the mesh lie in the triangles. -/
def faces (level : ℕ) : ℕ := (icosphere level).vertices
/-- The nodes of the mesh, one for each triangle. Belongs to `icosphere.py` line 90. -/
def nodes (level : ℕ) : ℕ := (icosphere level).triangles

/-- An icosphere surface: the setting, the cached nominal size and the level its mesh was made with. Belongs to `icosphere.py` lines 48-60. -/
structure Ico where
  level : ℕ
  cached : Option ℝ
  mesh : ℕ

/-- `gridlevel` setter, `icosphere.py` lines 99-103: `none` is the ValueError.  `int` cuts off the fraction. -/
def setLevel (v : ℝ) : Option ℕ := if v < 0 then none else some ⌊v⌋₊

/-- The constructor, `icosphere.py` lines 48-60, without reading `pix`. -/
def Ico.make (v : ℝ) : Option Ico := (setLevel v).map fun n => ⟨n, none, n⟩

/-- The number of faces that `pix` assumes, `icosphere.py` line 109. -/
def nominalFaces (level : ℕ) : ℕ := 10 * 4 ^ level + 2

/-- The value computed in `icosphere.py` line 110. -/
def nominal (level : ℕ) (radius : ℝ) : ℝ :=
  (4 * Real.pi * radius ^ 2 / (nominalFaces level : ℝ)) ^ ((1 : ℝ) / 2)

/-- `pix`, `icosphere.py` lines 105-111. -/
def Ico.pix (s : Ico) (radius : ℝ) : ℝ × Ico :=
  match s.cached with
  | some p => (p, s)
  | none => (nominal s.level radius, { s with cached := some (nominal s.level radius) })

/-- `surface.gridlevel = v`. Belongs to `icosphere.py` lines 99-103. -/
def Ico.assign (s : Ico) (v : ℝ) : Option Ico := (setLevel v).map fun n => { s with level := n }

/-- What a program does with a surface: read the size or assign the level (exceptions caught). Belongs to `icosphere.py` lines 99-103. -/
inductive Op where
  | read
  | assign (v : ℝ)

/-- The state after one step. Belongs to `icosphere.py` lines 105-111. -/
def Ico.step (radius : ℝ) (s : Ico) : Op → Ico
  | .read => (s.pix radius).2
  | .assign v => (s.assign v).getD s

/-- The state after a history. Belongs to `icosphere.py` lines 105-111. -/
def Ico.run (radius : ℝ) (s : Ico) (ops : List Op) : Ico := ops.foldl (Ico.step radius) s

/-- `ArbitraryResolutionSurface.pix` setter, `arbitrary_resolution.py` lines 71-79; the outer `none` is the TypeError.  The
argument `none` is None; a value that is not a number, NaN or infinite is left out. -/
def setPix (radius : ℝ) : Option ℝ → Option ℝ
  | none => some (Real.sqrt (4 * Real.pi * radius ^ 2) * (1 / 1000))
  | some v => if v ≤ 0 then none else some v

end

end Verif.MeshSize
