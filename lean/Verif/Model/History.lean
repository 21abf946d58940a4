import Verif.Model.Emplace

/-!
Model of a whole history of a surface: craters with their ejecta (`Morphology.form_crater`, `cratermaker/components/morphology/__init__.py` lines
575-622), diffusion of a region or of the whole surface (`apply_subpixel_degradation`, `basicmoon.py` lines 582-594), slope collapse and noise
(`LocalSurface.slope_collapse` and `apply_noise`, `surface/__init__.py` lines 2389-2407 and 2423-2467), one after the other.  Each acts on a region of
the surface through `LocalSurface.update_elevation`, which adds to the elevations of the region's own faces.  Only face elevations are modelled.
-/

namespace Verif.History

open Verif.Diffusion Verif.Emplace

/-- The surface: the number of faces and their areas. Belongs to `surface/__init__.py` lines 2193-2257. -/
structure Whole where
  n : ℕ
  area : ℕ → ℝ

/-- A region: its own mesh, and the number on the whole surface of each of its faces (`face_indices`). Belongs to `surface/__init__.py` lines 2193-2257. -/
structure Piece where
  mesh : Mesh
  faces : ℕ → ℕ

/-- `surface.face_elevation[face_indices]`, the elevations a region shows. Belongs to `surface/__init__.py` lines 2193-2257. -/
def gather (p : Piece) (h : ℕ → ℝ) : ℕ → ℝ := fun j => h (p.faces j)

/-- Writing the elevations of a region's faces to the surface. Belongs to `surface/__init__.py` lines 2193-2257. -/
def scatter (p : Piece) (h g : ℕ → ℝ) : ℕ → ℝ :=
  (List.range p.mesh.n).foldl (fun h' j => Function.update h' (p.faces j) (g j)) h

/-- What can happen to a surface.  Shapes, thicknesses and diffusivities may depend on the present elevations of the whole surface in any way. Belongs to
`morphology/__init__.py` lines 575-660. -/
inductive Event
  | crater (p : Piece) (collapse : Bool) (crit : ℝ) (change thickness deg : (ℕ → ℝ) → ℕ → ℝ)
  | diffuse (p : Piece) (k : (ℕ → ℝ) → ℕ → ℝ)
  | collapse (p : Piece) (crit : ℝ)
  | noise (p : Piece) (v : (ℕ → ℝ) → ℕ → ℝ)

/-- The region of an event. Belongs to `morphology/__init__.py` lines 575-660. -/
def Event.piece : Event → Piece
  | .crater p _ _ _ _ _ => p
  | .diffuse p _ => p
  | .collapse p _ => p
  | .noise p _ => p

/-- The mean of the noise, weighted with the areas, that `apply_noise` takes off (`surface/__init__.py` lines 2463-2465). -/
noncomputable def meanNoise (m : Mesh) (v : ℕ → ℝ) : ℝ := computeVolume m v / ∑ f ∈ Finset.range m.n, m.area f

/-- The new elevations of the region. Belongs to `morphology/__init__.py` lines 575-660. -/
noncomputable def Event.act (vsmall : ℝ) (h : ℕ → ℝ) : Event → Outcome
  | .crater p c crit change thickness deg => formCrater p.mesh vsmall c crit (change h) (thickness h) (deg h) (gather p h)
  | .diffuse p k => applyDiffusion p.mesh vsmall (k h) (gather p h)
  | .collapse p crit => .ok fun f => gather p h f + slopeCollapse p.mesh crit (gather p h) f
  | .noise p v => .ok fun f => gather p h f + (v h f - meanNoise p.mesh (v h))

/-- One event on the whole surface. Belongs to `morphology/__init__.py` lines 575-660. -/
noncomputable def Event.apply (vsmall : ℝ) (h : ℕ → ℝ) (e : Event) : Outcome :=
  match e.act vsmall h with
  | .ok g => .ok (scatter e.piece h g)
  | .raised g => .raised (scatter e.piece h g)
  | .notFinite => .notFinite

/-- A history; an exception ends it. Belongs to `morphology/__init__.py` lines 575-660. -/
noncomputable def run (vsmall : ℝ) : List Event → (ℕ → ℝ) → Outcome
  | [], h => .ok h
  | e :: es, h => (e.apply vsmall h).andThen (run vsmall es)

end Verif.History
