import Verif.Model.Parallel
import Mathlib.Logic.Function.Basic

/-!
Model of the diffusion loop (`apply_diffusion`) and of the elevations of nodes (`interpolate_node_elevation_from_faces`) of
`crates/cratermaker-components/src/surface/mod.rs` with rounding: `rnd` is applied to the result of every operation, as the processor does; it is
`Verif.Parallel.double` for the code.  Numbers are rational, an array over the faces is a function of the number of the face.
-/

namespace Verif.DiffusionDouble

/-- A row of `edge_face_connectivity` with the distance of its faces and its length. Belongs to `surface/mod.rs` lines 714-753. -/
structure Edge where
  /-- First face, negative if absent. -/
  f1 : ℤ
  /-- Second face. -/
  f2 : ℤ
  /-- `edge_face_distance`. -/
  dist : ℚ
  /-- `edge_length`. -/
  len : ℚ

/-- `extract_edge_faces`, `surface/mod.rs` lines 714-753: both faces must be in `[0, n)`.  A negative number cast to `usize` is larger than any number of faces. -/
def edgeFaces (n : ℕ) (e : Edge) : Option (ℕ × ℕ) :=
  if 0 ≤ e.f1 ∧ e.f1 < n ∧ 0 ≤ e.f2 ∧ e.f2 < n then some (e.f1.toNat, e.f2.toNat) else none

/-- The flux across an edge, `surface/mod.rs` line 111. -/
def flux (rnd : ℚ → ℚ) (kappa h : ℕ → ℚ) (e : Edge) (f1 f2 : ℕ) : ℚ :=
  rnd (rnd (rnd (rnd (kappa f1 + kappa f2) * rnd (h f2 - h f1)) / e.dist) * e.len)

/-- One edge of the flux loop, `surface/mod.rs` lines 95-115. -/
def addFlux (rnd : ℚ → ℚ) (n : ℕ) (area kappa h dhdt : ℕ → ℚ) (e : Edge) : ℕ → ℚ :=
  match edgeFaces n e with
  | none => dhdt
  | some (f1, f2) =>
    let x := flux rnd kappa h e f1 f2
    let d1 := Function.update dhdt f1 (rnd (dhdt f1 + rnd (x / area f1)))
    Function.update d1 f2 (rnd (d1 f2 - rnd (x / area f2)))

/-- The flux loop over the edges, `surface/mod.rs` lines 92-115. -/
def fluxes (rnd : ℚ → ℚ) (n : ℕ) (area kappa h : ℕ → ℚ) (edges : List Edge) : ℕ → ℚ :=
  edges.foldl (addFlux rnd n area kappa h) fun _ => 0

/-- One round of the time loop, `surface/mod.rs` lines 90-119: the new `face_delta`. -/
def diffStep (rnd : ℚ → ℚ) (n : ℕ) (edges : List Edge) (area kappa h : ℕ → ℚ) (fac : ℚ) (delta : ℕ → ℚ) : ℕ → ℚ :=
  fun f => rnd (delta f + rnd (fac * fluxes rnd n area kappa (fun g => rnd (h g + delta g)) edges f))

/-- The time loop, `surface/mod.rs` lines 90-120, with the number of rounds and the factor of lines 86-88 given. -/
def rounds (rnd : ℚ → ℚ) (n : ℕ) (edges : List Edge) (area kappa h : ℕ → ℚ) (fac : ℚ) (k : ℕ) : ℕ → ℚ :=
  (diffStep rnd n edges area kappa h fac)^[k] fun _ => 0

/-- The two sums of `interpolate_node_elevation_from_faces`, `surface/mod.rs` lines 383-393, over the faces of a node. -/
def nodeSums (rnd : ℚ → ℚ) (area h : ℕ → ℚ) (faces : List ℕ) : ℚ × ℚ :=
  faces.foldl (fun s f => (rnd (s.1 + rnd (h f * area f)), rnd (s.2 + area f))) (0, 0)

/-- `interpolate_node_elevation_from_faces`, `surface/mod.rs` lines 379-401, for one node with the given row of `node_face_connectivity`. -/
def node (rnd : ℚ → ℚ) (area h : ℕ → ℚ) (row : List ℤ) : ℚ :=
  let s := nodeSums rnd area h ((row.filter (0 ≤ ·)).map Int.toNat)
  if s.2 > 0 then rnd (s.1 / s.2) else 0

end Verif.DiffusionDouble
