import Mathlib.Algebra.Order.Floor.Semiring
import Mathlib.Algebra.Order.Archimedean.Real.Basic
import Mathlib.Analysis.SpecialFunctions.Trigonometric.Basic
import Mathlib.Logic.Function.Basic

/-!
Model of the mesh operations of `crates/cratermaker-components/src/surface/mod.rs`: diffusion, slope
collapse and interpolation of node elevations.  Floats are real numbers; an array over the faces of the
region is a function of the face number, of which only the first `n` values matter.
-/

namespace Verif.Diffusion

/-- A row of `edge_face_connectivity` with the distance of its faces and its length. Belongs to `surface/mod.rs` lines 714-753. -/
structure Edge where
  /-- First face, negative if absent. -/
  f1 : ℤ
  /-- Second face. -/
  f2 : ℤ
  /-- `edge_face_distance`. -/
  dist : ℝ
  /-- `edge_length`. -/
  len : ℝ

/-- The part of `LocalSurfaceView` that is used. Belongs to `surface/mod.rs` lines 675-695. -/
structure Mesh where
  /-- `n_face`. -/
  n : ℕ
  /-- Edges of the region. -/
  edges : List Edge
  /-- `face_area`. -/
  area : ℕ → ℝ
  /-- `face_edge_connectivity`, negative entries are absent edges. -/
  faceEdges : ℕ → List ℤ
  /-- Bearing from one face to another (`compute_one_bearing` of their locations). -/
  bearing : ℕ → ℕ → ℝ

/-- `extract_edge_faces`, `surface/mod.rs` lines 714-753: both faces must be in `[0, n)`.  A negative number cast to
`usize` is larger than any face count.  Rows always have two entries here. -/
def edgeFaces (n : ℕ) (e : Edge) : Option (ℕ × ℕ) :=
  if 0 ≤ e.f1 ∧ e.f1 < n ∧ 0 ≤ e.f2 ∧ e.f2 < n then some (e.f1.toNat, e.f2.toNat) else none

/-- One edge of `compute_dt_max`, `surface/mod.rs` lines 675-695. -/
noncomputable def addInverse (m : Mesh) (kappa inv : ℕ → ℝ) (e : Edge) : ℕ → ℝ :=
  if e.dist ≤ 0 then inv
  else
    match edgeFaces m.n e with
    | none => inv
    | some (f1, f2) =>
      if 0.5 * (kappa f1 + kappa f2) > 0 then
        let c1 := 2 * (0.5 * (kappa f1 + kappa f2)) * e.len / (e.dist * m.area f1)
        let c2 := 2 * (0.5 * (kappa f1 + kappa f2)) * e.len / (e.dist * m.area f2)
        let i1 := Function.update inv f1 (inv f1 + c1)
        Function.update i1 f2 (i1 f2 + c2)
      else inv

/-- The sums of `compute_dt_max` after a list of edges. Belongs to `surface/mod.rs` lines 672-703. -/
noncomputable def inverseSum (m : Mesh) (kappa : ℕ → ℝ) : List Edge → (ℕ → ℝ) → ℕ → ℝ
  | [], inv => inv
  | e :: es, inv => inverseSum m kappa es (addInverse m kappa inv e)

/-- The fold of `surface/mod.rs` lines 697-702: the smallest reciprocal of the positive sums; `none` is infinity. -/
noncomputable def minReciprocal (inv : ℕ → ℝ) : ℕ → Option ℝ
  | 0 => none
  | k + 1 =>
    if inv k > 0 then
      match minReciprocal inv k with
      | none => some (1 / inv k)
      | some x => some (min x (1 / inv k))
    else minReciprocal inv k

/-- `compute_dt_max`, `surface/mod.rs` lines 672-703. -/
noncomputable def dtMax (m : Mesh) (kappa : ℕ → ℝ) : Option ℝ :=
  minReciprocal (inverseSum m kappa m.edges (fun _ => 0)) m.n

/-- One edge of the flux loop, `surface/mod.rs` lines 95-115. -/
noncomputable def addFlux (m : Mesh) (kappa h dhdt : ℕ → ℝ) (e : Edge) : ℕ → ℝ :=
  match edgeFaces m.n e with
  | none => dhdt
  | some (f1, f2) =>
    let flux := (kappa f1 + kappa f2) * (h f2 - h f1) / e.dist * e.len
    let d1 := Function.update dhdt f1 (dhdt f1 + flux / m.area f1)
    Function.update d1 f2 (d1 f2 - flux / m.area f2)

/-- The flux loop over a list of edges. Belongs to `surface/mod.rs` lines 90-119. -/
noncomputable def fluxes (m : Mesh) (kappa h : ℕ → ℝ) : List Edge → (ℕ → ℝ) → ℕ → ℝ
  | [], d => d
  | e :: es, d => fluxes m kappa h es (addFlux m kappa h d e)

/-- One round of the time loop, `surface/mod.rs` lines 90-119: the new `face_delta`. -/
noncomputable def diffStep (m : Mesh) (kappa h : ℕ → ℝ) (fac : ℝ) (delta : ℕ → ℝ) : ℕ → ℝ :=
  fun f => delta f + fac * fluxes m kappa (fun g => h g + delta g) m.edges (fun _ => 0) f

/-- `apply_diffusion`, `surface/mod.rs` lines 72-123: the change of `h`. -/
noncomputable def diffusion (m : Mesh) (kappa h : ℕ → ℝ) : ℕ → ℝ :=
  match dtMax m kappa with
  | none => fun _ => 0
  | some t =>
    if t ≤ 0 then fun _ => 0
    else
      let dt : ℝ := 1 / (⌈1 / t⌉₊ : ℝ)
      (diffStep m kappa h (dt / 2))^[⌈1 / t⌉₊] (fun _ => 0)

/-- The neighbours of a face with distance and edge length, `compute_one_face_gradient` `surface/mod.rs` lines 210-243. -/
noncomputable def neighbors (m : Mesh) (f : ℕ) : List (ℕ × ℝ × ℝ) :=
  (m.faceEdges f).filterMap fun (id : ℤ) =>
    if id < 0 then none
    else
      match m.edges[id.toNat]? with
      | none => none
      | some e =>
        match edgeFaces m.n e with
        | none => none
        | some (f1, f2) =>
          if e.dist ≤ 0 ∨ e.len ≤ 0 then none
          else if f = f1 then some (f2, e.dist, e.len)
          else if f = f2 then some (f1, e.dist, e.len)
          else none

/-- `compute_one_face_gradient` and `compute_face_slope_squared`, `surface/mod.rs` lines 178-185 and 206-280: squared slope at a face. -/
noncomputable def slopeSq (m : Mesh) (h : ℕ → ℝ) (f : ℕ) : ℝ :=
  let ns := neighbors m f
  let w := (ns.map fun x => x.2.2).sum
  let zonal := (ns.map fun x => (h x.1 - h f) * x.2.2 / x.2.1 * Real.sin (m.bearing f x.1)).sum
  let merid := (ns.map fun x => (h x.1 - h f) * x.2.2 / x.2.1 * Real.cos (m.bearing f x.1)).sum
  if ns.length < 2 then 0
  else if w > 0 then (zonal / w) * (zonal / w) + (merid / w) * (merid / w)
  else 0

/-- The diffusivity of one round of `slope_collapse`, `surface/mod.rs` lines 343-354.  `compute_dt_max` with unit
diffusivity is infinite only if no face has a neighbour at positive distance with an edge of positive
length; then all slopes are zero and the value does not matter (0 here). -/
noncomputable def collapseKappa (m : Mesh) (crit : ℝ) (h : ℕ → ℝ) (f : ℕ) : ℝ :=
  if slopeSq m h f > crit * crit then
    (dtMax m (fun _ => 1)).getD 0 * (1 + slopeSq m h f / (crit * crit)) * 10
  else 0

/-- Whether a round is needed, `surface/mod.rs` lines 356-361: some face has a positive diffusivity. -/
def active (n : ℕ) (kappa : ℕ → ℝ) : Prop := ∃ f < n, 0 < kappa f

open Classical in
/-- The loop of `slope_collapse`, `surface/mod.rs` lines 337-365, with `k` rounds left. -/
noncomputable def collapseLoop (m : Mesh) (crit : ℝ) (h : ℕ → ℝ) : ℕ → (ℕ → ℝ) → ℕ → ℝ
  | 0, delta => delta
  | k + 1, delta =>
    let h' := fun f => h f + delta f
    if active m.n (collapseKappa m crit h') then
      collapseLoop m crit h k (fun f => delta f + diffusion m (collapseKappa m crit h') h' f)
    else delta

open Classical in
/-- `slope_collapse`, `surface/mod.rs` lines 325-367: the change of elevation.  With a critical slope of 0 the quotient of line 347 is infinite for every face with a
slope, so are the sums of `compute_dt_max`, whose result is 0, and `apply_diffusion` returns zeros (lines 82-84) in every round. -/
noncomputable def slopeCollapse (m : Mesh) (crit : ℝ) (h : ℕ → ℝ) : ℕ → ℝ :=
  if crit = 0 then fun _ => 0 else collapseLoop m crit h 1000 (fun _ => 0)

/-- `interpolate_node_elevation_from_faces`, `surface/mod.rs` lines 379-401, for one node with the given row of
`node_face_connectivity` (negative entries are absent faces). -/
noncomputable def interpolateNode (area h : ℕ → ℝ) (row : List ℤ) : ℝ :=
  let fs := (row.filter (0 ≤ ·)).map Int.toNat
  if (fs.map area).sum > 0 then (fs.map fun f => h f * area f).sum / (fs.map area).sum else 0

/-! ### Local connectivity -/

/-- The global-to-local map of `_remap_connectivity_to_local`, `surface/__init__.py` lines 3970-3972:
position in the list of indices, or the fill value. -/
def localIndex (fill : ℤ) (values : List ℕ) (g : ℕ) : ℤ :=
  if g ∈ values then (values.idxOf g : ℤ) else fill

/-- `_remap_connectivity_to_local`, `surface/__init__.py` lines 3935-3980, for index arrays: the rows
`rows` of the table with global entries replaced by local ones.  Entries other than the fill value are
valid global indices. -/
def remap (fill : ℤ) (table : List (List ℤ)) (rows values : List ℕ) : List (List ℤ) :=
  rows.map fun r => (table.getD r []).map fun x => if x = fill then fill else localIndex fill values x.toNat

end Verif.Diffusion
