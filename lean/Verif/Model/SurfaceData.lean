import Mathlib.Analysis.SpecialFunctions.Log.Base
import Mathlib.Algebra.Order.Floor.Semiring
import Mathlib.Algebra.Order.Archimedean.Real.Basic
import Mathlib.Data.List.Basic
import Mathlib.Algebra.BigOperators.Group.List.Basic

/-!
Model of the data handling of `cratermaker/components/surface/__init__.py`: face size bins, `add_data`,
`update_elevation` and `apply_noise`.  Floats are real numbers; arrays are lists; a data variable on the
mesh is a function of the face (node) index.  Exceptions are `none`.
-/

namespace Verif.SurfaceData

/-! ### Face bins -/

/-- The bin of a face, `surface/__init__.py` line 1634: `floor(log2(area / min_area))`.  The value is never negative since
`area >= min_area`. -/
noncomputable def binIndex (mn a : ℝ) : ℕ := ⌊Real.logb 2 (a / mn)⌋₊

/-- The loop of `surface/__init__.py` lines 1633-1635: face `k` with area `a` is appended to its bin; an index beyond the list is
an IndexError. -/
noncomputable def place (mn : ℝ) : List ℝ → ℕ → List (List ℕ) → Option (List (List ℕ))
  | [], _, bins => some bins
  | a :: as, k, bins =>
    if binIndex mn a < bins.length then place mn as (k + 1) (bins.modify (binIndex mn a) (· ++ [k]))
    else none

/-- `_compute_face_bins`, `surface/__init__.py` lines 1624-1637.  An empty mesh is an error (`min` of an empty array). -/
noncomputable def faceBins (areas : List ℝ) : Option (List (List ℕ)) :=
  match areas.min?, areas.max? with
  | some mn, some mx =>
    (place mn areas 0 (List.replicate ⌈Real.logb 2 (mx / mn)⌉₊ [])).map (·.filter (fun b => b ≠ []))
  | _, _ => none

/-- `_face_bin_area`, `surface/__init__.py` line 1639: total area of each bin. -/
noncomputable def binAreas (areas : List ℝ) (bins : List (List ℕ)) : List ℝ :=
  bins.map fun b => (b.map fun i => areas.getD i 0).sum

/-! ### add_data -/

/-- A data variable: on faces or on nodes, with a value at every index. Belongs to `surface/__init__.py` lines 2120-2183. -/
structure Var where
  /-- Face data (else node data). -/
  face : Bool
  /-- Value at each index. -/
  vals : ℕ → ℝ

/-- The data variables of the surface (`uxds.data_vars`). Belongs to `surface/__init__.py` lines 2120-2183. -/
abbrev Store := String → Option Var

/-- Number of faces and nodes of the whole mesh. Belongs to `surface/__init__.py` lines 2120-2183. -/
structure Mesh where
  /-- Faces of the whole mesh. -/
  nFace : ℕ
  /-- Nodes of the whole mesh. -/
  nNode : ℕ

/-- A region: the indices of its faces and nodes in the whole mesh (`LocalSurface.face_indices`,
`node_indices`). Belongs to `surface/__init__.py` lines 2152-2159. -/
structure Region where
  /-- Face indices. -/
  faces : List ℕ
  /-- Node indices. -/
  nodes : List ℕ

/-- The `data` argument: a scalar or an array. Belongs to `surface/__init__.py` lines 2152-2159. -/
inductive Data
  | scalar (x : ℝ)
  | array (l : List ℝ)

/-- numpy `v[idx] = new`, assigned in order. Belongs to `surface/__init__.py` lines 2175-2181. -/
def write (v : ℕ → ℝ) : List ℕ → List ℝ → ℕ → ℝ
  | i :: is, d :: ds => write (Function.update v i d) is ds
  | _, _ => v

/-- The options of `add_data`. Belongs to `surface/__init__.py` lines 2175-2181. -/
structure Opts where
  /-- `isfacedata`. -/
  isFace : Bool := true
  /-- `overwrite`. -/
  overwrite : Bool := false
  /-- `fill_value`. -/
  fill : ℝ := 0
  /-- `positive_only`. -/
  positiveOnly : Bool := false

/-- `surface/__init__.py` lines 2152-2159: the array that is used. -/
def toArray (r : Region) (isFace : Bool) : Data → List ℝ
  | .scalar x => List.replicate (if isFace then r.faces.length else r.nodes.length) x
  | .array l => l

/-- `surface/__init__.py` lines 2160-2167: whether the data is face data and the indices used; `none` is the ValueError. -/
def target (r : Region) (l : List ℝ) : Option (Bool × List ℕ) :=
  if l.length = r.faces.length then some (true, r.faces)
  else if l.length = r.nodes.length then some (false, r.nodes)
  else none

/-- Number of values of a variable. Belongs to `surface/__init__.py` lines 2120-2183. -/
def Mesh.size (m : Mesh) (face : Bool) : ℕ := if face then m.nFace else m.nNode

/-- The values written by `surface/__init__.py` lines 2175-2178. -/
def newValues (overwrite : Bool) (v : ℕ → ℝ) (idx : List ℕ) (l : List ℝ) : List ℝ :=
  if overwrite then l else List.zipWith (fun i d => v i + d) idx l

/-- `surface/__init__.py` lines 2175-2181: the assignment or addition and the clipping. -/
noncomputable def assign (o : Opts) (overwrite : Bool) (v : ℕ → ℝ) (idx : List ℕ) (l : List ℝ) : ℕ → ℝ :=
  let w := write v idx (newValues overwrite v idx l)
  if o.positiveOnly then write w idx (idx.map fun i => max 0 (w i)) else w

/-- `LocalSurface.add_data`, `surface/__init__.py` lines 2120-2183.  A variable that does not exist yet is created with the fill
value (`_add_new_data`, lines 1330-1354) and then overwritten.  numpy raises IndexError before writing
anything when an index is outside the array.  Simplification: one-dimensional arrays only, and the text
attributes and dtype are left out. -/
noncomputable def addData (m : Mesh) (s : Store) (r : Region) (name : String) (d : Data) (o : Opts) :
    Option Store :=
  match target r (toArray r o.isFace d) with
  | none => none
  | some (face, idx) =>
    match s name with
    | none => some (Function.update s name
        (some ⟨face, assign o true (fun _ => o.fill) idx (toArray r o.isFace d)⟩))
    | some v =>
      if idx.all (· < m.size v.face) then
        some (Function.update s name (some ⟨v.face, assign o o.overwrite v.vals idx (toArray r o.isFace d)⟩))
      else none

/-! ### update_elevation -/

/-- `interpolate_node_elevation_from_faces` as seen by Python, `surface/__init__.py` lines 2551-2564: `interp` computes the new
node values of the region from the face elevations. -/
noncomputable def interpolate (m : Mesh) (interp : (ℕ → ℝ) → List ℝ) (s : Store) (r : Region) : Option Store :=
  match s "face_elevation" with
  | none => none
  | some v => addData m s r "node_elevation" (.array (interp v.vals)) { overwrite := true }

/-- `update_elevation`, `surface/__init__.py` lines 2193-2257.  numpy treats a one element array as a scalar. -/
noncomputable def updateElevation (m : Mesh) (interp : (ℕ → ℝ) → List ℝ) (s : Store) (r : Region)
    (d : List ℝ) (overwrite : Bool) : Option Store :=
  if d.length = 1 then
    match addData m s r "face_elevation" (.array (List.replicate r.faces.length (d.getD 0 0)))
        { overwrite := overwrite } with
    | none => none
    | some s' => addData m s' r "node_elevation" (.array (List.replicate r.nodes.length (d.getD 0 0)))
        { overwrite := overwrite }
  else if d.length = r.faces.length then
    match addData m s r "face_elevation" (.array d) { overwrite := overwrite } with
    | none => none
    | some s' => interpolate m interp s' r
  else if d.length = r.nodes.length then
    addData m s r "node_elevation" (.array d) { overwrite := overwrite }
  else if d.length = r.faces.length + r.nodes.length then
    match addData m s r "face_elevation" (.array (d.take r.faces.length)) { overwrite := overwrite } with
    | none => none
    | some s' => addData m s' r "node_elevation" (.array (d.drop r.faces.length)) { overwrite := overwrite }
  else none

/-! ### apply_noise -/

/-- The noise with its area weighted mean over the faces removed, `surface/__init__.py` lines 2463-2465: `noise` is the field at
the faces followed by the nodes. -/
noncomputable def centred (areas noise : List ℝ) : List ℝ :=
  noise.map (· - (List.zipWith (· * ·) (noise.take areas.length) areas).sum / areas.sum)

/-- `apply_noise`, `surface/__init__.py` lines 2423-2467, with the noise field `noise` (the values of the Rust generator) as
input; `area` gives the area of every face of the mesh. -/
noncomputable def applyNoise (m : Mesh) (interp : (ℕ → ℝ) → List ℝ) (s : Store) (r : Region) (area : ℕ → ℝ)
    (noise : List ℝ) : Option Store :=
  updateElevation m interp s r (centred (r.faces.map area) noise) false

end Verif.SurfaceData
