import Mathlib.Data.Real.Basic
import Mathlib.Algebra.Order.Archimedean.Real.Basic
import Verif.Model.Tags

/-!
Model of the regions of a surface with a high-resolution local region, `LocalHiResLocalSurface` in
`cratermaker/components/surface/hireslocal.py`, lines 840-1090.
-/

namespace Verif.Overlap

/-- The index arrays of a region (`_face_indices`, `_node_indices`, `_edge_indices`, `surface/__init__.py` lines 2029-2031).  A slice of
all indices is the array of all indices, `hireslocal.py` lines 1023-1026. -/
structure Region where
  faces : List ℕ
  nodes : List ℕ
  edges : List ℕ
deriving DecidableEq

/-- Indexing an array with a boolean mask, as in `face_indices[self._face_mask]`.  Numpy raises `IndexError` for a mask of another length;
the callers below check that. Belongs to `hireslocal.py` lines 1017-1065. -/
def select {α : Type} : List Bool → List α → List α
  | b :: bs, x :: xs => if b then x :: select bs xs else select bs xs
  | _, _ => []

/-- `np.isin(indices, others)`, `hireslocal.py` lines 1031, 1042 and 1047. -/
def isin (l others : List ℕ) : List Bool := l.map fun i => others.contains i

/-- The shared part with its masks, `hireslocal.py` lines 1031-1064. -/
structure Shared where
  region : Region
  faceMask : List Bool
  nodeMask : List Bool
  edgeMask : List Bool
deriving DecidableEq

/-- `local_overlap`, `hireslocal.py` lines 1017-1065, for the first request; `loc` is `surface.local`. -/
def overlap (r loc : Region) : Option Shared :=
  let fm := isin r.faces loc.faces
  if fm.any id then
    let shared := select fm r.faces
    if shared.length = r.faces.length then
      some ⟨⟨shared, r.nodes, r.edges⟩, fm, r.nodes.map fun _ => true, r.edges.map fun _ => true⟩
    else
      let nm := isin r.nodes loc.nodes
      if nm.any id then
        let em := isin r.edges loc.edges
        if em.any id then some ⟨⟨shared, select nm r.nodes, select em r.edges⟩, fm, nm, em⟩ else none
      else none
  else none

/-- A diffusivity argument: one value or one per face. Belongs to `surface/__init__.py` lines 2374-2377. -/
inductive Amount where
  | scalar (k : ℝ)
  | array (ks : List ℝ)

/-- What can go wrong: a mask of the wrong length, a wrong number of values, a negative value. Belongs to `surface/__init__.py` lines 2374-2377. -/
inductive Err where
  | index
  | size
  | negative

/-- Adding a list of changes to the elevations of the listed faces, `add_data` without overwriting, `surface/__init__.py` line 2187
(faces of a region are distinct). -/
def addAt (e : ℕ → ℝ) (faces : List ℕ) (d : List ℝ) : ℕ → ℝ := fun f =>
  match (faces.zip d).lookup f with
  | some x => e f + x
  | none => e f

/-- `kdiff` as an array, `surface/__init__.py` lines 2374-2377. -/
def toArray (r : Region) : Amount → Except Err (List ℝ)
  | .scalar k => .ok (r.faces.map fun _ => k)
  | .array ks => if ks.length = r.faces.length then .ok ks else .error .size

/-- `LocalSurface.apply_diffusion`, `surface/__init__.py` lines 2374-2387: the face elevations after it.  `kernel` is the compiled
`apply_diffusion` (modelled in `Diffusion.lean`), which gives the change of each face of the region.  The node elevations and the ejecta
thickness updated in lines 2385-2386 are left out; `_VSMALL` is taken to be zero. -/
noncomputable def diffusePlain (kernel : Region → List ℝ → List ℝ) (r : Region) (e : ℕ → ℝ) (k : Amount) : Except Err (ℕ → ℝ) :=
  match toArray r k with
  | .error x => .error x
  | .ok ks =>
    if ∃ x ∈ ks, x < 0 then .error .negative
    else if ∀ x ∈ ks, x = 0 then .ok e
    else .ok (addAt e r.faces (kernel r ks))

/-- `kdiff[self.face_mask]` for arrays, `hireslocal.py` lines 940-941. -/
def restrict (s : Shared) : Amount → Except Err Amount
  | .scalar k => .ok (.scalar k)
  | .array ks => if ks.length = s.faceMask.length then .ok (.array (select s.faceMask ks)) else .error .index

/-- `LocalHiResLocalSurface.apply_diffusion`, `hireslocal.py` lines 939-943. -/
noncomputable def diffuse (kernel : Region → List ℝ → List ℝ) (loc r : Region) (e : ℕ → ℝ) (k : Amount) : Except Err (ℕ → ℝ) :=
  match overlap r loc with
  | none => .ok e
  | some s =>
    match restrict s k with
    | .error x => .error x
    | .ok k' => diffusePlain kernel s.region e k'

/-- `LocalHiResLocalSurface.slope_collapse` and `apply_noise`, `hireslocal.py` lines 957-959 and 983-990, on the face elevations: `change` gives the
changes of the faces of a region. -/
def applyLocal (change : Region → (ℕ → ℝ) → List ℝ) (loc r : Region) (e : ℕ → ℝ) : ℕ → ℝ :=
  match overlap r loc with
  | none => e
  | some s => addAt e s.region.faces (change s.region e)

/-- `LocalHiResLocalSurface.add_tag` with a tag, `hireslocal.py` lines 916-922. -/
def addTag (s : Tags.Layers) (loc r : Region) (tag : ℕ) (superdomain : Bool) : Tags.Layers :=
  if superdomain then Tags.addTag s r.faces tag
  else
    match overlap r loc with
    | none => s
    | some o => Tags.addTag s o.region.faces tag

/-- The distances (or bearings) of the shared faces, `hireslocal.py` lines 1060-1061. -/
def sharedFaceValues (s : Shared) (values : List ℝ) : List ℝ := select s.faceMask values

/-- The distances (or bearings) of the shared nodes, `hireslocal.py` lines 1062-1063. -/
def sharedNodeValues (s : Shared) (values : List ℝ) : List ℝ := select s.nodeMask values

/-- `_set_local_identifiers`, `hireslocal.py` lines 730-738: `np.isin(np.arange(n), indices)`. -/
def isLocal (n : ℕ) (indices : List ℕ) : List Bool := isin (List.range n) indices

end Verif.Overlap
