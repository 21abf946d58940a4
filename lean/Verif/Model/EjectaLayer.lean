import Verif.Model.SurfaceData
import Verif.Model.Region
import Mathlib.Analysis.SpecialFunctions.Trigonometric.Basic
import Mathlib.Data.Finset.Sort

/-!
Model of how `Morphology.form_crater` and `form_ejecta` (`cratermaker/components/morphology/__init__.py`, lines 574-666)
choose the regions of a crater and change the layer `ejecta_thickness`.
-/

namespace Verif.EjectaLayer

open Verif.Region (Mesh Local extractRegion extractSubregion)
open Verif.SurfaceData (Store addData Data)

/-- A crater as seen by the mesh: `dist f` is the distance of face `f` from its centre, `nearest` the face found by
`find_nearest_face`, `rmax` the extent of the ejecta (`ejecta_rmax`), `deposit f` the thickness that is added to face `f`
of the ejecta region (lines 650-653 and `basicmoon.py` lines 262-263, a parameter here). -/
structure Crater where
  dist : ℕ → ℝ
  nearest : ℕ
  radius : ℝ
  rmax : ℝ
  deposit : ℕ → ℝ

/-- `crater_region`, `morphology/__init__.py` lines 259-271; the crater is emplaceable if there is one, lines 313-317 (`_RIM_BUFFER_FACTOR`, line 17); `half` is half the circumference of the target. -/
noncomputable def craterRegion (m : Mesh) (half : ℝ) (c : Crater) : Option Local :=
  extractRegion m c.dist half c.nearest (1.5 * c.radius) false

/-- `ejecta_region`, `morphology/__init__.py` lines 245-257. -/
noncomputable def ejectaRegion (m : Mesh) (half : ℝ) (c : Crater) : Option Local :=
  match craterRegion m half c with
  | none => none
  | some _ => extractRegion m c.dist half c.nearest c.rmax false

/-- The index arrays of a region, which `np.unique` sorts. Belongs to `morphology/__init__.py` lines 603-612. -/
noncomputable def indices (l : Local) : SurfaceData.Region := ⟨l.faces.sort (· ≤ ·), l.nodes.sort (· ≤ ·)⟩

/-- `morphology/__init__.py` lines 593-596: the crater is formed if it is emplaceable and the circle of the radius of its region is larger than the
face at its centre. -/
noncomputable def isFormed (m : Mesh) (half : ℝ) (area : ℕ → ℝ) (c : Crater) : Prop :=
  match craterRegion m half c with
  | none => False
  | some l => Real.pi * l.radius ^ 2 > area c.nearest

/-- The size of the mesh as used by `add_data`. Belongs to `morphology/__init__.py` lines 603-612. -/
def sizes (m : Mesh) : SurfaceData.Mesh := ⟨m.nFace, m.nNode⟩

/-- `morphology/__init__.py` lines 603-612: the ejecta in the inner part of the crater region are removed. -/
noncomputable def clear (m : Mesh) (c : Crater) (l : Local) (s : Store) : Option Store :=
  match extractSubregion m c.dist l c.radius with
  | none => some s
  | some inner => addData (sizes m) s (indices inner) "ejecta_thickness" (.scalar 0) { overwrite := true }

/-- `morphology/__init__.py` lines 655-660: the new ejecta are added.  A missing region is an AttributeError. -/
noncomputable def deposit (m : Mesh) (half : ℝ) (c : Crater) (s : Store) : Option Store :=
  match ejectaRegion m half c with
  | none => none
  | some l => addData (sizes m) s (indices l) "ejecta_thickness" (.array ((indices l).faces.map c.deposit)) {}

/-- The layer after `form_crater` (`morphology/__init__.py` lines 589-620), with the list of craters recorded in `counting.emplaced`.  The
elevation, which the model of emplacement handles, and the counting layer are left out, and the excavated volume is not
zero. -/
noncomputable def form (m : Mesh) (half : ℝ) (area : ℕ → ℝ) (st : Store × List Crater) (c : Crater) : Option (Store × List Crater) :=
  match craterRegion m half c with
  | none => some st
  | some l =>
    open Classical in
    if isFormed m half area c then
      match clear m c l st.1 with
      | none => none
      | some s1 =>
        match deposit m half c s1 with
        | none => none
        | some s2 => some (s2, st.2 ++ [c])
    else some st

/-- A history of craters. Belongs to `morphology/__init__.py` lines 589-620. -/
noncomputable def history (m : Mesh) (half : ℝ) (area : ℕ → ℝ) : Store × List Crater → List Crater → Option (Store × List Crater)
  | st, [] => some st
  | st, c :: cs =>
    match form m half area st c with
    | none => none
    | some st' => history m half area st' cs

end Verif.EjectaLayer
