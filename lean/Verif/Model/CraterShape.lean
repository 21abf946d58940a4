import Verif.Model.Measure
import Verif.Model.Profile

/-!
# The shape given to the ground by a new crater

Models `crater_shape` (`cratermaker/components/morphology/basicmoon.py`, lines 272-302) with `get_reference_surface` for faces and nodes
(`cratermaker/components/surface/__init__.py`, lines 2609-2642), and the part of `form_crater` that changes the elevations
(`cratermaker/components/morphology/__init__.py`, lines 596-599).
-/

namespace Verif.CraterShape

open Measure Profile

/-- `get_reference_surface(reference_radius=radius)`, `surface/__init__.py` lines 2611-2642: without a node within the radius, or with fewer than five points, the
elevations themselves. -/
noncomputable def referenceBoth (lstsq : List Point → ℝ × ℝ × ℝ) (radius : ℝ) (faces nodes : List Point) : List ℝ :=
  open Classical in
  if nodes.any fun p => decide (p.dist ≤ radius) then reference lstsq radius (faces ++ nodes)
  else (faces ++ nodes).map (·.z)

/-- `crater_shape`, `basicmoon.py` lines 290-302: the change of elevation of faces and nodes; `none` is the panic without points.  The radius of the crater is
half its diameter. -/
noncomputable def craterShape (lstsq : List Point → ℝ × ℝ × ℝ) (d : Dims) (faces nodes : List Point) : Option (List ℝ) :=
  let pts := faces ++ nodes
  (craterProfile d ((pts.map (·.dist)).zip (referenceBoth lstsq (d.diameter / 2) faces nodes))).map fun new =>
    List.zipWith (fun n (p : Point) => n - p.z) new pts

/-- `update_elevation` of the region with the change (lines 597-598 of `morphology/__init__.py`): the new elevations of faces and nodes. -/
noncomputable def formed (lstsq : List Point → ℝ × ℝ × ℝ) (d : Dims) (faces nodes : List Point) : Option (List ℝ) :=
  (craterShape lstsq d faces nodes).map fun c => List.zipWith (fun (p : Point) x => p.z + x) (faces ++ nodes) c

end Verif.CraterShape
