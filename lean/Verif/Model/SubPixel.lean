import Verif.Model.Profile
import Verif.Model.Limits
import Verif.Model.Region
import Mathlib.MeasureTheory.Integral.IntervalIntegral.Basic

/-!
Model of how craters too small to be made are accounted for: `compute_subpixel_degradation` (`cratermaker/components/morphology/basicmoon.py`
lines 527-580) with the sizes of the face bins (`cratermaker/components/surface/__init__.py` lines 1624-1720), and which craters `form_crater`
makes (`cratermaker/components/morphology/__init__.py` lines 259-271, 313-318 and 585-596).
The numerical integration `quad` is the integral.
-/

namespace Verif.SubPixel
open Verif.SurfaceData

/-- A production function: cumulative number per area of craters larger than a diameter, formed between two times. Belongs to `basicmoon.py` lines 555-566. -/
abbrev Production := ℝ → ℝ → ℝ → ℝ

/-- `_subpixel_degradation`, basicmoon.py lines 555-566. -/
noncomputable def integrand (N : Production) (ts te D : ℝ) : ℝ :=
  Verif.Profile.degradation D 100 * N D ts te * (Real.pi * (D / 2) * 100)

/-- `quad(_subpixel_degradation, dc_min, dc_max)`, basicmoon.py lines 546 and 569. -/
noncomputable def amount (N : Production) (ts te dmax : ℝ) : ℝ := ∫ D in (1e-8)..dmax, integrand N ts te D

/-- `face_bin_max_sizes`, `surface/__init__.py` lines 1714-1719: square root of the largest face area of each bin. -/
noncomputable def binMaxSizes (areas : List ℝ) (bins : List (List ℕ)) : List ℝ :=
  bins.map fun b => ((b.map fun i => Real.sqrt (areas.getD i 0)).max?).getD 0

/-- The loop over the bins, basicmoon.py lines 568-570. -/
noncomputable def accumulate (N : Production) (ts te : ℝ) : List (List ℕ × ℝ) → (ℕ → ℝ) → ℕ → ℝ
  | [], k => k
  | b :: bs, k => accumulate N ts te bs fun f => if f ∈ b.1 then k f + amount N ts te b.2 else k f

/-- Errors. Belongs to `basicmoon.py` line 570. -/
inductive Err
  | value
  | runtime
  | index
  deriving DecidableEq

/-- `compute_subpixel_degradation` up to `basicmoon.py` line 570: the degradation pending on each face afterwards.  `Verif.Profile.SubPixel.compute` is what
happens to it next (lines 572-580). -/
noncomputable def compute (production : Option Production) (ts te : ℝ) (areas : List ℝ) (pending : ℕ → ℝ) : Except Err (ℕ → ℝ) :=
  if ts ≤ te then .error .value
  else
    match production with
    | none => .error .runtime
    | some N =>
      match faceBins areas with
      | none => .error .index
      | some bins => .ok (accumulate N ts te (bins.zip (binMaxSizes areas bins)) pending)

/-- One call after the other. Belongs to `basicmoon.py` line 570. -/
noncomputable def computeAll (production : Option Production) (areas : List ℝ) : List (ℝ × ℝ) → (ℕ → ℝ) → Except Err (ℕ → ℝ)
  | [], k => .ok k
  | w :: ws, k => (compute production w.1 w.2 areas k).bind fun k' => computeAll production areas ws k'

/-- `crater_region`, `morphology/__init__.py` lines 259-271, with `_RIM_BUFFER_FACTOR` of line 17: the region of one and a half crater radii. -/
noncomputable def craterRegion (m : Verif.Region.Mesh) (dist : ℕ → ℝ) (half : ℝ) (nearest : ℕ) (diameter : ℝ) : Option Verif.Region.Local :=
  Verif.Region.extractRegion m dist half nearest (1.5 * (diameter / 2)) false

open Classical in
/-- Whether `form_crater` makes a crater, `morphology/__init__.py` lines 590-596 and 313-318: `dist` are the distances of the faces from its
center, `face` the face its center is on. -/
noncomputable def forms (m : Verif.Region.Mesh) (dist : ℕ → ℝ) (half : ℝ) (nearest : ℕ) (areas : List ℝ) (face : ℕ) (diameter : ℝ) : Bool :=
  match craterRegion m dist half nearest diameter with
  | none => false
  | some r => decide (areas.getD face 0 < Real.pi * r.radius ^ 2)

end Verif.SubPixel
