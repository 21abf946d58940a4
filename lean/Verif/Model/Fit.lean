import Mathlib.Analysis.SpecialFunctions.Complex.Arg
import Mathlib.LinearAlgebra.Matrix.NonsingularInverse
import Mathlib.Data.Matrix.Basic

/-!
Model of the curve fits of `crates/cratermaker-components/src/counting/mod.rs`: ellipse parameters from conic coefficients
(lines 314-365), orientation of a fitted ellipse (lines 940-943), and circle fits (lines 1163-1233 and 1275-1322).
Floating point numbers are reals; a weight that is NaN is `none`.
-/

namespace Verif.Fit

open Real

/-! ### Ellipse parameters -/

/-- `y.atan2(x)`. Belongs to `counting/mod.rs` lines 314-365. -/
noncomputable def atan2 (y x : ℝ) : ℝ := Complex.arg ⟨x, y⟩

/-- `x % y` of Rust for floating point numbers: the remainder of division truncated towards zero. Belongs to `counting/mod.rs` lines 314-365. -/
noncomputable def rem (x y : ℝ) : ℝ := x - y * (if 0 ≤ x / y then (⌊x / y⌋ : ℝ) else (⌈x / y⌉ : ℝ))

/-- What the function returns. Belongs to `counting/mod.rs` lines 314-365. -/
structure Ellipse where
  x0 : ℝ
  y0 : ℝ
  ap : ℝ
  bp : ℝ
  orientation : ℝ

/-- `ellipse_coefficients_to_parameters`, `counting/mod.rs` lines 314-365; `none` is the panic of line 328. -/
noncomputable def ellipseParams (a b c d f g : ℝ) : Option Ellipse :=
  let b := b / 2
  let d := d / 2
  let f := f / 2
  let den := b * b - a * c
  if 0 < den then none
  else
    let x0 := (c * d - b * f) / den
    let y0 := (a * f - b * d) / den
    let numerator := 2 * (a * f * f + c * d * d + g * b * b - 2 * b * d * f - a * c * g)
    let fac := √((a - c) ^ 2 + 4 * b * b)
    let ap' := √(numerator / (den * (fac - (a + c))))
    let bp' := √(numerator / (den * (-fac - (a + c))))
    let phi := if |b| < 1e-12 then (if a < c then 0 else π / 2) else 0.5 * atan2 (2 * b) (a - c)
    let phi := if |a| > |c| then phi + π / 2 else phi
    if bp' ≥ ap' then some ⟨x0, y0, bp', ap', rem phi π⟩
    else some ⟨x0, y0, ap', bp', rem (phi + π / 2) π⟩

/-- The orientation that the ellipse fits report, `counting/mod.rs` lines 940-941 and 1108. -/
noncomputable def reportedOrientation (phi : ℝ) : ℝ := rem (2 * π - phi) (2 * π)

/-- The angle of the semi-major axis that `radial_distance_to_crater_rim` uses for a reported orientation, `counting/mod.rs` line 243. -/
noncomputable def usedAngle (orientation : ℝ) : ℝ := 2 * π - π / 2 - orientation

/-- `radial_distance_to_crater_rim`, `counting/mod.rs` lines 250-259, for one point. -/
noncomputable def radialDistance (x y x0 y0 a b orientation : ℝ) : ℝ :=
  let phi := usedAngle orientation
  let dx := x - x0
  let dy := y - y0
  let r := √(dx * dx + dy * dy)
  let alpha := atan2 dy dx - phi
  r - (a * b) / √((b * cos alpha) ^ 2 + (a * sin alpha) ^ 2)

/-! ### Circle fits -/

/-- A weighted point. Belongs to `counting/mod.rs` line 1303. -/
structure Pt where
  x : ℝ
  y : ℝ
  w : Option ℝ

/-- `if w > 0.0 { w } else { 0.0 }`. Belongs to `counting/mod.rs` lines 1275-1322. -/
noncomputable def Pt.weight (p : Pt) : ℝ :=
  match p.w with
  | none => 0
  | some w => if 0 < w then w else 0

/-- Distance from a center, `counting/mod.rs` line 1303. -/
noncomputable def Pt.dist (p : Pt) (x0 y0 : ℝ) : ℝ := √((p.x - x0) * (p.x - x0) + (p.y - y0) * (p.y - y0))

/-- `fit_one_circle_fixed_center`, `counting/mod.rs` lines 1275-1322: radius and root mean square; `none` is the error of line 1291. -/
noncomputable def fitFixed (ps : List Pt) (x0 y0 : ℝ) : Option (ℝ × ℝ) :=
  let wsum := (ps.map Pt.weight).sum
  if wsum = 0 then none
  else
    let r := (ps.map fun p => p.dist x0 y0 * p.weight).sum / wsum
    let wrms := √((ps.map fun p => (p.dist x0 y0 - r) ^ 2 * p.weight).sum / wsum)
    some (r, wrms)

/-- `weights.sum() == 0.0`, `counting/mod.rs` lines 1173-1174; a sum with a NaN is not zero. -/
noncomputable def sumIsZero (ps : List Pt) : Prop := (∀ p ∈ ps, p.w ≠ none) ∧ (ps.map fun p => p.w.getD 0).sum = 0

/-- A row of the matrix `A`, `counting/mod.rs` lines 1191-1194. -/
noncomputable def Pt.row (p : Pt) : Fin 3 → ℝ := ![2 * p.x, 2 * p.y, 1]

/-- The right hand side, `counting/mod.rs` line 1189. -/
noncomputable def Pt.rhs (p : Pt) : ℝ := p.x * p.x + p.y * p.y

/-- `wa.t().dot(&wa)`, `counting/mod.rs` line 1203: the square roots of the weights multiply to the weights. -/
noncomputable def ata (ps : List Pt) : Matrix (Fin 3) (Fin 3) ℝ :=
  fun i j => (ps.map fun p => p.weight * p.row i * p.row j).sum

/-- `wa.t().dot(&wb)`, `counting/mod.rs` line 1204. -/
noncomputable def atb (ps : List Pt) : Fin 3 → ℝ := fun i => (ps.map fun p => p.weight * p.row i * p.rhs).sum

open Classical in
/-- `fit_one_circle`, `counting/mod.rs` lines 1163-1233, without the root mean square: center and radius; `none` is an error, because the
weights add up to zero or the matrix cannot be inverted. -/
noncomputable def fitCircle (ps : List Pt) : Option (ℝ × ℝ × ℝ) :=
  if sumIsZero ps then none
  else if (ata ps).det = 0 then none
  else
    let p := (ata ps)⁻¹.mulVec (atb ps)
    let r2 := p 2 + p 0 * p 0 + p 1 * p 1
    some (p 0, p 1, if 0 < r2 then √r2 else 0)

end Verif.Fit
