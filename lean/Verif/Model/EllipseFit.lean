import Verif.Model.Fit
import Mathlib.Data.Matrix.Mul

/-!
Model of the ellipse fits of `crates/cratermaker-components/src/counting/mod.rs`: free center (`fit_one_ellipse`, lines
862-944), fixed center (`fit_one_ellipse_fixed_center`, lines 1003-1111) and the error they report (`geometric_distances`,
lines 451-484). Floating point numbers are reals; a weight that is NaN is `none`. The eigenvalue routine of LAPACK is a
parameter: a function from a matrix to the columns of eigenvectors, or `none` if it fails.
-/

namespace Verif.Fit

open Real Matrix

/-- What a fit comes to. Belongs to `counting/mod.rs` lines 930-943. -/
inductive Out (α : Type) where
  | err
  | panic
  | ok (a : α)

/-- `wd1.t().dot(&wd2)` for matrices with one row per point, multiplied by the square roots of the weights, `counting/mod.rs` lines 886-894 and
1032-1040. -/
noncomputable def scatter {m n : ℕ} (ps : List Pt) (U : Pt → Fin m → ℝ) (V : Pt → Fin n → ℝ) : Matrix (Fin m) (Fin n) ℝ :=
  fun i j => (ps.map fun p => (√p.weight * U p i) * (√p.weight * V p j)).sum

/-- A row of `d1`, `counting/mod.rs` lines 872-874 and 878-880. -/
def Pt.quadratic (p : Pt) : Fin 3 → ℝ := ![p.x * p.x, p.x * p.y, p.y * p.y]

/-- A row of `d2`, `counting/mod.rs` lines 881-883. -/
def Pt.linear (p : Pt) : Fin 3 → ℝ := ![p.x, p.y, 1]

/-- A row of `d1` for a fixed center, `counting/mod.rs` lines 1014-1021. -/
def Pt.centered (x0 y0 : ℝ) (p : Pt) : Fin 3 → ℝ :=
  ![p.x * p.x - 2 * x0 * p.x, p.x * p.y - y0 * p.x - x0 * p.y, p.y * p.y - 2 * y0 * p.y]

/-- A row of `d2` for a fixed center, `counting/mod.rs` line 1029. -/
def Pt.const (_ : Pt) : Fin 1 → ℝ := ![1]

/-- The constraint matrix, `counting/mod.rs` lines 901 and 1062. -/
def constraint : Matrix (Fin 3) (Fin 3) ℝ := !![0, 0, 2; 0, -1, 0; 2, 0, 0]

/-- The eigenvalue routine, `counting/mod.rs` lines 906 and 1067. -/
abbrev EigRoutine := Matrix (Fin 3) (Fin 3) ℝ → Option (Fin 3 → Fin 3 → ℂ)

open Classical in
/-- The first column whose real part is an ellipse, `counting/mod.rs` lines 907-921 and 1068-1082; `none` is the panic. -/
noncomputable def chooseColumn (v : Fin 3 → Fin 3 → ℂ) : Option (Fin 3 → ℝ) :=
  ((List.finRange 3).find? fun k => decide (0 < 4 * (v k 0).re * (v k 2).re - (v k 1).re * (v k 1).re)).map
    fun k i => (v k i).re

/-- `geometric_distances`, `counting/mod.rs` lines 451-484, for one point. The names of the first two coefficients are taken over by the
semi-axes on line 461, so the gradient on lines 475-476 is computed from these. -/
noncomputable def geometricDistance (c d e : ℝ) (r : Ellipse) (x y : ℝ) : ℝ :=
  let a := r.ap
  let b := r.bp
  let alpha := atan2 (y - r.y0) (x - r.x0) - r.orientation
  let capf := (a * b) / √((b * cos alpha) ^ 2 + (a * sin alpha) ^ 2)
  let capfx := 2 * a * x + b * y + d
  let capfy := b * x + 2 * c * y + e
  capf / √(capfx * capfx + capfy * capfy)

/-- The error of the fit, `counting/mod.rs` lines 932-936 and 1103-1107; `none` is NaN. The weights enter as they are, also negative ones;
division by zero is not modelled as in floating point. -/
noncomputable def weightedRms (ps : List Pt) (c d e : ℝ) (r : Ellipse) : Option ℝ :=
  if ps.all fun p => p.w.isSome then
    some √((ps.map fun p => geometricDistance c d e r p.x p.y ^ 2 * p.w.getD 0).sum / (ps.map fun p => p.w.getD 0).sum)
  else none

/-- What the fit reports. Belongs to `counting/mod.rs` lines 930-943. -/
structure EllipseFit where
  x0 : ℝ
  y0 : ℝ
  ap : ℝ
  bp : ℝ
  orientation : ℝ
  wrms : Option ℝ

/-- From coefficients to the report, `counting/mod.rs` lines 930-943 and 1096-1110; a panic is that of `ellipse_coefficients_to_parameters`. -/
noncomputable def report (ps : List Pt) (a b c d f g : ℝ) : Out EllipseFit :=
  match ellipseParams a b c d f g with
  | none => .panic
  | some r => .ok ⟨r.x0, r.y0, r.ap, r.bp, reportedOrientation r.orientation, weightedRms ps c d f r⟩

/-- `t`, `counting/mod.rs` lines 897-898. -/
noncomputable def freeT (ps : List Pt) : Matrix (Fin 3) (Fin 3) ℝ :=
  -((scatter ps Pt.linear Pt.linear)⁻¹ * (scatter ps Pt.quadratic Pt.linear)ᵀ)

/-- `m`, `counting/mod.rs` lines 899-903. -/
noncomputable def freeM (ps : List Pt) : Matrix (Fin 3) (Fin 3) ℝ :=
  constraint⁻¹ * (scatter ps Pt.quadratic Pt.quadratic + scatter ps Pt.quadratic Pt.linear * freeT ps)

open Classical in
/-- `fit_one_ellipse`, `counting/mod.rs` lines 862-944. The arrays have the same length (a panic otherwise, lines 867-868). -/
noncomputable def fitEllipse (eig : EigRoutine) (ps : List Pt) : Out EllipseFit :=
  if (scatter ps Pt.linear Pt.linear).det = 0 then .err
  else match eig (freeM ps) with
    | none => .err
    | some v => match chooseColumn v with
      | none => .panic
      | some q =>
        let l := freeT ps *ᵥ q
        report ps (q 0) (q 1) (q 2) (l 0) (l 1) (l 2)

/-- `s3_scalar`, `counting/mod.rs` line 1043. -/
noncomputable def fixedS3 (ps : List Pt) : ℝ := scatter ps Pt.const Pt.const 0 0

/-- `t`, `counting/mod.rs` lines 1057-1058. -/
noncomputable def fixedT (ps : List Pt) (x0 y0 : ℝ) : Matrix (Fin 1) (Fin 3) ℝ :=
  (scatter ps (Pt.centered x0 y0) Pt.const)ᵀ.map fun v => -(1 / fixedS3 ps) * v

/-- `m`, `counting/mod.rs` lines 1059-1064. -/
noncomputable def fixedM (ps : List Pt) (x0 y0 : ℝ) : Matrix (Fin 3) (Fin 3) ℝ :=
  constraint⁻¹ * (scatter ps (Pt.centered x0 y0) (Pt.centered x0 y0) +
    scatter ps (Pt.centered x0 y0) Pt.const * fixedT ps x0 y0)

open Classical in
/-- `fit_one_ellipse_fixed_center`, `counting/mod.rs` lines 1003-1111. The center of the report is the one of the coefficients, which the
function drops. -/
noncomputable def fitEllipseFixed (eig : EigRoutine) (ps : List Pt) (x0 y0 : ℝ) : Out EllipseFit :=
  if fixedS3 ps = 0 then .err
  else match eig (fixedM ps x0 y0) with
    | none => .err
    | some v => match chooseColumn v with
      | none => .panic
      | some q =>
        let g := -(1 / fixedS3 ps) * ((scatter ps (Pt.centered x0 y0) Pt.const)ᵀ *ᵥ q) 0
        report ps (q 0) (q 1) (q 2) (-2 * q 0 * x0 - q 1 * y0) (-q 1 * x0 - 2 * q 2 * y0) g

/-- What a rim fit reports: center, semi-axes and orientation. Belongs to `counting/mod.rs` lines 173-195. -/
structure RimFit where
  x0 : ℝ
  y0 : ℝ
  a : ℝ
  b : ℝ
  o : ℝ

/-- The choice of the fit in `fit_one_rim`, `counting/mod.rs` lines 173-195, for faces with their rim scores. An error of a fit is passed on; a
panic cannot be told from other failures by the caller but is kept apart here. -/
noncomputable def fitOneRim (eig : EigRoutine) (fitCenter wantEllipse : Bool) (ps : List Pt) (x0 y0 : ℝ) : Out RimFit :=
  if wantEllipse then
    if fitCenter then
      match fitEllipse eig ps with
      | .err => .err
      | .panic => .panic
      | .ok r => .ok ⟨r.x0, r.y0, r.ap, r.bp, r.orientation⟩
    else
      match fitEllipseFixed eig ps x0 y0 with
      | .err => .err
      | .panic => .panic
      | .ok r => .ok ⟨x0, y0, r.ap, r.bp, r.orientation⟩
  else if fitCenter then
    match fitCircle ps with
    | none => .err
    | some (x, y, r) => .ok ⟨x, y, r, r, 0⟩
  else
    match fitFixed ps x0 y0 with
    | none => .err
    | some (r, _) => .ok ⟨x0, y0, r, r, 0⟩

end Verif.Fit
