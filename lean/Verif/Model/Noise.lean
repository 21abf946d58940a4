import Verif.Model.SurfaceData

/-!
Model of the noise that is added to a surface: `turbulence_noise` (`crates/cratermaker-components/src/surface/mod.rs`, lines 422-471) and
its use in `apply_noise` (`cratermaker/components/surface/__init__.py`, lines 2423-2467).  The value of the simplex noise of an octave,
with its scaling and rotation, is a parameter.
-/

namespace Verif.Noise

noncomputable section

/-- `norm` after the loop, `surface/mod.rs` lines 438-446. -/
def norm (pers : ℝ) (octaves : ℕ) : ℝ := 1 / 2 + ((List.range octaves).map fun i => 1 / 2 * pers ^ i).sum

/-- The sum over the octaves at a point, `surface/mod.rs` lines 453-464; `simplex i p` is the value for octave `i`, lines 449-451. -/
def octaveSum {P : Type} (simplex : ℕ → P → ℝ) (pers : ℝ) (octaves : ℕ) (p : P) : ℝ :=
  ((List.range octaves).map fun i => simplex i p * pers ^ i).sum

/-- `turbulence_noise`, `surface/mod.rs` lines 422-471. -/
def turbulence {P : Type} (simplex : ℕ → P → ℝ) (height pers : ℝ) (octaves : ℕ) (ps : List P) : List ℝ :=
  ps.map fun p => octaveSum simplex pers octaves p * (height / norm pers octaves)

/-- The change of elevation made by `apply_noise`, `surface/__init__.py` lines 2440-2466: at the faces, of the given areas, followed by the nodes.  The height
is divided by the radius in line 2454. -/
def change {P : Type} (simplex : ℕ → P → ℝ) (height radius : ℝ) (octaves : ℕ) (areas : List ℝ) (ps : List P) : List ℝ :=
  Verif.SurfaceData.centred areas (turbulence simplex (height / radius) (1 / 2) octaves ps)

end

end Verif.Noise
