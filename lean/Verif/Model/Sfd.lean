import Mathlib.Analysis.SpecialFunctions.Pow.Real

/-!
Model of the conversions between size-frequency distributions at the end of `cratermaker/components/counting/__init__.py`
(`R_to_CSFD`, lines 1589-1632; `csfd_geometric_saturation` and `csfd_equilibrium`, lines 1635-1681).  Floats are real numbers.
-/

namespace Verif.Sfd

noncomputable section

/-- `integrand`, `counting/__init__.py` lines 1617-1618. -/
def integrand (R : ℝ → ℝ) (D : ℝ) : ℝ := R D / D ^ 3

/-- `D_next`, `counting/__init__.py` line 1623. -/
def next (D : ℝ) : ℝ := D * Real.sqrt 2

/-- What one turn of the loop adds, `counting/__init__.py` lines 1623-1627. -/
def bin (R : ℝ → ℝ) (D : ℝ) : ℝ := integrand R ((D + next D) / 2) * (next D - D)

/-- The `while` loop, `counting/__init__.py` lines 1622-1628, as a relation: started with `N` at `D` it ends with the pair (result, last `D_i`). -/
inductive Loop (R : ℝ → ℝ) (Dlim : ℝ) : ℝ → ℝ → ℝ × ℝ → Prop
  | stop (D N : ℝ) : ¬ D < Dlim → Loop R Dlim D N (N, D)
  | turn (D N : ℝ) (out : ℝ × ℝ) : D < Dlim → Loop R Dlim (next D) (N + bin R D) out → Loop R Dlim D N out

/-- `R_to_CSFD(R, D, Dlim)` for one diameter, `counting/__init__.py` lines 1615-1630: it returns `N`, having gone up to the diameter `E`. -/
def Returns (R : ℝ → ℝ) (D Dlim N E : ℝ) : Prop := Loop R Dlim D 0 (N, E)

/-- `csfd_geometric_saturation`, `counting/__init__.py` line 1656. -/
def saturation (D : ℝ) : ℝ := 1.54 * D ^ (-2 : ℤ)

/-- `csfd_equilibrium`, `counting/__init__.py` line 1681. -/
def equilibrium (D f : ℝ) : ℝ := f * saturation D

end

end Verif.Sfd
