import Verif.Model.Production
import Verif.Model.Sfd

/-!
Model of the version "Projectile" of the Neukum production function, `cratermaker/components/production/neukum.py` 397-519: its
polynomial gives R values, which `R_to_CSFD` (`cratermaker/components/counting/__init__.py` 1589-1632, `Model/Sfd.lean`) turns into
a cumulative number.  One diameter at a time; floats are real numbers.  Since `R_to_CSFD` need not end, a call is a relation between
the arguments and the value that is returned.
-/

namespace Verif.Projectile

open Verif.Production

/-- `csfd(diameter)` of an object of version `v` returns `N`, `neukum.py:505-519`.  `R_to_CSFD` is called without `Dlim`, so its
default `1e6` holds (`counting/__init__.py` 1592).  `k` are the constants of the object. -/
def Csfd (v : Version) (k : Neukum) (D N : ℝ) : Prop :=
  ¬ D < 0 ∧
  match v with
  | .projectile => ∃ M E, Sfd.Returns k.csfdKm (D * 1e-3) 1e6 M E ∧ N = M * 2.94e-5 * 1e3
  | _ => N = k.csfdKm (D * 1e-3) * 1e3

/-- `function(diameter, time_start, time_end)` returns `F`, `neukum.py:113-125`, for valid times. -/
def Function (v : Version) (k : Neukum) (D ts te F : ℝ) : Prop :=
  ∃ N, Csfd v k D N ∧ F = N * k.chronology ts te

end Verif.Projectile
