import Mathlib.Data.Nat.Notation

/-!
# Counts while craters are emplaced

Models when `Morphology.emplace` brings the count of craters up to date, and whether rims are measured then
(`cratermaker/components/morphology/__init__.py`, lines 709-737 and 755-757).  Simplification: the loop is run over the sizes of the batches, see
`Verif.Emplace` for the batches; counts made inside `compute_subpixel_degradation` (`basicmoon.py` lines 574-578) are left out, they get a copy of
the arguments and change none of what is modelled here.
-/

namespace Verif.Tallies

/-- One count: the number of craters formed before, and whether rims are measured. Belongs to `morphology/__init__.py` line 713. -/
structure Count where
  formed : ℕ
  rims : Bool
  deriving DecidableEq, Repr

/-- The state of the loop: craters formed, craters formed since the last count (`nacumulated`, `morphology/__init__.py` line 713), the argument `measure_rim` as far as it
is still there, and the counts made. -/
structure State where
  formed : ℕ
  since : ℕ
  rims : Option Bool
  counts : List Count

/-- One pass of the loop, `morphology/__init__.py` lines 712-736: the argument is taken out of the dictionary by the first count (line 734). -/
def step (counting : Bool) (s : State) (batch : ℕ) : State :=
  if counting = true ∧ 2000 ≤ s.since + batch then
    ⟨s.formed + batch, 0, none, s.counts ++ [⟨s.formed + batch, s.rims.getD false⟩]⟩
  else ⟨s.formed + batch, s.since + batch, s.rims, s.counts⟩

/-- The loop with the count at the end, `morphology/__init__.py` lines 756-757. -/
def counts (counting : Bool) (rims : Option Bool) (batches : List ℕ) : List Count :=
  let s := batches.foldl (step counting) ⟨0, 0, rims, []⟩
  if counting then s.counts ++ [⟨s.formed, s.rims.getD false⟩] else []

end Verif.Tallies
