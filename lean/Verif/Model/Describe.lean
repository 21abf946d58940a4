import Mathlib.Data.Rat.Defs

/-! What the printed descriptions of craters and production functions say. -/

namespace Verif.Describe

/-- A line of a description; lengths are given as numbers, before they are written with a unit.  Belongs to `crater/__init__.py` lines 514-527 and
`production/__init__.py` lines 86-94. -/
inductive Line
  | /-- "Elliptical size a x b" and "Mean Diameter: d" -/ ellipse (a b d : ℚ)
  | /-- "Diameter: d" -/ diameter (d : ℚ)
  | /-- "Measured elliptical size a x b" and "Measured Mean Diameter: d" -/ measuredEllipse (a b d : ℚ)
  | /-- "Measured diameter: d" -/ measuredDiameter (d : ℚ)
  | /-- any other text -/ text (s : String)
deriving DecidableEq

/-- The sizes of a crater: semiaxes and measured semiaxes, and what the mean diameter of an ellipse is. Belongs to `crater/__init__.py` lines 514-527. -/
structure Sizes where
  major : ℚ
  minor : ℚ
  measuredMajor : Option ℚ
  measuredMinor : Option ℚ

/-- The size lines of `Crater.__str__`, `crater/__init__.py` lines 518-526.  `mean` is the mean diameter for two semiaxes. -/
def sizeLines (mean : ℚ → ℚ → ℚ) (c : Sizes) : List Line :=
  (if c.major = c.minor then [.diameter (mean c.major c.minor)] else [.ellipse c.major c.minor (mean c.major c.minor)]) ++
  match c.measuredMajor, c.measuredMinor with
  | some M, some m =>
    if M = c.major then []
    else if M = m then [.measuredDiameter (mean M m)] else [.measuredEllipse M m (mean M m)]
  | _, _ => []

/-- `Production.__str__`, `production/__init__.py` lines 86-94: the lines about prescribed craters, for the file and the number of craters, if any.  Line 91 is
written without the `f` that would put in the name of the file. -/
def prescribedLines (file : Option String) (number : Option ℕ) : List String :=
  (match file with
    | some _ => ["Quasi-Monte Carlo file: {self.quasimc_file}"]
    | none => []) ++
  match number with
  | some n => ["Number of quasi-Monte Carlo craters: " ++ toString n]
  | none => []

end Verif.Describe
