import Verif.Model.Sequence

/-!
Model of how the production metadata of the craters with the same sequence number are combined,
`Production._process_quasimc_craters` (`cratermaker/components/production/__init__.py`, lines 1076-1107), and of the whole processing of prescribed
craters with sequence numbers.  Floats are rational numbers without rounding; the square root is a parameter.
-/

namespace Verif.Sequence

/-- Number and uncertainty that a crater contributes to its sequence number, `production/__init__.py` lines 1080-1102; `num` is the number of craters of
the standard diameter made since a time.  Numbers are already converted to the standard diameter. -/
def contribution (num : ℚ → ℚ) : Metadata → Option (ℚ × ℚ)
  | .nothing => none
  | .number mean sig => some (mean, sig)
  | .time mean sig =>
    let lo := num (max (mean - sig) 0)
    let hi := num (mean + sig)
    some ((hi + lo) / 2, (hi - lo) / 2)

/-- The metadata of one sequence number, `production/__init__.py` lines 1076-1107: the mean of the numbers, and the root of the sum of the squared
uncertainties divided by how many there are. -/
def combine (num root : ℚ → ℚ) (ms : List Metadata) : Group :=
  let l := ms.filterMap (contribution num)
  if l = [] then none
  else some ((l.map Prod.fst).sum / l.length, root ((l.map fun x => x.2 ^ 2).sum) / l.length)

/-- `_process_quasimc_craters`, `production/__init__.py` lines 1194-1228, for craters with sequence numbers: the sequence numbers in increasing order,
each with the metadata of its craters. -/
def processCraters (d : Draws) (num root : ℚ → ℚ) (l : List (ℚ × List Metadata)) : Outcome :=
  process d (l.map fun x => (x.1, combine num root x.2)) (l.map Prod.snd)

end Verif.Sequence
