import Mathlib.Data.Real.Basic
import Mathlib.Algebra.Order.Floor.Ring
import Mathlib.Algebra.Order.Archimedean.Real.Basic
import Mathlib.Data.List.Sort

/-!
Model of the selection of rim points in `score_rim` (`crates/cratermaker-components/src/counting/mod.rs`, lines 663-800)
and of `nanmax`, `nanmin` and `nanquantile` (lines 1325-1360).  The combined score of a face, lines 667-679, is an input:
`none` for NaN.  Floats are reals.
-/

namespace Verif.RimScore

/-- Number of sectors, `counting/mod.rs` lines 534-539. -/
def nSectors (n : ℕ) : ℕ := min (max (n / 100) 9) 18

/-- Index of the sector of a bearing, `counting/mod.rs` lines 696-704. -/
noncomputable def sector (ns : ℕ) (b : ℝ) : ℕ :=
  let idx := ⌊b / (360 / ns)⌋
  if idx < 0 then 0 else if idx ≥ ns then ns - 1 else idx.toNat

/-- The larger one of a value and the largest one so far. Belongs to `counting/mod.rs` lines 1325-1335. -/
noncomputable def maxOpt (acc : Option ℝ) (x : ℝ) : Option ℝ :=
  match acc with
  | none => some x
  | some m => some (max m x)

/-- The smaller one of a value and the smallest one so far. Belongs to `counting/mod.rs` lines 1337-1347. -/
noncomputable def minOpt (acc : Option ℝ) (x : ℝ) : Option ℝ :=
  match acc with
  | none => some x
  | some m => some (min m x)

/-- `nanmax`, `counting/mod.rs` lines 1325-1335, of the values that are not NaN. -/
noncomputable def nanmax (l : List ℝ) : Option ℝ := l.foldl maxOpt none

/-- `nanmin`, `counting/mod.rs` lines 1337-1347. -/
noncomputable def nanmin (l : List ℝ) : Option ℝ := l.foldl minOpt none

/-- `nanquantile`, `counting/mod.rs` lines 1349-1360. -/
noncomputable def nanquantile (l : List ℝ) (q : ℝ) : Option ℝ :=
  let vals := l.insertionSort (· ≤ ·)
  vals[min ⌊((l.length - 1 : ℕ) : ℝ) * max 0 (min q 1)⌋.toNat (l.length - 1)]?

/-- The values that are not NaN of the faces `0, ..., n - 1` for which `p` holds. Belongs to `counting/mod.rs` lines 685-709. -/
def valuesOf (n : ℕ) (score : ℕ → Option ℝ) (p : ℕ → Bool) : List ℝ :=
  (List.range n).filterMap fun i => if p i then score i else none

/-- First pass, `counting/mod.rs` lines 685-709: the largest score of a sector. -/
noncomputable def sectorMax (n : ℕ) (raw : ℕ → Option ℝ) (sec : ℕ → ℕ) (s : ℕ) : Option ℝ :=
  nanmax (valuesOf n raw fun i => sec i = s)

/-- A score as a fraction of the largest of its sector, `counting/mod.rs` lines 719-727. -/
noncomputable def normalise (m : Option ℝ) (v : ℝ) : Option ℝ :=
  match m with
  | none => none
  | some m => if 0 < m ∧ 0 < v then some (v / m) else none

/-- Second pass, `counting/mod.rs` lines 711-728. -/
noncomputable def normed (n : ℕ) (raw : ℕ → Option ℝ) (sec : ℕ → ℕ) (i : ℕ) : Option ℝ :=
  (raw i).bind (normalise (sectorMax n raw sec (sec i)))

/-- Is a score at least the threshold? Belongs to `counting/mod.rs` lines 730-757. -/
noncomputable def atLeast (t : Option ℝ) (v : Option ℝ) : Bool :=
  open Classical in
  match v with
  | none => false
  | some v => match t with
    | none => true
    | some t => decide (t ≤ v)

/-- Third pass, `counting/mod.rs` lines 730-757: is the face among the highest scores of its sector? -/
noncomputable def highInSector (n : ℕ) (score : ℕ → Option ℝ) (sec : ℕ → ℕ) (q : ℝ) (i : ℕ) : Bool :=
  atLeast (nanquantile (valuesOf n score fun j => sec j = sec i) q) (score i)

/-- The `k`-th largest score, `counting/mod.rs` lines 770-772. -/
noncomputable def kthLargest (n : ℕ) (score : ℕ → Option ℝ) (k : ℕ) : Option ℝ :=
  ((valuesOf n score fun _ => true).insertionSort (· ≥ ·))[k - 1]?

/-- Which faces are kept, `counting/mod.rs` lines 759-779. -/
noncomputable def kept (n : ℕ) (score : ℕ → Option ℝ) (sec : ℕ → ℕ) (q : ℝ) (i : ℕ) : Bool :=
  let need := 3 * nSectors n
  let high := ((List.range n).filter (highInSector n score sec q)).length
  let valid := (valuesOf n score fun _ => true).length
  if high < need then
    if valid < need then (score i).isSome
    else atLeast (kthLargest n score need) (score i)
  else highInSector n score sec q i

/-- Rescaling, `counting/mod.rs` lines 788-797. -/
noncomputable def rescale (lo hi : Option ℝ) (v : ℝ) : ℝ :=
  match lo, hi with
  | some lo, some hi => if 0 < hi - lo then (v - lo) / (hi - lo) else v
  | _, _ => v

/-- `score_rim` from `counting/mod.rs` line 681 on: the score of each face; `none` for NaN. -/
noncomputable def scoreRim (n : ℕ) (raw : ℕ → Option ℝ) (bearing : ℕ → ℝ) (q : ℝ) (i : ℕ) : Option ℝ :=
  let sec := fun j => sector (nSectors n) (bearing j)
  let score := normed n raw sec
  let k := kept n score sec q
  let vals := valuesOf n score k
  if k i then (score i).map (rescale (nanmin vals) (nanmax vals)) else none

end Verif.RimScore
