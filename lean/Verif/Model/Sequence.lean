import Mathlib.Data.Rat.Cast.Order
import Mathlib.Algebra.Order.Field.Rat
import Mathlib.Data.List.Sort

/-!
Model of the times of prescribed craters with sequence numbers,
`Production._process_quasimc_craters` (`cratermaker/components/production/__init__.py`, lines 945-1246).  Floats are rational
numbers without rounding.  Everything about a crater that does not matter here is its position in the list.
-/

namespace Verif.Sequence

/-- Production metadata of a crater: a number per area, already converted to the standard diameter (`production/__init__.py` lines 998-1005), or a
time, each with its uncertainty, or nothing. -/
inductive Metadata
  | nothing
  | number (mean sig : ℚ)
  | time (mean sig : ℚ)
deriving DecidableEq

/-! ### Extents of the sequences -/

/-- The metadata of one sequence number, `production/__init__.py` lines 1076-1107: mean and uncertainty if any of its craters has metadata.  The
combination of several craters is in `Verif.Model.SequenceGroup`. -/
abbrev Group := Option (ℚ × ℚ)

/-- `np.interp` at `x` between the points of a list sorted by abscissa; `(x0, y0)` is the last point not above `x`. Belongs to `production/__init__.py` lines
1122-1126. -/
def interpFrom (x : ℚ) : ℚ × ℚ → List (ℚ × ℚ) → ℚ
  | (_, y0), [] => y0
  | (x0, y0), (x1, y1) :: pts => if x < x1 then y0 + (x - x0) * ((y1 - y0) / (x1 - x0)) else interpFrom x (x1, y1) pts

/-- The points with a value, `production/__init__.py` line 1124: those with metadata, and zero for the last number if it has none (lines 1114-1116). -/
def filled : List (ℚ × Group) → List (ℚ × ℚ)
  | [] => []
  | [(s, g)] => [(s, match g with | some (n, _) => n | none => 0)]
  | (s, some (n, _)) :: rest => (s, n) :: filled rest
  | (_, none) :: rest => filled rest

/-- Mean and uncertainty for each sequence number, `production/__init__.py` lines 1103-1126; `none` is the `ValueError` of lines 1110-1113. -/
def initial : List (ℚ × Group) → Option (List (ℚ × ℚ))
  | [] => some []
  | (_, none) :: _ => none
  | (s, some g) :: rest =>
    match filled ((s, some g) :: rest) with
    | [] => none
    | p :: pts => some (((s, some g) :: rest).map fun x =>
        match x.2 with
        | some g => g
        | none => (interpFrom x.1 p pts, 0))

/-- One of the ten rounds, first part, `production/__init__.py` lines 1130-1148; the first argument is the lower end of the previous sequence,
line 1137. -/
def spread : Option ℚ → List (ℚ × ℚ) → List (ℚ × ℚ)
  | _, [] => []
  | prev, (n, s) :: rest =>
    let lo := max (n - s) 0
    let hi := n + s
    let hi' := match prev with
      | none => hi
      | some pl => hi + (pl - hi) / 2
    let lo' := match rest with
      | [] => lo
      | (n', s') :: _ => max (lo + (n' + s' - lo) / 2) 0
    (if lo' > hi' then (hi', lo') else (lo', hi')) :: spread (some (max (n - s) 0)) rest

/-- `production/__init__.py` lines 1153-1159: the common boundary with the previous sequence. -/
def joinPrev : Option (ℚ × ℚ) → ℚ × ℚ → Option (ℚ × ℚ) × (ℚ × ℚ)
  | none, cur => (none, cur)
  | some p, cur => if cur.2 ≠ p.1 then (some ((p.1 + cur.2) / 2, p.2), (cur.1, (p.1 + cur.2) / 2)) else (some p, cur)

/-- `production/__init__.py` lines 1161-1167: the common boundary with the next sequence. -/
def joinNext (cur nxt : ℚ × ℚ) : (ℚ × ℚ) × (ℚ × ℚ) :=
  if cur.1 ≠ nxt.2 then (((cur.1 + nxt.2) / 2, cur.2), (nxt.1, (cur.1 + nxt.2) / 2)) else (cur, nxt)

/-- Second part of a round, `production/__init__.py` lines 1151-1167: the previous, the current and the following sequences. -/
def join : Option (ℚ × ℚ) → ℚ × ℚ → List (ℚ × ℚ) → List (ℚ × ℚ)
  | prev, cur, [] => (joinPrev prev cur).1.toList ++ [(joinPrev prev cur).2]
  | prev, cur, nxt :: rest =>
    (joinPrev prev cur).1.toList ++
      join (some (joinNext (joinPrev prev cur).2 nxt).1) (joinNext (joinPrev prev cur).2 nxt).2 rest

/-- A round, `production/__init__.py` lines 1130-1167. -/
def round (ns : List (ℚ × ℚ)) : List (ℚ × ℚ) :=
  match spread none ns with
  | [] => []
  | e :: es => join none e es

/-- Centre and half width of the extents, `production/__init__.py` lines 1169-1170. -/
def centres (es : List (ℚ × ℚ)) : List (ℚ × ℚ) := es.map fun e => ((e.1 + e.2) / 2, (e.2 - e.1) / 2)

/-- Do lower and upper ends decrease, `production/__init__.py` lines 1173-1178? -/
def decreasing : List (ℚ × ℚ) → Bool
  | [] => true
  | [_] => true
  | a :: b :: rest => decide (b.1 ≤ a.1) && decide (b.2 ≤ a.2) && decreasing (b :: rest)

/-- The loop `production/__init__.py` lines 1129-1178 with `k + 1` rounds left. -/
def loop : ℕ → List (ℚ × ℚ) → List (ℚ × ℚ)
  | 0, ns => round ns
  | k + 1, ns => if decreasing (round ns) then round ns else loop k (centres (round ns))

/-- `_get_sequence_extents`, `production/__init__.py` lines 1050-1180. -/
def extents (groups : List (ℚ × Group)) : Option (List (ℚ × ℚ)) := (initial groups).map (loop 9)

/-! ### Times -/

/-- `age_from_D_N` at the standard diameter and the draws of `bounded_norm` (location, scale, bounds). Belongs to `production/__init__.py` lines 960-1029. -/
structure Draws where
  age : ℚ → ℚ
  normal : ℚ → ℚ → ℚ → ℚ → ℚ

/-- `production/__init__.py` lines 969-972 and 975-978: half width of an interval, none of it if relatively tiny; `none` is the `ZeroDivisionError` of line 971 or
977 (Python floats). -/
def halfWidth (lo hi : ℚ) : Option ℚ :=
  if (lo + hi) / 2 = 0 then none
  else some (if (hi - lo) / 2 / ((lo + hi) / 2) < 1 / 1000000000000 then 0 else (hi - lo) / 2)

/-- `_draw_quasimc_time` with sequence extents, `production/__init__.py` lines 960-1029. -/
def drawTime (d : Draws) (e : ℚ × ℚ) (m : Metadata) : Option ℚ :=
  let nlo := max e.1 0
  let nhi := e.2
  match halfWidth nlo nhi with
  | none => none
  | some nsig =>
    match halfWidth (d.age nlo) (d.age nhi) with
    | none => none
    | some tsig => some <|
      match m with
      | .nothing =>
        d.age (max (if nsig > 0 then d.normal ((nlo + nhi) / 2) nsig nlo nhi else (nlo + nhi) / 2) 0)
      | .number mean sig =>
        d.age (max 0 (if sig > 0 ∧ nsig > 0 then d.normal mean sig nlo nhi else max (min mean nhi) nlo))
      | .time mean sig =>
        if sig > 0 ∧ tsig > 0 then d.normal mean sig (d.age nlo) (d.age nhi)
        else max (min mean (d.age nhi)) (d.age nlo)

/-- The times drawn for the craters of a sequence number. Belongs to `production/__init__.py` lines 1222-1224. -/
def drawGroup (d : Draws) (e : ℚ × ℚ) : List Metadata → Option (List ℚ)
  | [] => some []
  | m :: ms =>
    match drawTime d e m with
    | none => none
    | some t => (drawGroup d e ms).map (t :: ·)

/-- The times drawn for all sequence numbers, `production/__init__.py` lines 1222-1224. -/
def drawAll (d : Draws) : List (ℚ × ℚ) → List (List Metadata) → Option (List (List ℚ))
  | e :: es, g :: gs =>
    match drawGroup d e g with
    | none => none
    | some ts => (drawAll d es gs).map (ts :: ·)
  | _, _ => some []

/-- Does every time of the first list reach every time of the second, `production/__init__.py` lines 1042-1048 (least against largest)? -/
def notBefore (a b : List ℚ) : Bool := a.all fun x => b.all fun y => decide (y ≤ x)

/-- The comparison of neighbours, `production/__init__.py` lines 1041-1048. -/
def neighbours : List (List ℚ) → Bool
  | a :: b :: rest => notBefore a b && neighbours (b :: rest)
  | _ => true

/-- `_sequence_is_consistent`, `production/__init__.py` lines 1031-1048.  Line 1040 takes the last sequence number out before the comparison. -/
def consistent (times : List (List ℚ)) : Bool := neighbours times.dropLast

/-- Outcome of processing. Belongs to `production/__init__.py` lines 1204-1228. -/
inductive Outcome
  | /-- `ValueError`: nothing anchors the first sequence number. -/ unanchored
  | /-- `ZeroDivisionError`. -/ divisionByZero
  | /-- `RuntimeError`: the order could not be satisfied. -/ inconsistent
  | times (ts : List (List ℚ))
deriving DecidableEq

/-- The part of `_process_quasimc_craters` for craters with sequence numbers, `production/__init__.py` lines 1204-1228.  `groups` are the sequence
numbers in increasing order with the combined metadata of their craters, `craters` the metadata of the single craters. -/
def process (d : Draws) (groups : List (ℚ × Group)) (craters : List (List Metadata)) : Outcome :=
  match extents groups with
  | none => .unanchored
  | some es =>
    match drawAll d es craters with
    | none => .divisionByZero
    | some ts => if consistent ts then .times ts else .inconsistent

/-! ### Side effect on the size range -/

/-- `production/__init__.py` lines 1232-1243: the upper end of `diameter_range` after processing craters of the given diameters. -/
def upperEnd (hi : ℚ) : List ℚ → ℚ
  | [] => hi
  | d :: ds => upperEnd (min hi d) ds

/-- The setter of `quasimc_craters`, `production/__init__.py` lines 1322-1329, as far as the upper end of `diameter_range` is concerned. -/
def assign (hi : ℚ) (diameters : List ℚ) : ℚ :=
  match diameters with
  | [] => hi
  | d :: ds => upperEnd hi (d :: ds)

end Verif.Sequence
