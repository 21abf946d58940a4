import Verif.Model.Parallel

/-!
Model of the volumes and the ejecta of a crater in double precision, `cratermaker/components/morphology/__init__.py` and
`cratermaker/components/surface/__init__.py`.  The rounding is a parameter: `Verif.Parallel.double`, or none.
-/

namespace Verif.EjectaDouble

/-- The order in which numbers of faces are added: any grouping of any order.  `numpy` adds in blocks, whose sums it adds
in pairs. Belongs to `surface/__init__.py` line 2717. -/
inductive Tree
  | face (f : ℕ)
  | add (l r : Tree)

/-- The faces that are added. Belongs to `surface/__init__.py` line 2717. -/
def Tree.faces : Tree → List ℕ
  | .face f => [f]
  | .add l r => l.faces ++ r.faces

/-- The number of additions that a summand can go through. Belongs to `surface/__init__.py` line 2717. -/
def Tree.depth : Tree → ℕ
  | .face _ => 0
  | .add l r => max l.depth r.depth + 1

/-- The sum, each addition rounded. Belongs to `surface/__init__.py` line 2717. -/
def Tree.eval (rnd : ℚ → ℚ) (x : ℕ → ℚ) : Tree → ℚ
  | .face f => x f
  | .add l r => rnd (l.eval rnd x + r.eval rnd x)

/-- `compute_volume`, `surface/__init__.py` line 2717. -/
def computeVolume (rnd : ℚ → ℚ) (t : Tree) (area e : ℕ → ℚ) : ℚ := t.eval rnd fun f => rnd (e f * area f)

/-- The factor of the ejecta, `morphology/__init__.py` lines 601 and 646-648. -/
def factor (rnd : ℚ → ℚ) (t : Tree) (area change thickness : ℕ → ℚ) : ℚ :=
  rnd (-computeVolume rnd t area change / computeVolume rnd t area fun f => max (thickness f) 0)

/-- The deposited ejecta, `morphology/__init__.py` lines 646-649. -/
def deposit (rnd : ℚ → ℚ) (t : Tree) (area change thickness : ℕ → ℚ) (f : ℕ) : ℚ :=
  rnd (max (thickness f) 0 * factor rnd t area change thickness)

/-- The elevations after the crater and its ejecta, `morphology/__init__.py` lines 598 and 658.  Simplification: without
slope collapse and diffusion, which are in `Verif.DiffusionDouble`. -/
def formed (rnd : ℚ → ℚ) (t : Tree) (area change thickness h : ℕ → ℚ) (f : ℕ) : ℚ :=
  rnd (rnd (h f + change f) + deposit rnd t area change thickness f)

end Verif.EjectaDouble
