import Mathlib.Analysis.SpecialFunctions.Log.Basic
import Mathlib.Analysis.SpecialFunctions.Trigonometric.Inverse
import Mathlib.Analysis.SpecialFunctions.Sqrt

/-!
Model of the random sampling functions: `cratermaker/utils/montecarlo_utils.py` and
`compute_time` of `cratermaker/components/production/__init__.py`.
A random draw `rng.uniform(...)` is a parameter, its documented half-open range a hypothesis.
-/

namespace Verif.Sampling

/-- `np.searchsorted(a, u, side="right")` for a sorted array: the number of entries `≤ u`. Belongs to `montecarlo_utils.py` lines 292-361. -/
noncomputable def searchRight (a : List ℝ) (u : ℝ) : ℕ :=
  open Classical in (a.takeWhile (fun x => decide (x ≤ u))).length

/-- `np.searchsorted(a, u)` (side "left") for a sorted array: the number of entries `< u`. Belongs to `montecarlo_utils.py` lines 72-108. -/
noncomputable def searchLeft (a : List ℝ) (u : ℝ) : ℕ :=
  open Classical in (a.takeWhile (fun x => decide (x < u))).length

/-! ## Sizes -/

/-- One entry of a tabulated size distribution: diameter and cumulative number. Belongs to `montecarlo_utils.py` line 323. -/
structure Entry where
  diam : ℝ
  num : ℝ

/-- Errors of `get_random_size`. Belongs to `montecarlo_utils.py` lines 292-361. -/
inductive SizeErr
  | value
  | index
  deriving DecidableEq

/-- The interpolation in logarithms, `montecarlo_utils.py:346-353`, and the noise, 359-360.
`n0` and `n1` are the logarithms of the normalised numbers. -/
noncomputable def interpolate (d0 d1 n0 n1 u r : ℝ) : ℝ :=
  Real.exp (Real.log d0 + (u - n0) / (n1 - n0) * (Real.log d1 - Real.log d0)) * (1 + 1e-8 * r)

/-- The normalised numbers, `montecarlo_utils.py:323`. -/
noncomputable def normalise (l : List Entry) : List ℝ :=
  l.map fun e => e.num / (l.getLast?.map Entry.num).getD 1

/-- `get_random_size` for one value, `montecarlo_utils.py:292-361`.  `sorted` is the table in the
order of `np.argsort(diameters)[::-1]`, `u` the uniform draw between the first and the last
normalised number, `r` the draw for the noise.  The checks of shapes are not modelled (an `Entry`
list has matching sizes); the order of the checks is. -/
noncomputable def randomSize (sorted : List Entry) (u r : ℝ) : Except SizeErr ℝ :=
  open Classical in
  if sorted.length < 2 then .error .value
  else if ∃ e ∈ sorted, e.diam ≤ 0 then .error .value
  else if ∃ e ∈ sorted, e.num ≤ 0 then .error .value
  else if ¬ sorted.IsChain (fun a b => a.num ≤ b.num) then .error .value
  else
    let logs := (normalise sorted).map Real.log
    let i := searchRight logs (Real.log u)
    match sorted[i - 1]?, sorted[i]?, logs[i - 1]?, logs[i]? with
    | some e0, some e1, some n0, some n1 =>
      .ok (interpolate e0.diam e1.diam n0 n1 (Real.log u) r)
    | _, _, _, _ => .error .index

/-! ## Times -/

/-- `np.linspace(time_end, time_start, num=n)[j]`, `production/__init__.py:306`. -/
noncomputable def grid (te ts : ℝ) (n j : ℕ) : ℝ := te + (ts - te) * j / (n - 1 : ℕ)

/-- `np.min(N_vs_age)`, `production/__init__.py:319` and 329. -/
noncomputable def gridMin (N : ℝ → ℝ) (te ts : ℝ) (n : ℕ) : ℝ :=
  (List.range n).foldr (fun j m => min (N (grid te ts n j)) m) (N (grid te ts n 0))

/-- The weights before normalisation, `production/__init__.py:318-330`: the number since each grid
time minus the smallest one. -/
noncomputable def rawWeight (N : ℝ → ℝ) (te ts : ℝ) (n j : ℕ) : ℝ :=
  N (grid te ts n j) - gridMin N te ts n

/-- `np.sum(N_vs_age)` over the entries kept (all but the last), `production/__init__.py` lines 320-321 and 330-331. -/
noncomputable def weightSum (N : ℝ → ℝ) (te ts : ℝ) (n : ℕ) : ℝ :=
  ((List.range (n - 1)).map (rawWeight N te ts n)).sum

/-- The cumulative sum of the normalised weights, `production/__init__.py` lines 322-325 and 332-334. -/
noncomputable def timeCdf (N : ℝ → ℝ) (te ts : ℝ) (n : ℕ) : List ℝ :=
  (List.range (n - 1)).map fun k =>
    ((List.range (k + 1)).map fun j => rawWeight N te ts n j / weightSum N te ts n).sum

/-- The chosen subinterval, `production/__init__.py` lines 339-350: `searchsorted(...) - 1` clipped to `[0, n - 2]`.
(Subtraction in ℕ is the clipping at 0.) -/
noncomputable def chosen (N : ℝ → ℝ) (te ts : ℝ) (n : ℕ) (u : ℝ) : ℕ :=
  min (searchRight (timeCdf N te ts n) u - 1) (n - 2)

/-- The time of one crater, `production/__init__.py` lines 352-354: uniform in the chosen subinterval. -/
noncomputable def drawTime (N : ℝ → ℝ) (te ts : ℝ) (n : ℕ) (u r : ℝ) : ℝ :=
  let j := chosen N te ts n u
  grid te ts n j + r * (grid te ts n (j + 1) - grid te ts n j)

/-- The number of grid points, `production/__init__.py` line 306. -/
def gridPoints : ℕ := 1000

/-- `compute_time`, `production/__init__.py` lines 286-362: one time per crater, sorted from oldest to youngest.  Each crater
has its own number function and draws. -/
noncomputable def computeTime (te ts : ℝ) (cs : List ((ℝ → ℝ) × ℝ × ℝ)) : List ℝ :=
  open Classical in
  (cs.map fun c => drawTime c.1 te ts gridPoints c.2.1 c.2.2).mergeSort
    (fun a b => decide (b ≤ a))

/-! ## Velocities -/

/-- The speed from three normal draws, `montecarlo_utils.py:413-418`. -/
noncomputable def speed (x y z : ℝ) : ℝ := Real.sqrt (x ^ 2 + y ^ 2 + z ^ 2)

/-- The branch `vmean > vescape`, `montecarlo_utils.py` lines 401-404, given the sampled encounter velocity. -/
noncomputable def withEscape (v vescape : ℝ) : ℝ := Real.sqrt (v ^ 2 + vescape ^ 2)

/-- One pass of the loop `montecarlo_utils.py` lines 407-411: the entries above the escape velocity are replaced in order by new
draws (`draws` has as many entries as there are to replace). -/
noncomputable def redraw (vesc : ℝ) : List ℝ → List ℝ → List ℝ
  | [], _ => []
  | v :: vs, ds =>
    open Classical in
    if v > vesc then
      match ds with
      | d :: ds => d :: redraw vesc vs ds
      | [] => v :: redraw vesc vs []
    else v :: redraw vesc vs ds

/-- The loop `montecarlo_utils.py` lines 406-411 with the new draws of each pass; `none`: it has not ended after these passes. -/
noncomputable def truncated (vesc : ℝ) : List ℝ → List (List ℝ) → Option (List ℝ)
  | _, [] => none
  | vs, ds :: rest =>
    let vs' := redraw vesc vs ds
    open Classical in
    if ∀ v ∈ vs', v < vesc then some vs' else truncated vesc vs' rest

/-! ## Impact angles and locations -/

/-- `get_random_impact_angle`, `montecarlo_utils.py:200-202`, in degrees. -/
noncomputable def impactAngle (u : ℝ) : ℝ := Real.arcsin (Real.sqrt u) * (180 / Real.pi)

/-- `get_random_location`, `montecarlo_utils.py:48-57`: longitude and latitude in degrees. -/
noncomputable def randomLocation (u v : ℝ) : ℝ × ℝ :=
  ((2 * Real.pi * u - Real.pi) * (180 / Real.pi),
   (Real.arccos (2 * v - 1) - Real.pi / 2) * (180 / Real.pi))

/-- A point in space. Belongs to `montecarlo_utils.py` line 95. -/
abbrev Vec := Fin 3 → ℝ

/-- `cross`, `montecarlo_utils.py:95`. -/
def crossV (a b : Vec) : Vec :=
  ![a 1 * b 2 - a 2 * b 1, a 2 * b 0 - a 0 * b 2, a 0 * b 1 - a 1 * b 0]

/-- `norm`. Belongs to `montecarlo_utils.py` lines 91-95. -/
noncomputable def normV (a : Vec) : ℝ := Real.sqrt (a 0 ^ 2 + a 1 ^ 2 + a 2 ^ 2)

/-- The area of the fan triangle `(0, j+1, j+2)`, `montecarlo_utils.py:91-95`. -/
noncomputable def fanArea (v0 v1 v2 : Vec) : ℝ := 0.5 * normV (crossV (v1 - v0) (v2 - v0))

/-- The fan triangles of a polygon, `montecarlo_utils.py:76-81`. -/
def fan : List Vec → List (Vec × Vec × Vec)
  | v0 :: rest => (rest.zip rest.tail).map fun p => (v0, p.1, p.2)
  | [] => []

/-- The cumulative normalised areas, `montecarlo_utils.py:96-97`. -/
noncomputable def cumAreas (areas : List ℝ) : List ℝ :=
  (List.range areas.length).map fun k => ((areas.take (k + 1)).map (· / areas.sum)).sum

/-- The point of a triangle, `montecarlo_utils.py:104-108`. -/
noncomputable def trianglePoint (t : Vec × Vec × Vec) (r1 r2 : ℝ) : Vec :=
  open Classical in
  let q1 := if r1 + r2 > 1 then 1 - r1 else r1
  let q2 := if r1 + r2 > 1 then 1 - r2 else r2
  (1 - q1 - q2) • t.1 + q1 • t.2.1 + q2 • t.2.2

/-- `_get_one_random_location`, `montecarlo_utils.py:72-108`; `none`: IndexError. -/
noncomputable def locationOnFace (nodes : List Vec) (r0 r1 r2 : ℝ) : Option Vec :=
  let tris := fan nodes
  let areas := tris.map fun t => fanArea t.1 t.2.1 t.2.2
  (tris[searchLeft (cumAreas areas) r0]?).map fun t => trianglePoint t r1 r2

end Verif.Sampling
