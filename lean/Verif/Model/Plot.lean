import Mathlib.Algebra.Order.Archimedean.Real.Basic
import Mathlib.Analysis.Real.Sqrt
import Mathlib.Analysis.SpecialFunctions.Trigonometric.Basic
import Mathlib.Analysis.InnerProductSpace.PiL2

/-!
# Pictures of a surface

Models `LocalSurface.plot` (`cratermaker/components/surface/__init__.py:3335-3562`), `to_raster` (lines 3071-3153, called by
`Surface.to_raster`, line 762), and from `pyvista_plotter` the position of the camera (lines 3671-3690) and the key that
cycles through the variables (lines 3613-3656).

Left out: colours, fonts and what matplotlib, rasterio and pyvista make of their arguments.  Burning shapes into a raster is
modelled by what rasterio documents: later shapes replace earlier ones.
-/

namespace Verif.Plot

/-! ### Which state is shown -/

/-- `read_saved_output(interval=k)` (`cratermaker/core/base.py`, lines 248-294) for saved states in increasing order of their numbers;
names of files are left out. -/
def readState {D : Type} (fs : List (ℤ × D)) (k : ℤ) : Option (ℤ × D) :=
  if k < 0 then (if (-k).toNat ≤ fs.length then fs[fs.length - (-k).toNat]? else none)
  else (fs.lookup k).map fun d => (k, d)

/-- The state that is drawn, `surface/__init__.py` lines 3398-3404, with the number for the name of the file (lines 3542-3553): `none` when an error is
raised (no saved states for a given interval: IndexError; no such interval: AttributeError). -/
def shown {D : Type} (current : D) (fs : List (ℤ × D)) : Option ℤ → Option (Option ℤ × D)
  | none => some (none, current)
  | some k =>
    match fs.getLast? with
    | none => none
    | some last =>
      if k = last.1 then some (some k, current)
      else (readState fs k).map fun p => (some p.1, p.2)

/-! ### The size of the picture -/

/-- The resolution, `surface/__init__.py` lines 3472-3480: the variable `dpi` is only set if a minimum width is given, and always read (`none`:
UnboundLocalError). -/
noncomputable def dpi (minimum : Option ℝ) (width : ℝ) : Option ℝ := minimum.map fun m => max m width

/-! ### The scale bar -/

/-- The lengths a scale bar may have, in metres, `surface/__init__.py` line 3498. -/
def nice : List ℕ := [1, 10, 100, 200, 500, 1000, 2000, 5000, 10000, 20000, 50000, 100000]

/-- The length of the scale bar, `surface/__init__.py` lines 3495-3499: `none` if no value fits (ValueError of `max`). -/
noncomputable def scaleLength (xmax : ℝ) : Option ℕ :=
  open scoped Classical in (nice.filter fun (n : ℕ) => (n : ℝ) ≤ xmax / 2 / Real.sqrt 2).max?

/-- A rectangle: left, bottom, width and height. Belongs to `surface/__init__.py` lines 3500-3508. -/
structure Rect where
  x : ℝ
  y : ℝ
  w : ℝ
  h : ℝ

/-- The bar, `surface/__init__.py` lines 3500-3508. -/
noncomputable def bar (xmin xmax ymin ymax : ℝ) (len : ℕ) : Rect :=
  let height : ℝ := 0.2 * len
  ⟨xmax - len + xmin * 0.05, -(ymax - height + ymin * 0.05), len, height⟩

/-- The text at the bar, `surface/__init__.py` line 3501: a whole number and a unit. -/
def barText (len : ℕ) : ℕ × String := if len < 1000 then (len, "m") else (len / 1000, "km")

/-! ### Rasters -/

/-- The argument of `LocalSurface.to_raster`: nothing, an array on the faces, or (from `Surface.to_raster`) a name. Belongs to `surface/__init__.py` lines 3106-3142. -/
inductive RasterArg where
  | none
  | array (v : ℕ → Option ℝ)
  | name (s : String)

/-- The shapes that are drawn, `surface/__init__.py` lines 3106-3142: for each face that is not dropped its number and value, if that is a finite number
(`none` otherwise).  `periodic` says whether a face crosses the antimeridian; these are dropped for a whole surface (line 3112).
A name has no method `to_geodataframe`: AttributeError. -/
def shapes (n : ℕ) (isGlobal : Bool) (periodic : ℕ → Bool) (elevation : ℕ → Option ℝ) : RasterArg → Option (List (ℕ × ℝ))
  | .name _ => none
  | .array v => some ((List.range n).filterMap fun f => if isGlobal && periodic f then Option.none else (v f).map fun x => (f, x))
  | .none => some ((List.range n).filterMap fun f => if isGlobal && periodic f then Option.none else (elevation f).map fun x => (f, x))

/-- `rasterize`, `surface/__init__.py` lines 3145-3152: the value of a pixel is that of the last shape that touches it (`all_touched`), or no number. -/
def burn {P : Type} (touches : ℕ → P → Bool) (l : List (ℕ × ℝ)) (p : P) : Option ℝ :=
  l.foldl (fun acc s => if touches s.1 p then some s.2 else acc) none

/-- `Surface.to_raster`, `surface/__init__.py` line 762: the name of the variable is passed on. -/
def surfaceRaster (n : ℕ) (periodic : ℕ → Bool) (elevation : ℕ → Option ℝ) (variableName : String) : Option (List (ℕ × ℝ)) :=
  shapes n true periodic elevation (.name variableName)

/-! ### The view in three dimensions -/

/-- Points of space. Belongs to `surface/__init__.py` lines 3677-3689. -/
abbrev Space := EuclideanSpace ℝ (Fin 3)

/-- The position of the camera over a region, `surface/__init__.py` lines 3677-3689: `view` is the angle of view in radians, `region` the radius of the
region, `body` that of the body, `centre` the centre of the face at the centre of the region. -/
noncomputable def camera (view region body : ℝ) (centre : Space) : Space :=
  let d := 1.2 * region / Real.tan (view / 2)
  (1 + d / body) • centre

/-! ### Cycling through the variables -/

/-- What is shown when the key is pressed, `surface/__init__.py` lines 3613-3656: `none` is the plain surface.  `vars` are the names of the variables on the
faces, sorted; the list of names has the empty name in front (lines 3621-3626).  The outer `none` is an IndexError. -/
def press (vars : List String) : Option String → Option (Option String)
  | none => (vars[0]?).map some
  | some v =>
    let names := "" :: vars
    let idx := names.idxOf v + 1
    let idx := if idx = names.length then 0 else idx
    (names[idx]?).map fun s => if s = "" then none else some s

end Verif.Plot
