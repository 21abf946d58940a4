import Mathlib.Data.Real.Basic
import Mathlib.Data.List.ReduceOption

/-!
# Options of a plot: colours, figures and line styles

Models `LocalSurface.plot` (`cratermaker/components/surface/__init__.py:3335-3562`) and `Surface.plot` (lines 839-907) beyond what
`Verif.Model.Plot` covers: the colours of the values, the file that is written and the figure that is closed; and the styles of the outlines
in `Counting.plot` (`cratermaker/components/counting/__init__.py:722-758`).  Matplotlib is modelled by the list of its open figures, the
current one first, and by what has been drawn on each of them; a set of axes is told by the number of its figure.  Colours are positions
between 0 and 1 on the colour map.  The shading of hills, the interpolation between pixels and the windows of `plt.show` are left out.
-/

namespace Verif.PlotOptions

/-- The open figures of matplotlib, the current one first, and what is drawn on each.  Belongs to `surface/__init__.py` lines 3475-3477 and
3555-3559. -/
structure Screen (P : Type) where
  /-- The numbers of the open figures; the first one is the current figure. -/
  figures : List ℕ
  /-- What has been drawn on a figure, in order. -/
  drawn : ℕ → List P

/-- `plt.subplots`, `surface/__init__.py` lines 3475-3477: a new empty figure with the next number becomes the current one. -/
def Screen.new {P : Type} (s : Screen P) : Screen P × ℕ :=
  let k := s.figures.foldr max 0 + 1
  ({ figures := k :: s.figures, drawn := fun i => if i = k then [] else s.drawn i }, k)

/-- Drawing on the axes of a figure, `surface/__init__.py` line 3489 and the following: the current figure stays the same. -/
def Screen.draw {P : Type} (s : Screen P) (f : ℕ) (p : P) : Screen P :=
  { s with drawn := fun i => if i = f then s.drawn i ++ [p] else s.drawn i }

/-- What `plt.savefig` writes, `surface/__init__.py` line 3555: the current figure (an empty one if none is open; the figure made for this
is left out). -/
def Screen.current {P : Type} (s : Screen P) : List P :=
  match s.figures with
  | [] => []
  | f :: _ => s.drawn f

/-- `plt.close()`, `surface/__init__.py` lines 3558-3559: the current figure is closed. -/
def Screen.close {P : Type} (s : Screen P) : Screen P := { s with figures := s.figures.tail }

/-- The arguments of a plot that say where it is drawn and what becomes of it, `surface/__init__.py` lines 3335-3349. -/
structure Ask where
  /-- The file the user names. -/
  filename : Option String := none
  /-- The figure of the axes the user gives. -/
  ax : Option ℕ := none
  save : Bool := false
  «show» : Bool := true
  /-- `close_when_done`. -/
  close : Option Bool := none

/-- `LocalSurface.plot`, `surface/__init__.py` lines 3415-3416, 3475-3477 and 3542-3559: the figures afterwards, and the file that is
written, with its name and what it shows.  `standard` is the name made of the style, the variable and the interval. -/
def plotLocal {P : Type} (standard : String) (s : Screen P) (a : Ask) (p : P) : Screen P × Option (String × List P) :=
  let closeWhenDone := a.close.getD (a.save && !a.show)
  let sf := match a.ax with
    | none => s.new
    | some f => (s, f)
  let s := sf.1.draw sf.2 p
  let file := if a.save then some (standard, s.current) else none
  (if closeWhenDone && (a.save || a.show) then s.close else s, file)

/-- `Surface.plot`, `surface/__init__.py` lines 892-907: all arguments but `close_when_done` are handed on. -/
def plotSurface {P : Type} (standard : String) (s : Screen P) (a : Ask) (p : P) : Screen P × Option (String × List P) :=
  plotLocal standard s { a with close := none } p

/-- The limits of the colours, `surface/__init__.py` lines 3426-3428: those the user gives, or the smallest and largest value of the raster
(`none` in the raster: no data).  `none` if there is no value to take. -/
noncomputable def limits (raster : List (Option ℝ)) (vmin vmax : Option ℝ) : Option (ℝ × ℝ) :=
  match vmin <|> raster.reduceOption.min?, vmax <|> raster.reduceOption.max? with
  | some a, some b => some (a, b)
  | _, _ => none

/-- The place on the colour map of a value in a map, `surface/__init__.py` lines 3464-3468 and 3489: `Normalize` of matplotlib, which gives
zero for equal limits; the colour map gives the colours of its ends beyond them.  Limits in the wrong order, for which `Normalize` raises, are
left out. -/
noncomputable def mapColour (a b v : ℝ) : ℝ := if a = b then 0 else max 0 (min 1 ((v - a) / (b - a)))

/-- The place on the colour map of a value laid over a hillshade, `surface/__init__.py` line 3449: `np.clip` of the quotient.  `none` is NaN,
which has no colour; for equal limits the quotient is NaN for the limit itself and infinite for other values. -/
noncomputable def overlayColour (a b v : ℝ) : Option ℝ :=
  if a = b then (if v = a then none else if v < a then some 0 else some 1) else some (max 0 (min 1 ((v - a) / (b - a))))

/-- The value that the colour bar states at a place, `surface/__init__.py` lines 3536-3540. -/
noncomputable def colourBar (a b x : ℝ) : ℝ := a + x * (b - a)

/-- The options for outlines of craters, `counting/__init__.py` lines 726-729, 736-739 and 746-749. -/
structure Lines where
  facecolor : Option String := none
  linewidth : Option ℝ := none
  linestyle : Option String := none

/-- The kinds of outlines, `counting/__init__.py` lines 722-750, in the order in which they are drawn. -/
inductive Kind | emplaced | original | observed
  deriving DecidableEq

/-- The line style of a kind if none is given, `counting/__init__.py` lines 729, 739 and 749. -/
def Kind.style : Kind → String
  | .emplaced => "solid"
  | .original => ":"
  | .observed => "solid"

/-- How the outlines of a kind are drawn. Belongs to `counting/__init__.py` lines 730, 740 and 750. -/
structure Drawn where
  kind : Kind
  facecolor : String
  linewidth : ℝ
  linestyle : String

/-- The style of a kind with the options that are left, `counting/__init__.py` lines 726-730, 736-740 and 746-750. -/
noncomputable abbrev styled (o : Lines) (k : Kind) : Drawn :=
  ⟨k, o.facecolor.getD "none", o.linewidth.getD 0.1, o.linestyle.getD k.style⟩

/-- The outlines of a plot, `counting/__init__.py` lines 722-750: for the kinds that are drawn, in their order, the options are taken out of
the arguments (`kwargs.pop`), so that the next kind finds none. -/
noncomputable def outlines (o : Lines) : List Kind → List Drawn
  | [] => []
  | k :: ks => styled o k :: outlines {} ks

end Verif.PlotOptions
