import Mathlib.Data.Nat.Notation
import Mathlib.Data.List.Basic

/-!
# The keys of the three-dimensional view of a simulation

Models `Simulation.pyvista_plotter` (`cratermaker/core/simulation.py:1166-1275`) with the parts of `Counting.pyvista_plotter`
(`cratermaker/components/counting/__init__.py:848-935`) and `Surface.pyvista_plotter` (`components/surface/__init__.py:3692-3770`) that put
actors into an interactive view, and `update_pyvista_help_message` (`cratermaker/utils/general_utils.py:423-469`): which actors there are,
which of them are visible, and which actors each key acts on.  PyVista calls every function that was added for a key, in order.  One kind of
craters is asked for; what the actors show is left out (`Verif.Model.CountPlot`), and so are the keys for the camera and the variables.
-/

namespace Verif.ViewKeys

/-- What an actor shows. Belongs to `general_utils.py` line 464, `simulation.py` line 1259, `counting/__init__.py` line 843 and
`surface/__init__.py` line 3758. -/
inductive What
  | surface
  | craters (style : ℕ)
  | label
  | help
  deriving DecidableEq

/-- The keys for the help text, the label and the craters. Belongs to `general_utils.py` line 467, `simulation.py` line 1268 and
`counting/__init__.py` line 933. -/
inductive Key
  | h
  | l
  | c
  deriving DecidableEq

/-- A plotter: the actors that are in it, which actors are visible, the actors that each added key acts on, and the number of the next
actor.  Belongs to `simulation.py` lines 1240-1275. -/
structure Plotter where
  shown : List (What × ℕ)
  vis : ℕ → Bool
  keys : List (Key × List ℕ)
  next : ℕ

/-- `add_actor`, `add_mesh` and `add_text`, `simulation.py` lines 1259-1261, `counting/__init__.py` lines 843 and 925-929. -/
def Plotter.add (p : Plotter) (w : What) (v : Bool) : Plotter :=
  { p with shown := p.shown ++ [(w, p.next)], vis := fun i => if i = p.next then v else p.vis i, next := p.next + 1 }

/-- `update_pyvista_help_message`, `general_utils.py` lines 439-469: a help text that is there is replaced by a new one, which is not visible
at first, and the key `h` acts on the new one, too. -/
def Plotter.addHelp (p : Plotter) : Plotter :=
  let q := Plotter.add { p with shown := p.shown.filter fun a => a.1 ≠ What.help } What.help false
  { q with keys := p.keys ++ [(Key.h, [p.next])] }

/-- The actors of the craters, one for each of the four styles, none of them visible, `counting/__init__.py` lines 923-933; in a new view the
key is added. -/
def Plotter.addCraters (p : Plotter) (new : Bool) : Plotter :=
  let q := (((p.add (.craters 0) false).add (.craters 1) false).add (.craters 2) false).add (.craters 3) false
  if new then { q.addHelp with keys := q.addHelp.keys ++ [(Key.c, [p.next, p.next + 1, p.next + 2, p.next + 3])] } else q

/-- `Simulation.pyvista_plotter`, `simulation.py` lines 1240-1275, for a new or a given plotter; `label`: a label is shown, `craters`: there
are craters for the interval. -/
def build (new label craters : Bool) (p : Plotter) : Plotter :=
  let p := p.add .surface true
  let p := if new then p.addHelp else p
  let p := if craters then p.addCraters new else p
  let k := p.next
  let p := if label then p.add .label true else p
  if new then
    let p := if label then { p.addHelp with keys := p.addHelp.keys ++ [(Key.l, [k])] } else p
    p.addHelp.addHelp
  else p

/-- A new view, `simulation.py` lines 1235-1275. -/
def opened (label craters : Bool) : Plotter := build true label craters ⟨[], fun _ => false, [], 0⟩

/-- `toggle_pyvista_actor`, `general_utils.py` lines 414-420. -/
def toggle (ids : List ℕ) (vis : ℕ → Bool) : ℕ → Bool := fun i => if i ∈ ids then !vis i else vis i

/-- Making the first of the actors visible. Belongs to `counting/__init__.py` lines 855-856. -/
def showFirst (ids : List ℕ) (vis : ℕ → Bool) : ℕ → Bool :=
  match ids with
  | [] => vis
  | j :: _ => fun i => if i = j then true else vis i

/-- `update_crater_style`, `counting/__init__.py` lines 848-858: the first visible actor is hidden and the one after it is shown, if there is
one; if none is visible the first is shown. -/
def cycle (ids : List ℕ) (vis : ℕ → Bool) : ℕ → Bool :=
  match ids.dropWhile fun i => !vis i with
  | [] => showFirst ids vis
  | j :: rest => showFirst rest fun i => if i = j then false else vis i

/-- What one function that was added for a key does, `general_utils.py` line 467, `simulation.py` line 1268, `counting/__init__.py`
line 933. -/
def act : Key → List ℕ → (ℕ → Bool) → ℕ → Bool
  | .c => cycle
  | _ => toggle

/-- Pressing a key: all functions that were added for it are called, in order.  Belongs to `general_utils.py` line 467, `simulation.py` line
1268 and `counting/__init__.py` line 933. -/
def press (p : Plotter) (k : Key) : Plotter :=
  { p with vis := (p.keys.filter fun b => b.1 = k).foldl (fun vis b => act k b.2 vis) p.vis }

/-- What happens to a view: one of the keys, or one of the arrow keys (`craters`: there are craters for the interval it leads to).  Belongs
to `simulation.py` lines 1265-1273. -/
inductive Event
  | key (k : Key)
  | arrow (craters : Bool)

/-- `update_interval`, `simulation.py` lines 1232-1237: all actors are removed and those of the interval are put into the given plotter, with
the label that is the default. -/
def step (p : Plotter) : Event → Plotter
  | .key k => press p k
  | .arrow craters => build false true craters { p with shown := [] }

/-- A history of a view. Belongs to `simulation.py` lines 1265-1273. -/
def run (p : Plotter) (es : List Event) : Plotter := es.foldl step p

/-- What is to be seen in a view. Belongs to `simulation.py` line 1235. -/
def picture (p : Plotter) : List What := (p.shown.filter fun a => p.vis a.2).map (·.1)

end Verif.ViewKeys
