import Mathlib.Data.List.Basic
import Mathlib.Data.Int.Basic
import Mathlib.Data.Int.Notation

/-!
# Pictures of crater counts

Models which craters `Counting.plot` (`cratermaker/components/counting/__init__.py`, lines 655-758) and `Counting.pyvista_plotter` (lines 804-935) show,
with `CratermakerBase.read_saved_output` (`cratermaker/core/base.py`, lines 264-293).  `C` is the type of craters.
-/

namespace Verif.CountPlot

/-- Exceptions. Belongs to `base.py` lines 268-288. -/
inductive Err
  | attribute
  | index
  | value
  | unbound
  deriving DecidableEq, Repr

/-- The saved lists of one kind, with the numbers of their intervals, in increasing order.  A list without craters is not saved
(`counting/__init__.py` line 486), so every list here has craters. -/
abbrev Saved (C : Type) := List (ℤ × List C)

/-- `read_saved_output(interval=k)` for one kind, `base.py` lines 268-288: `None` without files, an empty dataset for an interval not saved, and
for negative numbers the file counted from the end. Simplification: datasets are the lists of craters that `from_xarray` makes of them. -/
def read {C : Type} (fs : Saved C) (k : ℤ) : Except Err (Option (ℤ × List C)) :=
  if fs = [] then .ok none
  else if k < 0 then
    if -k ≤ fs.length then .ok fs[(fs.length + k).toNat]? else .error .index
  else .ok (fs.find? fun f => f.1 = k)

/-- `counting/__init__.py` lines 682-692: the list in memory is taken if the last interval saved for the kind is the one asked for. -/
def current {C : Type} (fs : Saved C) (now : List C) (k : ℤ) : Option (List C) :=
  if (fs.getLast?.map Prod.fst) = some k then some now else none

/-- `Counting.plot`, `counting/__init__.py` lines 679-708: the observed and the emplaced craters drawn. -/
def plot {C : Type} (obs emp : Saved C) (obsNow empNow : List C) : Option ℤ → Except Err (Option (List C) × Option (List C))
  | none => .ok (some obsNow, some empNow)
  | some k =>
    let o := current obs obsNow k
    let e := current emp empNow k
    if o.isSome && e.isSome then .ok (o, e)
    else
      match read obs k with
      | .error x => .error x
      | .ok ods =>
        match read emp k with
        | .error x => .error x
        | .ok eds =>
          let o' := match o with
            | some l => some l
            | none => ods.map Prod.snd
          match e, eds with
          -- line 700: `emplaced` is `None` there, the dataset is `emplaced_ds`
          | none, some _ => .error .attribute
          | e, _ => .ok (o', e)

/-! ### Three-dimensional views -/

/-- The argument `crater_type`. Belongs to `counting/__init__.py` line 841. -/
inductive Kind
  | observed
  | emplaced
  | both
  | craters
  deriving DecidableEq, Repr

/-- The argument `crater_color`: one colour or several. Belongs to `counting/__init__.py` lines 864-935. -/
inductive Colors
  | one (c : String)
  | many (cs : List String)

/-- What is drawn: craters, colour, and whether measured properties are used. Belongs to `counting/__init__.py` lines 925-926. -/
structure Actor (C : Type) where
  craters : List C
  color : String
  measured : Bool

/-- The actors of a plotter by name. Belongs to `counting/__init__.py` lines 925-926. -/
abbrev Scene (C : Type) := List (String × Actor C)

/-- `plotter.add_mesh(name=...)`: an actor of the same name is replaced. Belongs to `counting/__init__.py` lines 925-926. -/
def add {C : Type} (s : Scene C) (name : String) (a : Actor C) : Scene C := (s.filter fun x => x.1 ≠ name) ++ [(name, a)]

/-- `crater_type` in the name of the actor, `counting/__init__.py` line 841 (the argument of the call, not the name of the list drawn). -/
def Kind.text : Kind → String
  | .observed => "observed"
  | .emplaced => "emplaced"
  | .both => "both"
  | .craters => "craters"

/-- The styles drawn, `counting/__init__.py` lines 866 and 914-917. -/
def styles (interactive : Bool) (style : String) : List String := if interactive then ["rings", "points", "impacts", "spheres"] else [style]

/-- The inner loop, `counting/__init__.py` lines 925-926 with `_draw_craters`. -/
def drawAll {C : Type} (kind : Kind) (sts : List String) (a : Actor C) (s : Scene C) : Scene C :=
  sts.foldl (fun s st => add s (kind.text ++ "_" ++ st) a) s

/-- The loop over the kinds, `counting/__init__.py` lines 919-935, `zip` being strict: it raises when one list ends before the others. -/
def drawLists {C : Type} (kind : Kind) (sts : List String) : List (Option (List C) × Bool) → List String → Scene C → Except Err (Scene C)
  | [], [], s => .ok s
  | (l, m) :: ls, c :: cs, s =>
    drawLists kind sts ls cs (match l with | none => s | some l => drawAll kind sts ⟨l, c, m⟩ s)
  | _, _, _ => .error .value

/-- The lists by kind, `counting/__init__.py` lines 885-898: those in memory for `-1` and `None`, otherwise those saved for the interval. -/
def lists {C : Type} (obs emp : Saved C) (obsNow empNow : List C) (interval : Option ℤ) : Except Err (Option (List C) × Option (List C)) :=
  let k := interval.getD (-1)
  if k = -1 then .ok (some obsNow, some empNow)
  else
    match read obs k with
    | .error x => .error x
    | .ok o =>
      match read emp k with
      | .error x => .error x
      | .ok e => .ok (o.map Prod.snd, e.map Prod.snd)

/-- `Counting.pyvista_plotter`, `counting/__init__.py` lines 864-935, on a plotter with the actors `s₀`.
Simplification: drawing the surface itself (line 865) is left out. -/
def view {C : Type} (obs emp : Saved C) (obsNow empNow : List C) (interval : Option ℤ) (kind : Kind) (colors : Colors) (interactive : Bool)
    (style : String) (s₀ : Scene C) : Except Err (Scene C) :=
  if !interactive && !(["rings", "points", "impacts", "spheres"].contains style.toLower) then .error .value
  else
    let style := style.toLower
    match colors with
    | .many cs =>
      if kind = .both ∧ cs.length ≠ 2 then .error .value else go cs style
    | .one c => go [c] style
where
  /-- Lines 879-935. -/
  go (cs : List String) (style : String) : Except Err (Scene C) :=
    match kind with
    | .craters => .error .unbound
    | kind =>
      match lists obs emp obsNow empNow interval with
      | .error x => .error x
      | .ok (o, e) =>
        match kind with
        | .both => drawLists .both (styles interactive style) [(o, true), (e, false)] cs s₀
        | .observed =>
          match cs.head? with
          | none => .error .index
          | some c => drawLists .observed (styles interactive style) [(o, true)] [c] s₀
        | _ =>
          match cs.getLast? with
          | none => .error .index
          | some c => drawLists .emplaced (styles interactive style) [(e, false)] [c] s₀

/-- `update_crater_style`, `counting/__init__.py` lines 849-860: which of the styles are visible after the key. -/
def pressKey (vis : List Bool) : List Bool :=
  match vis.findIdx? id with
  | none => vis.set 0 true
  | some i => (vis.set i false).set (i + 1) true

end Verif.CountPlot
