import Mathlib.Data.List.Sort
import Mathlib.Data.List.Dedup
import Mathlib.Order.Basic
import Mathlib.Algebra.Order.Ring.Rat

/-!
Model of the tag layers of the surface (`cratermaker/components/surface/__init__.py:2259-2358`) and of
the crater count built on them (`cratermaker/components/counting/__init__.py:151-412`).
-/

namespace Verif.Tags

/-- The tag variable on the surface: the layers of each face, 0 meaning empty (`np.zeros` of shape
(n_face, _N_TAG_LAYERS), `surface/__init__.py` line 2285).  Every face has the same number of layers. -/
abbrev Layers := ℕ → List ℕ

/-- `_N_TAG_LAYERS`, `surface/__init__.py` line 40. -/
def nLayers : ℕ := 8

/-- The reset branch of `add_tag` (`tag is None`, or a name not yet present), `surface/__init__.py` lines 2283-2301. -/
def cleared : Layers := fun _ => List.replicate nLayers 0

/-- `sort_tags` on the faces of a region, `surface/__init__.py` lines 2345-2358: each face's layers in descending order. -/
def sortTags (s : Layers) (region : List ℕ) : Layers := fun f =>
  if f ∈ region then (s f).mergeSort (fun a b => decide (b ≤ a)) else s f

/-- The first layer that is empty on all faces of the region, `surface/__init__.py` lines 2306-2310. -/
def freeLayer (s : Layers) (region : List ℕ) : Option ℕ :=
  (List.range nLayers).find? fun i => region.all fun f => (s f)[i]? == some 0

/-- `data[:, i] = tag` on the region, `surface/__init__.py` lines 2319-2321. -/
def setLayer (s : Layers) (region : List ℕ) (i tag : ℕ) : Layers := fun f =>
  if f ∈ region then (s f).set i tag else s f

/-- `LocalSurface.add_tag` with a tag, `surface/__init__.py` lines 2303-2321.  When no layer is free the tags are sorted and
the `break` in line 2314 leaves the outer loop, so that `insert_layer` is still -1, the last layer; the
warning and the use of the first layer in lines 2315-2318 are never reached. -/
def addTag (s : Layers) (region : List ℕ) (tag : ℕ) : Layers :=
  match freeLayer s region with
  | some i => setLayer s region i tag
  | none => setLayer (sortTags s region) region (nLayers - 1) tag

/-- `LocalSurface.remove_tag`, `surface/__init__.py` lines 2326-2343. -/
def removeTag (s : Layers) (region : List ℕ) (tag : ℕ) : Layers := fun f =>
  if f ∈ region then (s f).map fun t => if t = tag then 0 else t else s f

/-! ### The crater count -/

/-- A crater as the count sees it: id and diameter. Belongs to `counting/__init__.py` lines 213-218. -/
structure Crater where
  id : ℕ
  diameter : ℚ
deriving DecidableEq

/-- `Counting`: the tags on the surface, which has faces `0, ..., nFace - 1`, and `observed`, a dict
from id to crater in insertion order. Belongs to `counting/__init__.py` lines 220-225. -/
structure Count where
  nFace : ℕ
  tags : Layers
  observed : List Crater

/-- All faces. Belongs to `counting/__init__.py` lines 229-240. -/
def Count.faces (c : Count) : List ℕ := List.range c.nFace

/-- `id in self.surface.uxds.crater_id`, and `np.any(crater_id.data == id)`. Belongs to `counting/__init__.py` lines 220-225. -/
def Count.onSurface (c : Count) (id : ℕ) : Bool := c.faces.any fun f => (c.tags f).contains id

/-- `observed[crater.id] = crater`: replace in place or append. Belongs to `counting/__init__.py` lines 167-227. -/
def insert (obs : List Crater) (c : Crater) : List Crater :=
  if obs.any (fun o => o.id = c.id) then obs.map (fun o => if o.id = c.id then c else o) else obs ++ [c]

/-- `observed.pop(id, None)`. Belongs to `counting/__init__.py` lines 220-225. -/
def pop (obs : List Crater) (id : ℕ) : List Crater := obs.filter fun o => o.id ≠ id

/-- One round of the cookie cutting loop of `Counting.add`, `counting/__init__.py` lines 220-225. -/
def cutOne (rim : List ℕ) (c : Count) (id : ℕ) : Count :=
  let c' := { c with tags := removeTag c.tags rim id }
  if c'.onSurface id then c' else { c' with observed := pop c'.observed id }

/-- The loop over the ids to remove. Belongs to `counting/__init__.py` lines 167-227. -/
def cut (rim : List ℕ) : Count → List ℕ → Count
  | c, [] => c
  | c, id :: ids => cut rim (cutOne rim c id) ids

/-- The ids to remove, `counting/__init__.py` lines 213-218: observed craters with a tag in the rim interior that are smaller
than the new one. -/
def removes (c : Count) (rim : List ℕ) (new : Crater) : List ℕ :=
  (c.observed.filter fun o =>
    (o.id > 0 && rim.any fun f => (c.tags f).contains o.id) && decide (o.diameter < new.diameter)).map
      (·.id)

/-- `_MIN_FACE_FOR_COUNTING`, `counting/__init__.py` line 37. -/
def minFaces : ℕ := 100

/-- `Counting.add`, `counting/__init__.py` lines 167-227, for a crater with the given region and rim interior. -/
def add (c : Count) (new : Crater) (region rim : List ℕ) : Count :=
  if region.length < minFaces then c
  else
    let c1 := { c with tags := addTag c.tags region new.id }
    if c1.onSurface new.id then
      let c2 := { c1 with observed := insert c1.observed new }
      cut rim c2 (removes c2 rim new)
    else c1

/-- `Counting.remove`, `counting/__init__.py` lines 229-240. -/
def remove (c : Count) (id : ℕ) : Count :=
  { c with tags := removeTag c.tags c.faces id, observed := pop c.observed id }

/-- The loop that removes ids, `counting/__init__.py` lines 407-408. -/
def removeAll : Count → List ℕ → Count
  | c, [] => c
  | c, id :: ids => removeAll (remove c id) ids

/-- `np.unique(id_array[id_array > 0])`, `counting/__init__.py` line 360. -/
def idsOnSurface (c : Count) : List ℕ :=
  ((c.faces.flatMap c.tags).filter (· > 0)).dedup.mergeSort (fun a b => decide (a ≤ b))

/-- The ids that `tally` removes, `counting/__init__.py` lines 375-393; `hidden o` says that the degradation state measured
for the crater reaches its visibility limit (`Kd >= Kv`). -/
def toRemove (c : Count) (hidden : Crater → Bool) : List ℕ :=
  (idsOnSurface c).filter fun id =>
    match c.observed.find? (fun o => o.id = id) with
    | none => true
    | some o => hidden o

/-- `Counting.tally()` over the whole surface without rim measurement, `counting/__init__.py` lines 329-412.  Updates of the
measured attributes of the craters are left out. -/
def tally (c : Count) (hidden : Crater → Bool) : Count := removeAll c (toRemove c hidden)

/-- The options `fit_center` and `fit_ellipse` that `tally(measure_rim=True)` uses for each of its
craters, `counting/__init__.py` lines 383-386: they are popped from the keyword arguments inside the loop. -/
def rimOptions {α : Type} (fitCenter fitEllipse : Bool) : List α → List (α × Bool × Bool)
  | [] => []
  | a :: as => (a, fitCenter, fitEllipse) :: as.map fun b => (b, false, false)

end Verif.Tags
