import Verif.Model.Emplace

/-!
Model of what the craters of a batch do to the surface and to the count, `cratermaker/components/morphology/__init__.py` lines 575-666 and
709-737, `basicmoon.py` lines 246-302, `surface/__init__.py` lines 2130-2420 and `counting/__init__.py` lines 167-227: each step reads the
mesh data on the faces and nodes of one region and writes them there.  What the steps compute is left open.
-/

namespace Verif.Batch

/-- The faces and nodes of a region. Belongs to `surface/__init__.py` lines 4441-4460. -/
structure Region where
  faces : Finset ℕ
  nodes : Finset ℕ

/-- The mesh data that forming craters reads and changes: elevations of faces and of nodes, and the thickness of ejecta on faces. Belongs to `surface/__init__.py`
lines 4441-4460. -/
@[ext] structure Ground where
  face : ℕ → ℝ
  node : ℕ → ℝ
  ejecta : ℕ → ℝ

/-- What a region shows of the data (`LocalSurface.uxds`, `surface/__init__.py` lines 4441-4460): its own faces and nodes. -/
noncomputable def Region.view (r : Region) (g : Ground) : Ground where
  face f := if f ∈ r.faces then g.face f else 0
  node n := if n ∈ r.nodes then g.node n else 0
  ejecta f := if f ∈ r.faces then g.ejecta f else 0

/-- `add_data` and `update_elevation` of a region (`surface/__init__.py` lines 2130-2250), with the values `new`: written at its faces and nodes only. -/
noncomputable def Region.put (r : Region) (new g : Ground) : Ground where
  face f := if f ∈ r.faces then new.face f else g.face f
  node n := if n ∈ r.nodes then new.node n else g.node n
  ejecta f := if f ∈ r.faces then new.ejecta f else g.ejecta f

/-- One step on a region: the new values are computed from what it shows. Belongs to `basicmoon.py` lines 246-270. -/
noncomputable def Region.step (r : Region) (compute : Ground → Ground) (g : Ground) : Ground := r.put (compute (r.view g)) g

/-- What the steps of forming one crater compute: its shape (`crater_shape`), the collapse of slopes, the ejecta, whose amount depends on the
ground before (`_excavated_volume`, `morphology/__init__.py` line 597), and the two diffusions of `BasicMoonMorphology.form_ejecta`. -/
structure Recipe where
  shape : Ground → Ground
  collapse : Ground → Ground
  ejecta : Ground → Ground → Ground
  burial : Ground → Ground
  impact : Ground → Ground

/-- A crater: the region its ejecta reach, the faces inside its rim (with their neighbours), the region that is marked with its number,
its number and diameter, whether it is large enough for the face it lies on (`morphology/__init__.py` line 592) and for being counted, and what it computes. -/
structure Crater where
  ejectaRegion : Region
  interior : Finset ℕ
  marked : Finset ℕ
  id : ℕ
  diameter : ℝ
  large : Bool
  countable : Bool
  recipe : Recipe

/-- No ejecta are left inside the rim, `form_crater` `morphology/__init__.py` lines 599-608. -/
noncomputable def clearInterior (faces : Finset ℕ) (g : Ground) : Ground :=
  { g with ejecta := fun f => if f ∈ faces then 0 else g.ejecta f }

/-- `form_crater` lines 589-620 and `form_ejecta` lines 622-666 with `basicmoon.py` lines 246-270. -/
noncomputable def form (doCollapse : Bool) (g : Ground) (c : Crater) : Ground :=
  if c.large then
    let r := c.ejectaRegion
    let before := r.view g
    let g1 := r.step c.recipe.shape g
    let g2 := if doCollapse then r.step c.recipe.collapse g1 else g1
    let g3 := clearInterior c.interior g2
    let g4 := r.step (c.recipe.ejecta before) g3
    let g5 := r.step c.recipe.burial g4
    r.step c.recipe.impact g5
  else g

/-- The marks on the faces and the craters that are counted.  Simplification: the layers in which the marks are kept are not modelled
(`Verif.Tags`), a face can carry any number of them; and `observed` is a set. Belongs to `counting/__init__.py` lines 196-202. -/
@[ext] structure Marks where
  ids : ℕ → Finset ℕ
  observed : Finset ℕ

/-- The marks after `add_tag` of a crater, `counting/__init__.py` lines 196-202. -/
def mark (m : Marks) (c : Crater) : ℕ → Finset ℕ := fun f => if f ∈ c.marked then insert c.id (m.ids f) else m.ids f

/-- The craters whose marks are cut out, `counting/__init__.py` lines 213-218. `diameter` gives the size of the craters counted. -/
def Cut (diameter : ℕ → ℝ) (m : Marks) (c : Crater) (i : ℕ) : Prop :=
  (i ∈ m.observed ∨ i = c.id) ∧ (∃ f ∈ c.interior, i ∈ mark m c f) ∧ diameter i < c.diameter

open Classical in
/-- `Counting.add`, `counting/__init__.py` lines 193-227; a crater whose region has no face of the surface is not counted (lines 205-208). -/
noncomputable def count (diameter : ℕ → ℝ) (m : Marks) (c : Crater) : Marks :=
  if c.large ∧ c.countable ∧ c.marked.Nonempty then
    let ids := fun f => if f ∈ c.interior then (mark m c f).filter (fun i => ¬ Cut diameter m c i) else mark m c f
    ⟨ids, (insert c.id m.observed).filter fun i => ¬ Cut diameter m c i ∨ ∃ f, i ∈ ids f⟩
  else m

/-- The sets by which the queue keeps craters apart, `overlap_function`, `basicmoon.py` lines 713-730. -/
def overlap (c : Crater) : Finset ℕ × Finset ℕ := (c.ejectaRegion.nodes, c.ejectaRegion.faces)

/-- The craters of some batches, one after the other. Belongs to `basicmoon.py` lines 246-270. -/
noncomputable def emplace (doCollapse : Bool) (g : Ground) (batches : List (List Crater)) : Ground :=
  batches.foldl (fun g b => b.foldl (form doCollapse) g) g

/-- The same for the count. Belongs to `counting/__init__.py` lines 193-227. -/
noncomputable def countAll (diameter : ℕ → ℝ) (m : Marks) (batches : List (List Crater)) : Marks :=
  batches.foldl (fun m b => b.foldl (count diameter) m) m

end Verif.Batch
