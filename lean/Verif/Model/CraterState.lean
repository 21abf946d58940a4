import Mathlib.Data.Real.Basic
import Mathlib.Data.Finset.Basic

/-!
Model of what a crater object keeps about the mesh under it (`MorphologyCrater`,
`cratermaker/components/morphology/__init__.py` lines 39-52 and 215-318), and of how `BasicMoonMorphology.emplace`
(`basicmoon.py` lines 182-226) and `Morphology.emplace` (`morphology/__init__.py` lines 507-571) sort out their argument.
-/

namespace Verif.CraterState

/-! ### What a crater keeps -/

/-- What the mesh of a surface gives for one crater.  `R` stands for regions (`LocalSurface`). Belongs to `morphology/__init__.py` lines 42-50. -/
structure Geo (R : Type) where
  /-- `surface.find_nearest_face(location)` -/
  nearest : ℕ
  /-- `morphology.rmax(self, minimum_thickness=surface.smallest_length, feature="ejecta")` -/
  rmax : ℝ
  /-- `surface.extract_region` with the radius of the buffered crater -/
  crater : Option R
  /-- `surface.extract_region` with another radius -/
  region : ℝ → Option R
  /-- the faces of a region as a set; a slice stands for its indices, lines 281-287 -/
  faces : R → Finset ℕ
  /-- the nodes of a region as a set, lines 302-308 -/
  nodes : R → Finset ℕ

/-- The fields of `MorphologyCraterVariable`, `morphology/__init__.py` lines 42-50, with the mesh that the morphology's surface has now (`none` when
there is no surface data, `_has_initialized_surface_data`, lines 74-81). -/
structure State (R : Type) where
  mesh : Option (Geo R) := none
  faceIndex : Option ℕ := none
  rmax : Option ℝ := none
  craterRegion : Option R := none
  ejectaRegion : Option R := none
  faces : Option (Finset ℕ) := none
  nodes : Option (Finset ℕ) := none
  emplaceable : Option Bool := none

variable {R : Type}

/-- `face_index`, `morphology/__init__.py` lines 229-234. -/
def readFace (s : State R) : State R × Option ℕ :=
  match s.faceIndex, s.mesh with
  | none, some g => ({ s with faceIndex := some g.nearest }, some g.nearest)
  | v, _ => (s, v)

/-- `ejecta_rmax`, `morphology/__init__.py` lines 236-243. -/
def readRmax (s : State R) : State R × Option ℝ :=
  match s.rmax, s.mesh with
  | none, some g => ({ s with rmax := some g.rmax }, some g.rmax)
  | v, _ => (s, v)

/-- `crater_region`, `morphology/__init__.py` lines 259-271. -/
def readCrater (s : State R) : State R × Option R :=
  match s.craterRegion, s.mesh with
  | none, some g => ({ s with craterRegion := g.crater }, g.crater)
  | v, _ => (s, v)

/-- `ejecta_region`, `morphology/__init__.py` lines 245-257.  Simplified: without surface data there is no crater region either in any state that can be
reached, and then nothing is extracted. -/
def readEjecta (s : State R) : State R × Option R :=
  match s.ejectaRegion with
  | some r => (s, some r)
  | none =>
    let (s1, c) := readCrater s
    match c with
    | none => (s1, none)
    | some _ =>
      let (s2, d) := readRmax s1
      match s2.mesh, d with
      | some g, some d => ({ s2 with ejectaRegion := g.region d }, g.region d)
      | _, _ => (s2, none)

/-- `emplaceable`, `morphology/__init__.py` lines 313-318. -/
def readEmplaceable (s : State R) : State R × Option Bool :=
  match s.emplaceable, s.mesh with
  | none, some _ =>
    let (s1, c) := readCrater s
    ({ s1 with emplaceable := some c.isSome }, some c.isSome)
  | v, _ => (s, v)

/-- `affected_face_indices`, `morphology/__init__.py` lines 273-290. -/
def readFaces (s : State R) : State R × Option (Finset ℕ) :=
  match s.faces, s.mesh with
  | none, some g =>
    let (s1, e) := readEmplaceable s
    if e = some true then
      let (s2, r) := readEjecta s1
      let v := (r.map g.faces).getD ∅
      ({ s2 with faces := some v }, some v)
    else (s1, none)
  | v, _ => (s, v)

/-- `affected_node_indices`, `morphology/__init__.py` lines 292-311. -/
def readNodes (s : State R) : State R × Option (Finset ℕ) :=
  match s.nodes, s.mesh with
  | none, some g =>
    let (s1, e) := readEmplaceable s
    if e = some true then
      let (s2, r) := readEjecta s1
      let v := (r.map g.nodes).getD ∅
      ({ s2 with nodes := some v }, some v)
    else (s1, none)
  | v, _ => (s, v)

/-- `remove_complex_data`, `morphology/__init__.py` lines 215-227. -/
def drop (s : State R) : State R := { s with faces := none, nodes := none, ejectaRegion := none, craterRegion := none }

/-- What can happen to a crater. Belongs to `morphology/__init__.py` lines 125-349. -/
inductive Op (R : Type)
  | face
  | rmax
  | crater
  | ejecta
  | emplaceable
  | faces
  | nodes
  | drop
  /-- the surface is loaded, or another one is set (`surface.setter`, lines 795-806, `Surface.reset`) -/
  | mesh (g : Geo R)

/-- One operation; what it returns is left out. Belongs to `morphology/__init__.py` lines 125-349. -/
def step (s : State R) : Op R → State R
  | .face => (readFace s).1
  | .rmax => (readRmax s).1
  | .crater => (readCrater s).1
  | .ejecta => (readEjecta s).1
  | .emplaceable => (readEmplaceable s).1
  | .faces => (readFaces s).1
  | .nodes => (readNodes s).1
  | .drop => drop s
  | .mesh g => { s with mesh := some g }

/-- A history. Belongs to `morphology/__init__.py` lines 125-349. -/
def run (s : State R) (ops : List (Op R)) : State R := ops.foldl step s

/-! ### The argument of `emplace` -/

/-- A crater object: a plain one, or one that belongs to the morphology `owner`. Belongs to `basicmoon.py` lines 208-211. -/
inductive Obj
  | plain (id : ℕ)
  | made (owner id : ℕ)
  deriving DecidableEq

/-- The argument `craters`. Belongs to `basicmoon.py` lines 199-220. -/
inductive Arg
  | none
  | one (c : Obj)
  | many (cs : List Obj)
  /-- anything else -/
  | other
  deriving DecidableEq

/-- `BasicMoonCrater.maker(c, morphology=self)` unless the object is already one, `basicmoon.py:208-211, 213-216`. -/
def convert (self : ℕ) : Obj → ℕ × ℕ
  | .plain id => (self, id)
  | .made o id => (o, id)

/-- Lines 199-220 of `basicmoon.py`: the craters with the morphology they belong to; `none` is the ValueError. `fresh` is the crater
that is made from the keyword arguments. -/
def prepare (self fresh : ℕ) : Arg → Option (List (ℕ × ℕ))
  | .none => some [(self, fresh)]
  | .many cs => if cs.length > 0 then some (cs.map (convert self)) else Option.none
  | .one c => some [convert self c]
  | .other => Option.none

/-- The surfaces: `dug o` are the craters in the elevations of the surface of morphology `o`, `listed o` the craters in its list of
emplaced craters. Belongs to `morphology/__init__.py` lines 590-620. -/
structure World where
  dug : ℕ → List ℕ
  listed : ℕ → List ℕ

/-- `form_crater`, `morphology/__init__.py:590-620`, for a crater that belongs to morphology `owner`: its region is a region of the surface of
`owner`, the list is the one of `self`.  Simplified: the face area is not compared. -/
def form (self : ℕ) (fits : ℕ → ℕ → Bool) (w : World) (c : ℕ × ℕ) : World :=
  if fits c.1 c.2 then
    { dug := fun o => if o = c.1 then w.dug o ++ [c.2] else w.dug o
      listed := fun o => if o = self then w.listed o ++ [c.2] else w.listed o }
  else w

/-- `emplace`: the craters are formed in order (`Verif.Emplace.process`) and returned. Belongs to `morphology/__init__.py` lines 507-573. -/
def emplace (self fresh : ℕ) (fits : ℕ → ℕ → Bool) (w : World) (a : Arg) : Option (World × List (ℕ × ℕ)) :=
  (prepare self fresh a).map fun cs => (cs.foldl (form self fits) w, cs)

end Verif.CraterState
