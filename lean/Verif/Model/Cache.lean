import Mathlib.Data.Real.Basic

/-!
Model of how a crater's measurements depend on what was kept from earlier ones: `measured_rim_height`, `measured_floor_depth` and
`measured_depth_to_diameter` of a crater with surface data (`cratermaker/components/morphology/__init__.py`, lines 319-350), its
region (`crater_region`, lines 261-273; `remove_complex_data`, lines 215-227), and the elevations with the slope removed that the
region keeps (`cratermaker/components/surface/__init__.py`, `compute_desloped_face_elevation`, lines 4533-4538; `add_tag`, lines
2319-2322).  How the slope is removed and how rim and floor are averaged is left to parameters here (see the models `Measure` and
`Reference`); so are the elevations `E`, the levelled elevations `F` and the tags `T`.
-/

namespace Verif.Cache

/-- The parts of the measurement that are modelled elsewhere. Belongs to `surface/__init__.py` lines 4533-4538. -/
structure Kit (E F T : Type) where
  /-- elevations less the reference plane -/
  level : E → F
  /-- `measure_rim_height` -/
  rim : F → T → ℝ
  /-- `measure_floor_depth` -/
  floor : F → T → ℝ
  /-- `measured_diameter` -/
  diameter : ℝ

/-- The surface (elevations and tags) together with one crater: `kept` is `crater_region._desloped_face_elevation`, `none` also
when the region has not been extracted. Belongs to `surface/__init__.py` lines 4533-4538. -/
structure State (E F T : Type) where
  elev : E
  tags : T
  kept : Option F

variable {E F T : Type}

/-- `compute_desloped_face_elevation`, `surface/__init__.py` lines 4533-4538: computed only when nothing is kept. -/
def level (k : Kit E F T) (s : State E F T) : State E F T :=
  match s.kept with
  | none => { s with kept := some (k.level s.elev) }
  | some _ => s

/-- What the measurement routines read: the kept array (`desloped_face_elevation.unwrap_or(face_elevation)`; it is never missing
after `level`). Belongs to `morphology/__init__.py` lines 319-326. -/
def array (k : Kit E F T) (s : State E F T) : F :=
  match s.kept with
  | none => k.level s.elev
  | some f => f

/-- `measured_rim_height`, `morphology/__init__.py` lines 319-326. -/
def readRim (k : Kit E F T) (s : State E F T) : State E F T × ℝ :=
  let s1 := level k s
  (s1, k.rim (array k s1) s1.tags)

/-- `measured_floor_depth`, `morphology/__init__.py` lines 328-334. -/
def readFloor (k : Kit E F T) (s : State E F T) : State E F T × ℝ :=
  let s1 := level k s
  (s1, k.floor (array k s1) s1.tags)

/-- `measured_depth_to_diameter`, `morphology/__init__.py` lines 336-350: what is kept is given up first. -/
noncomputable def readRatio (k : Kit E F T) (s : State E F T) : State E F T × ℝ :=
  let s0 : State E F T := { s with kept := none }
  let (s1, f) := readFloor k s0
  let (s2, r) := readRim k s1
  (s2, (r - f) / k.diameter)

/-- What can happen to a crater and the surface under it. Belongs to `morphology/__init__.py` lines 125-349. -/
inductive Op (E T : Type)
  /-- anything that changes elevations: a later crater, diffusion, `update_elevation` -/
  | edit (e : E)
  /-- `add_tag` through the region of the crater, lines 2319-2322: the tags change and what is kept is given up -/
  | tag (t : T)
  /-- the tags change through another region -/
  | retag (t : T)
  /-- `remove_complex_data`, lines 215-227: the region is given up -/
  | drop
  | rim
  | floor
  | ratio

/-- One operation. Belongs to `morphology/__init__.py` lines 125-349. -/
noncomputable def step (k : Kit E F T) (s : State E F T) : Op E T → State E F T
  | .edit e => { s with elev := e }
  | .tag t => { s with tags := t, kept := none }
  | .retag t => { s with tags := t }
  | .drop => { s with kept := none }
  | .rim => (readRim k s).1
  | .floor => (readFloor k s).1
  | .ratio => (readRatio k s).1

/-- A history of operations. Belongs to `morphology/__init__.py` lines 125-349. -/
noncomputable def run (k : Kit E F T) (s : State E F T) (ops : List (Op E T)) : State E F T := ops.foldl (step k) s

end Verif.Cache
