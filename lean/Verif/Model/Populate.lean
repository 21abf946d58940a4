import Verif.Model.RunArgs
import Verif.Model.Sample

/-!
Model of `Simulation.populate` (`cratermaker/core/simulation.py` lines 648-826) from the sampled diameters and times to the list of
craters: the window of each bin of faces, the choice of faces and locations, and the order of the craters.  The ranges of diameters
of the bins are in `Model/Limits.lean`, sampling itself in `Model/Sample.lean`, the quasi-Monte Carlo craters in
`Model/QuasiMC.lean`.
-/

namespace Verif.Populate

open Verif.Sampling

/-- The pair passed on to a bin, `simulation.py:733, 744-752`: the number times the share of the bin in the area of the surface. -/
noncomputable def share (area bin : ℝ) (p : ℝ × ℝ) : ℝ × ℝ := (p.1, p.2 * (bin / area))

/-- The times (and pairs) that `sample` uses for a bin with area `bin` and diameters from `lo` to `hi`,
`simulation.py:754-760` with `production/__init__.py:249`. -/
noncomputable def binWindow (c : RunArgs.Ctx) (bin lo hi : ℝ) (dn dnEnd : ℝ × ℝ) :
    Except RunArgs.Err (ℝ × ℝ × (ℝ × ℝ) × (ℝ × ℝ)) :=
  RunArgs.sampleArgs { c with area := bin, dmin := lo, dmax := hi } none none (some (share c.area bin dn))
    (some (share c.area bin dnEnd))

/-- The cumulative probabilities in `rng.choice(face_indices, p=p)`, `simulation.py:766-767`: the cumulative sums of `p`, divided by
the last one. -/
noncomputable def faceCdf (areas : List ℝ) : List ℝ :=
  let p := areas.map (· / areas.sum)
  (List.range areas.length).map fun k => (p.take (k + 1)).sum / p.sum

/-- The face for the uniform draw `u`, `simulation.py:767`. -/
noncomputable def chooseFace (area : ℕ → ℝ) (faces : List ℕ) (u : ℝ) : Option ℕ :=
  faces[searchRight (faceCdf (faces.map area)) u]?

/-- A bin: its faces, and the diameters and times sampled for it. Belongs to `simulation.py` lines 726-769. -/
structure Bin where
  faces : List ℕ
  diams : List ℝ
  times : List ℝ

/-- The draws for one crater: one for the face, three for the location. Belongs to `simulation.py` lines 767-768. -/
structure Draw where
  u : ℝ
  r0 : ℝ
  r1 : ℝ
  r2 : ℝ

/-- The location of one crater, `simulation.py:767-768`.  Simplified: the point in space is kept, the conversion to longitude and
latitude is left out. -/
noncomputable def place (area : ℕ → ℝ) (nodes : ℕ → List Vec) (faces : List ℕ) (d : Draw) : Option Vec :=
  (chooseFace area faces d.u).bind fun f => locationOnFace (nodes f) d.r0 d.r1 d.r2

/-- A crater of the list. Belongs to `simulation.py` lines 771-800. -/
structure Impact where
  diam : ℝ
  time : ℝ
  loc : Vec

/-- The three lists of impacts that the loop over the bins builds, `simulation.py:726-769`; `draws b i` are the draws for the
`i`-th crater of the `b`-th bin.  Nothing is drawn for a bin without craters. -/
noncomputable def collect (area : ℕ → ℝ) (nodes : ℕ → List Vec) (draws : ℕ → ℕ → Draw) :
    ℕ → List Bin → Option (List ℝ × List ℝ × List Vec)
  | _, [] => some ([], [], [])
  | b, bin :: rest =>
    if bin.diams.length = 0 then collect area nodes draws (b + 1) rest
    else
      match (List.range bin.diams.length).mapM fun (i : ℕ) => place area nodes bin.faces (draws b i) with
      | none => none
      | some locs =>
        (collect area nodes draws (b + 1) rest).map fun r => (bin.diams ++ r.1, bin.times ++ r.2.1, locs ++ r.2.2)

open Classical in
/-- The list of craters, `simulation.py:771-800`: as many as the shortest of the three lists, from oldest to youngest. -/
noncomputable def craters (area : ℕ → ℝ) (nodes : ℕ → List Vec) (draws : ℕ → ℕ → Draw) (bins : List Bin) : Option (List Impact) :=
  (collect area nodes draws 0 bins).map fun r =>
    ((r.1.zip (r.2.1.zip r.2.2)).map fun x => (⟨x.1, x.2.1, x.2.2⟩ : Impact)).mergeSort fun a b => decide (b.time ≤ a.time)

end Verif.Populate
