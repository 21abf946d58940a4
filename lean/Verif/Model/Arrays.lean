import Mathlib.Data.Real.Basic
import Mathlib.Data.Nat.Notation

/-!
# Arrays of values handed out by a surface and its regions

Models which arrays in memory the variables of a surface are (`cratermaker/components/surface/__init__.py`, `add_data`, lines 2158-2191, and `_add_new_data`,
lines 1341-1354), which arrays are made anew (`reset`, lines 230-245) and which arrays a user gets who reads a variable of a surface (`Surface.__getattr__`,
lines 193-207) or of a region (`LocalSurface.__getattr__`, lines 2092-2118).

Memory is a map from addresses to arrays.  The user keeps addresses and can write to any array they hold.  Simplifications: the values of a variable are in
memory, as they are once it has been written or loaded; a variable with several layers is not distinguished from one with one layer; that data have the right
length is not checked.
-/

namespace Verif.Arrays

/-- Memory, the next free address, and the arrays of the variables of the surface, `surface/__init__.py` lines 1354 and 1447. -/
structure World where
  mem : ℕ → List ℝ
  next : ℕ
  vars : String → Option ℕ

/-- Assignment of numpy to the elements of an array with given numbers, `surface/__init__.py` lines 2184 and 2189. -/
def assign : List ℝ → List ℕ → List ℝ → List ℝ
  | a, i :: is, x :: xs => assign (a.set i x) is xs
  | a, _, _ => a

/-- The elements of an array with given numbers, as a new array, `surface/__init__.py` lines 2108 and 2110. -/
noncomputable def pick (a : List ℝ) (idx : List ℕ) : List ℝ := idx.map fun i => a.getD i 0

/-- A new array, `surface/__init__.py` lines 1341-1352. -/
def alloc (w : World) (a : List ℝ) : World × ℕ := ({ w with mem := Function.update w.mem w.next a, next := w.next + 1 }, w.next)

/-- `_add_new_data`, `surface/__init__.py` lines 1341-1354: the variable gets a new array, whether there was one of this name or not. -/
def renew (w : World) (name : String) (size : ℕ) (x : ℝ) : World :=
  let (w', a) := alloc w (List.replicate size x)
  { w' with vars := Function.update w'.vars name (some a) }

/-- What is done with the old and the given values: `surface/__init__.py` lines 2183-2189, with `overwrite` and `positive_only`. -/
noncomputable def combine (overwrite positive : Bool) (old data : List ℝ) : List ℝ :=
  let new := if overwrite then data else List.zipWith (· + ·) old data
  if positive then new.map (max 0) else new

/-- `add_data`, `surface/__init__.py` lines 2177-2191, for the elements `idx`; `size` is the number of faces or nodes of the surface and `fill` the fill value.
The array of the variable is written to in place. -/
noncomputable def addData (w : World) (name : String) (idx : List ℕ) (data : List ℝ) (overwrite positive : Bool) (size : ℕ) (fill : ℝ) : World :=
  let (w', ov) := match w.vars name with
    | some _ => (w, overwrite)
    | none => (renew w name size fill, true)
  match w'.vars name with
  | none => w'
  | some a => { w' with mem := Function.update w'.mem a (assign (w'.mem a) idx (combine ov positive (pick (w'.mem a) idx) data)) }

/-- `surface.<name>`, `Surface.__getattr__` `surface/__init__.py` lines 202-207: the array of the variable itself; `none` is the error for an unknown name. -/
def readWhole (w : World) (name : String) : Option ℕ := w.vars name

/-- `region.<name>`, `LocalSurface.__getattr__` `surface/__init__.py` lines 2103-2118, for a region given by arrays of numbers: a new array. -/
noncomputable def readRegion (w : World) (name : String) (idx : List ℕ) : Option (World × ℕ) :=
  (w.vars name).map fun a => alloc w (pick (w.mem a) idx)

/-- What can happen to a surface and to the arrays a user holds: data are added, a variable is made anew or deleted (`reset`, `surface/__init__.py` lines
230-245), somebody reads values of a region, and the user writes to an array. -/
inductive Act where
  | add (name : String) (idx : List ℕ) (data : List ℝ) (overwrite positive : Bool) (size : ℕ) (fill : ℝ)
  | renew (name : String) (size : ℕ) (x : ℝ)
  | delete (name : String)
  | look (name : String) (idx : List ℕ)
  | poke (a i : ℕ) (x : ℝ)

/-- One step, `surface/__init__.py` lines 230-245, 1341-1354, 2103-2118 and 2177-2191. -/
noncomputable def step (w : World) : Act → World
  | .add name idx data ov pos size fill => addData w name idx data ov pos size fill
  | .renew name size x => renew w name size x
  | .delete name => { w with vars := Function.update w.vars name none }
  | .look name idx => ((readRegion w name idx).map Prod.fst).getD w
  | .poke a i x => { w with mem := Function.update w.mem a ((w.mem a).set i x) }

/-- Several steps, one after the other; `surface/__init__.py` lines 2177-2191 for each. -/
noncomputable def run (w : World) (acts : List Act) : World := acts.foldl step w

/-- `get_reference_surface(only_faces=True)`, `surface/__init__.py` lines 2611-2642, of a region given by an array of numbers: the elevations of the region are
read, those of the faces `within` the reference radius (numbers within the region) are replaced by those of the plane in the array that was read, and this array
is returned.  With fewer than five such faces nothing is replaced. -/
noncomputable def referenceRegion (w : World) (idx within : List ℕ) (plane : List ℝ → List ℝ) : Option (World × ℕ) :=
  (readRegion w "face_elevation" idx).map fun r =>
    if within.length < 5 then r
    else ({ r.1 with mem := Function.update r.1.mem r.2 (assign (r.1.mem r.2) within (plane (pick (r.1.mem r.2) within))) }, r.2)

/-- The same for a region given by the slice of all faces and a location, for which the array that is read is a view of the one of the surface,
`surface/__init__.py` lines 2108 and 2611-2642. -/
noncomputable def referenceSlice (w : World) (within : List ℕ) (plane : List ℝ → List ℝ) : Option (World × ℕ) :=
  (readWhole w "face_elevation").map fun a =>
    if within.length < 5 then (w, a)
    else ({ w with mem := Function.update w.mem a (assign (w.mem a) within (plane (pick (w.mem a) within))) }, a)

end Verif.Arrays
