import Mathlib.Data.List.Basic
import Mathlib.Logic.Function.Basic

/-!
# Replacing the morphology model

Assigning `Counting.morphology` (`cratermaker/components/counting/__init__.py` lines 1575-1586) makes every crater in the lists of emplaced and observed craters anew with
the crater class of the new model.  Craters are objects: the emplaced list and the dictionary of observed craters can hold the same one.
-/

namespace Verif.Promotion

variable {F V : Type}

/-- A crater object: its id, the number of the morphology model it was made for, the attributes that are fixed and those that can be assigned,
`crater/__init__.py` lines 32-58 and 470-490, `morphology/__init__.py` lines 184-193. -/
structure Crater (F V : Type) where
  id : ℕ
  model : ℕ
  fixed : F
  vars : V

/-- The counting component: the objects in memory (those below `next` are in use), the list of emplaced craters and the dictionary of observed craters in its order, as
references, and the number of the morphology model.  Belongs to `counting/__init__.py` lines 65-97 and 1536-1543. -/
structure Counting (F V : Type) where
  heap : ℕ → Crater F V
  next : ℕ
  emplaced : List ℕ
  observed : List (ℕ × ℕ)
  model : ℕ

/-- What making craters depends on: the hash of the fixed attributes, `crater/__init__.py` lines 748-763, and what the crater class of a model makes of the attributes that
can be assigned; `none` is an exception, such as that for an unknown morphology type (`basicmoon.py` lines 120-135). -/
structure Maker (F V : Type) where
  hash : F → ℕ
  convert : ℕ → F → V → Option V

/-- `self.Crater.maker(crater=crater)`, `counting/__init__.py` lines 1556-1561, `morphology/__init__.py` lines 900-914, `crater/__init__.py` lines 887-970 and 1118-1136: the
fixed attributes are those of the original and the id is computed again from them. -/
def Maker.promote (k : Maker F V) (m : ℕ) (c : Crater F V) : Option (Crater F V) :=
  (k.convert m c.fixed c.vars).map fun v => ⟨k.hash c.fixed, m, c.fixed, v⟩

/-- The loops `for i, crater in enumerate(...): ...[i] = self.Crater.maker(crater=crater)`, `counting/__init__.py` lines 1582-1585: the objects, the references and whether the
loop came to its end. -/
def loop (make : Crater F V → Option (Crater F V)) : (ℕ → Crater F V) → ℕ → List ℕ → (ℕ → Crater F V) × ℕ × List ℕ × Bool
  | h, n, [] => (h, n, [], true)
  | h, n, r :: rs =>
    match make (h r) with
    | none => (h, n, r :: rs, false)
    | some c =>
      let q := loop make (Function.update h n c) (n + 1) rs
      (q.1, q.2.1, n :: q.2.2.1, q.2.2.2)

/-- The setter of `morphology`, `counting/__init__.py` lines 1575-1586; the second component is false if an exception is raised. -/
def setMorphology (k : Maker F V) (s : Counting F V) (m : ℕ) : Counting F V × Bool :=
  let e := loop (k.promote m) s.heap s.next s.emplaced
  if e.2.2.2 then
    let o := loop (k.promote m) e.1 e.2.1 (s.observed.map Prod.snd)
    (⟨o.1, o.2.1, e.2.2.1, (s.observed.map Prod.fst).zip o.2.2.1, m⟩, o.2.2.2)
  else (⟨e.1, e.2.1, e.2.2.1, s.observed, m⟩, false)

/-- `self.observed[id] = crater`, `counting/__init__.py` lines 93 and 206: a key that is there keeps its place. -/
def put (id r : ℕ) (d : List (ℕ × ℕ)) : List (ℕ × ℕ) :=
  if id ∈ d.map Prod.fst then d.map fun p => if p.1 = id then (id, r) else p else d ++ [(id, r)]

/-- What happens to the lists. Belongs to `counting/__init__.py` lines 65-240 and 1575-1586. -/
inductive Event (F V : Type)
  /-- A crater is formed, and counted or not. -/
  | form (f : F) (v : V) (counted : Bool)
  /-- A saved crater is put into the list of emplaced craters. -/
  | loadEmplaced (f : F) (v : V)
  /-- A saved crater is put among the observed craters. -/
  | loadObserved (f : F) (v : V)
  /-- An attribute of a crater object is assigned. -/
  | assign (r : ℕ) (g : V → V)
  /-- An observed crater is removed. -/
  | remove (id : ℕ)
  /-- The lists are emptied. -/
  | reset
  /-- The morphology model is replaced. -/
  | morphology (m : ℕ)

/-- A new crater object. Belongs to `crater/__init__.py` lines 1118-1136. -/
def alloc (k : Maker F V) (s : Counting F V) (f : F) (v : V) : Counting F V :=
  { s with heap := Function.update s.heap s.next ⟨k.hash f, s.model, f, v⟩, next := s.next + 1 }

/-- The state after an event: `morphology/__init__.py` lines 614-617, `counting/__init__.py` lines 85-97, 160-162, 206, 239 and 1575-1586, `crater/__init__.py` lines 474-490. -/
def step (k : Maker F V) (s : Counting F V) : Event F V → Counting F V
  | .form f v counted =>
    let t := alloc k s f v
    { t with
      emplaced := s.emplaced ++ [s.next]
      observed := if counted then put (k.hash f) s.next s.observed else s.observed }
  | .loadEmplaced f v => { alloc k s f v with emplaced := s.emplaced ++ [s.next] }
  | .loadObserved f v => { alloc k s f v with observed := put (k.hash f) s.next s.observed }
  | .assign r g => { s with heap := Function.update s.heap r { s.heap r with vars := g (s.heap r).vars } }
  | .remove id => { s with observed := s.observed.filter fun p => p.1 ≠ id }
  | .reset => { s with emplaced := [], observed := [] }
  | .morphology m => (setMorphology k s m).1

/-- The lists after a history that begins with empty lists. Belongs to `counting/__init__.py` lines 65-240. -/
def run (k : Maker F V) (h : ℕ → Crater F V) (m : ℕ) (es : List (Event F V)) : Counting F V :=
  es.foldl (step k) ⟨h, 0, [], [], m⟩

end Verif.Promotion
