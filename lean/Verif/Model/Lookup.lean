import Mathlib.Data.Nat.Notation

/-! How attributes of craters, surfaces and regions are found, and what Python's own tools for copying and listing make of it. -/

namespace Verif.Lookup

/-- Errors of a lookup. Belongs to `crater/__init__.py` lines 462-472. -/
inductive Err
  | /-- `AttributeError` -/ attribute
  | /-- `RecursionError` -/ recursion
deriving DecidableEq

/-- What an attribute can be: a plain value or one of the two parts of a crater with its own attributes, `crater/__init__.py` lines 458-459. -/
inductive Value (V : Type)
  | plain (v : V)
  | part (attrs : String → Option V)

/-- A crater in memory: the attributes that Python finds without the help of the class's `__getattr__`, i.e. those of the class and those stored in
the object, `crater/__init__.py` lines 424-459. -/
structure Object (V : Type) where
  ofClass : String → Option (Value V)
  stored : String → Option (Value V)

/-- The attributes of a value, for `hasattr` and `getattr` in `crater/__init__.py` lines 468-471.  Simplified: plain values have none of the names in question. -/
def Value.attr {V : Type} : Value V → String → Option V
  | .plain _, _ => none
  | .part f, name => f name

/-- Reading an attribute, `crater/__init__.py` lines 462-472: stored and class attributes first, then `__getattr__`, which asks the fixed part and then
the variable part and itself reads these as attributes of the crater.  `limit` is the number of nested calls that Python allows. -/
def read {V : Type} : (limit : ℕ) → Object V → String → Except Err (Value V)
  | 0, _, _ => .error .recursion
  | k + 1, o, name =>
    match (o.ofClass name).orElse fun _ => o.stored name with
    | some v => .ok v
    | none =>
      match read k o "_fixed" with
      | .error e => .error e
      | .ok f =>
        match f.attr name with
        | some v => .ok (.plain v)
        | none =>
          match read k o "_var" with
          | .error e => .error e
          | .ok w =>
            match w.attr name with
            | some v => .ok (.plain v)
            | none => .error .attribute

/-- Python's `hasattr`: an `AttributeError` is an answer, any other error is passed on; used in `crater/__init__.py` lines 468-470. -/
def has {V : Type} (limit : ℕ) (o : Object V) (name : String) : Except Err Bool :=
  match read limit o name with
  | .ok _ => .ok true
  | .error .attribute => .ok false
  | .error .recursion => .error .recursion

/-- `Crater.__init__`, `crater/__init__.py` lines 427-460: the object of a class with its two parts. -/
def make {V : Type} (ofClass : String → Option (Value V)) (fixed var : String → Option V) : Object V :=
  ⟨ofClass, fun name => if name = "_fixed" then some (.part fixed) else if name = "_var" then some (.part var) else none⟩

/-- Copying with Python's `copy.copy`, `copy.deepcopy` and `pickle.loads`, for a class with the lookup of `crater/__init__.py` lines 462-472: an object
of the class without stored attributes is made, it is asked for `__setstate__`, and unless it has one it is given the stored attributes of the original.
Simplified: a shared or new copy of the attributes makes no difference here; a `__setstate__` of the class is taken to restore all of them. -/
def copied {V : Type} (limit : ℕ) (o : Object V) : Except Err (Object V) :=
  match has limit ⟨o.ofClass, fun _ => none⟩ "__setstate__" with
  | .error e => .error e
  | .ok _ => .ok o

/-- `Crater.__dir__`, `crater/__init__.py` lines 504-511: the names listed for a crater. `names` are those that Python finds for an object.  Lines 509
and 510 read the parts under the names `fixed` and `var`. -/
def listed {V : Type} (limit : ℕ) (o : Object V) (base : List String) (names : Value V → List String) : Except Err (List String) :=
  match read limit o "fixed" with
  | .error e => .error e
  | .ok f =>
    match read limit o "var" with
    | .error e => .error e
    | .ok w => .ok (base ++ names f ++ names w)

/-- Reading an attribute of a surface, `surface/__init__.py` lines 193-207 and 1445-1447, where `part` is `_uxds`, or of a region, `surface/__init__.py` lines
2092-2119 and 4020-4022, where `part` is `_surface`: stored and class attributes first, then `__getattr__`, which looks the name up in the mesh data,
and reads the part that leads to these as an attribute of the object itself.  Simplified: the data of a region are those of the surface, not only its faces
(see `Arrays` and `Region`), and the data are attributes of the part. -/
def readData {V : Type} (part : String) : (limit : ℕ) → Object V → String → Except Err (Value V)
  | 0, _, _ => .error .recursion
  | k + 1, o, name =>
    match (o.ofClass name).orElse fun _ => o.stored name with
    | some v => .ok v
    | none =>
      match readData part k o part with
      | .error e => .error e
      | .ok d =>
        match d.attr name with
        | some v => .ok (.plain v)
        | none => .error .attribute

/-- Copying a surface or a region with `copy.copy`, `copy.deepcopy` or `pickle`, as in `copied`, with the lookup of `surface/__init__.py` lines 193-207 or
2092-2119. -/
def copiedData {V : Type} (part : String) (limit : ℕ) (o : Object V) : Except Err (Object V) :=
  match readData part limit ⟨o.ofClass, fun _ => none⟩ "__setstate__" with
  | .error .recursion => .error .recursion
  | _ => .ok o

end Verif.Lookup
