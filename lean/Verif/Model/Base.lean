import Mathlib.Data.List.Basic

/-!
Model of the helpers and base classes of `cratermaker/core/base.py` and of `_set_properties` of
`cratermaker/utils/general_utils.py`.
-/

namespace Verif.Base

/-! ## Random generator construction -/

/-- An argument that may be absent, of the expected type, or of a wrong type. Belongs to `base.py` lines 909-960. -/
inductive Arg (α : Type)
  | absent
  | good (a : α)
  | bad

/-- What numpy provides: the state after `default_rng(seed)` (`none`: raises), and the state
obtained by assigning a dictionary to `bit_generator.state` (`none`: raises). Belongs to `base.py` lines 909-960. -/
structure Numpy (State Seed Dict : Type) where
  fromSeed : Seed → Option State
  fromDict : Dict → Option State

/-- `_rng_init`, `base.py:909-960`.  `fresh` is the state numpy chooses for `default_rng()`.
`none` is ValueError.  A generator is identified with its state. -/
def rngInit {State Seed Dict : Type} (np : Numpy State Seed Dict) (fresh : State)
    (rng : Arg State) (seed : Option Seed) (state : Arg Dict) : Option State :=
  match rng with
  | .bad => none
  | .good g => some g
  | .absent =>
    -- line 944: a generator exists at this point only if no seed was given
    let cur : Option State := match seed with
      | none => some fresh
      | some _ => none
    match state with
    | .bad => none
    | .good d =>
      match cur with
      | none => none          -- `None.bit_generator` raises, re-raised as ValueError
      | some _ => np.fromDict d
    | .absent =>
      match seed with
      | none => cur
      | some s => np.fromSeed s

/-- The part of `CratermakerBase` that concerns the generator, `base.py:73-90`: the generator and
the stored copy of its state. -/
structure RngObj (State Seed : Type) where
  rng : State
  seed : Option Seed
  stored : State

/-- The getter of `rng_state`, `base.py:760-769`. -/
def RngObj.getState {State Seed : Type} (o : RngObj State Seed) : State := o.rng

/-- The setter of `rng_state`, `base.py:771-773`: calls `_rng_init` with the existing generator
and stores the state it returns. -/
def RngObj.setState {State Seed Dict : Type} (np : Numpy State Seed Dict) (fresh : State)
    (o : RngObj State Seed) (d : Dict) : Option (RngObj State Seed) :=
  (rngInit np fresh (.good o.rng) o.seed (.good d)).map fun s => { o with stored := s }

/-! ## Overwrite check -/

/-- Paths as lists of components. Belongs to `base.py` line 481. -/
abbrev Path := List String

/-- Kinds of directory entries. Belongs to `base.py` line 481. -/
inductive Kind
  | file
  | dir
  deriving DecidableEq

/-- A file system: which paths exist and what they are. Belongs to `base.py` line 481. -/
abbrev FS := Path → Option Kind

/-- `file.unlink(missing_ok=True)`, `base.py:481`. -/
def FS.unlink (fs : FS) (p : Path) : FS := fun q => if q = p then none else fs q

/-- `shutil.rmtree(file)`, `base.py:479`: the directory and everything below it. -/
def FS.rmtree (fs : FS) (p : Path) : FS := fun q => if p <+: q then none else fs q

/-- The user's answer, after `lower()`, `base.py:472-476`. -/
inductive Answer
  | y
  | a
  | other
  deriving DecidableEq

/-- What the check does, in order. Belongs to `base.py` lines 447-485. -/
inductive Event
  | prompt (p : Path) (r : Answer)
  | remove (p : Path)
  deriving DecidableEq

/-- How the check ended. Belongs to `base.py` lines 447-485. -/
inductive Outcome
  | ok
  | cancelled
  | failed
  deriving DecidableEq

/-- `_overwrite_check`, `base.py:447-485`.  `answer p` is what the user types when asked about
`p` in this call, `fails p` says whether the operating system refuses to remove `p`.
The Python result is `True` for `ok` and `False` for the other two outcomes.
Simplification: a failing `rmtree` removes nothing. -/
def overwriteCheck (answer : Path → Answer) (fails : Path → Bool) :
    Bool → FS → List Path → Outcome × FS × List Event
  | _, fs, [] => (.ok, fs, [])
  | ask, fs, p :: ps =>
    let asked := (fs p).isSome && ask
    if asked && answer p == .other then (.cancelled, fs, [.prompt p .other])
    else
      let ask' := if asked && answer p == .a then false else ask
      let ev := if asked then [Event.prompt p (answer p)] else []
      if fails p then (.failed, fs, ev)
      else
        let fs' := if fs p = some .dir then fs.rmtree p else fs.unlink p
        let r := overwriteCheck answer fails ask' fs' ps
        (r.1, r.2.1, ev ++ .remove p :: r.2.2)

/-! ## Save actions -/

/-- The value stored for an action: a dictionary of keyword arguments or something else. Belongs to `base.py` lines 537-547. -/
inductive ActVal (V : Type)
  | dict (kv : List (String × V))
  | other

/-- An entry offered as part of `save_actions`: a dictionary or something else. Belongs to `base.py` lines 566-582. -/
inductive Entry (V : Type)
  | dict (items : List (String × ActVal V))
  | other

/-- Exceptions of this file. Belongs to `base.py` lines 537-547. -/
inductive Err
  | typeError
  | valueError
  | keyError
  deriving DecidableEq

/-- Attributes of the component: `some true` callable, `some false` present but not callable. Belongs to `base.py` lines 537-547. -/
abbrev Attrs := String → Option Bool

/-- Validation of one action name and its arguments, `base.py:537-547` and `572-582`. -/
def checkItem {V : Type} (attrs : Attrs) (it : String × ActVal V) : Except Err Unit :=
  match attrs it.1 with
  | some true =>
    match it.2 with
    | .dict _ => .ok ()
    | .other => .error .typeError
  | _ => .error .valueError

/-- The loop over the items of an entry: the first invalid one raises. Belongs to `base.py` lines 566-582. -/
def checkItems {V : Type} (attrs : Attrs) : List (String × ActVal V) → Except Err Unit
  | [] => .ok ()
  | it :: its =>
    match checkItem attrs it with
    | .error e => .error e
    | .ok _ => checkItems attrs its

/-- Validation of one entry, `base.py:566-582` and `533-547`. -/
def checkEntry {V : Type} (attrs : Attrs) : Entry V → Except Err Unit
  | .other => .error .typeError
  | .dict items => checkItems attrs items

/-- The loop over the entries of an offered list, `base.py:566-582`. -/
def checkEntries {V : Type} (attrs : Attrs) : List (Entry V) → Except Err Unit
  | [] => .ok ()
  | e :: es =>
    match checkEntry attrs e with
    | .error err => .error err
    | .ok _ => checkEntries attrs es

/-- The value offered to the `save_actions` setter. Belongs to `base.py` lines 558-583. -/
inductive Offer (V : Type)
  | none
  | list (es : List (Entry V))
  | other

/-- The `save_actions` setter, `base.py:558-583`: the new list, or an exception that leaves the
old list in place. -/
def setActions {V : Type} (attrs : Attrs) (old : List (Entry V)) :
    Offer V → List (Entry V) × Option Err
  | .none => ([], none)
  | .other => (old, some .typeError)
  | .list es =>
    match checkEntries attrs es with
    | .ok _ => (es, none)
    | .error e => (old, some e)

/-- `add_save_action`, `base.py:524-549`. -/
def addAction {V : Type} (attrs : Attrs) (old : List (Entry V)) (e : Entry V) :
    List (Entry V) × Option Err :=
  match checkEntry attrs e with
  | .ok _ => (old ++ [e], none)
  | .error err => (old, some err)

/-- A call made by `save`: the method and its keyword arguments (`interval` included). Belongs to `base.py` lines 171-181. -/
structure Call (V : Type) where
  method : String
  args : List (String × V)

/-- Python `{**a, **b}` as an association list in which the first match counts. Belongs to `base.py` lines 171-181. -/
def dictMerge {V : Type} (a b : List (String × V)) : List (String × V) := b ++ a

/-- The body of the inner loop of `save`, `base.py:171-181`. -/
def runItem {V : Type} (attrs : Attrs) (kwargs : List (String × V)) (interval : V)
    (it : String × ActVal V) : Except Err (Call V) :=
  match attrs it.1 with
  | some true =>
    match it.2 with
    | .dict kv => .ok ⟨it.1, dictMerge (dictMerge kv kwargs) [("interval", interval)]⟩
    | .other => .error .typeError   -- `{**action_kwargs}` on a non-mapping
  | _ => .error .valueError

/-- All (action, arguments) pairs of the registered entries in loop order, `base.py:170-171`. -/
def allItems {V : Type} : List (Entry V) → List (String × ActVal V)
  | [] => []
  | .dict items :: es => items ++ allItems es
  | .other :: es => allItems es

/-- The loop of `save`, `base.py:164-182`: the calls made, and the exception that stopped it. -/
def runAll {V : Type} (attrs : Attrs) (kwargs : List (String × V)) (interval : V) :
    List (String × ActVal V) → List (Call V) × Option Err
  | [] => ([], none)
  | it :: its =>
    match runItem attrs kwargs interval it with
    | .error e => ([], some e)
    | .ok c => let r := runAll attrs kwargs interval its; (c :: r.1, r.2)

/-- `CratermakerBase.save`, `base.py:140-182`. -/
def saveCalls {V : Type} (attrs : Attrs) (actions : List (Entry V)) (skip : Bool)
    (kwargs : List (String × V)) (interval : V) : List (Call V) × Option Err :=
  if skip then ([], none) else runAll attrs kwargs interval (allItems actions)

/-! ## Component registry -/

/-- A Python dictionary with insertion order: assigning to an existing key keeps its place. Belongs to `base.py` lines 875-886. -/
def regSet {C : Type} : List (String × C) → String → C → List (String × C)
  | [], k, c => [(k, c)]
  | (k', c') :: r, k, c => if k' = k then (k', c) :: r else (k', c') :: regSet r k c

/-- A sequence of `@register(name)` decorators, `base.py:875-886`. -/
def registerAll {C : Type} (h : List (String × C)) : List (String × C) :=
  h.foldl (fun r kc => regSet r kc.1 kc.2) []

/-- The `component` argument of `maker`: absent, a name, a component class, an instance, or
anything else. Belongs to `base.py` lines 827-866. -/
inductive Req (C I : Type)
  | absent
  | name (s : String)
  | cls (c : C)
  | inst (i : I)
  | other

/-- Result of `maker`: a new instance of a class, or the instance passed in. Belongs to `base.py` lines 857-860. -/
inductive Made (C I : Type)
  | fresh (c : C)
  | same (i : I)
  deriving DecidableEq

/-- Exceptions of `maker`. Belongs to `base.py` lines 857-860. -/
inductive MakerErr
  | keyError
  | typeError
  | indexError
  deriving DecidableEq

/-- The string branch of `maker`, `base.py:857-860`. -/
def makeNamed {C I : Type} (reg : List (String × C)) (s : String) :
    Except MakerErr (Made C I) :=
  match reg.lookup s with
  | some c => .ok (.fresh c)
  | none => .error .keyError

/-- `ComponentBase.maker`, `base.py:827-866`. -/
def maker {C I : Type} (reg : List (String × C)) : Req C I → Except MakerErr (Made C I)
  | .absent =>
    match reg with
    | [] => .error .indexError
    | kc :: _ => makeNamed reg kc.1
  | .name s => makeNamed reg s
  | .cls c => .ok (.fresh c)
  | .inst i => .ok (.same i)
  | .other => .error .typeError

/-! ## Setting properties from several sources -/

/-- Keyword arguments or a configuration mapping; a value may be `None`. Belongs to `base.py` lines 909-960. -/
abbrev Dict (V : Type) := List (String × Option V)

/-- An object's settable properties. Belongs to `general_utils.py` lines 91-103. -/
abbrev Obj (V : Type) := String → Option V

/-- Assignment of one property. Belongs to `general_utils.py` lines 91-103. -/
def Obj.set {V : Type} (o : Obj V) (k : String) (v : V) : Obj V :=
  fun q => if q = k then some v else o q

/-- One round of `_set_properties_from_arguments`, `general_utils.py:91-103`: `None` is skipped,
a settable property is assigned, anything else is only recorded.
Simplification: setters are independent and accept every value. -/
def stepArg {V : Type} (settable : String → Bool) (o : Obj V) (kv : String × Option V) : Obj V :=
  match kv.2 with
  | none => o
  | some v => if settable kv.1 then o.set kv.1 v else o

/-- `_set_properties_from_arguments`, `general_utils.py:91-103`: effect on the object. -/
def setFromArgs {V : Type} (settable : String → Bool) (o : Obj V) (kw : Dict V) : Obj V :=
  kw.foldl (stepArg settable) o

/-- `_set_properties_from_catalogue`, `general_utils.py:105-138`: `entry` is the catalogue entry
selected by the key (`none`: key not in the catalogue), already extended by the catalogue key
itself (line 127); keyword arguments that the entry defines are dropped (129-131). -/
def setFromCatalogue {V : Type} (settable : String → Bool) (o : Obj V) (entry : Option (Dict V))
    (kw : Dict V) : Obj V :=
  match entry with
  | none => o
  | some props =>
    setFromArgs settable o (props ++ kw.filter fun kv => (props.lookup kv.1).isNone)

/-- `{**properties, **{k: v for k, v in kwargs.items() if v is not None}}`,
`general_utils.py:147`. -/
def mergeNonNone {V : Type} (file kw : Dict V) : Dict V :=
  (file.filter fun kv => !(kw.any fun q => q.1 == kv.1 && q.2.isSome))
    ++ kw.filter fun kv => kv.2.isSome

/-- `_set_properties_from_file` without key, `general_utils.py:140-149`; `none`: the file could
not be read, which only warns. -/
def setFromFile {V : Type} (settable : String → Bool) (o : Obj V) (file : Option (Dict V))
    (kw : Dict V) : Obj V :=
  match file with
  | none => o
  | some f => setFromArgs settable o (mergeNonNone f kw)

/-- `_set_properties`, `general_utils.py:156-172`: file, then catalogue, then keyword
arguments. -/
def setProperties {V : Type} (settable : String → Bool) (o : Obj V) (file : Option (Dict V))
    (entry : Option (Dict V)) (kw : Dict V) : Obj V :=
  setFromArgs settable (setFromCatalogue settable (setFromFile settable o file kw) entry kw) kw

/-! ## Conversion for the configuration file -/

/-- Values that can be stored on an object.  Keys and values of a dictionary are kept in two
lists of equal length. Belongs to `base.py` lines 995-1013. -/
inductive Val
  | null
  | bool (b : Bool)
  | int (i : Int)
  | float (x : String)
  | str (s : String)
  | dict (keys : List String) (vals : List Val)
  | list (xs : List Val)
  | tuple (xs : List Val)
  | ndarray (xs : List Val)
  | npInt (i : Int)
  | npFloat (x : String)
  | npBool (b : Bool)
  | path (s : String)
  | other (repr : String)

mutual
/-- `_convert_for_yaml`, `base.py:995-1013`.  An array is given by the plain values its
`tolist()` returns. -/
def conv : Val → Val
  | .null => .null
  | .bool b => .bool b
  | .int i => .int i
  | .float x => .float x
  | .str s => .str s
  | .dict ks vs => .dict ks (convList vs)
  | .list xs => .list (convList xs)
  | .tuple xs => .tuple (convList xs)
  | .ndarray xs => .list xs
  | .npInt i => .int i
  | .npFloat x => .float x
  -- `np.bool_` is neither `np.integer`, `np.floating` nor `bool`: last branch, `str(obj)`
  | .npBool b => .str (if b then "True" else "False")
  | .path s => .str s
  | .other r => .str r
/-- The comprehensions of `base.py:997-1001`. -/
def convList : List Val → List Val
  | [] => []
  | v :: vs => conv v :: convList vs
end

/-- `value is None`, `base.py:1020`. -/
def Val.isNull : Val → Bool
  | .null => true
  | _ => false

/-- `_to_config`, `base.py:1016-1020`, on the user-defined attributes of an object (`attrs`: name
and current value); `common` are the names removed when `remove_common_args` is set. -/
def toConfig (attrs : List (String × Val)) (removeCommon : Bool) (common : List String) :
    List (String × Val) :=
  let c := attrs.map fun kv => (kv.1, conv kv.2)
  let c := if removeCommon then c.filter fun kv => !(common.contains kv.1) else c
  c.filter fun kv => !kv.2.isNull

end Verif.Base
