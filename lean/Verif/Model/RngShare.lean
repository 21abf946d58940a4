import Verif.Model.Base

/-!
Model of the generators of several objects: the setters of `rng`, `rng_seed` and `rng_state` (`cratermaker/core/base.py` lines 722-773), the
generator that an object hands to the objects it makes (`common_args`, lines 775-783), and drawing random numbers.  Unlike in `Model/Base.lean`, a
generator is an object that several owners can share.
-/

namespace Verif.RngShare

open Verif.Base

/-- The generators that exist: the state of each, and how many there are. Belongs to `base.py` lines 940-961. -/
structure Heap (State : Type) where
  state : ℕ → State
  count : ℕ

/-- The attributes `_rng` and `_rng_seed` of an object. Belongs to `base.py` lines 86-90. -/
structure Owner (Seed : Type) where
  gen : ℕ
  seed : Option Seed

/-- `_rng_init`, `base.py` lines 940-961, with generators as objects: `.good` is an existing generator; `state` is the dictionary that is given, and
`none` the ValueError. -/
def init {State Seed Dict : Type} (np : Numpy State Seed Dict) (fresh : State) (h : Heap State) (rng : Arg ℕ) (seed : Option Seed)
    (state : Arg Dict) : Option (Heap State × ℕ) :=
  match rng with
  | .bad => none
  | .good g => some (h, g)
  | .absent =>
    match rngInit np fresh .absent seed state with
    | none => none
    | some s => some (⟨Function.update h.state h.count s, h.count + 1⟩, h.count)

/-- `CratermakerBase.__init__`, `base.py` lines 86-90. -/
def make {State Seed Dict : Type} (np : Numpy State Seed Dict) (fresh : State) (h : Heap State) (rng : Arg ℕ) (seed : Option Seed)
    (state : Arg Dict) : Option (Heap State × Owner Seed) :=
  (init np fresh h rng seed state).map fun r => (r.1, ⟨r.2, seed⟩)

/-- An object made by another one with its `common_args`. Belongs to `base.py` lines 86-90. -/
def makePart {State Seed Dict : Type} (np : Numpy State Seed Dict) (toDict : State → Dict) (fresh : State) (h : Heap State) (o : Owner Seed) :
    Option (Heap State × Owner Seed) :=
  make np fresh h (.good o.gen) o.seed (.good (toDict (h.state o.gen)))

/-- The setter of `rng`, `base.py` lines 755-757: the present seed and the state of the present generator are passed on. -/
def setRng {State Seed Dict : Type} (np : Numpy State Seed Dict) (toDict : State → Dict) (fresh : State) (h : Heap State) (o : Owner Seed)
    (v : Arg ℕ) : Option (Heap State × Owner Seed) :=
  (init np fresh h v o.seed (.good (toDict (h.state o.gen)))).map fun r => (r.1, { o with gen := r.2 })

/-- The setter of `rng_seed`, `base.py` lines 734-741, with a valid seed. -/
def setSeed {State Seed : Type} (h : Heap State) (o : Owner Seed) (v : Option Seed) : Heap State × Owner Seed := (h, { o with seed := v })

/-- The setter of `rng_state`, `base.py` lines 771-773: the existing generator is passed on, so only the stored copy of the state, which nothing reads, is
changed. -/
def setState {State Seed Dict : Type} (np : Numpy State Seed Dict) (fresh : State) (h : Heap State) (o : Owner Seed) (v : Arg Dict) :
    Option (Heap State × Owner Seed) :=
  (init np fresh h (.good o.gen) o.seed v).map fun r => (r.1, o)

/-- A draw: `self.rng.uniform(...)` and the like.  `next` is the generator's step: the number and the new state. Belongs to `base.py` lines 86-90. -/
def draw {State Seed Out : Type} (next : State → Out × State) (h : Heap State) (o : Owner Seed) : Out × Heap State :=
  ((next (h.state o.gen)).1, { h with state := Function.update h.state o.gen (next (h.state o.gen)).2 })

/-- A history of draws by some objects; the numbers are listed together with the generator they came from. Belongs to `base.py` lines 86-90. -/
def draws {State Seed Out : Type} (next : State → Out × State) (h : Heap State) : List (Owner Seed) → List (ℕ × Out) × Heap State
  | [] => ([], h)
  | o :: os =>
    let r := draw next h o
    let rest := draws next r.2 os
    ((o.gen, r.1) :: rest.1, rest.2)

end Verif.RngShare
