import Mathlib.Data.Int.Log
import Mathlib.Data.Rat.Floor
import Mathlib.Logic.Relation
import Mathlib.Data.List.Basic

/-!
Model of how work is shared between threads: the parallel loops `(0..n).into_par_iter().map(f).collect()` and
`(0..n).into_par_iter().map(f).sum()` of the compiled code.  The first form is in `crates/cratermaker-components/src/surface/mod.rs`
(lines 147-153, 301-307, 343-354, 452-460, 490-503, 526-533, 631-640), `counting/mod.rs` (lines 62-65, 97-100, 247-262, 464-481, 1218-1225,
1302-1309) and `morphology/basicmoon.rs` (lines 281-294); the second one in `basicmoon.rs` lines 358-377.  The library `rayon` divides a range of
indices into halves as long as it likes, depending on the number of threads and on which thread has nothing to do, and runs the parts in any order.
-/

namespace Verif.Parallel

/-- A loop that collects its results: the ranges of indices that are still to be worked on, and the buffer of results. Belongs to `surface/mod.rs` lines 147-153. -/
structure Config (β : Type) where
  pending : List (ℕ × ℕ)
  buffer : ℕ → Option β

/-- One step of a collecting loop: some thread divides a range of at least two indices in the middle, or computes the first value of a range and
writes it to its place, or finishes an empty range. Belongs to `surface/mod.rs` lines 147-153. -/
inductive Step {β : Type} (f : ℕ → β) : Config β → Config β → Prop
  | split (pre post : List (ℕ × ℕ)) (lo hi : ℕ) (b : ℕ → Option β) (h : lo + 2 ≤ hi) :
      Step f ⟨pre ++ (lo, hi) :: post, b⟩ ⟨pre ++ (lo, lo + (hi - lo) / 2) :: (lo + (hi - lo) / 2, hi) :: post, b⟩
  | compute (pre post : List (ℕ × ℕ)) (lo hi : ℕ) (b : ℕ → Option β) (h : lo < hi) :
      Step f ⟨pre ++ (lo, hi) :: post, b⟩ ⟨pre ++ (lo + 1, hi) :: post, Function.update b lo (some (f lo))⟩
  | finish (pre post : List (ℕ × ℕ)) (lo : ℕ) (b : ℕ → Option β) :
      Step f ⟨pre ++ (lo, lo) :: post, b⟩ ⟨pre ++ post, b⟩

/-- A loop over `n` indices before it begins. Belongs to `surface/mod.rs` lines 147-153. -/
def start (β : Type) (n : ℕ) : Config β := ⟨[(0, n)], fun _ => none⟩

/-- What a summing loop can return for the indices from `lo` to `hi - 1`: a part that is not divided is summed from left to right, a part that is
divided is summed in halves, and the two sums are added. Belongs to `surface/mod.rs` lines 147-153. -/
inductive Sums {β : Type} (add : β → β → β) (zero : β) (f : ℕ → β) : ℕ → ℕ → β → Prop
  | whole (lo n : ℕ) : Sums add zero f lo (lo + n) ((List.range' lo n).foldl (fun s i => add s (f i)) zero)
  | halves (lo hi : ℕ) (a b : β) (h : lo + 2 ≤ hi) (hl : Sums add zero f lo (lo + (hi - lo) / 2) a)
      (hr : Sums add zero f (lo + (hi - lo) / 2) hi b) : Sums add zero f lo hi (add (add zero a) b)

/-! ### Numbers of double precision -/

/-- The nearest integer, and the even one of two that are equally near. Belongs to `surface/mod.rs` lines 147-153. -/
def roundEven (q : ℚ) : ℤ :=
  if q - ⌊q⌋ < 1 / 2 then ⌊q⌋ else if 1 / 2 < q - ⌊q⌋ then ⌊q⌋ + 1 else if ⌊q⌋ % 2 = 0 then ⌊q⌋ else ⌊q⌋ + 1

/-- The distance of neighbouring numbers of double precision at `x`. Belongs to `surface/mod.rs` lines 147-153. -/
def spacing (x : ℚ) : ℚ := 2 ^ (Int.log 2 |x| - 52)

/-- The number of double precision (`f64`) next to `x`.  Numbers too large or too small for the exponent are not treated. Belongs to `surface/mod.rs` lines 147-153. -/
def double (x : ℚ) : ℚ := roundEven (x / spacing x) * spacing x

/-- The addition of the processor. Belongs to `surface/mod.rs` lines 147-153. -/
def doubleAdd (a b : ℚ) : ℚ := double (a + b)

/-- The number of rays, `basicmoon.rs` line 16. -/
def rays : ℕ := 5

end Verif.Parallel
