import Verif.Model.Diffusion
import Mathlib.Algebra.BigOperators.Group.Finset.Basic
import Mathlib.Data.Finset.Basic
import Mathlib.Data.List.Basic

/-!
Model of the crater queue and of crater emplacement, `cratermaker/components/morphology/__init__.py` and
`basicmoon.py`.  Craters are an arbitrary type with equality (`Crater` defines no `__eq__`, so Python
compares identities).
-/

namespace Verif.Emplace

/-! ### Queue -/

section Queue

variable {C : Type} [DecidableEq C]

/-- The loop of `peek_next_batch`, `morphology/__init__.py` lines 948-968, with the reserved nodes and faces. -/
def peek (overlap : C → Finset ℕ × Finset ℕ) : List C → Finset ℕ → Finset ℕ → List C
  | [], _, _ => []
  | c :: q, nodes, faces =>
    if Disjoint nodes (overlap c).1 ∧ Disjoint faces (overlap c).2 then
      c :: peek overlap q (nodes ∪ (overlap c).1) (faces ∪ (overlap c).2)
    else []

/-- `peek_next_batch`, `morphology/__init__.py` lines 948-968. -/
def nextBatch (overlap : C → Finset ℕ × Finset ℕ) (q : List C) : List C := peek overlap q ∅ ∅

/-- `pop_batch`, `morphology/__init__.py` lines 970-987: `list.remove` of every crater of the batch; `none` is the ValueError for a
crater that is not in the queue. -/
def popBatch : List C → List C → Option (List C)
  | [], q => some q
  | c :: b, q => if c ∈ q then popBatch b (q.erase c) else none

/-- Forming the craters of a batch, `_process_queue` `morphology/__init__.py` lines 717-720, until one raises: the craters formed
(the one that raised included, since its excavation was begun) and whether all went well. -/
def formBatch (raises : C → Bool) : List C → List C × Bool
  | [] => ([], true)
  | c :: b => if raises c then ([c], false) else ((c :: (formBatch raises b).1), (formBatch raises b).2)

/-- Result of processing: the batches formed in order, the queue left, and whether it ended normally. Belongs to `morphology/__init__.py` lines 709-737. -/
structure Processed (C : Type) where
  /-- Craters formed, batch by batch. -/
  batches : List (List C)
  /-- Queue afterwards. -/
  left : List C
  /-- No exception. -/
  ok : Bool

/-- The loop `_batch_process` of `_process_queue`, `morphology/__init__.py` lines 709-737, run at most `fuel` times. -/
def process (overlap : C → Finset ℕ × Finset ℕ) (raises : C → Bool) : ℕ → List C → Processed C
  | _, [] => ⟨[], [], true⟩
  | 0, q => ⟨[], q, true⟩
  | fuel + 1, q =>
    let b := nextBatch overlap q
    let r := formBatch raises b
    if r.2 then
      match popBatch b q with
      | none => ⟨[r.1], q, false⟩
      | some q' =>
        let p := process overlap raises fuel q'
        ⟨r.1 :: p.batches, p.left, p.ok⟩
    else ⟨[r.1], q, false⟩

/-- `_enqueue_crater`, `morphology/__init__.py` lines 668-695: craters that cannot be emplaced are dropped. -/
def enqueue (emplaceable : C → Bool) (q : List C) (cs : List C) : List C := q ++ cs.filter emplaceable

/-- Largest of a list of numbers, for `max(timevals)`. Belongs to `morphology/__init__.py` lines 722-729. -/
noncomputable def maxOf : List ℝ → ℝ
  | [] => 0
  | [x] => x
  | x :: y :: xs => max x (maxOf (y :: xs))

/-- Smallest of a list of numbers. Belongs to `morphology/__init__.py` lines 722-729. -/
noncomputable def minOf : List ℝ → ℝ
  | [] => 0
  | [x] => x
  | x :: y :: xs => min x (minOf (y :: xs))

/-- The degradation window of a batch, `morphology/__init__.py` lines 722-729: `(time_start, time_end)` of the call of
`compute_subpixel_degradation`, if there is one. -/
noncomputable def window (time : C → Option ℝ) (b : List C) : Option (ℝ × ℝ) :=
  let ts := b.filterMap time
  if b.length > 1 ∧ ts.length > 1 ∧ maxOf ts > minOf ts then some (maxOf ts, minOf ts) else none

/-- All degradation windows of one run of the queue. Belongs to `morphology/__init__.py` lines 722-729. -/
noncomputable def windows (time : C → Option ℝ) (bs : List (List C)) : List (ℝ × ℝ) := bs.filterMap (window time)

end Queue

/-! ### Crater formation -/

open Verif.Diffusion

/-- `compute_volume`, `surface/__init__.py` lines 2701-2717. -/
noncomputable def computeVolume (m : Mesh) (e : ℕ → ℝ) : ℝ := ∑ f ∈ Finset.range m.n, e f * m.area f

/-- How forming a crater ends: normally, with an exception that leaves the surface as given, or with
infinities or NaN on the surface. Belongs to `surface/__init__.py` lines 2360-2387. -/
inductive Outcome
  | ok (h : ℕ → ℝ)
  | raised (h : ℕ → ℝ)
  | notFinite

open Classical in
/-- `LocalSurface.apply_diffusion`, `surface/__init__.py` lines 2360-2387, on the face elevations: negative
values are rejected, and nothing is done if all are below the tiny number `vsmall`. -/
noncomputable def applyDiffusion (m : Mesh) (vsmall : ℝ) (k h : ℕ → ℝ) : Outcome :=
  if ∃ f < m.n, k f < 0 then .raised h
  else if ∀ f < m.n, k f < vsmall then .ok h
  else .ok fun f => h f + diffusion m k h f

/-- Continue after a step that went well. Belongs to `basicmoon.py` lines 246-270. -/
def Outcome.andThen (o : Outcome) (g : (ℕ → ℝ) → Outcome) : Outcome :=
  match o with
  | .ok h => g h
  | .raised h => .raised h
  | .notFinite => .notFinite

/-- The deposited ejecta, `form_ejecta` `morphology/__init__.py` lines 649-653: the thickness cut at zero and scaled so that its
volume is minus the excavated volume. -/
noncomputable def deposit (m : Mesh) (excavated : ℝ) (thickness : ℕ → ℝ) : ℕ → ℝ :=
  fun f => max (thickness f) 0 * (-excavated / computeVolume m fun g => max (thickness g) 0)

/-- `Morphology.form_ejecta` (lines 622-666) as called by `BasicMoonMorphology.form_ejecta` (basicmoon.py
lines 246-270): with no excavated volume the former returns None, which the latter cannot unpack
(TypeError).  Without any ejecta volume the factor is not finite. `deg` is the degradation by the ejecta
intensity. -/
noncomputable def formEjecta (m : Mesh) (vsmall excavated : ℝ) (thickness deg h : ℕ → ℝ) : Outcome :=
  if excavated = 0 then .raised h
  else if computeVolume m (fun g => max (thickness g) 0) = 0 then .notFinite
  else
    (applyDiffusion m vsmall (fun f => 1.5 * deposit m excavated thickness f ^ 2)
      (fun f => h f + deposit m excavated thickness f)).andThen (applyDiffusion m vsmall deg)

/-- `form_crater`, `morphology/__init__.py` lines 575-620, for a crater that is large enough: elevation change, slope collapse if
asked for, ejecta.  Only the face elevations of the ejecta region are modelled; recording the crater in
the counts does not touch them. -/
noncomputable def formCrater (m : Mesh) (vsmall : ℝ) (collapse : Bool) (crit : ℝ)
    (change thickness deg h : ℕ → ℝ) : Outcome :=
  let h₁ := fun f => h f + change f
  let h₂ := if collapse then fun f => h₁ f + slopeCollapse m crit h₁ f else h₁
  formEjecta m vsmall (computeVolume m change) thickness deg h₂

end Verif.Emplace
