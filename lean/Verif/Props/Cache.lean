import Verif.Model.Cache
import Mathlib.Tactic.NormNum

/-! Property C127: measurements of a crater after the surface has changed. -/

namespace Verif.Cache

variable {E F T : Type}

/-- The operation changes no elevation. -/
def Op.Still : Op E T → Prop
  | .edit _ => False
  | _ => True

/-- The operation gives up what the region kept. -/
def Op.Resets : Op E T → Prop
  | .tag _ => True
  | .drop => True
  | .ratio => True
  | _ => False

/-- What is kept, if anything, comes from the present elevations. -/
def Current (k : Kit E F T) (s : State E F T) : Prop := ∀ f, s.kept = some f → f = k.level s.elev

theorem run_cons (k : Kit E F T) (s : State E F T) (o : Op E T) (ops : List (Op E T)) :
    run k s (o :: ops) = run k (step k s o) ops := rfl

theorem run_append (k : Kit E F T) (s : State E F T) (a b : List (Op E T)) : run k s (a ++ b) = run k (run k s a) b := by
  unfold run
  rw [List.foldl_append]

theorem level_current (k : Kit E F T) (s : State E F T) (h : Current k s) : Current k (level k s) := by
  unfold level
  cases hk : s.kept with
  | none =>
    intro f hf
    simp only [Option.some.injEq] at hf
    rw [← hf]
  | some g =>
    intro f hf
    exact h f hf

theorem array_current (k : Kit E F T) (s : State E F T) (h : Current k s) : array k s = k.level s.elev := by
  unfold array
  cases hk : s.kept with
  | none => rfl
  | some f => exact h f hk

theorem level_elev (k : Kit E F T) (s : State E F T) : (level k s).elev = s.elev ∧ (level k s).tags = s.tags := by
  unfold level
  cases s.kept <;> exact ⟨rfl, rfl⟩

theorem step_current (k : Kit E F T) (s : State E F T) (o : Op E T) (ho : o.Still) (h : Current k s) : Current k (step k s o) := by
  cases o with
  | edit e => exact ho.elim
  | tag t => intro f hf; simp [step] at hf
  | retag t => intro f hf; exact h f hf
  | drop => intro f hf; simp [step] at hf
  | rim => exact level_current k s h
  | floor => exact level_current k s h
  | ratio =>
    have h0 : Current k ({ s with kept := none } : State E F T) := by intro f hf; simp at hf
    exact level_current k _ (level_current k _ h0)

theorem step_resets (k : Kit E F T) (s : State E F T) (o : Op E T) (ho : o.Resets) : Current k (step k s o) := by
  cases o with
  | edit e => exact ho.elim
  | tag t => intro f hf; simp [step] at hf
  | retag t => exact ho.elim
  | drop => intro f hf; simp [step] at hf
  | rim => exact ho.elim
  | floor => exact ho.elim
  | ratio =>
    have h0 : Current k ({ s with kept := none } : State E F T) := by intro f hf; simp at hf
    exact level_current k _ (level_current k _ h0)

theorem run_current (k : Kit E F T) (ops : List (Op E T)) :
    ∀ s, Current k s → (∀ o ∈ ops, o.Still) → Current k (run k s ops) := by
  induction ops with
  | nil => intro s h _; exact h
  | cons o ops ih =>
    intro s h ho
    rw [run_cons]
    exact ih _ (step_current k s o (ho o (by simp)) h) (fun o' ho' => ho o' (by simp [ho']))

/-- **C127, part.**  The depth to diameter ratio is always that of the present surface, after any history of edits and readings. -/
theorem C127_ratio_partial (k : Kit E F T) (s : State E F T) (ops : List (Op E T)) :
    (readRatio k (run k s ops)).2 =
      (k.rim (k.level (run k s ops).elev) (run k s ops).tags - k.floor (k.level (run k s ops).elev) (run k s ops).tags) / k.diameter := by
  simp [readRatio, readFloor, readRim, level, array]

/-- **C127, part.**  Rim height and floor depth are those of the present surface when the elevations have not changed since the
crater was last tagged, stripped of its region, or had its depth to diameter ratio read.  Missing: any other history, see
`C127_stale_fails`. -/
theorem C127_since_partial (k : Kit E F T) (s : State E F T) (before after : List (Op E T)) (o : Op E T) (ho : o.Resets)
    (hafter : ∀ p ∈ after, p.Still) :
    (readRim k (run k s (before ++ o :: after))).2 =
      k.rim (k.level (run k s (before ++ o :: after)).elev) (run k s (before ++ o :: after)).tags ∧
    (readFloor k (run k s (before ++ o :: after))).2 =
      k.floor (k.level (run k s (before ++ o :: after)).elev) (run k s (before ++ o :: after)).tags := by
  have hc : Current k (run k s (before ++ o :: after)) := by
    rw [run_append, run_cons]
    exact run_current k after _ (step_resets k _ o ho) hafter
  set t := run k s (before ++ o :: after)
  have ha := array_current k _ (level_current k t hc)
  obtain ⟨he, ht⟩ := level_elev k t
  constructor
  · show k.rim (array k (level k t)) (level k t).tags = _
    rw [ha, he, ht]
  · show k.floor (array k (level k t)) (level k t).tags = _
    rw [ha, he, ht]

example : ∃ (before after : List (Op ℝ Unit)) (o : Op ℝ Unit), o.Resets ∧ (∀ p ∈ after, p.Still) ∧
    before ++ o :: after = [.rim, .edit 5, .drop, .floor, .rim] :=
  ⟨[.rim, .edit 5], [.floor, .rim], .drop, trivial, by
    intro p hp; simp at hp; rcases hp with rfl | rfl <;> trivial, rfl⟩

theorem step_keeps (k : Kit E F T) (s : State E F T) (o : Op E T) (f : F) (ho : ¬ o.Resets) (h : s.kept = some f) :
    (step k s o).kept = some f := by
  cases o with
  | edit e => exact h
  | tag t => exact (ho trivial).elim
  | retag t => exact h
  | drop => exact (ho trivial).elim
  | rim => simp [step, readRim, level, h]
  | floor => simp [step, readFloor, level, h]
  | ratio => exact (ho trivial).elim

/-- **C127 fails.**  Once rim height or floor depth has been read, they stay those of the elevations at that time, whatever edits
of the surface follow, until the crater is tagged, stripped of its region or has its ratio read. -/
theorem C127_stale_fails (k : Kit E F T) (s : State E F T) (hs : s.kept = none) (ops : List (Op E T))
    (hops : ∀ o ∈ ops, ¬ o.Resets) :
    (readRim k (run k s (.rim :: ops))).2 = k.rim (k.level s.elev) (run k s (.rim :: ops)).tags ∧
    (readFloor k (run k s (.rim :: ops))).2 = k.floor (k.level s.elev) (run k s (.rim :: ops)).tags := by
  have hk : ∀ (ops : List (Op E T)) (t : State E F T) (f : F), (∀ o ∈ ops, ¬ o.Resets) → t.kept = some f →
      (run k t ops).kept = some f := by
    intro ops
    induction ops with
    | nil => intro t f _ h; exact h
    | cons o ops ih =>
      intro t f ho h
      rw [run_cons]
      exact ih _ f (fun o' ho' => ho o' (by simp [ho'])) (step_keeps k t o f (ho o (by simp)) h)
  have h0 : (step k s .rim).kept = some (k.level s.elev) := by simp [step, readRim, level, hs]
  have h1 : (run k s (.rim :: ops)).kept = some (k.level s.elev) := by
    rw [run_cons]
    exact hk ops _ _ hops h0
  constructor
  · simp [readRim, level, array, h1]
  · simp [readFloor, level, array, h1]

/-- A crater whose rim height was read as 100 m, after the surface was buried to 500 m: still 100 m, until the ratio is read. -/
example : let k : Kit ℝ ℝ Unit := { level := fun e => e, rim := fun f _ => f, floor := fun f _ => f - 10, diameter := 1 }
    (readRim k (run k ⟨100, (), none⟩ [.rim, .edit 500])).2 = 100 ∧
    (readRim k (run k ⟨100, (), none⟩ [.rim, .edit 500, .ratio])).2 = 500 := by
  constructor <;> simp [readRim, readRatio, readFloor, run, step, level, array]

end Verif.Cache
