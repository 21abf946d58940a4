import Mathlib.Data.Nat.Notation
import Verif.Model.MeshSettings

/-!
C249: the settings of a mesh that a surface reports are those of its mesh, and the saved states are still there when the simulation is
opened again.
-/

namespace Verif.MeshSettings

variable {S : Type} [DecidableEq S]

/-- Whether a step writes the configuration file of a new simulation. -/
def Op.writes : Op S → Prop
  | .touch => True
  | .save _ => True
  | _ => False

/-- Whether a step goes on in the same process. -/
def Op.same : Op S → Prop
  | .again _ => False
  | _ => True

/-- Whether a step gives the mesh other settings than `v`. -/
def Op.changes (v : S) : Op S → Prop
  | .assign w => w ≠ v
  | .again (some w) => w ≠ v
  | _ => False

/-- The settings assigned last, `v` without an assignment. -/
def lastAssigned (v : S) : List (Op S) → S
  | [] => v
  | .assign w :: l => lastAssigned w l
  | _ :: l => lastAssigned v l

theorem run_append (default : S) (p : Session S × Disk S) (a b : List (Op S)) :
    run default p (a ++ b) = run default (run default p a) b := by simp [run]

theorem run_cons (default : S) (p : Session S × Disk S) (o : Op S) (l : List (Op S)) :
    run default p (o :: l) = run default (step default p o) l := rfl

omit [DecidableEq S] in
theorem writeConfig_grid (s : Session S) (d : Disk S) :
    (writeConfig s d).grid = d.grid ∧ (writeConfig s d).states = d.states := by
  unfold writeConfig; split <;> simp

/-- Mesh in memory, mesh in the file and mesh of the saved states agree. -/
def Agree (p : Session S × Disk S) : Prop := p.2.grid = some p.1.mesh ∧ ∀ e ∈ p.2.states, e.2 = p.1.mesh

theorem start_agree (default : S) (given : Option S) (reset : Bool) (d : Disk S)
    (h : ∀ e ∈ d.states, some e.2 = d.grid) : Agree (start default given reset d) := by
  simp only [start, Agree, writeConfig_grid, true_and]
  generalize given.getD ((if reset then none else d.config).getD default) = v
  intro e he
  split at he
  · simp at he
  · rename_i hn
    simp only [ne_eq, Bool.or_eq_true, decide_eq_true_eq, not_or, Decidable.not_not] at hn
    have := h e he
    rw [hn.2] at this
    exact Option.some.inj this

theorem step_agree (default : S) (p : Session S × Disk S) (o : Op S) (h : Agree p) : Agree (step default p o) := by
  cases o with
  | assign v => exact h
  | touch => simpa [step, Agree, writeConfig_grid] using h
  | save n =>
    simp only [step, Agree, writeConfig_grid]
    refine ⟨h.1, fun e he => ?_⟩
    rcases List.mem_append.1 he with he | he
    · exact h.2 e (List.mem_filter.1 he).1
    · simp only [List.mem_singleton] at he; rw [he]
  | again g =>
    refine start_agree default g false p.2 fun e he => ?_
    rw [h.1, h.2 e he]

theorem run_agree (default : S) (l : List (Op S)) : ∀ p : Session S × Disk S, Agree p → Agree (run default p l) := by
  induction l with
  | nil => exact fun _ h => h
  | cons o l ih => exact fun p h => ih _ (step_agree default p o h)

/-- **C249, part.**  In every folder in which a simulation was made anew, after every history of assignments, saves, runs and openings, the mesh in
memory is the one in the grid file and every saved state belongs to it. -/
theorem C249_mesh_partial (default : S) (given : Option S) (d : Disk S) (l : List (Op S)) :
    let p := run default (start default given true d) l
    p.2.grid = some p.1.mesh ∧ ∀ e ∈ p.2.states, e.2 = p.1.mesh := by
  refine run_agree default l _ ?_
  simp [start, Agree, writeConfig_grid]

/-- What holds as long as no other settings are given. -/
def Settled (v : S) (p : Session S × Disk S) : Prop :=
  p.1.settings = v ∧ p.1.mesh = v ∧ p.2.grid = some v ∧ p.2.config = some v

theorem start_settled (default v : S) (given : Option S) (d : Disk S) (hg : d.grid = some v) (hc : d.config = some v)
    (h : given = none ∨ given = some v) :
    Settled v (start default given false d) ∧ (start default given false d).2 = d := by
  rcases d with ⟨c, g, st⟩
  simp only at hg hc
  subst hg hc
  rcases h with rfl | rfl <;> simp [start, Settled, writeConfig]

theorem step_settled (default v : S) (p : Session S × Disk S) (o : Op S) (h : Settled v p) (ho : ¬ o.changes v) :
    Settled v (step default p o) := by
  obtain ⟨h1, h2, h3, h4⟩ := h
  cases o with
  | assign w =>
    simp only [Op.changes, ne_eq, Decidable.not_not] at ho
    exact ⟨ho, h2, h3, h4⟩
  | touch => simp only [step, writeConfig]; split <;> simp [Settled, h1, h2, h3, h4]
  | save n => simp only [step, writeConfig]; split <;> simp [Settled, h1, h2, h3, h4]
  | again g =>
    refine (start_settled default v g p.2 h3 h4 ?_).1
    cases g with
    | none => exact .inl rfl
    | some w =>
      simp only [Op.changes, ne_eq, Decidable.not_not] at ho
      exact .inr (by rw [ho])

theorem run_settled (default v : S) (l : List (Op S)) : ∀ p : Session S × Disk S, Settled v p → (∀ o ∈ l, ¬ o.changes v) →
    Settled v (run default p l) := by
  induction l with
  | nil => exact fun _ h _ => h
  | cons o l ih =>
    exact fun p h hl => ih _ (step_settled default v p o h (hl o (by simp))) fun x hx => hl x (by simp [hx])

omit [DecidableEq S] in
theorem mem_saved (n m : ℕ) (v : S) (st : List (ℕ × S)) :
    (n, v) ∈ st.filter (fun e => e.1 != m) ++ [(m, v)] ↔ (n, v) ∈ st ∨ n = m := by
  by_cases h : n = m <;> simp [h]

theorem run_saved (default v : S) (n : ℕ) (l : List (Op S)) : ∀ p : Session S × Disk S, Settled v p → (∀ o ∈ l, ¬ o.changes v) →
    ((n, v) ∈ (run default p l).2.states ↔ (n, v) ∈ p.2.states ∨ Op.save n ∈ l) := by
  induction l with
  | nil => simp [run]
  | cons o l ih =>
    intro p h hl
    have ho := hl o (by simp)
    rw [run_cons, ih _ (step_settled default v p o h ho) fun x hx => hl x (by simp [hx])]
    cases o with
    | assign w => simp [step]
    | touch => simp [step, writeConfig_grid]
    | save m =>
      simp only [step, writeConfig_grid, h.2.1, mem_saved, List.mem_cons, Op.save.injEq, or_assoc]
    | again g =>
      have : (start default g false p.2).2 = p.2 := by
        refine (start_settled default v g p.2 h.2.2.1 h.2.2.2 ?_).2
        cases g with
        | none => exact .inl rfl
        | some w =>
          simp only [Op.changes, ne_eq, Decidable.not_not] at ho
          exact .inr (by rw [ho])
      simp [step, this]

/-- **C249, part.**  If the settings of the mesh are only given when the simulation is made, then after every history of saves, runs
and openings the surface reports the settings of its mesh, the folder has the states of exactly the intervals that were saved, and
opening the simulation again leaves everything in the folder as it is.
Missing: settings that are assigned to the surface later, see `C249_lost_fails`. -/
theorem C249_kept_partial (default v : S) (d : Disk S) (l : List (Op S)) (hl : ∀ o ∈ l, ¬ o.changes v) :
    let p := run default (start default (some v) true d) l
    p.1.settings = v ∧ p.1.mesh = v ∧ (∀ n, (n, v) ∈ p.2.states ↔ Op.save n ∈ l) ∧
      (start default none false p.2).2 = p.2 := by
  have h0 : Settled v (start default (some v) true d) := by simp [start, Settled, writeConfig]
  have h := run_settled default v l _ h0 hl
  refine ⟨h.1, h.2.1, fun n => ?_, (start_settled default v none _ h.2.2.1 h.2.2.2 (.inl rfl)).2⟩
  rw [run_saved default v n l _ h0 hl]
  simp [start, writeConfig_grid]

/-- **C249, part.**  The same holds if a simulation is opened, without a reset, with settings other than those of the mesh in its folder:
the old states are gone, the surface reports the settings of its new mesh, and from then on the folder has exactly the states that were
saved, also when the simulation is opened again without settings. -/
theorem C249_given_partial (default v : S) (d : Disk S) (hd : d.grid ≠ some v) (l : List (Op S)) (hl : ∀ o ∈ l, ¬ o.changes v) :
    let p := run default (start default (some v) false d) l
    p.1.settings = v ∧ p.1.mesh = v ∧ (∀ n, (n, v) ∈ p.2.states ↔ Op.save n ∈ l) ∧
      (start default none false p.2).2 = p.2 := by
  have h0 : Settled v (start default (some v) false d) := by simp [start, Settled, writeConfig, hd]
  have h := run_settled default v l _ h0 hl
  refine ⟨h.1, h.2.1, fun n => ?_, (start_settled default v none _ h.2.2.1 h.2.2.2 (.inl rfl)).2⟩
  rw [run_saved default v n l _ h0 hl]
  simp [start, writeConfig_grid, hd]

example : (start 5 none false (run 5 (start 5 (some 7) false (run 5 (start 5 (some 6) true ⟨none, none, []⟩) [.save 0]).2) [.save 0]).2).2.states =
    [(0, 7)] := by decide

/-- What holds in the process that made a simulation. -/
def First (v : S) (p : Session S × Disk S) : Prop := p.1.mesh = v ∧ p.2.grid = some v ∧ p.1.readonly = false

theorem step_first (default v : S) (p : Session S × Disk S) (o : Op S) (h : First v p) (ho : o.same) :
    First v (step default p o) := by
  obtain ⟨h1, h2, h3⟩ := h
  cases o with
  | assign w => exact ⟨h1, h2, h3⟩
  | touch => simp [step, First, writeConfig, h1, h2, h3]
  | save n => simp [step, First, writeConfig, h1, h2, h3]
  | again g => exact ho.elim

theorem run_first (default v : S) (l : List (Op S)) : ∀ p : Session S × Disk S, First v p → (∀ o ∈ l, o.same) →
    First v (run default p l) ∧ (run default p l).1.settings = lastAssigned p.1.settings l := by
  induction l with
  | nil => exact fun p h _ => ⟨h, rfl⟩
  | cons o l ih =>
    intro p h hl
    have := ih _ (step_first default v p o h (hl o (by simp))) fun x hx => hl x (by simp [hx])
    rw [run_cons]
    refine ⟨this.1, ?_⟩
    rw [this.2]
    have ho := hl o (by simp)
    cases o with
    | assign w => rfl
    | touch => rfl
    | save n => rfl
    | again g => exact ho.elim

theorem run_unwritten (default : S) (l : List (Op S)) : ∀ p : Session S × Disk S, (∀ o ∈ l, o.same ∧ ¬ o.writes) →
    (run default p l).2 = p.2 := by
  induction l with
  | nil => exact fun _ _ => rfl
  | cons o l ih =>
    intro p hl
    rw [run_cons, ih _ fun x hx => hl x (by simp [hx])]
    have ho := hl o (by simp)
    cases o with
    | assign w => rfl
    | touch => exact (ho.2 trivial).elim
    | save n => exact (ho.2 trivial).elim
    | again g => exact ho.1.elim

theorem start_disk (default v : S) (d : Disk S) (w : S) (hg : d.grid = some v) (hc : d.config = some w) :
    (start default none false d).1.mesh = w ∧ (start default none false d).2.states = if w = v then d.states else [] := by
  refine ⟨by simp [start, hc], ?_⟩
  simp only [start, writeConfig_grid, hc, hg]
  by_cases h : w = v
  · simp [h]
  · have h' : v ≠ w := fun e => h e.symm
    simp [h, h']

/-- **C249, part**, exactly, for the process that made the simulation with settings `v`: what counts is what was assigned before the
configuration file was written last, by saving or by running.  If these are the settings of the mesh, the simulation that is opened
again has all saved states; otherwise it has a new mesh and no saved state at all. -/
theorem C249_exact_partial (default v : S) (d : Disk S) (l₁ : List (Op S)) (o : Op S) (l₂ : List (Op S))
    (h₁ : ∀ x ∈ l₁, x.same) (ho : o.writes) (h₂ : ∀ x ∈ l₂, x.same ∧ ¬ x.writes) :
    let p := run default (start default (some v) true d) (l₁ ++ o :: l₂)
    let q := start default none false p.2
    p.1.mesh = v ∧ q.1.mesh = lastAssigned v l₁ ∧ q.2.states = if lastAssigned v l₁ = v then p.2.states else [] := by
  intro p q
  have h0 : First v (start default (some v) true d) := by simp [start, First, writeConfig]
  have hp : First v p := by
    refine (run_first default v _ _ h0 ?_).1
    intro x hx
    rcases List.mem_append.1 hx with hx | hx
    · exact h₁ x hx
    · rcases List.mem_cons.1 hx with rfl | hx
      · cases x with
        | again g => exact ho.elim
        | _ => trivial
      · exact (h₂ x hx).1
  have h1 := run_first default v l₁ _ h0 h₁
  have hs : (start default (some v) true d).1.settings = v := by simp [start]
  rw [hs] at h1
  have hc : p.2.config = some (lastAssigned v l₁) := by
    show (run default (start default (some v) true d) (l₁ ++ o :: l₂)).2.config = _
    rw [run_append, run_cons, run_unwritten default l₂ _ h₂]
    generalize run default (start default (some v) true d) l₁ = r at h1
    obtain ⟨⟨hm, hg, hr⟩, hset⟩ := h1
    cases o with
    | assign w => exact ho.elim
    | again g => exact ho.elim
    | touch => simp [step, writeConfig, hr, hset]
    | save n => simp [step, writeConfig, hr, hset]
  exact ⟨hp.1, start_disk default v p.2 _ hp.2.1 hc⟩

/-- **C249 fails**: settings of the mesh that are assigned to the surface of a new simulation change neither the mesh nor what is saved, but are
reported as its settings; once the simulation is saved or run, opening it again silently replaces the mesh and removes all saved states. -/
theorem C249_lost_fails (default v w : S) (hvw : w ≠ v) (d : Disk S) (ns : List ℕ) (n : ℕ) :
    let p := run default (start default (some v) true d) (ns.map Op.save ++ [.assign w, .save n])
    let q := start default none false p.2
    p.1.settings = w ∧ p.1.mesh = v ∧ (∀ k ∈ n :: ns, (k, v) ∈ p.2.states) ∧ q.1.mesh = w ∧ q.2.states = [] := by
  intro p q
  have hsame : ∀ x ∈ ns.map Op.save ++ [Op.assign w], (x : Op S).same := by
    intro x hx
    simp only [List.mem_append, List.mem_map, List.mem_singleton] at hx
    rcases hx with ⟨k, _, rfl⟩ | rfl <;> trivial
  have hlast : lastAssigned v (ns.map Op.save ++ [Op.assign w]) = w := by
    induction ns with
    | nil => rfl
    | cons k ns ih =>
      simp only [List.map_cons, List.cons_append, lastAssigned]
      exact ih (fun x hx => hsame x (by
        simp only [List.map_cons, List.cons_append, List.mem_cons]; exact .inr hx))
  have he : p = run default (start default (some v) true d) ((ns.map Op.save ++ [Op.assign w]) ++ Op.save n :: []) := by
    show run _ _ _ = _
    simp
  have h := C249_exact_partial default v d (ns.map Op.save ++ [Op.assign w]) (.save n) [] hsame trivial (by simp)
  have h0 : First v (start default (some v) true d) := by simp [start, First, writeConfig]
  have hs : (start default (some v) true d).1.settings = v := by simp [start]
  have h1 := run_first default v _ _ h0 hsame
  rw [hs, hlast] at h1
  have hp : p = step default (run default (start default (some v) true d) (ns.map Op.save ++ [Op.assign w])) (.save n) := by
    rw [he, run_append]; rfl
  simp only [hlast, if_neg hvw, ← he] at h
  refine ⟨by rw [hp]; exact h1.2, h.1, ?_, h.2.1, h.2.2⟩
  intro k hk
  have hmap : ∀ o ∈ ns.map (Op.save (S := S)), ¬ o.changes v := by
    intro o ho
    obtain ⟨j, _, rfl⟩ := List.mem_map.1 ho
    exact id
  have hkeep := run_saved default v k (ns.map Op.save) (start default (some v) true d) (by simp [start, Settled, writeConfig]) hmap
  have hdisk : (run default (start default (some v) true d) (ns.map Op.save ++ [Op.assign w])).2 =
      (run default (start default (some v) true d) (ns.map Op.save)).2 := by rw [run_append]; rfl
  rw [hp]
  simp only [step, writeConfig_grid, h1.1.1, mem_saved, hdisk, hkeep]
  rcases List.mem_cons.1 hk with rfl | hk
  · exact .inr rfl
  · exact .inl (.inr (List.mem_map.2 ⟨k, hk, rfl⟩))

/-- In a simulation that was opened again an assignment does no harm, and has no effect either: whatever is assigned, saved or
run afterwards, opening it once more gives the settings of the file and keeps every saved state. -/
theorem C249_reopened (default v : S) (d : Disk S) (hg : d.grid = some v) (hc : d.config = some v) (l : List (Op S))
    (hl : ∀ x ∈ l, x.same) :
    let p := run default (start default none false d) l
    let q := start default none false p.2
    p.1.mesh = v ∧ p.1.settings = lastAssigned v l ∧ q.1.settings = v ∧ q.1.mesh = v ∧ q.2 = p.2 := by
  have key : ∀ (l : List (Op S)) (p : Session S × Disk S), (∀ x ∈ l, x.same) → p.1.mesh = v → p.1.readonly = true →
      p.2.grid = some v → p.2.config = some v →
      (run default p l).1.mesh = v ∧ (run default p l).1.settings = lastAssigned p.1.settings l ∧
        (run default p l).2.grid = some v ∧ (run default p l).2.config = some v := by
    intro l
    induction l with
    | nil => exact fun p _ h1 _ h2 h3 => ⟨h1, rfl, h2, h3⟩
    | cons o l ih =>
      intro p hl h1 hr h2 h3
      have hl' : ∀ x ∈ l, x.same := fun x hx => hl x (by simp [hx])
      have ho := hl o (by simp)
      rw [run_cons]
      cases o with
      | assign w => exact ih _ hl' h1 hr h2 h3
      | touch => exact ih _ hl' h1 hr (by simp [step, writeConfig, hr, h2]) (by simp [step, writeConfig, hr, h3])
      | save n => exact ih _ hl' h1 hr (by simp [step, writeConfig, hr, h2]) (by simp [step, writeConfig, hr, h3])
      | again g => exact ho.elim
  intro p q
  have h0 := start_settled default v none d hg hc (.inl rfl)
  have hr : (start default none false d).1.readonly = true := by simp [start, hg, hc]
  have h := key l (start default none false d) hl h0.1.2.1 hr (by rw [h0.2]; exact hg) (by rw [h0.2]; exact hc)
  have hq := start_settled default v none p.2 h.2.2.1 h.2.2.2 (.inl rfl)
  exact ⟨h.1, by rw [h.2.1, h0.1.1], hq.1.1, hq.1.2.1, hq.2⟩

/-- A simulation of level 6, saved twice, assigned level 7 in between: opening it again leaves nothing. -/
example : (start 8 none false (run 8 (start 8 (some 6) true ⟨none, none, []⟩) [.save 0, .assign 7, .save 1]).2).2.states = [] ∧
    (run 8 (start 8 (some 6) true ⟨none, none, []⟩) [.save 0, .assign 7, .save 1]).2.states = [(0, 6), (1, 6)] := by decide

/-- Assigned back before the last save, everything is kept. -/
example : (start 8 none false (run 8 (start 8 (some 6) true ⟨none, none, []⟩) [.save 0, .assign 7, .touch, .assign 6, .save 1]).2).2.states =
    [(0, 6), (1, 6)] := by decide

/-- Steps that meet the conditions of `C249_kept_partial` and `C249_exact_partial`. -/
example : (∀ o ∈ [Op.save 0, .touch, .again none, .save 1, .again (some 6)], ¬ o.changes 6) ∧
    (∀ x ∈ [Op.save 0, Op.assign 7], x.same) ∧ (Op.save (S := ℕ) 1).writes := by
  simp [Op.changes, Op.same, Op.writes]

/-- A folder as `C249_reopened` needs it. -/
example : (start 8 none false (run 8 (start 8 (some 6) true ⟨none, none, []⟩) [.save 0]).2).2.states = [(0, 6)] ∧
    (run 8 (start 8 (some 6) true ⟨none, none, []⟩) [.save 0]).2.grid = some 6 ∧
    (run 8 (start 8 (some 6) true ⟨none, none, []⟩) [.save 0]).2.config = some 6 := by decide

end Verif.MeshSettings
