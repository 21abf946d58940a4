import Verif.Model.Arrays
import Mathlib.Tactic.Linarith
import Mathlib.Data.List.GetD

/-! Property C250: arrays of values that were read from a surface or a region are snapshots. -/

namespace Verif.Arrays

/-- What the surface has for a variable at a face or node. -/
def value (w : World) (name : String) (i : ℕ) : Option ℝ := (w.vars name).bind fun a => (w.mem a)[i]?

/-- What a held array shows. -/
def seen (w : World) (a i : ℕ) : Option ℝ := (w.mem a)[i]?

/-- The variables of the surface have arrays of their own. -/
structure Good (w : World) : Prop where
  used : ∀ n a, w.vars n = some a → a < w.next
  own : ∀ n m a, w.vars n = some a → w.vars m = some a → n = m

/-- An array that belongs to no variable. -/
def Free (w : World) (a : ℕ) : Prop := a < w.next ∧ ∀ n, w.vars n ≠ some a

theorem good_renew {w : World} (hw : Good w) (name : String) (size : ℕ) (x : ℝ) : Good (renew w name size x) := by
  constructor
  · intro n a h
    simp only [renew, alloc] at h ⊢
    by_cases hn : n = name
    · subst hn; rw [Function.update_self] at h; simp only [Option.some.injEq] at h; omega
    · rw [Function.update_of_ne hn] at h; have := hw.used n a h; omega
  · intro n m a h1 h2
    simp only [renew, alloc] at h1 h2
    by_cases hn : n = name <;> by_cases hm : m = name
    · rw [hn, hm]
    · subst hn; rw [Function.update_self] at h1; rw [Function.update_of_ne hm] at h2
      simp only [Option.some.injEq] at h1
      have := hw.used m a h2; omega
    · subst hm; rw [Function.update_self] at h2; rw [Function.update_of_ne hn] at h1
      simp only [Option.some.injEq] at h2
      have := hw.used n a h1; omega
    · rw [Function.update_of_ne hn] at h1; rw [Function.update_of_ne hm] at h2
      exact hw.own n m a h1 h2

theorem good_mem {w : World} (hw : Good w) (m : ℕ → List ℝ) : Good { w with mem := m } := ⟨hw.used, hw.own⟩

theorem good_step {w : World} (hw : Good w) (o : Act) : Good (step w o) := by
  cases o with
  | add name idx data ov pos size fill =>
    simp only [step, addData]
    cases h : w.vars name with
    | some a => simp only [h]; exact good_mem hw _
    | none =>
      have hg := good_renew hw name size fill
      cases h' : (renew w name size fill).vars name with
      | none => exact hg
      | some a => exact good_mem hg _
  | renew name size x => exact good_renew hw name size x
  | delete name =>
    constructor
    · intro n a h
      simp only [step] at h ⊢
      by_cases hn : n = name
      · subst hn; rw [Function.update_self] at h; simp at h
      · rw [Function.update_of_ne hn] at h; exact hw.used n a h
    · intro n m a h1 h2
      simp only [step] at h1 h2
      by_cases hn : n = name
      · subst hn; rw [Function.update_self] at h1; simp at h1
      · by_cases hm : m = name
        · subst hm; rw [Function.update_self] at h2; simp at h2
        · rw [Function.update_of_ne hn] at h1; rw [Function.update_of_ne hm] at h2
          exact hw.own n m a h1 h2
  | look name idx =>
    simp only [step, readRegion]
    cases h : w.vars name with
    | none => exact hw
    | some a =>
      simp only [Option.map_some, Option.getD_some, alloc]
      exact ⟨fun n a h => by have := hw.used n a h; simp only; omega, hw.own⟩
  | poke a i x => exact good_mem hw _

theorem good_run {w : World} (hw : Good w) (acts : List Act) : Good (run w acts) := by
  induction acts generalizing w with
  | nil => exact hw
  | cons o os ih => exact ih (good_step hw o)

/-- Every history of a surface that begins without variables leads to such a state. -/
theorem good_reached (mem : ℕ → List ℝ) (acts : List Act) : Good (run ⟨mem, 0, fun _ => none⟩ acts) :=
  good_run ⟨fun _ _ h => by simp at h, fun _ _ _ h => by simp at h⟩ acts

/-- An array that belongs to no variable stays so, and only the user changes it. -/
theorem free_step {w : World} {a : ℕ} (ha : Free w a) (o : Act) : Free (step w o) a ∧ ((∀ i x, o ≠ .poke a i x) → (step w o).mem a = w.mem a) := by
  obtain ⟨h1, h2⟩ := ha
  have hne : a ≠ w.next := by omega
  have hrenew : ∀ name size x, Free (renew w name size x) a ∧ (renew w name size x).mem a = w.mem a := by
    intro name size x
    refine ⟨⟨by simp only [renew, alloc]; omega, fun n => ?_⟩, by simp only [renew, alloc]; rw [Function.update_of_ne hne]⟩
    simp only [renew, alloc]
    by_cases hn : n = name
    · subst hn; rw [Function.update_self]; intro h; simp only [Option.some.injEq] at h; omega
    · rw [Function.update_of_ne hn]; exact h2 n
  cases o with
  | add name idx data ov pos size fill =>
    simp only [step, addData]
    cases h : w.vars name with
    | some b =>
      simp only [h]
      have hab : a ≠ b := fun e => h2 name (by rw [h, e])
      exact ⟨⟨h1, h2⟩, fun _ => by rw [Function.update_of_ne hab]⟩
    | none =>
      obtain ⟨hf, hm⟩ := hrenew name size fill
      simp only
      cases h' : (renew w name size fill).vars name with
      | none => exact ⟨hf, fun _ => hm⟩
      | some b =>
        have hab : a ≠ b := fun e => hf.2 name (by rw [h', e])
        exact ⟨⟨hf.1, hf.2⟩, fun _ => by simp only; rw [Function.update_of_ne hab, hm]⟩
  | renew name size x => exact ⟨(hrenew name size x).1, fun _ => (hrenew name size x).2⟩
  | delete name =>
    refine ⟨⟨h1, fun n => ?_⟩, fun _ => rfl⟩
    simp only [step]
    by_cases hn : n = name
    · subst hn; rw [Function.update_self]; simp
    · rw [Function.update_of_ne hn]; exact h2 n
  | look name idx =>
    simp only [step, readRegion]
    cases h : w.vars name with
    | none => exact ⟨⟨h1, h2⟩, fun _ => rfl⟩
    | some b =>
      simp only [Option.map_some, Option.getD_some, alloc]
      exact ⟨⟨by show a < w.next + 1; omega, h2⟩, fun _ => by rw [Function.update_of_ne hne]⟩
  | poke b i x =>
    refine ⟨⟨h1, h2⟩, fun h => ?_⟩
    simp only [step]
    have hab : a ≠ b := by rintro rfl; exact h i x rfl
    rw [Function.update_of_ne hab]

theorem free_run {w : World} {a : ℕ} (ha : Free w a) (acts : List Act) :
    Free (run w acts) a ∧ ((∀ i x, Act.poke a i x ∉ acts) → (run w acts).mem a = w.mem a) := by
  induction acts generalizing w with
  | nil => exact ⟨ha, fun _ => rfl⟩
  | cons o os ih =>
    obtain ⟨hf, hm⟩ := free_step ha o
    obtain ⟨hf', hm'⟩ := ih hf
    refine ⟨hf', fun h => ?_⟩
    rw [show run w (o :: os) = run (step w o) os from rfl, hm' fun i x hx => h i x (List.mem_cons_of_mem _ hx),
      hm fun i x e => h i x (by rw [e]; exact List.mem_cons_self)]

theorem poke_free {v : World} {a : ℕ} (hf : Free v a) (j : ℕ) (x : ℝ) (n : String) (i : ℕ) : value (step v (.poke a j x)) n i = value v n i := by
  simp only [value, step]
  cases hn : v.vars n with
  | none => rfl
  | some c =>
    simp only [Option.bind_some]
    rw [Function.update_of_ne]
    rintro rfl
    exact hf.2 n hn

theorem free_read {w w' : World} {a : ℕ} (hw : Good w) (name : String) (idx : List ℕ) (h : readRegion w name idx = some (w', a)) :
    Free w' a ∧ Good w' ∧ w'.vars = w.vars ∧ (∀ b, b < w.next → w'.mem b = w.mem b) ∧ ∃ b, w.vars name = some b ∧ w'.mem a = pick (w.mem b) idx := by
  have hg : Good w' := by
    have := good_step hw (.look name idx)
    simpa [step, h] using this
  simp only [readRegion] at h
  cases hv : w.vars name with
  | none => rw [hv] at h; simp at h
  | some b =>
    rw [hv] at h
    simp only [Option.map_some, Option.some.injEq, alloc, Prod.mk.injEq] at h
    obtain ⟨rfl, rfl⟩ := h
    refine ⟨⟨by simp, fun n e => ?_⟩, hg, rfl, fun c hc => ?_, b, rfl, ?_⟩
    · have := hw.used n _ e; omega
    · simp only; rw [Function.update_of_ne (by omega)]
    · simp only; rw [Function.update_self]

/-- Values read from a region are a snapshot: the array has the values of the surface at that time in the order of the region, and whatever happens to the
surface afterwards, as long as the user does not write to the array, it keeps them. -/
theorem C250_snapshot_partial (w w' : World) (hw : Good w) (name : String) (idx : List ℕ) (a : ℕ) (h : readRegion w name idx = some (w', a))
    (acts : List Act) (hacts : ∀ i x, Act.poke a i x ∉ acts) :
    ∀ k i : ℕ, idx[k]? = some i → ∀ x, value w name i = some x → seen (run w' acts) a k = some x := by
  obtain ⟨hf, -, -, -, b, hb, hm⟩ := free_read hw name idx h
  intro k i hk x hx
  rw [seen, (free_run hf acts).2 hacts, hm, pick, List.getElem?_map, hk, Option.map_some]
  simp only [value, hb, Option.bind_some] at hx
  rw [List.getD_eq_getElem?_getD, hx, Option.getD_some]

/-- And they belong to the user: reading changes no value of the surface, and neither do writes of the user to the array, whatever has happened to the surface
in between. -/
theorem C250_mine_partial (w w' : World) (hw : Good w) (name : String) (idx : List ℕ) (a : ℕ) (h : readRegion w name idx = some (w', a)) :
    (∀ n i, value w' n i = value w n i) ∧
    ∀ acts j x n i, value (step (run w' acts) (.poke a j x)) n i = value (run w' acts) n i := by
  obtain ⟨hf, -, hv, hold, -⟩ := free_read hw name idx h
  constructor
  · intro n i
    simp only [value, hv]
    cases hn : w.vars n with
    | none => rfl
    | some c => simp only [Option.bind_some]; rw [hold c (hw.used n c hn)]
  · intro acts j x n i
    exact poke_free (free_run hf acts).1 j x n i

/-- The actions that give a variable another array. -/
def Replaces (name : String) : Act → Prop
  | .renew n _ _ => n = name
  | .delete n => n = name
  | _ => False

theorem vars_step {w : World} {a : ℕ} {name : String} (ha : w.vars name = some a) (o : Act) (ho : ¬ Replaces name o) : (step w o).vars name = some a := by
  have hrenew : ∀ n size x, n ≠ name → (renew w n size x).vars name = some a := by
    intro n size x hn
    simp only [renew, alloc]
    rw [Function.update_of_ne (Ne.symm hn)]; exact ha
  cases o with
  | add n idx data ov pos size fill =>
    simp only [step, addData]
    cases h : w.vars n with
    | some b => simp only [h]; exact ha
    | none =>
      have hne : n ≠ name := by rintro rfl; rw [h] at ha; simp at ha
      simp only
      cases h' : (renew w n size fill).vars n with
      | none => exact hrenew n size fill hne
      | some b => exact hrenew n size fill hne
  | renew n size x => exact hrenew n size x ho
  | delete n =>
    simp only [step]
    rw [Function.update_of_ne (fun e => ho e.symm)]; exact ha
  | look n idx =>
    simp only [step, readRegion]
    cases h : w.vars n with
    | none => exact ha
    | some b => exact ha
  | poke b i x => exact ha

theorem vars_run {w : World} {a : ℕ} {name : String} (ha : w.vars name = some a) (acts : List Act) (h : ∀ o ∈ acts, ¬ Replaces name o) :
    (run w acts).vars name = some a := by
  induction acts generalizing w with
  | nil => exact ha
  | cons o os ih => exact ih (vars_step ha o (h o List.mem_cons_self)) fun o' ho' => h o' (List.mem_cons_of_mem _ ho')

/-- Values read from the whole surface are no snapshot: until the variable is made anew the array shows what the surface has at the moment, so that a state kept
for comparison never differs from the present one, and a write of the user to the array is a change of the surface. -/
theorem C250_live_fails (w : World) (name : String) (a : ℕ) (h : readWhole w name = some a) (acts : List Act) (hacts : ∀ o ∈ acts, ¬ Replaces name o) :
    (∀ i, seen (run w acts) a i = value (run w acts) name i) ∧
    ∀ i x, (seen (run w acts) a i).isSome = true → value (step (run w acts) (.poke a i x)) name i = some x := by
  have hv := vars_run (name := name) h acts hacts
  constructor
  · intro i
    simp only [value, hv, Option.bind_some, seen]
  · intro i x hi
    simp only [value, step, hv, Option.bind_some, Function.update_self]
    simp only [seen] at hi
    rw [List.getElem?_set_self]
    by_contra hc
    rw [List.getElem?_eq_none (by omega)] at hi
    simp at hi

/-- Once the variable is made anew or deleted, as by a reset, the array is left behind: it keeps the last values, and writes to it change nothing. -/
theorem C250_left_behind (w : World) (hw : Good w) (name : String) (a : ℕ) (h : readWhole w name = some a) (o : Act) (ho : Replaces name o)
    (acts : List Act) :
    ((∀ i x, Act.poke a i x ∉ acts) → ∀ i, seen (run w (o :: acts)) a i = value w name i) ∧
    ∀ j x n i, value (step (run w (o :: acts)) (.poke a j x)) n i = value (run w (o :: acts)) n i := by
  have hlt := hw.used name a h
  have hs : Free (step w o) a ∧ (step w o).mem a = w.mem a := by
    cases o with
    | add => exact ho.elim
    | look => exact ho.elim
    | poke => exact ho.elim
    | renew n size x =>
      obtain rfl : n = name := ho
      refine ⟨⟨by simp only [step, renew, alloc]; omega, fun m => ?_⟩, by simp only [step, renew, alloc]; rw [Function.update_of_ne (by omega)]⟩
      simp only [step, renew, alloc]
      by_cases hm : m = n
      · subst hm; rw [Function.update_self]; intro e; simp only [Option.some.injEq] at e; omega
      · rw [Function.update_of_ne hm]; exact fun e => hm (hw.own m n a e h)
    | delete n =>
      obtain rfl : n = name := ho
      refine ⟨⟨hlt, fun m => ?_⟩, rfl⟩
      simp only [step]
      by_cases hm : m = n
      · subst hm; rw [Function.update_self]; simp
      · rw [Function.update_of_ne hm]; exact fun e => hm (hw.own m n a e h)
  constructor
  · intro hp i
    rw [show run w (o :: acts) = run (step w o) acts from rfl, seen, (free_run hs.1 acts).2 hp, hs.2]
    simp only [readWhole] at h
    simp only [value, h, Option.bind_some]
  · intro j x n i
    exact poke_free (free_run hs.1 acts).1 j x n i

theorem assign_notMem (a : List ℝ) (idx : List ℕ) (xs : List ℝ) (i : ℕ) (hi : i ∉ idx) : (assign a idx xs)[i]? = a[i]? := by
  induction idx generalizing a xs with
  | nil => simp [assign]
  | cons j js ih =>
    simp only [List.mem_cons, not_or] at hi
    cases xs with
    | nil => simp [assign]
    | cons x xs =>
      rw [assign, ih _ _ hi.2, List.getElem?_set_ne (Ne.symm hi.1)]

theorem assign_mem (a : List ℝ) (idx : List ℕ) (xs : List ℝ) (hnd : idx.Nodup) (k i : ℕ) (x : ℝ) (hk : idx[k]? = some i) (hx : xs[k]? = some x)
    (hi : i < a.length) : (assign a idx xs)[i]? = some x := by
  induction idx generalizing a xs k with
  | nil => simp at hk
  | cons j js ih =>
    rw [List.nodup_cons] at hnd
    cases xs with
    | nil => simp at hx
    | cons y ys =>
      rw [assign]
      cases k with
      | zero =>
        simp only [List.getElem?_cons_zero, Option.some.injEq] at hk hx
        subst hk; subst hx
        rw [assign_notMem _ _ _ _ hnd.1, List.getElem?_set_self hi]
      | succ k =>
        simp only [List.getElem?_cons_succ] at hk hx
        exact ih _ _ hnd.2 k hk hx (by rw [List.length_set]; exact hi)

/-- Adding to a variable changes the variable at the elements given, by the amounts given, and nothing else; an array held of the whole variable changes with
it. -/
theorem C250_added_fails (w : World) (hw : Good w) (name : String) (a : ℕ) (h : readWhole w name = some a) (idx : List ℕ) (data : List ℝ) (hnd : idx.Nodup)
    (size : ℕ) (fill : ℝ) :
    let w' := addData w name idx data false false size fill
    (∀ (k i : ℕ) (d x : ℝ), idx[k]? = some i → data[k]? = some d → value w name i = some x → value w' name i = some (x + d) ∧ seen w' a i = some (x + d)) ∧
    (∀ i, i ∉ idx → value w' name i = value w name i) ∧ ∀ n, n ≠ name → ∀ i, value w' n i = value w n i := by
  simp only [readWhole] at h
  intro w'
  have hw' : w' = { w with mem := Function.update w.mem a (assign (w.mem a) idx (combine false false (pick (w.mem a) idx) data)) } := by
    simp only [w', addData, h]
  have hval : ∀ i, value w' name i = (assign (w.mem a) idx (combine false false (pick (w.mem a) idx) data))[i]? := by
    intro i
    rw [hw']
    simp only [value, h, Option.bind_some, Function.update_self]
  refine ⟨?_, ?_, ?_⟩
  · intro k i d x hk hd hx
    simp only [value, h, Option.bind_some] at hx
    have key : (assign (w.mem a) idx (combine false false (pick (w.mem a) idx) data))[i]? = some (x + d) := by
      refine assign_mem _ _ _ hnd k i _ hk ?_ ?_
      · simp only [combine, Bool.false_eq_true, if_false, pick, List.getElem?_zipWith, List.getElem?_map, hk, hd, Option.map_some]
        rw [List.getD_eq_getElem?_getD, hx, Option.getD_some]
      · by_contra hc
        rw [List.getElem?_eq_none (by omega)] at hx
        simp at hx
    refine ⟨by rw [hval, key], ?_⟩
    rw [hw', seen]
    simp only [Function.update_self]
    exact key
  · intro i hi
    rw [hval, assign_notMem _ _ _ _ hi]
    simp only [value, h, Option.bind_some]
  · intro n hn i
    rw [hw']
    simp only [value]
    cases hv : w.vars n with
    | none => rfl
    | some c =>
      simp only [Option.bind_some]
      rw [Function.update_of_ne]
      rintro rfl
      exact hn (hw.own n name c hv h)

/-- Asking for the reference surface of a region changes no value of the surface. -/
theorem C250_reference_partial (w w' : World) (hw : Good w) (idx within : List ℕ) (plane : List ℝ → List ℝ) (a : ℕ)
    (h : referenceRegion w idx within plane = some (w', a)) (n : String) (i : ℕ) : value w' n i = value w n i := by
  simp only [referenceRegion, Option.map_eq_some_iff] at h
  obtain ⟨⟨r, b⟩, hr, h⟩ := h
  obtain ⟨hf, -, hv, -⟩ := free_read hw _ _ hr
  have hsame := (C250_mine_partial w r hw _ _ _ hr).1
  simp only at h
  split_ifs at h with hc
  · simp only [Prod.mk.injEq] at h
    rw [← h.1, hsame]
  · simp only [Prod.mk.injEq] at h
    rw [← h.1, ← hsame]
    simp only [value]
    cases hn : r.vars n with
    | none => rfl
    | some c =>
      simp only [Option.bind_some]
      rw [Function.update_of_ne]
      rintro rfl
      exact hf.2 n hn

/-- For a region that is given by the slice of all faces it replaces the elevations of the surface within the reference radius by those of the plane. -/
theorem C250_slice_fails (w : World) (within : List ℕ) (plane : List ℝ → List ℝ) (a : ℕ) (hv : w.vars "face_elevation" = some a)
    (hmany : 5 ≤ within.length) (hnd : within.Nodup) :
    ∃ w', referenceSlice w within plane = some (w', a) ∧
      ∀ (k i : ℕ) (z x : ℝ), within[k]? = some i → (plane (within.map fun j => (w.mem a).getD j 0))[k]? = some z → value w "face_elevation" i = some x →
        value w' "face_elevation" i = some z := by
  refine ⟨{ w with mem := Function.update w.mem a (assign (w.mem a) within (plane (pick (w.mem a) within))) }, by simp only [referenceSlice, readWhole, hv, Option.map_some, if_neg (by omega : ¬ within.length < 5)], ?_⟩
  intro k i z x hk hz hx
  simp only [value, hv, Option.bind_some, Function.update_self] at hx ⊢
  refine assign_mem _ _ _ hnd k i z hk hz ?_
  by_contra hc
  rw [List.getElem?_eq_none (by omega)] at hx
  simp at hx

/-- A surface with three faces and two nodes; an array of the whole surface and one of a region. -/
noncomputable def sample : World :=
  ⟨fun a => if a = 0 then [1, 2, 3] else if a = 1 then [4, 5] else [], 2,
    fun n => if n = "face_elevation" then some 0 else if n = "node_elevation" then some 1 else none⟩

theorem good_sample : Good sample := by
  constructor
  · intro n a h
    simp only [sample] at h ⊢
    split_ifs at h <;> simp at h <;> omega
  · intro n m a h1 h2
    simp only [sample] at h1 h2
    split_ifs at h1 h2 <;> simp_all <;> omega

example : readWhole sample "face_elevation" = some 0 ∧ ∃ r, readRegion sample "face_elevation" [2, 0] = some r := by
  refine ⟨by simp [readWhole, sample], ?_⟩
  simp [readRegion, sample]

/-- Ten metres are added to a region of two faces: the array of the whole surface shows it. -/
example : seen (addData sample "face_elevation" [2, 0] [10, 10] false false 3 0) 0 2 = some 13 := by
  have h := (C250_added_fails sample good_sample "face_elevation" 0 (by simp [readWhole, sample]) [2, 0] [10, 10] (by decide) 3 0).1 0 2 10 3 rfl rfl
    (by simp [value, sample])
  rw [h.2]
  norm_num

/-- A surface with six faces whose elevations become zero. -/
example : ∃ w', referenceSlice ⟨fun _ => [1, 2, 3, 4, 5, 6], 1, fun _ => some 0⟩ [0, 1, 2, 3, 4] (List.map fun _ => 0) = some (w', 0) ∧
    value w' "face_elevation" 3 = some 0 := by
  obtain ⟨w', h, hv⟩ := C250_slice_fails ⟨fun _ => [1, 2, 3, 4, 5, 6], 1, fun _ => some 0⟩ [0, 1, 2, 3, 4] (List.map fun _ => 0) 0 rfl (by simp) (by decide)
  exact ⟨w', h, hv 3 3 0 4 rfl (by simp) (by simp [value])⟩

/-- A reset replaces the elevations. -/
example : Replaces "face_elevation" (.renew "face_elevation" 3 0) := rfl

end Verif.Arrays
