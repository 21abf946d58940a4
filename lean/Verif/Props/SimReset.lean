import Verif.Model.SimReset
import Verif.Props.Base
import Mathlib.Tactic.Common

/-! Properties C06 and C70: resetting the simulation and its components. -/

namespace Verif.SimReset

open Base (FS Path Answer Outcome overwriteCheck Kind)
open RunArgs (Err)

variable {M : Type}

/-- The components that `skip_component` names: none without a value, one for a name, those of a list. -/
inductive Names : Skip → List String → Prop
  | none : Names .none []
  | one (n : String) : Names (.str n) [n]
  | list (ns : List String) : Names (.list ns) ns

theorem names_skipped {skip : Skip} {sk : List String} (h : Names skip sk) : skipped skip = .ok sk := by
  cases h <;> rfl

/-- What the documentation promises of an accepted reset, apart from the files: clock cleared,
asking mode as before, one state saved, every component that is present and not skipped reset
exactly once, in the fixed order, its memory back to the initial data, the others untouched. -/
structure Done (sk : List String) (s s' : Sim M) : Prop where
  clock : s'.interval = 0 ∧ s'.time = none ∧ s'.elapsed = none ∧ s'.n1 = none ∧ s'.isNew = true
  ask : s'.ask = s.ask
  saved : s'.saves = s.saves ++ [0]
  order : (s'.resets.map Prod.fst) = s.resets.map Prod.fst ++
    ["counting", "target", "scaling", "production", "morphology", "projectile", "surface"].filter
      (fun n => n ∉ sk ∧ (s.comps n).isSome)
  memory : ∀ n c, s.comps n = some c → n ∈ componentNames → n ∉ sk →
    ∃ c', s'.comps n = some c' ∧ c'.mem = c.init
  others : ∀ n, n ∈ sk ∨ n ∉ componentNames → s'.comps n = s.comps n

theorem loop_spec (sk ns : List String) (s : Sim M) (hnd : ns.Nodup) :
    ((resetLoop sk ns s).resets.map Prod.fst = s.resets.map Prod.fst ++
      ns.filter (fun n => n ∉ sk ∧ (s.comps n).isSome)) ∧
    (∀ n c, s.comps n = some c → n ∈ ns → n ∉ sk →
      ∃ c', (resetLoop sk ns s).comps n = some c' ∧ c'.mem = c.init) ∧
    (∀ n, n ∈ sk ∨ n ∉ ns → (resetLoop sk ns s).comps n = s.comps n) ∧
    (resetLoop sk ns s).saves = s.saves := by
  induction ns generalizing s with
  | nil => simp [resetLoop]
  | cons m ns ih =>
    obtain ⟨hm, hns⟩ := List.nodup_cons.mp hnd
    by_cases hsk : m ∈ sk
    · have he : resetLoop sk (m :: ns) s = resetLoop sk ns s := by
        simp [resetLoop, hsk]
      obtain ⟨h1, h2, h3, h4⟩ := ih s hns
      rw [he]
      refine ⟨?_, ?_, ?_, h4⟩
      · rw [h1]; simp [hsk]
      · intro n c hc hn hnsk
        rcases List.mem_cons.mp hn with rfl | hn
        · exact absurd hsk hnsk
        · exact h2 n c hc hn hnsk
      · intro n hn
        refine h3 n ?_
        rcases hn with h | h
        · exact Or.inl h
        · exact Or.inr (fun h' => h (List.mem_cons_of_mem _ h'))
    · cases hc : s.comps m with
      | none =>
        have he : resetLoop sk (m :: ns) s = resetLoop sk ns s := by
          simp [resetLoop, hsk, hc]
        obtain ⟨h1, h2, h3, h4⟩ := ih s hns
        rw [he]
        refine ⟨?_, ?_, ?_, h4⟩
        · rw [h1]; simp [hc]
        · intro n c hc' hn hnsk
          rcases List.mem_cons.mp hn with rfl | hn
          · rw [hc] at hc'; simp at hc'
          · exact h2 n c hc' hn hnsk
        · intro n hn
          refine h3 n ?_
          rcases hn with h | h
          · exact Or.inl h
          · exact Or.inr (fun h' => h (List.mem_cons_of_mem _ h'))
      | some c =>
        set s1 : Sim M := { s with
          fs := (compReset s.fs c).1
          comps := fun q => if q = m then some (compReset s.fs c).2.1 else s.comps q
          resets := s.resets ++ [(m, (compReset s.fs c).2.2)] } with hs1
        have he : resetLoop sk (m :: ns) s = resetLoop sk ns s1 := by
          simp [resetLoop, hsk, hc, hs1]
        obtain ⟨h1, h2, h3, h4⟩ := ih s1 hns
        have hcomp : ∀ n, n ≠ m → s1.comps n = s.comps n := by
          intro n hn; simp [hs1, hn]
        rw [he]
        refine ⟨?_, ?_, ?_, h4⟩
        · rw [h1]
          have hf : ns.filter (fun n => n ∉ sk ∧ (s1.comps n).isSome) =
              ns.filter (fun n => n ∉ sk ∧ (s.comps n).isSome) := by
            apply List.filter_congr
            intro n hn
            rw [hcomp n (fun h => hm (h ▸ hn))]
          rw [hf]
          simp [hs1, hsk, hc]
        · intro n d hd hn hnsk
          rcases List.mem_cons.mp hn with rfl | hn
          · refine ⟨(compReset s.fs c).2.1, ?_, ?_⟩
            · rw [h3 n (Or.inr hm)]; simp [hs1]
            · rw [hc] at hd
              simp only [Option.some.injEq] at hd
              subst hd; rfl
          · have hne : n ≠ m := fun h => hm (h ▸ hn)
            exact h2 n d (by rw [hcomp n hne]; exact hd) hn hnsk
        · intro n hn
          rcases eq_or_ne n m with rfl | hne
          · rcases hn with h | h
            · exact absurd h hsk
            · exact absurd List.mem_cons_self h
          · rw [h3 n ?_, hcomp n hne]
            rcases hn with h | h
            · exact Or.inl h
            · exact Or.inr (fun h' => h (List.mem_cons_of_mem _ h'))

/-- A bad skip list or a refusal at the simulation's prompt raises and changes nothing. -/
theorem C06_refused (answer : Answer) (skip : Skip) (s : Sim M) (e : Err)
    (h : (reset answer skip s).1 = .error e) : (reset answer skip s).2 = s := by
  unfold reset at *
  cases hk : skipped skip with
  | error e' => simp
  | ok sk =>
    simp only [hk] at h ⊢
    split_ifs at h ⊢ with h1
    · rfl

/-- A value that is neither a name nor a list of names is refused with a type error, and nothing else is. -/
theorem C06_bad_skip (answer : Answer) (skip : Skip) (s : Sim M) :
    (reset answer skip s).1 = .error .typeError ↔ ∀ sk, ¬ Names skip sk := by
  cases skip with
  | other =>
    refine ⟨fun _ sk h => ?_, fun _ => rfl⟩
    cases h
  | none => exact ⟨fun h => by simp only [reset, skipped] at h; split at h <;> simp at h, fun h => (h _ .none).elim⟩
  | str n => exact ⟨fun h => by simp only [reset, skipped] at h; split at h <;> simp at h, fun h => (h _ (.one n)).elim⟩
  | list ns => exact ⟨fun h => by simp only [reset, skipped] at h; split at h <;> simp at h, fun h => (h _ (.list ns)).elim⟩

/-- The user is asked exactly when asking is on and there is something to delete; refusing then
is the only way, besides a bad skip list, for the reset to fail. -/
theorem C06_refuses_iff (answer : Answer) (sk : List String) (s : Sim M) :
    (reset answer (.list sk) s).1 = .error .runtimeError ↔
      s.ask = true ∧ filesToRemove sk s ≠ [] ∧ answer ≠ .y ∧ answer ≠ .a := by
  cases hf : (filesToRemove sk s) <;> cases answer <;> cases ha : s.ask <;>
    simp [reset, skipped, hf, ha]

/-- In terms of the components: the reset can be refused at the prompt exactly when asking is on and some component that is not
skipped has an output file; if all components with files are skipped the user is not asked and any answer will do. -/
theorem C06_asked_iff (answer : Answer) (sk : List String) (s : Sim M) :
    (reset answer (.list sk) s).1 = .error .runtimeError ↔
      s.ask = true ∧ answer ≠ .y ∧ answer ≠ .a ∧
        ∃ n ∈ componentNames, n ∉ sk ∧ ∃ c, s.comps n = some c ∧ ∃ p ∈ c.patterns, (s.fs p).isSome := by
  rw [C06_refuses_iff]
  have h : filesToRemove sk s ≠ [] ↔
      ∃ n ∈ componentNames, n ∉ sk ∧ ∃ c, s.comps n = some c ∧ ∃ p ∈ c.patterns, (s.fs p).isSome := by
    rw [Ne, List.eq_nil_iff_forall_not_mem, not_forall_not]
    unfold filesToRemove
    constructor
    · rintro ⟨p, hp⟩
      obtain ⟨n, hn, hp⟩ := List.mem_flatMap.mp hp
      refine ⟨n, hn, ?_⟩
      by_cases hs : n ∈ sk
      · simp [hs] at hp
      · refine ⟨hs, ?_⟩
        cases hc : s.comps n with
        | none => simp [hs, hc] at hp
        | some c =>
          simp only [List.contains_eq_mem, hs, decide_false, Bool.false_eq_true, if_false, hc, savedFiles,
            List.mem_filter] at hp
          exact ⟨c, rfl, p, hp.1, hp.2⟩
    · rintro ⟨n, hn, hs, c, hc, p, hp, hf⟩
      refine ⟨p, List.mem_flatMap.mpr ⟨n, hn, ?_⟩⟩
      simp [hs, hc, savedFiles, hp, hf]
  rw [h]
  tauto

example : ∃ s : Sim ℕ, s.ask = true ∧ (reset .other (.list []) s).1 = .error .runtimeError ∧
    (reset .other (.list ["surface"]) s).1 = .ok () := by
  let c : Comp ℕ := ⟨[["f"]], true, 3, 0, fun _ => .other⟩
  refine ⟨⟨fun q => if q = ["f"] then some .file else none, true, 7, none, none, none, false,
    fun n => if n = "surface" then some c else none, [], []⟩, rfl, ?_, ?_⟩
  · rw [C06_asked_iff]
    exact ⟨rfl, by simp, by simp, "surface", by simp [componentNames], by simp, c, by simp, ["f"], by simp [c], by simp⟩
  · simp [reset, skipped, filesToRemove, componentNames, savedFiles, c]

/-- An accepted reset does everything promised. -/
theorem C06_accepted (answer : Answer) (skip : Skip) (sk : List String) (s : Sim M)
    (hn : Names skip sk) (h : (reset answer skip s).1 = .ok ()) :
    Done sk s (reset answer skip s).2 := by
  have hk := names_skipped hn
  unfold reset at *
  simp only [hk] at h ⊢
  split_ifs at h ⊢ with h1 h2
  · obtain ⟨a, b, c, d⟩ := loop_spec sk componentNames { s with ask := false } (by decide)
    exact ⟨⟨rfl, rfl, rfl, rfl, rfl⟩, rfl, by simp [d], a, b, c⟩
  · obtain ⟨a, b, c, d⟩ := loop_spec sk componentNames s (by decide)
    exact ⟨⟨rfl, rfl, rfl, rfl, rfl⟩, rfl, by simp [d], a, b, c⟩

example : ∃ s : Sim ℕ, s.ask = true ∧ Names (.str "target") ["target"] ∧ (reset .y (.str "target") s).1 = .ok () := by
  let c : Comp ℕ := ⟨[["f"]], true, 3, 0, fun _ => .y⟩
  refine ⟨⟨fun q => if q = ["f"] then some .file else none, true, 7, none, none, none, false,
    fun n => if n = "surface" then some c else none, [], []⟩, rfl, .one _, ?_⟩
  simp [reset, skipped]

theorem compReset_declined (fs : FS) (c : Comp M) (hask : c.ask = true) (hno : ∀ p, c.answer p = .other) :
    (compReset fs c).1 = fs ∧ ((compReset fs c).2.2 = true ↔ savedFiles fs c = []) := by
  simp only [compReset, hask]
  cases hf : savedFiles fs c with
  | nil => simp [overwriteCheck]
  | cons p ps =>
    have : (fs p).isSome := by
      have : p ∈ savedFiles fs c := by rw [hf]; exact List.mem_cons_self
      simpa using (List.mem_filter.mp this).2
    simp [overwriteCheck, this, hno]

theorem loop_declined (sk ns : List String) (s : Sim M)
    (h : ∀ n c, s.comps n = some c → c.ask = true ∧ ∀ p, c.answer p = .other) : (resetLoop sk ns s).fs = s.fs := by
  induction ns generalizing s with
  | nil => rfl
  | cons n ns ih =>
    simp only [resetLoop]
    split_ifs with hs
    · exact ih s h
    · cases hc : s.comps n with
      | none => exact ih s h
      | some c =>
        refine (ih _ fun m d hd => ?_).trans (compReset_declined s.fs c (h n c hc).1 (h n c hc).2).1
        simp only at hd
        split_ifs at hd with hm
        · cases hd
          exact h n c hc
        · exact h m d hd

/-- Accepting at the simulation's prompt, even for all files, does not mean that the
files are deleted: each component asks again, and if the user declines there, the clock and the
memory are reset while all the old files stay, in every simulation.  The full statement "accepting deletes the old output"
is false. -/
theorem C06_half_reset_fails (s : Sim M) (answer : Answer) (ha : answer ≠ .other) (sk : List String)
    (h : ∀ n c, s.comps n = some c → c.ask = true ∧ ∀ p, c.answer p = .other) :
    (reset answer (.list sk) s).1 = .ok () ∧ (reset answer (.list sk) s).2.interval = 0 ∧
      (reset answer (.list sk) s).2.fs = s.fs := by
  have ha' : (answer == .other) = false := by cases answer <;> simp_all
  simp only [reset, skipped, ha', Bool.and_false, Bool.false_eq_true, if_false]
  refine ⟨trivial, trivial, ?_⟩
  split_ifs
  · exact loop_declined sk componentNames _ h
  · exact loop_declined sk componentNames _ h

/-- A simulation at interval 7 with a file of the surface that is to be removed. -/
example : ∃ (s : Sim ℕ) (p : Path), s.interval = 7 ∧ s.ask = true ∧ (s.fs p).isSome ∧ p ∈ filesToRemove [] s ∧
    ∀ n c, s.comps n = some c → c.ask = true ∧ ∀ p, c.answer p = .other := by
  let c : Comp ℕ := ⟨[["f"]], true, 3, 0, fun _ => .other⟩
  refine ⟨⟨fun q => if q = ["f"] then some .file else none, true, 7, none, none, none, false,
    fun n => if n = "surface" then some c else none, [], []⟩, ["f"], rfl, rfl, rfl, ?_, ?_⟩
  · simp [filesToRemove, componentNames, savedFiles, c]
  · intro n d hd
    simp only at hd
    split_ifs at hd
    cases hd
    simp [c]

theorem compReset_deletes (fs : FS) (c : Comp M) (hask : c.ask = false) (p : Path)
    (hp : p ∈ savedFiles fs c) : (compReset fs c).1 p = none ∧ (compReset fs c).2.2 = true := by
  have key : ∀ (files : List Path) (fs : FS),
      (overwriteCheck c.answer (fun _ => false) false fs files).1 = .ok := by
    intro files
    induction files with
    | nil => intro fs; rfl
    | cons q qs ih => intro fs; simp [overwriteCheck, ih]
  have hok := key (savedFiles fs c) fs
  constructor
  · simp only [compReset, hask]
    exact Base.C05_success _ _ _ _ _ hok p hp
  · simp [compReset, hask, hok]

theorem loop_sub (sk ns : List String) (s : Sim M) (q : Path) (k : Kind)
    (h : (resetLoop sk ns s).fs q = some k) : s.fs q = some k := by
  induction ns generalizing s with
  | nil => exact h
  | cons m ns ih =>
    by_cases hsk : m ∈ sk
    · exact ih s (by simpa [resetLoop, hsk] using h)
    · cases hc : s.comps m with
      | none => exact ih s (by simpa [resetLoop, hsk, hc] using h)
      | some c =>
        simp only [resetLoop, List.contains_eq_mem, hsk, decide_false, Bool.false_eq_true, if_false, hc] at h
        exact Base.check_sub _ _ _ _ _ _ _ (ih _ h)

theorem loop_files (sk ns : List String) (s : Sim M) (hnd : ns.Nodup) :
    (∀ n ∈ ns, n ∉ sk → ∀ c, s.comps n = some c → c.ask = false → ∀ p ∈ c.patterns,
      (resetLoop sk ns s).fs p = none) ∧
    (∀ q, (∀ n ∈ ns, n ∉ sk → ∀ c, s.comps n = some c → ∀ p ∈ c.patterns, ¬ p <+: q) →
      (resetLoop sk ns s).fs q = s.fs q) := by
  induction ns generalizing s with
  | nil => exact ⟨fun n hn => by simp at hn, fun q _ => rfl⟩
  | cons m ns ih =>
    obtain ⟨hm, hns⟩ := List.nodup_cons.mp hnd
    by_cases hsk : m ∈ sk
    · have he : resetLoop sk (m :: ns) s = resetLoop sk ns s := by simp [resetLoop, hsk]
      rw [he]
      refine ⟨fun n hn hs => ?_, fun q hq => (ih s hns).2 q fun n hn => hq n (List.mem_cons_of_mem _ hn)⟩
      rcases List.mem_cons.mp hn with rfl | hn
      · exact absurd hsk hs
      · exact (ih s hns).1 n hn hs
    · cases hc : s.comps m with
      | none =>
        have he : resetLoop sk (m :: ns) s = resetLoop sk ns s := by simp [resetLoop, hsk, hc]
        rw [he]
        refine ⟨fun n hn hs c hc' => ?_, fun q hq => (ih s hns).2 q fun n hn => hq n (List.mem_cons_of_mem _ hn)⟩
        rcases List.mem_cons.mp hn with rfl | hn
        · rw [hc] at hc'; cases hc'
        · exact (ih s hns).1 n hn hs c hc'
      | some c =>
        set s1 : Sim M := { s with
          fs := (compReset s.fs c).1
          comps := fun q => if q = m then some (compReset s.fs c).2.1 else s.comps q
          resets := s.resets ++ [(m, (compReset s.fs c).2.2)] } with hs1
        have he : resetLoop sk (m :: ns) s = resetLoop sk ns s1 := by simp [resetLoop, hsk, hc, hs1]
        have hcomp : ∀ n ∈ ns, s1.comps n = s.comps n := by
          intro n hn
          have : n ≠ m := fun h => hm (h ▸ hn)
          simp [hs1, this]
        rw [he]
        constructor
        · intro n hn hs d hd ha p hp
          rcases List.mem_cons.mp hn with rfl | hn
          · rw [hc, Option.some.injEq] at hd
            subst hd
            cases hfin : (resetLoop sk ns s1).fs p with
            | none => rfl
            | some k =>
              exfalso
              have h1 : (compReset s.fs c).1 p = some k := loop_sub sk ns s1 p k hfin
              have h2 : s.fs p = some k := Base.check_sub _ _ _ _ _ _ _ h1
              have h3 := (compReset_deletes s.fs c ha p (by simp [savedFiles, hp, h2])).1
              rw [h1] at h3
              cases h3
          · exact (ih s1 hns).1 n hn hs d (by rw [hcomp n hn]; exact hd) ha p hp
        · intro q hq
          rw [(ih s1 hns).2 q fun n hn hs d hd => hq n (List.mem_cons_of_mem _ hn) hs d (by
            rw [← hcomp n hn]; exact hd)]
          refine Base.C05_only_listed _ _ _ _ _ _ fun p hp => ?_
          exact hq m List.mem_cons_self hsk c hc p (List.mem_of_mem_filter hp)

/-- The output files of every component that is reset and has its own asking off are gone after an accepted reset, before the
closing save writes interval 0 again.  Missing from the full statement: components that ask again, see `C06_half_reset_fails`. -/
theorem C06_deletes_partial (answer : Answer) (skip : Skip) (sk : List String) (s : Sim M)
    (hnames : Names skip sk) (h : (reset answer skip s).1 = .ok ())
    (n : String) (hn : n ∈ componentNames) (hs : n ∉ sk) (c : Comp M) (hc : s.comps n = some c)
    (hask : c.ask = false) (p : Path) (hp : p ∈ c.patterns) : (reset answer skip s).2.fs p = none := by
  have hk := names_skipped hnames
  unfold reset at *
  simp only [hk] at h ⊢
  split_ifs at h ⊢ with h1 h2
  · exact (loop_files sk componentNames { s with ask := false } (by decide)).1 n hn hs c hc hask p hp
  · exact (loop_files sk componentNames s (by decide)).1 n hn hs c hc hask p hp

/-- Whatever is answered, a reset creates nothing and removes nothing but the output files of the components that are not
skipped: the files of a skipped component stay, and so does everything that is not below one of the listed paths. -/
theorem C06_keeps (answer : Answer) (skip : Skip) (sk : List String) (s : Sim M) (hn : Names skip sk) (q : Path)
    (hq : ∀ n ∈ componentNames, n ∉ sk → ∀ c, s.comps n = some c → ∀ p ∈ c.patterns, ¬ p <+: q) :
    (reset answer skip s).2.fs q = s.fs q := by
  have hk := names_skipped hn
  unfold reset
  simp only [hk]
  split_ifs with h1 h2
  · rfl
  · exact (loop_files sk componentNames { s with ask := false } (by decide)).2 q hq
  · exact (loop_files sk componentNames s (by decide)).2 q hq

/-- The surface's file is removed, the file of the skipped counting component stays. -/
example : ∃ s : Sim ℕ, Names (.str "counting") ["counting"] ∧ (reset .y (.str "counting") s).1 = .ok () ∧
    (s.fs ["f"]).isSome ∧ (reset .y (.str "counting") s).2.fs ["f"] = none ∧
    (reset .y (.str "counting") s).2.fs ["g"] = s.fs ["g"] ∧ (s.fs ["g"]).isSome := by
  let c : Comp ℕ := ⟨[["f"]], false, 3, 0, fun _ => .y⟩
  let d : Comp ℕ := ⟨[["g"]], false, 3, 0, fun _ => .y⟩
  refine ⟨⟨fun q => if q = ["f"] ∨ q = ["g"] then some .file else none, true, 7, none, none, none, false,
    fun n => if n = "surface" then some c else if n = "counting" then some d else none, [], []⟩, .one _, ?_, by simp, ?_, ?_, by simp⟩
  · simp [reset, skipped]
  · exact C06_deletes_partial _ _ ["counting"] _ (.one _) (by simp [reset, skipped]) "surface" (by simp [componentNames]) (by simp) c
      (by simp) rfl _ (by simp [c])
  · refine C06_keeps _ _ ["counting"] _ (.one _) _ ?_
    intro n hn hs e he p hp
    have hn2 : n ≠ "counting" := by simpa using hs
    by_cases h : n = "surface"
    · simp only [h, if_true, Option.some.injEq] at he
      subst he
      simp only [c, List.mem_singleton] at hp
      subst hp
      decide
    · simp [h, hn2] at he

/-! ### C70 -/

/-- Full statement: a declined deletion leaves the component's memory as it was.  False: the
memory is cleared whatever the answer is. -/
theorem memory_cleared (fs : FS) (c : Comp M) : (compReset fs c).2.1.mem = c.init := rfl

/-- The full claim fails for every component: declining the deletion keeps the files, but the memory is as at the start. -/
theorem C70_declined_reset_fails (fs : FS) (c : Comp M) (hask : c.ask = true) (hno : ∀ p, c.answer p = .other)
    (hf : ∃ p ∈ c.patterns, (fs p).isSome) :
    (compReset fs c).2.2 = false ∧ (compReset fs c).1 = fs ∧ (compReset fs c).2.1.mem = c.init := by
  obtain ⟨h1, h2⟩ := compReset_declined fs c hask hno
  refine ⟨?_, h1, rfl⟩
  rw [Bool.eq_false_iff, Ne, h2]
  obtain ⟨p, hp, hs⟩ := hf
  exact List.ne_nil_of_mem (List.mem_filter.mpr ⟨hp, hs⟩)

example : ∃ (fs : FS) (c : Comp ℕ), c.ask = true ∧ (∀ p, c.answer p = .other) ∧ (∃ p ∈ c.patterns, (fs p).isSome) ∧ c.init ≠ c.mem :=
  ⟨fun q => if q = ["f"] then some .file else none, ⟨[["f"]], true, 3, 0, fun _ => .other⟩, rfl, fun _ => rfl, ⟨["f"], by simp, by simp⟩,
    by simp⟩

/-- The claim holds in the weaker form that nothing is deleted without consent; the memory part is
missing, see `C70_declined_reset_fails`. -/
theorem C70_files_partial (fs : FS) (c : Comp M) (hask : c.ask = true)
    (hno : ∀ p, c.answer p = .other) : (compReset fs c).1 = fs := by
  simp only [compReset, hask]
  cases hf : savedFiles fs c with
  | nil => rfl
  | cons p ps =>
    have : (fs p).isSome := by
      have : p ∈ savedFiles fs c := by rw [hf]; exact List.mem_cons_self
      simpa using (List.mem_filter.mp this).2
    simp [overwriteCheck, this, hno]

example : (⟨[["f"]], true, 3, 0, fun _ => .other⟩ : Comp ℕ).ask = true ∧
    ∀ p, (⟨[["f"]], true, 3, 0, fun _ => .other⟩ : Comp ℕ).answer p = .other := ⟨rfl, fun _ => rfl⟩

end Verif.SimReset
