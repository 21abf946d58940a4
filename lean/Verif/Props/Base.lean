import Verif.Model.Base
import Mathlib.Tactic.Common

/-! Properties C02, C05, C11, C12, C13, C14: base class helpers. -/

namespace Verif.Base

/-! ### C02: generator construction -/

section rng
variable {State Seed Dict : Type}

/-- The documented behaviour (`base.py:930-936`): a generator wins, then a state, then a seed. -/
def documented (np : Numpy State Seed Dict) (fresh : State) (rng : Arg State)
    (seed : Option Seed) (state : Arg Dict) : Option State :=
  match rng, state, seed with
  | .bad, _, _ => none
  | .good g, _, _ => some g
  | .absent, .bad, _ => none
  | .absent, .good d, _ => np.fromDict d
  | .absent, .absent, some s => np.fromSeed s
  | .absent, .absent, none => some fresh

/-- The code agrees with the documentation unless a seed and a state are both given without a
generator.  Missing from the full statement: that combination, see `C02_seed_and_state_fails`. -/
theorem C02_documented_partial (np : Numpy State Seed Dict) (fresh : State) (rng : Arg State)
    (seed : Option Seed) (state : Arg Dict)
    (h : seed = none ∨ state = .absent ∨ rng ≠ .absent) :
    rngInit np fresh rng seed state = documented np fresh rng seed state := by
  cases rng <;> cases seed <;> cases state <;> simp_all [rngInit, documented]

/-- Exactly when the code and the documentation differ: no generator is given, a seed is, and so is
a state that numpy accepts. -/
theorem C02_differs_iff (np : Numpy State Seed Dict) (fresh : State) (rng : Arg State)
    (seed : Option Seed) (state : Arg Dict) :
    rngInit np fresh rng seed state ≠ documented np fresh rng seed state ↔
      rng = .absent ∧ seed ≠ none ∧ ∃ d g, state = .good d ∧ np.fromDict d = some g := by
  cases rng <;> cases seed <;> cases state <;> simp [rngInit, documented]
  rename_i d
  rw [eq_comm, Option.eq_none_iff_forall_ne_some]
  push Not
  rfl

/-- Both sides of `C02_differs_iff` occur. -/
example : rngInit (⟨fun n => some (n + 1), fun n => some (2 * n)⟩ : Numpy Nat Nat Nat) 0 .absent (some 4) (.good 3) ≠
    documented ⟨fun n => some (n + 1), fun n => some (2 * n)⟩ 0 .absent (some 4) (.good 3) :=
  (C02_differs_iff _ _ _ _ _).2 ⟨rfl, by simp, 3, 6, rfl, rfl⟩

/-- `C02_documented_partial` applies to a seed alone. -/
example : rngInit (⟨fun n => some (n + 1), fun n => some (2 * n)⟩ : Numpy Nat Nat Nat) 0 .absent (some 4) .absent = some 5 := by
  rw [C02_documented_partial _ _ _ _ _ (.inr (.inl rfl))]
  rfl

/-- A seed together with any state is rejected, although the documentation says that the state
takes precedence. -/
theorem C02_seed_and_state_fails (np : Numpy State Seed Dict) (fresh : State) (s : Seed)
    (d : Dict) : rngInit np fresh .absent (some s) (.good d) = none := rfl

/-- As soon as a generator, a seed or a state is given, the result does not depend on the entropy
of the operating system: equal arguments give equal generators. -/
theorem C02_reproducible (np : Numpy State Seed Dict) (f₁ f₂ : State) (rng : Arg State)
    (seed : Option Seed) (state : Arg Dict)
    (h : rng ≠ .absent ∨ seed ≠ none ∨ state ≠ .absent) :
    rngInit np f₁ rng seed state = rngInit np f₂ rng seed state := by
  cases rng <;> cases seed <;> cases state <;> simp_all [rngInit]

/-- `C02_reproducible` applies to a seed: two processes with different fresh states start alike. -/
example : rngInit (⟨fun n => some (n + 1), fun n => some (2 * n)⟩ : Numpy Nat Nat Nat) 0 .absent (some 4) .absent =
    rngInit ⟨fun n => some (n + 1), fun n => some (2 * n)⟩ 99 .absent (some 4) .absent :=
  C02_reproducible _ _ _ _ _ _ (.inr (.inl (by simp)))

/-- Assigning `rng_state` on an existing object never changes the state of its generator, so a
saved state cannot be restored that way. -/
theorem C02_assigning_state_is_ignored (np : Numpy State Seed Dict) (fresh : State)
    (o : RngObj State Seed) (d : Dict) :
    ∃ o', o.setState np fresh d = some o' ∧ o'.getState = o.getState := by
  exact ⟨{ o with stored := o.rng }, rfl, rfl⟩

/-- Hence the expected round trip "assign a state, read that state" fails, whatever state other than the present one is assigned. -/
theorem C02_state_roundtrip_fails {State Seed Dict : Type} (np : Numpy State Seed Dict) (fresh : State) (o : RngObj State Seed) (d : Dict)
    (s : State) (_hd : np.fromDict d = some s) (hs : s ≠ o.getState) :
    ∃ o', o.setState np fresh d = some o' ∧ o'.getState ≠ s :=
  ⟨{ o with stored := o.rng }, rfl, fun h => hs h.symm⟩

example : (⟨some, some⟩ : Numpy Nat Nat Nat).fromDict 7 = some 7 ∧ 7 ≠ (⟨1, none, 1⟩ : RngObj Nat Nat).getState := ⟨rfl, by decide⟩

example : documented (⟨fun n => some (n + 1), fun n => some (2 * n)⟩ : Numpy Nat Nat Nat) 0
    .absent (some 4) .absent = some 5 := rfl

end rng

/-! ### C05: overwrite check -/

/-- Files only disappear. -/
theorem removed_sub (fs : FS) (p q : Path) (k : Kind)
    (h : (if fs p = some .dir then fs.rmtree p else fs.unlink p) q = some k) : fs q = some k := by
  split_ifs at h with hd
  · unfold FS.rmtree at h; split_ifs at h; exact h
  · unfold FS.unlink at h; split_ifs at h; exact h

theorem removed_eq (fs : FS) (p q : Path) (h : ¬ p <+: q) :
    (if fs p = some .dir then fs.rmtree p else fs.unlink p) q = fs q := by
  split_ifs with hd
  · simp [FS.rmtree, h]
  · unfold FS.unlink
    rw [if_neg]
    rintro rfl; exact h (List.prefix_refl _)

theorem removed_self (fs : FS) (p : Path) :
    (if fs p = some .dir then fs.rmtree p else fs.unlink p) p = none := by
  split_ifs with hd <;> simp [FS.rmtree, FS.unlink]

theorem check_sub (answer : Path → Answer) (fails : Path → Bool) (ask : Bool) (fs : FS)
    (files : List Path) (q : Path) (k : Kind)
    (h : (overwriteCheck answer fails ask fs files).2.1 q = some k) : fs q = some k := by
  induction files generalizing ask fs with
  | nil => exact h
  | cons p ps ih =>
    unfold overwriteCheck at h
    simp only at h
    split at h
    · exact h
    · split at h
      · exact h
      · exact removed_sub fs p q k (ih _ _ h)

/-- Every path that disappears is a listed path, or lies in a listed directory, that was removed
with consent: asking was off, or the user answered `y` to that very path, or answered `a` to it
or to an earlier one. -/
theorem C05_consent (answer : Path → Answer) (fails : Path → Bool) (ask : Bool) (fs : FS)
    (files : List Path) (q : Path) (hq : (fs q).isSome)
    (hgone : (overwriteCheck answer fails ask fs files).2.1 q = none) :
    ∃ (before after : List Event) (p : Path),
      (overwriteCheck answer fails ask fs files).2.2 = before ++ .remove p :: after ∧
      p ∈ files ∧ (q = p ∨ (fs p = some .dir ∧ p <+: q)) ∧
      (ask = false ∨ .prompt p .y ∈ before ∨ ∃ r, .prompt r .a ∈ before) := by
  induction files generalizing ask fs with
  | nil => simp [overwriteCheck] at hgone; simp [hgone] at hq
  | cons p ps ih =>
    unfold overwriteCheck at hgone ⊢
    simp only at hgone ⊢
    split at hgone
    · simp only at hgone; rw [hgone] at hq; simp at hq
    next hc =>
    rw [if_neg hc]
    split at hgone
    · simp only at hgone; rw [hgone] at hq; simp at hq
    next hf =>
    rw [if_neg hf]
    set fs1 : FS := if fs p = some .dir then fs.rmtree p else fs.unlink p with hfs1
    by_cases h1 : (fs1 q).isSome
    · obtain ⟨b, a, r, he, hr, hdir, hcons⟩ := ih _ _ h1 hgone
      refine ⟨(if ((fs p).isSome && ask) = true then [Event.prompt p (answer p)] else [])
        ++ .remove p :: b, a, r, ?_, by simp [hr], ?_, ?_⟩
      · simp only [he]; simp
      · rcases hdir with h | ⟨h, h'⟩
        · exact Or.inl h
        · exact Or.inr ⟨removed_sub fs p r _ h, h'⟩
      · rcases hcons with h | h | ⟨s, h⟩
        · split_ifs at h with hh
          · right; right
            refine ⟨p, ?_⟩
            rw [Bool.and_eq_true] at hh
            have : answer p = .a := by simpa using hh.2
            simp [hh.1, this]
          · exact Or.inl h
        · right; left; simp [h]
        · right; right; exact ⟨s, by simp [h]⟩
    · have h1' : fs1 q = none := by simpa using h1
      refine ⟨if ((fs p).isSome && ask) = true then [Event.prompt p (answer p)] else [], _, p, rfl,
        by simp, ?_, ?_⟩
      · rw [hfs1] at h1'
        split_ifs at h1' with hd
        · right
          unfold FS.rmtree at h1'
          split_ifs at h1' with hp
          · exact ⟨hd, hp⟩
          · rw [h1'] at hq; simp at hq
        · left
          unfold FS.unlink at h1'
          split_ifs at h1' with hp
          · exact hp
          · rw [h1'] at hq; simp at hq
      · cases hask : ask with
        | false => exact Or.inl rfl
        | true =>
          have hp : (fs p).isSome := by
            by_contra hn
            have hn' : fs p = none := by simpa using hn
            have : fs1 q = fs q := by
              rw [hfs1, hn']; simp only [reduceCtorEq, if_false, FS.unlink]
              split_ifs with e
              · rw [e, hn']
              · rfl
            rw [← this, h1'] at hq; simp at hq
          right
          simp only [hp, hask, Bool.and_true] at hc ⊢
          cases ha : answer p with
          | y => left; simp
          | a => right; exact ⟨p, by simp⟩
          | other => simp [ha] at hc

/-- A directory and a file: the check ends with the directory and what is below it gone, the file kept.  `C05_consent` applies to the
path below the directory, `C05_only_listed` to a path elsewhere, `C05_refusal` to the outcome. -/
def exFs : FS := fun p => if p = ["d"] then some .dir else if p = ["d", "x"] ∨ p = ["f"] ∨ p = ["g"] then some .file else none

/-- The answers: yes for the directory, no for the file. -/
def exAnswer : Path → Answer := fun p => if p = ["d"] then .y else .other

example : (exFs ["d", "x"]).isSome ∧ (overwriteCheck exAnswer (fun _ => false) true exFs [["d"], ["f"]]).2.1 ["d", "x"] = none := by
  decide

/-- Nothing outside the listed files and directories is touched. -/
theorem C05_only_listed (answer : Path → Answer) (fails : Path → Bool) (ask : Bool) (fs : FS)
    (files : List Path) (q : Path) (h : ∀ p ∈ files, ¬ p <+: q) :
    (overwriteCheck answer fails ask fs files).2.1 q = fs q := by
  induction files generalizing ask fs with
  | nil => rfl
  | cons p ps ih =>
    unfold overwriteCheck
    simp only
    split
    · rfl
    · split
      · rfl
      · rw [ih _ _ (fun r hr => h r (by simp [hr]))]
        exact removed_eq fs p q (h p (by simp))

example : (∀ p ∈ [["d"], ["f"]], ¬ p <+: ["g"]) ∧
    (overwriteCheck exAnswer (fun _ => false) true exFs [["d"], ["f"]]).2.1 ["g"] = some .file :=
  ⟨by decide, by rw [C05_only_listed _ _ _ _ _ _ (by decide)]; rfl⟩

/-- Success means that none of the listed paths is left. -/
theorem C05_success (answer : Path → Answer) (fails : Path → Bool) (ask : Bool) (fs : FS)
    (files : List Path) (h : (overwriteCheck answer fails ask fs files).1 = .ok) :
    ∀ p ∈ files, (overwriteCheck answer fails ask fs files).2.1 p = none := by
  induction files generalizing ask fs with
  | nil => simp
  | cons p ps ih =>
    unfold overwriteCheck at h ⊢
    simp only at h ⊢
    split at h
    · simp at h
    next hc =>
    rw [if_neg hc]
    split at h
    · simp at h
    next hf =>
    rw [if_neg hf]
    intro q hq
    rcases List.mem_cons.1 hq with rfl | hq
    · by_contra hne
      obtain ⟨k, hk⟩ := Option.ne_none_iff_exists'.1 hne
      have := check_sub _ _ _ _ _ _ _ hk
      rw [removed_self] at this
      simp at this
    · exact ih _ _ h q hq

example : (overwriteCheck (fun _ => .a) (fun _ => false) true exFs [["d"], ["f"]]).1 = .ok ∧ (exFs ["f"]).isSome := by decide

/-- A refusal: the refused path was asked about, still exists, the question is the last thing
that happens, and only paths listed before it can have been removed. -/
theorem C05_refusal (answer : Path → Answer) (fails : Path → Bool) (ask : Bool) (fs : FS)
    (files : List Path) (h : (overwriteCheck answer fails ask fs files).1 = .cancelled) :
    ∃ (done rest : List Path) (p : Path), files = done ++ p :: rest ∧
      (overwriteCheck answer fails ask fs files).2.2.getLast? = some (.prompt p .other) ∧
      ((overwriteCheck answer fails ask fs files).2.1 p).isSome ∧
      ∀ q, (∀ d ∈ done, ¬ d <+: q) →
        (overwriteCheck answer fails ask fs files).2.1 q = fs q := by
  induction files generalizing ask fs with
  | nil => simp [overwriteCheck] at h
  | cons p ps ih =>
    unfold overwriteCheck at h ⊢
    simp only at h ⊢
    split at h
    · next hc =>
      rw [if_pos hc]
      refine ⟨[], ps, p, rfl, rfl, ?_, fun _ _ => rfl⟩
      simp only [Bool.and_eq_true] at hc
      exact hc.1.1
    next hc =>
    rw [if_neg hc]
    split at h
    · simp at h
    next hf =>
    rw [if_neg hf]
    obtain ⟨done, rest, r, he, hl, hs, hk⟩ := ih _ _ h
    refine ⟨p :: done, rest, r, by simp [he], ?_, hs, ?_⟩
    · rw [List.getLast?_append, List.getLast?_cons, hl]; simp
    · intro q hq
      rw [hk q (fun d hd => hq d (by simp [hd]))]
      exact removed_eq fs p q (hq p (by simp))

example : (overwriteCheck exAnswer (fun _ => false) true exFs [["d"], ["f"]]).1 = .cancelled := by decide

/-- Cancelling leaves every file in place if no earlier listed path existed.
Missing from the full statement (the documentation says that cancelling deletes nothing): files
accepted before the refusal, see `C05_cancel_keeps_files_fails`. -/
theorem C05_cancel_keeps_files_partial (answer : Path → Answer) (fails : Path → Bool) (fs : FS)
    (missing : List Path) (p : Path) (rest : List Path) (hm : ∀ q ∈ missing, fs q = none)
    (hf : ∀ q ∈ missing, fails q = false) (hp : (fs p).isSome) (ha : answer p = .other) :
    overwriteCheck answer fails true fs (missing ++ p :: rest)
      = (.cancelled, fs, missing.map .remove ++ [.prompt p .other]) := by
  induction missing with
  | nil => simp [overwriteCheck, hp, ha]
  | cons m ms ih =>
    have hm0 := hm m (by simp)
    have hfs : fs.unlink m = fs := by
      funext q; unfold FS.unlink; split_ifs with e
      · rw [e, hm0]
      · rfl
    have ih' := ih (fun q hq => hm q (by simp [hq])) (fun q hq => hf q (by simp [hq]))
    simp only [List.cons_append, overwriteCheck, hm0, Option.isSome_none, Bool.false_and,
      hf m (by simp), hfs]
    simp [ih']

example : overwriteCheck exAnswer (fun _ => false) true exFs ([["absent"]] ++ ["f"] :: [["d"]]) =
    (.cancelled, exFs, [.remove ["absent"], .prompt ["f"] .other]) :=
  C05_cancel_keeps_files_partial _ _ _ _ _ _ (by decide) (by simp) (by decide) (by decide)

/-- However the check ends, the file system is as before exactly if no path that existed has been
removed: in particular a cancelled check keeps every file exactly if all paths taken out before the
refusal were absent to begin with. -/
theorem C05_unchanged_iff (answer : Path → Answer) (fails : Path → Bool) (ask : Bool) (fs : FS)
    (files : List Path) :
    (overwriteCheck answer fails ask fs files).2.1 = fs ↔
      ∀ p, .remove p ∈ (overwriteCheck answer fails ask fs files).2.2 → fs p = none := by
  induction files generalizing ask fs with
  | nil => simp [overwriteCheck]
  | cons p ps ih =>
    unfold overwriteCheck
    simp only
    split
    · simp
    split
    · constructor
      · intro _ q hq
        split_ifs at hq <;> simp at hq
      · intro _; rfl
    · rcases hp : fs p with _ | k
      · have hfs : fs.unlink p = fs := by
          funext q; unfold FS.unlink; split_ifs with e
          · rw [e, hp]
          · rfl
        simp only [reduceCtorEq, if_false, hfs]
        rw [ih]
        constructor
        · intro h q hq
          simp only [Option.isSome_none, Bool.false_and, Bool.false_eq_true, if_false,
            List.nil_append, List.mem_cons] at hq
          rcases hq with e | hq
          · cases e; exact hp
          · exact h q hq
        · intro h q hq
          exact h q (by simp only [List.mem_append, List.mem_cons]; exact .inr (.inr hq))
      · constructor
        · intro h
          exfalso
          have h1 := congrFun h p
          rw [hp] at h1
          have := check_sub _ _ _ _ _ _ _ h1
          rw [← hp] at this
          rw [removed_self, hp] at this
          exact absurd this (by simp)
        · intro h
          have := h p (by simp)
          simp [hp] at this

/-- Both sides of `C05_unchanged_iff` occur with a cancelled check. -/
example : (overwriteCheck exAnswer (fun _ => false) true exFs [["absent"], ["f"]]).2.1 = exFs := by
  rw [C05_unchanged_iff]
  intro p hp
  have hev : (overwriteCheck exAnswer (fun _ => false) true exFs [["absent"], ["f"]]).2.2 =
      [.remove ["absent"], .prompt ["f"] .other] := by decide
  rw [hev] at hp
  have : p = ["absent"] := by simpa using hp
  subst this; decide

/-- Cancelling at the second file does not bring back the first one. -/
theorem C05_cancel_keeps_files_fails :
    ∃ (answer : Path → Answer) (fs : FS) (files : List Path) (p : Path),
      (overwriteCheck answer (fun _ => false) true fs files).1 = .cancelled ∧
      (fs p).isSome ∧ (overwriteCheck answer (fun _ => false) true fs files).2.1 p = none := by
  refine ⟨fun p => if p = ["a"] then .y else .other, fun _ => some .file, [["a"], ["b"]], ["a"],
    ?_, rfl, ?_⟩ <;> decide

example : (overwriteCheck (fun _ => .a) (fun _ => false) true (fun _ => some .file)
    [["x"], ["y"]]).1 = .ok := by decide

/-! ### C11: save actions -/

section actions
variable {V : Type}

/-- An operation on the list of save actions. -/
inductive ActOp (V : Type)
  | assign (o : Offer V)
  | add (e : Entry V)

/-- Run one operation; exceptions are seen by the caller and leave the returned list. -/
def ActOp.run (attrs : Attrs) (l : List (Entry V)) : ActOp V → List (Entry V) × Option Err
  | .assign o => setActions attrs l o
  | .add e => addAction attrs l e

/-- Run a history of operations, ignoring the exceptions. -/
def history (attrs : Attrs) (ops : List (ActOp V)) : List (Entry V) :=
  ops.foldl (fun l op => (op.run attrs l).1) []

theorem C11_rejected_changes_nothing (attrs : Attrs) (l : List (Entry V)) (op : ActOp V) (e : Err)
    (h : (op.run attrs l).2 = some e) : (op.run attrs l).1 = l := by
  cases op with
  | assign o =>
    cases o with
    | none => simp [ActOp.run, setActions] at h
    | other => rfl
    | list es =>
      simp only [ActOp.run, setActions] at h ⊢
      split at h
      · simp at h
      · next he => rfl
  | add en =>
    simp only [ActOp.run, addAction] at h ⊢
    split at h
    · simp at h
    · rfl

example : ((ActOp.add (.dict [("nope", .dict [])])).run (V := Nat) (fun s => if s = "plot" then some true else none)
    [.dict [("plot", .dict [])]]).2 = some .valueError := rfl

/-- An accepted assignment stores exactly the offered list, an accepted addition appends. -/
theorem C11_accepted (attrs : Attrs) (l : List (Entry V)) (op : ActOp V)
    (h : (op.run attrs l).2 = none) :
    (op.run attrs l).1 = match op with
      | .assign (.list es) => es
      | .assign _ => []
      | .add e => l ++ [e] := by
  cases op with
  | assign o =>
    cases o with
    | none => rfl
    | other => simp [ActOp.run, setActions] at h
    | list es =>
      simp only [ActOp.run, setActions] at h ⊢
      split at h
      · rfl
      · simp at h
  | add en =>
    simp only [ActOp.run, addAction] at h ⊢
    split at h
    · rfl
    · simp at h

example : ((ActOp.add (.dict [("plot", .dict [("a", 1)])])).run (V := Nat) (fun s => if s = "plot" then some true else none)
    [.dict [("plot", .dict [])]]).2 = none := rfl

/-- Every item of the entry names a method of the component and carries a dictionary. -/
def GoodEntry (attrs : Attrs) : Entry V → Prop
  | .other => False
  | .dict items => ∀ it ∈ items, attrs it.1 = some true ∧ ∃ kv, it.2 = .dict kv

theorem checkItems_iff (attrs : Attrs) (its : List (String × ActVal V)) :
    checkItems attrs its = .ok () ↔ ∀ it ∈ its, attrs it.1 = some true ∧ ∃ kv, it.2 = .dict kv := by
  induction its with
  | nil => simp [checkItems]
  | cons it its ih =>
    obtain ⟨n, v⟩ := it
    simp only [checkItems, checkItem, List.forall_mem_cons]
    rcases hn : attrs n with _ | _ | _ <;> cases v <;> simp [ih]

theorem checkEntry_iff (attrs : Attrs) (e : Entry V) :
    checkEntry attrs e = .ok () ↔ GoodEntry attrs e := by
  cases e with
  | other => simp [checkEntry, GoodEntry]
  | dict items => exact checkItems_iff attrs items

theorem checkEntries_iff (attrs : Attrs) (es : List (Entry V)) :
    checkEntries attrs es = .ok () ↔ ∀ e ∈ es, GoodEntry attrs e := by
  induction es with
  | nil => simp [checkEntries]
  | cons e es ih =>
    simp only [checkEntries, List.forall_mem_cons]
    cases he : checkEntry attrs e with
    | error err =>
      simp only [reduceCtorEq, false_iff, not_and]
      intro hg
      rw [← checkEntry_iff, he] at hg
      simp at hg
    | ok u =>
      have : GoodEntry attrs e := (checkEntry_iff attrs e).1 (by rw [he])
      simp [this, ih]

/-- An operation is accepted exactly when everything it offers is a method of the component with
a dictionary of arguments. -/
theorem C11_accepts_iff (attrs : Attrs) (l : List (Entry V)) (op : ActOp V) :
    (op.run attrs l).2 = none ↔ match op with
      | .assign .none => True
      | .assign .other => False
      | .assign (.list es) => ∀ e ∈ es, GoodEntry attrs e
      | .add e => GoodEntry attrs e := by
  cases op with
  | assign o =>
    cases o with
    | none => simp [ActOp.run, setActions]
    | other => simp [ActOp.run, setActions]
    | list es =>
      simp only [ActOp.run, setActions, ← checkEntries_iff]
      cases checkEntries attrs es <;> simp
  | add en =>
    simp only [ActOp.run, addAction, ← checkEntry_iff]
    cases checkEntry attrs en <;> simp

theorem history_good (attrs : Attrs) (ops : List (ActOp V)) :
    ∀ e ∈ history attrs ops, GoodEntry attrs e := by
  unfold history
  suffices h : ∀ l : List (Entry V), (∀ e ∈ l, GoodEntry attrs e) →
      ∀ e ∈ ops.foldl (fun l op => (op.run attrs l).1) l, GoodEntry attrs e from
    h [] (by simp)
  induction ops with
  | nil => intro l hl; exact hl
  | cons op ops ih =>
    intro l hl
    apply ih
    change ∀ e ∈ (op.run attrs l).1, GoodEntry attrs e
    cases hr : (op.run attrs l).2 with
    | some e => rw [C11_rejected_changes_nothing attrs l op e hr]; exact hl
    | none =>
      have hacc := (C11_accepts_iff attrs l op).1 hr
      rw [C11_accepted attrs l op hr]
      match op with
      | .assign .none => simp
      | .assign .other => simp
      | .assign (.list es) => exact hacc
      | .add e =>
        intro x hx
        rcases List.mem_append.1 hx with h | h
        · exact hl x h
        · rw [List.mem_singleton.1 h]; exact hacc

theorem runAll_good (attrs : Attrs) (kwargs : List (String × V)) (interval : V)
    (its : List (String × ActVal V))
    (h : ∀ it ∈ its, attrs it.1 = some true ∧ ∃ kv, it.2 = .dict kv) :
    (runAll attrs kwargs interval its).2 = none ∧
    List.Forall₂ (fun (it : String × ActVal V) (c : Call V) => c.method = it.1 ∧
      ∃ kv, it.2 = .dict kv ∧ c.args.lookup "interval" = some interval ∧
        ∀ k, k ≠ "interval" → c.args.lookup k = ((kwargs.lookup k).or (kv.lookup k)))
      its (runAll attrs kwargs interval its).1 := by
  induction its with
  | nil => simp [runAll]
  | cons it its ih =>
    obtain ⟨⟨ha, kv, hkv⟩, hrest⟩ := List.forall_mem_cons.1 h
    obtain ⟨h1, h2⟩ := ih hrest
    have hitem : runItem attrs kwargs interval it
        = .ok ⟨it.1, dictMerge (dictMerge kv kwargs) [("interval", interval)]⟩ := by
      simp [runItem, ha, hkv]
    simp only [runAll, hitem]
    refine ⟨h1, List.Forall₂.cons ⟨rfl, kv, hkv, ?_, ?_⟩ h2⟩
    · simp [dictMerge]
    · intro k hk
      have : (k == "interval") = false := by simpa using hk
      simp only [dictMerge, List.cons_append, List.nil_append, List.lookup_cons, this]
      rw [List.lookup_append]

theorem allItems_good (attrs : Attrs) (es : List (Entry V)) (h : ∀ e ∈ es, GoodEntry attrs e) :
    ∀ it ∈ allItems es, attrs it.1 = some true ∧ ∃ kv, it.2 = .dict kv := by
  induction es with
  | nil => simp [allItems]
  | cons e es ih =>
    obtain ⟨h0, h1⟩ := List.forall_mem_cons.1 h
    cases e with
    | other => exact absurd h0 (by simp [GoodEntry])
    | dict items =>
      intro it hit
      rcases List.mem_append.1 hit with hh | hh
      · exact h0 it hh
      · exact ih h1 it hh

/-- After any history of assignments and additions, accepted or not, saving raises nothing and
makes exactly one call per registered action, in order, where the interval of the save wins over
the arguments of the save, which win over the stored arguments of the action. -/
theorem C11_save_runs_all (attrs : Attrs) (ops : List (ActOp V)) (kwargs : List (String × V))
    (interval : V) :
    (saveCalls attrs (history attrs ops) false kwargs interval).2 = none ∧
    List.Forall₂ (fun (it : String × ActVal V) (c : Call V) => c.method = it.1 ∧
      ∃ kv, it.2 = .dict kv ∧ c.args.lookup "interval" = some interval ∧
        ∀ k, k ≠ "interval" → c.args.lookup k = ((kwargs.lookup k).or (kv.lookup k)))
      (allItems (history attrs ops))
      (saveCalls attrs (history attrs ops) false kwargs interval).1 :=
  runAll_good attrs kwargs interval _ (allItems_good attrs _ (history_good attrs ops))

/-- `skip_actions` makes no call. -/
theorem C11_skip (attrs : Attrs) (es : List (Entry V)) (kwargs : List (String × V)) (i : V) :
    saveCalls attrs es true kwargs i = ([], none) := rfl

example : (history (V := Nat) (fun s => if s = "plot" then some true else none)
    [.assign (.list [.dict [("plot", .dict [("a", 1)])]]), .add (.dict [("nope", .dict [])]),
     .add (.dict [("plot", .dict [])])]).length = 2 := rfl

end actions

/-! ### C12: registry -/

section registry
variable {C I : Type}

theorem lookup_regSet (r : List (String × C)) (k s : String) (c : C) :
    (regSet r k c).lookup s = if s = k then some c else r.lookup s := by
  induction r with
  | nil =>
    by_cases h : s = k
    · simp [regSet, h]
    · have : (s == k) = false := by simpa using h
      simp [regSet, List.lookup_cons, this, h]
  | cons kc r ih =>
    obtain ⟨k', c'⟩ := kc
    unfold regSet
    by_cases hk : k' = k
    · subst hk
      by_cases h : s = k'
      · simp [h]
      · have : (s == k') = false := by simpa using h
        simp [List.lookup_cons, this, h]
    · simp only [hk, if_false, List.lookup_cons, ih]
      by_cases h : s = k'
      · subst h; simp [hk]
      · have : (s == k') = false := by simpa using h
        simp [this]

theorem lookup_registerAll (h : List (String × C)) (s : String) :
    (registerAll h).lookup s = h.reverse.lookup s := by
  unfold registerAll
  suffices ∀ r, (h.foldl (fun r kc => regSet r kc.1 kc.2) r).lookup s
      = (h.reverse.lookup s).or (r.lookup s) by simpa using this []
  induction h with
  | nil => simp
  | cons kc h ih =>
    obtain ⟨k, c⟩ := kc
    intro r
    simp only [List.foldl_cons, ih, List.reverse_cons, List.lookup_append, lookup_regSet]
    by_cases hs : s = k
    · subst hs
      cases h.reverse.lookup s <;> simp
    · have : (s == k) = false := by simpa using hs
      simp [List.lookup_cons, this, hs]

theorem head_regSet (r : List (String × C)) (k : String) (c : C) :
    (regSet r k c).head?.map Prod.fst = (r.head?.map Prod.fst).or (some k) := by
  cases r with
  | nil => simp [regSet]
  | cons kc r => obtain ⟨k', c'⟩ := kc; unfold regSet; split_ifs <;> simp

theorem head_registerAll (h : List (String × C)) :
    (registerAll h).head?.map Prod.fst = h.head?.map Prod.fst := by
  unfold registerAll
  suffices ∀ r, (h.foldl (fun r kc => regSet r kc.1 kc.2) r).head?.map Prod.fst
      = (r.head?.map Prod.fst).or (h.head?.map Prod.fst) by simpa using this []
  induction h with
  | nil => simp
  | cons kc h ih =>
    intro r
    simp only [List.foldl_cons, ih, head_regSet, List.head?_cons, Option.map_some]
    cases r.head?.map Prod.fst <;> simp

/-- After any registration history a registered name gives the class registered last under it,
an unregistered one KeyError. -/
theorem C12_named (h : List (String × C)) (s : String) :
    maker (I := I) (registerAll h) (.name s) = match h.reverse.lookup s with
      | some c => .ok (.fresh c)
      | none => .error .keyError := by
  simp only [maker, makeNamed, lookup_registerAll]
  cases h.reverse.lookup s <;> rfl

/-- Without a request the component whose name was registered first is built. -/
theorem C12_default (s : String) (c : C) (h : List (String × C)) :
    ∃ c', ((s, c) :: h).reverse.lookup s = some c' ∧
      maker (I := I) (registerAll ((s, c) :: h)) .absent = .ok (.fresh c') := by
  obtain ⟨c', hc'⟩ : ∃ c', ((s, c) :: h).reverse.lookup s = some c' := by
    rw [List.reverse_cons, List.lookup_append, List.lookup_cons_self]
    cases h.reverse.lookup s <;> simp
  refine ⟨c', hc', ?_⟩
  have hh := head_registerAll ((s, c) :: h)
  have hl := lookup_registerAll ((s, c) :: h) s
  rw [hc'] at hl
  cases hr : registerAll ((s, c) :: h) with
  | nil => rw [hr] at hh; simp at hh
  | cons kc r =>
    rw [hr] at hh hl
    simp only [List.head?_cons, Option.map_some, Option.some.injEq] at hh
    simp only [maker, makeNamed, hh, hl]

/-- Instances are returned unchanged, classes instantiated, anything else is a TypeError, and an
empty registry has no default. -/
theorem C12_others (h : List (String × C)) (i : I) (c : C) :
    maker (I := I) (registerAll h) (.inst i) = .ok (.same i) ∧
    maker (I := I) (registerAll h) (.cls c) = .ok (.fresh c) ∧
    maker (C := C) (I := I) (registerAll h) .other = .error .typeError ∧
    maker (C := C) (I := I) (registerAll []) .absent = .error .indexError := ⟨rfl, rfl, rfl, rfl⟩

example : maker (C := Nat) (I := Nat) (registerAll [("icosphere", 1), ("datasurface", 2), ("icosphere", 3)])
    .absent = .ok (.fresh 3) := rfl

end registry

/-! ### C13: property sources -/

section props
variable {V : Type}

/-- The keys of a Python dictionary are unique. -/
def Unique (d : Dict V) : Prop := (d.map Prod.fst).Nodup

/-- The value a source defines for a property: `none` if the key is absent or its value is
`None`. -/
def Defines (d : Dict V) (p : String) : Option V := (d.lookup p).join

theorem lookup_none_of_not_mem {d : Dict V} {p : String} (h : p ∉ d.map Prod.fst) :
    d.lookup p = none := by
  induction d with
  | nil => rfl
  | cons kv d ih =>
    simp only [List.map_cons, List.mem_cons, not_or] at h
    have : (p == kv.1) = false := by simpa using h.1
    rw [List.lookup_cons, this]
    exact ih h.2

theorem setFromArgs_apply (settable : String → Bool) (o : Obj V) (kw : Dict V) (hu : Unique kw)
    (p : String) :
    setFromArgs settable o kw p
      = if settable p then (Defines kw p).or (o p) else o p := by
  unfold setFromArgs
  induction kw generalizing o with
  | nil => simp [Defines]
  | cons kv kw ih =>
    obtain ⟨k, v⟩ := kv
    have hu' : k ∉ kw.map Prod.fst ∧ Unique kw := by
      simpa [Unique] using hu
    rw [List.foldl_cons, ih _ hu'.2]
    by_cases hp : p = k
    · subst hp
      have hd : Defines kw p = none := by
        simp [Defines, lookup_none_of_not_mem hu'.1]
      have hd' : Defines ((p, v) :: kw) p = v := by simp [Defines]
      rw [hd, hd']
      cases v <;> by_cases hs : settable p <;> simp [stepArg, hs, Obj.set]
    · have hb : (p == k) = false := by simpa using hp
      have hd' : Defines ((k, v) :: kw) p = Defines kw p := by simp [Defines, List.lookup_cons, hb]
      have ho : stepArg settable o (k, v) p = o p := by
        cases v with
        | none => rfl
        | some v => by_cases hs : settable k <;> simp [stepArg, hs, Obj.set, hp]
      rw [hd', ho]

theorem lookup_filter_key (d : Dict V) (f : String → Bool) (p : String) :
    (d.filter fun kv => f kv.1).lookup p = if f p then d.lookup p else none := by
  induction d with
  | nil => simp
  | cons kv d ih =>
    obtain ⟨k, v⟩ := kv
    by_cases hp : p = k
    · subst hp
      by_cases hf : f p <;> simp [List.filter_cons, hf, ih]
    · have hb : (p == k) = false := by simpa using hp
      by_cases hf : f k
      · simp [List.filter_cons, hf, ih, List.lookup_cons, hb]
      · simp [List.filter_cons, hf, ih, List.lookup_cons, hb]

theorem lookup_filter_some (d : Dict V) (hu : Unique d) (p : String) :
    ((d.filter fun kv => kv.2.isSome).lookup p).join = Defines d p := by
  unfold Defines
  induction d with
  | nil => simp
  | cons kv d ih =>
    obtain ⟨k, v⟩ := kv
    have hu' : k ∉ d.map Prod.fst ∧ Unique d := by simpa [Unique] using hu
    by_cases hp : p = k
    · subst hp
      cases v with
      | none =>
        simp only [List.filter_cons, Option.isSome_none, Bool.false_eq_true, if_false,
          List.lookup_cons_self]
        rw [ih hu'.2, lookup_none_of_not_mem hu'.1]; rfl
      | some v => simp [List.filter_cons]
    · have hb : (p == k) = false := by simpa using hp
      cases v <;> simp [List.filter_cons, List.lookup_cons, hb, ih hu'.2]

theorem isSome_lookup {a : Dict V} {kv : String × Option V} (h : kv ∈ a) :
    (a.lookup kv.1).isSome := by
  induction a with
  | nil => simp at h
  | cons c a ih =>
    by_cases e : kv.1 = c.1
    · rw [e]; simp [List.lookup_cons]
    · have hb' : (kv.1 == c.1) = false := by simpa using e
      rw [List.lookup_cons, hb']
      rcases List.mem_cons.1 h with h | h
      · rw [h] at e; simp at e
      · exact ih h

theorem unique_append_filter (a b : Dict V) (ha : Unique a) (hb : Unique b) :
    Unique (a ++ b.filter fun kv => (a.lookup kv.1).isNone) := by
  unfold Unique at *
  rw [List.map_append, List.nodup_append]
  refine ⟨ha, (hb.sublist (List.Sublist.map _ List.filter_sublist)), ?_⟩
  intro x hx y hy hxy
  subst hxy
  obtain ⟨kv, hkv, rfl⟩ := List.mem_map.1 hy
  obtain ⟨_, hn⟩ := List.mem_filter.1 hkv
  obtain ⟨kv', hkv', he⟩ := List.mem_map.1 hx
  have : (a.lookup kv.1).isSome := by
    rw [← he]
    exact isSome_lookup hkv'
  rw [Option.isNone_iff_eq_none] at hn
  rw [hn] at this; simp at this

theorem unique_merge (f kw : Dict V) (hf : Unique f) (hk : Unique kw) :
    Unique (mergeNonNone f kw) := by
  unfold Unique mergeNonNone at *
  rw [List.map_append, List.nodup_append]
  refine ⟨hf.sublist (List.Sublist.map _ List.filter_sublist),
    hk.sublist (List.Sublist.map _ List.filter_sublist), ?_⟩
  intro x hx y hy hxy
  subst hxy
  obtain ⟨a, ha, rfl⟩ := List.mem_map.1 hx
  obtain ⟨b, hb, he⟩ := List.mem_map.1 hy
  obtain ⟨_, h1⟩ := List.mem_filter.1 ha
  obtain ⟨hb1, hb2⟩ := List.mem_filter.1 hb
  simp only [Bool.not_eq_true', List.any_eq_false, Bool.and_eq_true, beq_iff_eq, not_and,
    Bool.not_eq_true] at h1
  have := h1 b hb1 he
  simp [this] at hb2

theorem mem_of_lookup {d : Dict V} {p : String} {v : Option V} (h : d.lookup p = some v) :
    (p, v) ∈ d := by
  induction d with
  | nil => simp at h
  | cons c d ih =>
    by_cases e : p = c.1
    · subst e
      rw [List.lookup_cons] at h
      simp only [beq_self_eq_true, Option.some.injEq] at h
      subst h; simp
    · have hb : (p == c.1) = false := by simpa using e
      rw [List.lookup_cons, hb] at h
      exact List.mem_cons_of_mem _ (ih h)

theorem lookup_of_mem {d : Dict V} (hu : Unique d) {p : String} {v : Option V} (h : (p, v) ∈ d) :
    d.lookup p = some v := by
  induction d with
  | nil => simp at h
  | cons c d ih =>
    have hu' : c.1 ∉ d.map Prod.fst ∧ Unique d := by simpa [Unique] using hu
    rcases List.mem_cons.1 h with e | h
    · subst e; simp
    · have : p ≠ c.1 := by
        rintro rfl
        exact hu'.1 (List.mem_map.2 ⟨_, h, rfl⟩)
      have hb : (p == c.1) = false := by simpa using this
      rw [List.lookup_cons, hb]; exact ih hu'.2 h

theorem defines_merge (f kw : Dict V) (hk : Unique kw) (p : String) :
    Defines (mergeNonNone f kw) p = (Defines kw p).or (Defines f p) := by
  unfold mergeNonNone
  have hf := lookup_filter_key f (fun k => !(kw.any fun q => q.1 == k && q.2.isSome)) p
  have hs := lookup_filter_some kw hk p
  cases hd : Defines kw p with
  | some v =>
    have hl : kw.lookup p = some (some v) := by
      unfold Defines at hd
      cases h : kw.lookup p with
      | none => rw [h] at hd; simp at hd
      | some w => rw [h] at hd; simp at hd; rw [hd]
    have hany : (kw.any fun q => q.1 == p && q.2.isSome) = true := by
      rw [List.any_eq_true]
      exact ⟨(p, some v), mem_of_lookup hl, by simp⟩
    unfold Defines
    rw [List.lookup_append, hf, hany]
    simp only [Bool.not_true, Bool.false_eq_true, if_false, Option.none_or, Option.some_or]
    rw [hs, hd]
  | none =>
    have hany : (kw.any fun q => q.1 == p && q.2.isSome) = false := by
      rw [List.any_eq_false]
      rintro ⟨k, v⟩ hq
      simp only [Bool.and_eq_true, beq_iff_eq, not_and, Bool.not_eq_true]
      rintro rfl
      have := lookup_of_mem hk hq
      unfold Defines at hd
      rw [this] at hd
      cases v <;> simp_all
    unfold Defines
    rw [List.lookup_append, hf, hany]
    simp only [Bool.not_false, if_true, Option.none_or]
    cases hlf : f.lookup p with
    | some w => simp
    | none =>
      simp only [Option.none_or, Option.join_none]
      rw [hs, hd]

/-- A settable property ends up with the value of the explicit argument if there is one that is
not `None`, else of the catalogue entry, else of the configuration file, else keeps its value; a
property that cannot be set keeps its value. -/
theorem C13_precedence (settable : String → Bool) (o : Obj V) (file entry : Option (Dict V))
    (kw : Dict V) (hk : Unique kw) (hf : ∀ f, file = some f → Unique f)
    (he : ∀ e, entry = some e → Unique e) (p : String) :
    setProperties settable o file entry kw p =
      if settable p then
        ((Defines kw p).or ((entry.bind fun e => Defines e p).or
          ((file.bind fun f => Defines f p).or (o p))))
      else o p := by
  unfold setProperties
  rw [setFromArgs_apply settable _ kw hk]
  by_cases hs : settable p
  swap
  · simp only [hs, Bool.false_eq_true, if_false]
    have h1 : setFromFile settable o file kw p = o p := by
      cases file with
      | none => rfl
      | some f =>
        simp only [setFromFile]
        rw [setFromArgs_apply _ _ _ (unique_merge f kw (hf f rfl) hk)]
        simp [hs]
    cases entry with
    | none => exact h1
    | some e =>
      simp only [setFromCatalogue]
      rw [setFromArgs_apply _ _ _ (unique_append_filter e kw (he e rfl) hk)]
      simp [hs, h1]
  simp only [hs, if_true]
  have h1 : setFromFile settable o file kw p
      = (file.bind fun f => (Defines kw p).or (Defines f p)).or (o p) := by
    cases file with
    | none => simp [setFromFile]
    | some f =>
      simp only [setFromFile]
      rw [setFromArgs_apply _ _ _ (unique_merge f kw (hf f rfl) hk), defines_merge f kw hk]
      simp [hs]
  cases hd : Defines kw p with
  | some v => simp
  | none =>
    rw [hd] at h1
    simp only [Option.none_or] at h1 ⊢
    cases entry with
    | none => simp only [setFromCatalogue, h1, Option.bind_none, Option.none_or]
    | some e =>
      simp only [setFromCatalogue]
      rw [setFromArgs_apply _ _ _ (unique_append_filter e kw (he e rfl) hk)]
      simp only [hs, if_true, h1, Option.bind_some]
      have : Defines (e ++ kw.filter fun kv => (e.lookup kv.1).isNone) p = Defines e p := by
        unfold Defines
        rw [List.lookup_append]
        cases hl : e.lookup p with
        | some w => simp
        | none =>
          have := lookup_filter_key kw (fun k => (e.lookup k).isNone) p
          simp only [Option.none_or, this, hl, Option.isNone_none, if_true]
          exact hd
      rw [this]

example : Unique ([("radius", some 1), ("mass", none)] : Dict Nat) := by simp [Unique]
example : setProperties (fun _ => true) (fun _ => none) (some [("radius", some 1), ("x", some 9)])
    (some [("radius", some 2), ("mass", some 3)]) [("mass", some 4), ("x", none)] "mass"
      = some 4 := rfl

end props

/-! ### C14: configuration values -/

mutual
/-- Plain data: what `yaml.safe_dump` can write. -/
def Plain : Val → Prop
  | .null | .bool _ | .int _ | .float _ | .str _ => True
  | .dict _ vs => PlainAll vs
  | .list xs => PlainAll xs
  | .tuple xs => PlainAll xs
  | .ndarray _ | .npInt _ | .npFloat _ | .npBool _ | .path _ | .other _ => False
/-- All values of a list are plain. -/
def PlainAll : List Val → Prop
  | [] => True
  | v :: vs => Plain v ∧ PlainAll vs
end

mutual
/-- Arrays hold plain values (numeric arrays). -/
def ArraysPlain : Val → Prop
  | .dict _ vs => ArraysPlainAll vs
  | .list xs => ArraysPlainAll xs
  | .tuple xs => ArraysPlainAll xs
  | .ndarray xs => PlainAll xs
  | _ => True
/-- See `ArraysPlain`. -/
def ArraysPlainAll : List Val → Prop
  | [] => True
  | v :: vs => ArraysPlain v ∧ ArraysPlainAll vs
end

mutual
/-- Whatever the nesting, the converted value is plain data. -/
theorem C14_plain (v : Val) (h : ArraysPlain v) : Plain (conv v) := by
  cases v with
  | dict ks vs => simp only [conv, Plain]; exact plain_convList vs (by simpa [ArraysPlain] using h)
  | list vs => simp only [conv, Plain]; exact plain_convList vs (by simpa [ArraysPlain] using h)
  | tuple vs => simp only [conv, Plain]; exact plain_convList vs (by simpa [ArraysPlain] using h)
  | ndarray xs => simpa [conv, Plain, ArraysPlain] using h
  | _ => simp [conv, Plain]
theorem plain_convList (vs : List Val) (h : ArraysPlainAll vs) : PlainAll (convList vs) := by
  cases vs with
  | nil => simp [convList, PlainAll]
  | cons v vs =>
    simp only [ArraysPlainAll] at h
    simp only [convList, PlainAll]
    exact ⟨C14_plain v h.1, plain_convList vs h.2⟩
end

example : ArraysPlain (.tuple [.npBool true, .path "x", .ndarray [.int 3]]) := by
  simp [ArraysPlain, ArraysPlainAll, PlainAll, Plain]

mutual
/-- Plain data is written unchanged. -/
theorem C14_plain_fixed (v : Val) (h : Plain v) : conv v = v := by
  cases v with
  | dict ks vs => simp only [conv]; rw [convList_fixed vs (by simpa [Plain] using h)]
  | list vs => simp only [conv]; rw [convList_fixed vs (by simpa [Plain] using h)]
  | tuple vs => simp only [conv]; rw [convList_fixed vs (by simpa [Plain] using h)]
  | ndarray xs => simp [Plain] at h
  | npInt i => simp [Plain] at h
  | npFloat i => simp [Plain] at h
  | npBool i => simp [Plain] at h
  | path i => simp [Plain] at h
  | other i => simp [Plain] at h
  | _ => simp [conv]
theorem convList_fixed (vs : List Val) (h : PlainAll vs) : convList vs = vs := by
  cases vs with
  | nil => rfl
  | cons v vs =>
    simp only [PlainAll] at h
    simp only [convList]
    rw [C14_plain_fixed v h.1, convList_fixed vs h.2]
end

example : Plain (.dict ["a"] [.list [.float "1.5", .null]]) := by
  simp [PlainAll, Plain]

/-- Converting twice is the same as converting once. -/
theorem C14_idempotent (v : Val) (h : ArraysPlain v) : conv (conv v) = conv v :=
  C14_plain_fixed _ (C14_plain v h)

/-- `None` and only `None` becomes `None`. -/
theorem conv_null_iff (v : Val) : conv v = .null ↔ v = .null := by
  cases v <;> simp [conv]

/-- The configuration holds exactly the user-defined attributes that are not `None` (and, on
request, not common to all components), with their converted values. -/
theorem C14_config_contents (attrs : List (String × Val)) (rc : Bool) (common : List String)
    (k : String) (w : Val) :
    (k, w) ∈ toConfig attrs rc common ↔
      ∃ v, (k, v) ∈ attrs ∧ v ≠ .null ∧ w = conv v ∧ (rc = true → k ∉ common) := by
  have key : ∀ l : List (String × Val), (k, w) ∈ (l.filter fun kv => !kv.2.isNull)
      ↔ (k, w) ∈ l ∧ w ≠ .null := by
    intro l
    rw [List.mem_filter]
    cases w <;> simp [Val.isNull]
  have hm : (k, w) ∈ (attrs.map fun kv => (kv.1, conv kv.2)) ↔ ∃ v, (k, v) ∈ attrs ∧ w = conv v := by
    rw [List.mem_map]
    constructor
    · rintro ⟨⟨k', v⟩, h, he⟩
      simp only [Prod.mk.injEq] at he
      exact ⟨v, he.1 ▸ h, he.2.symm⟩
    · rintro ⟨v, h, rfl⟩
      exact ⟨(k, v), h, rfl⟩
  unfold toConfig
  simp only
  rw [key]
  cases rc with
  | false =>
    simp only [Bool.false_eq_true, if_false, hm, false_imp_iff, and_true]
    constructor
    · rintro ⟨⟨v, h, rfl⟩, hn⟩
      exact ⟨v, h, fun e => hn ((conv_null_iff v).2 e), rfl⟩
    · rintro ⟨v, h, hn, rfl⟩
      exact ⟨⟨v, h, rfl⟩, fun e => hn ((conv_null_iff v).1 e)⟩
  | true =>
    simp only [if_true, List.mem_filter, hm, true_imp_iff]
    constructor
    · rintro ⟨⟨⟨v, h, rfl⟩, hc⟩, hn⟩
      exact ⟨v, h, fun e => hn ((conv_null_iff v).2 e), rfl, by simpa using hc⟩
    · rintro ⟨v, h, hn, rfl, hc⟩
      exact ⟨⟨⟨v, h, rfl⟩, by simpa using hc⟩, fun e => hn ((conv_null_iff v).1 e)⟩

/-- Booleans do not survive if they are numpy booleans: they are written as text. -/
theorem C14_numpy_bool_becomes_text (b : Bool) : ∃ s, conv (.npBool b) = .str s :=
  ⟨_, by simp [conv]; rfl⟩

/-- `w` is plain data with the same content as `v`: numpy numbers become the equal Python numbers, arrays the list of
their elements, paths their text, and containers keep their kind, keys and order. -/
inductive Same : Val → Val → Prop
  | null : Same .null .null
  | bool (b) : Same (.bool b) (.bool b)
  | int (i) : Same (.int i) (.int i)
  | float (x) : Same (.float x) (.float x)
  | str (t) : Same (.str t) (.str t)
  | npInt (i) : Same (.npInt i) (.int i)
  | npFloat (x) : Same (.npFloat x) (.float x)
  | array (xs) : Same (.ndarray xs) (.list xs)
  | path (t) : Same (.path t) (.str t)
  | dict (ks vs ws) : List.Forall₂ Same vs ws → Same (.dict ks vs) (.dict ks ws)
  | list (vs ws) : List.Forall₂ Same vs ws → Same (.list vs) (.list ws)
  | tuple (vs ws) : List.Forall₂ Same vs ws → Same (.tuple vs) (.tuple ws)

mutual
/-- Values of the kinds that have a plain equivalent, at any depth. -/
def Known : Val → Prop
  | .npBool _ | .other _ => False
  | .dict _ vs => KnownAll vs
  | .list xs => KnownAll xs
  | .tuple xs => KnownAll xs
  | _ => True
/-- See `Known`. -/
def KnownAll : List Val → Prop
  | [] => True
  | v :: vs => Known v ∧ KnownAll vs
end

mutual
/-- Whatever the nesting, the written value has the content of the attribute. -/
theorem C14_values (v : Val) (h : Known v) : Same v (conv v) := by
  cases v with
  | dict ks vs => simp only [conv]; exact .dict ks vs _ (values_convList vs (by simpa [Known] using h))
  | list vs => simp only [conv]; exact .list vs _ (values_convList vs (by simpa [Known] using h))
  | tuple vs => simp only [conv]; exact .tuple vs _ (values_convList vs (by simpa [Known] using h))
  | npBool b => simp [Known] at h
  | other r => simp [Known] at h
  | null => simp only [conv]; exact .null
  | bool b => simp only [conv]; exact .bool b
  | int i => simp only [conv]; exact .int i
  | float x => simp only [conv]; exact .float x
  | str t => simp only [conv]; exact .str t
  | ndarray xs => simp only [conv]; exact .array xs
  | npInt i => simp only [conv]; exact .npInt i
  | npFloat x => simp only [conv]; exact .npFloat x
  | path t => simp only [conv]; exact .path t
theorem values_convList (vs : List Val) (h : KnownAll vs) : List.Forall₂ Same vs (convList vs) := by
  cases vs with
  | nil => simp only [convList]; exact .nil
  | cons v vs =>
    simp only [KnownAll] at h
    simp only [convList]
    exact .cons (C14_values v h.1) (values_convList vs h.2)
end

example : Known (.dict ["a"] [.list [.npInt 3, .path "x"]]) := by simp [Known, KnownAll]

example : ArraysPlain (.dict ["a", "b"] [.list [.npInt 3, .path "x"], .ndarray [.float "1.0"]]) := by
  simp [ArraysPlain, ArraysPlainAll, PlainAll, Plain]

end Verif.Base
