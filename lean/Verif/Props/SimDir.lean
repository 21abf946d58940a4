import Verif.Model.SimDir
import Mathlib.Data.List.Basic

/-!
C213: all files of a simulation are in its directory.
-/

namespace Verif.SimDir

/-! ### Resolving paths -/

/-- A list of names without `..`. -/
def Plain (l : List String) : Prop := ".." ∉ l

theorem fold_plain (l acc : List String) (h : Plain l) :
    l.foldl (fun acc x => if x = ".." then acc.drop 1 else x :: acc) acc = l.reverse ++ acc := by
  induction l generalizing acc with
  | nil => rfl
  | cons x l ih =>
    have hx : x ≠ ".." := fun e => h (by simp [e])
    have hl : Plain l := fun e => h (by simp [e])
    rw [List.foldl_cons, if_neg hx, ih _ hl]
    simp

theorem resolve_plain {l : List String} (h : Plain l) : resolve l = l := by
  simp only [resolve, fold_plain l [] h, List.append_nil, List.reverse_reverse]

theorem plain_fold (l acc : List String) (h : Plain acc) :
    Plain (l.foldl (fun acc x => if x = ".." then acc.drop 1 else x :: acc) acc) := by
  induction l generalizing acc with
  | nil => exact h
  | cons x l ih =>
    rw [List.foldl_cons]
    apply ih
    by_cases hx : x = ".."
    · rw [if_pos hx]; exact fun e => h (List.mem_of_mem_drop e)
    · rw [if_neg hx]
      intro e
      rcases List.mem_cons.mp e with e | e
      · exact hx e.symm
      · exact h e

theorem plain_resolve (l : List String) : Plain (resolve l) := by
  intro e
  exact plain_fold l [] (by simp [Plain]) (List.mem_reverse.mp e)

theorem resolve_append (a b : List String) : resolve (resolve a ++ b) = resolve (a ++ b) := by
  have h := fold_plain (resolve a) [] (plain_resolve a)
  simp only [resolve] at h ⊢
  rw [List.foldl_append, List.foldl_append, h]
  simp

theorem resolve_snoc {l : List String} {name : String} (h : name ≠ "..") : resolve (l ++ [name]) = resolve l ++ [name] := by
  simp [resolve, h]

theorem locate_relativeTo (cwd p : List String) (hp : Plain p) : locate cwd (relativeTo cwd p) = p := by
  simp only [relativeTo]
  by_cases h : cwd.isPrefixOf p = true
  · rw [if_pos h]
    obtain ⟨t, rfl⟩ := List.isPrefixOf_iff_prefix.mp h
    have : Plain t := fun e => hp (List.mem_append_right _ e)
    simp [locate, join, resolve_plain hp]
  · rw [if_neg h]
    simp [locate, join, resolve_plain hp]

/-! ### The property -/

/-- The directory that the user means: `None` is the working directory. -/
def meant (cwd : List String) : Value → Option (List String)
  | .none => some cwd
  | .text p => some (locate cwd p)
  | .path p => some (locate cwd p)
  | .other => none

theorem locate_set (cwd : List String) (hc : Plain cwd) (old : Option P) (v : Value) (d : List String) (h : meant cwd v = some d) :
    ∃ p, set cwd old v = some p ∧ locate cwd p = d := by
  cases v with
  | none =>
    simp only [meant, Option.some.injEq] at h
    exact ⟨_, rfl, by rw [simdirInit, locate_relativeTo _ _ hc, h]⟩
  | text p =>
    simp only [meant, Option.some.injEq] at h
    exact ⟨_, rfl, by rw [simdirInit, locate_relativeTo _ _ (plain_resolve _), ← h]; rfl⟩
  | path p =>
    simp only [meant, Option.some.injEq] at h
    exact ⟨p, rfl, h⟩
  | other => simp [meant] at h

theorem locate_join (cwd : List String) (p : P) (name : String) (h : name ≠ "..") :
    locate cwd (join p ⟨false, [name]⟩) = locate cwd p ++ [name] := by
  obtain ⟨a, l⟩ := p
  cases a
  · simp only [locate, join, Bool.false_eq_true, if_false]
    rw [← List.append_assoc, resolve_snoc h]
  · simp only [locate, join, Bool.false_eq_true, if_false, if_true]
    rw [resolve_snoc h]

/-- **C213**, the part that holds: while the process stays in its working directory, the configuration of a simulation and the files
of all its components are in (subdirectories of) the directory that the user named, or in the working directory if none is named. -/
theorem C213_together_partial (cwd : List String) (hc : ".." ∉ cwd) (n : ℕ) (v : Value) (d : List String)
    (h : meant cwd v = some d) :
    (∃ p, (make cwd n v).own = some p ∧ configDir cwd p = d) ∧
    ∀ q ∈ (make cwd n v).parts, ∃ p, q = some p ∧ ∀ name ≠ "..", outputDir cwd p name = d ++ [name] := by
  obtain ⟨p, hp, hd⟩ := locate_set cwd hc none v d h
  refine ⟨⟨p, hp, hd⟩, fun q hq => ⟨p, ?_, fun name hn => ?_⟩⟩
  · simp only [make, hp] at hq
    exact (List.mem_replicate.mp hq).2
  · rw [outputDir, locate_join _ _ _ hn, hd]

/-- Pictures do not go among the saved files, and no two of the directories `surface`, `counting`, `export` and those of the
pictures are the same. -/
theorem C213_apart (cwd : List String) (p : P) (a b : String) (ha : a ≠ "..") (hb : b ≠ "..") :
    (outputDir cwd p a = outputDir cwd p b ↔ a = b) ∧
    (a ++ "_images" ≠ ".." → (plotDir cwd p a = outputDir cwd p b ↔ a ++ "_images" = b)) := by
  constructor
  · rw [outputDir, outputDir, locate_join _ _ _ ha, locate_join _ _ _ hb]
    simp
  · intro hi
    rw [plotDir, outputDir, outputDir, locate_join _ _ _ hi, locate_join _ _ _ hb]
    simp

example : meant ["home", "u"] (.text ⟨false, ["runs", "..", "a"]⟩) = some ["home", "u", "a"] ∧
    (make ["home", "u"] 2 (.text ⟨false, ["runs", "..", "a"]⟩)).own = some ⟨false, ["a"]⟩ := by decide +kernel

/-- **C213**, the part that holds when the process changes its working directory: a directory kept as an absolute path, which is so
for an absolute `Path` and for the name of a directory outside the working directory, stays the same. -/
theorem C213_stays_partial (cwd cwd' : List String) (v : Value) (d : List String) (h : meant cwd v = some d)
    (habs : (∃ l, v = .path ⟨true, l⟩) ∨ (∃ p, v = .text p ∧ ¬ cwd <+: d)) :
    ∃ p, set cwd none v = some p ∧ locate cwd' p = d := by
  rcases habs with ⟨l, rfl⟩ | ⟨p, rfl, hout⟩
  · simp only [meant, Option.some.injEq] at h
    refine ⟨⟨true, l⟩, rfl, ?_⟩
    rw [← h]; simp [locate, join]
  · simp only [meant, Option.some.injEq] at h
    refine ⟨⟨true, d⟩, ?_, ?_⟩
    · have h' : resolve (join ⟨true, cwd⟩ p).parts = d := h
      have : ¬ cwd.isPrefixOf d = true := fun e => hout (List.isPrefixOf_iff_prefix.mp e)
      simp only [set, simdirInit, h', relativeTo]
      rw [if_neg this]
    · simp only [locate, join]
      rw [if_pos trivial]
      apply resolve_plain
      rw [← h]; exact plain_resolve _

/-- **C213 fails** when the process changes its working directory: a simulation in the working directory, or in a directory below it
that was named by a string (even by its absolute path), continues in another directory; what was saved before is not seen there, and
what is saved then is not with the rest. -/
theorem C213_chdir_fails (cwd cwd' : List String) (hc : ".." ∉ cwd) (hc' : ".." ∉ cwd') (hne : cwd ≠ cwd') (v : Value)
    (d : List String) (h : meant cwd v = some d) (hv : ∀ p, v ≠ .path p) (hin : cwd <+: d) :
    ∃ p, set cwd none v = some p ∧ locate cwd p = d ∧ locate cwd' p ≠ d := by
  obtain ⟨t, rfl⟩ := hin
  have key : ∀ p : P, p = relativeTo cwd (cwd ++ t) → Plain (cwd ++ t) → locate cwd p = cwd ++ t ∧ locate cwd' p ≠ cwd ++ t := by
    intro p hp hpl
    have ht : Plain t := fun e => hpl (List.mem_append_right _ e)
    refine ⟨by rw [hp, locate_relativeTo _ _ hpl], ?_⟩
    have hpre : cwd.isPrefixOf (cwd ++ t) = true := List.isPrefixOf_iff_prefix.mpr (List.prefix_append _ _)
    have hp' : p = ⟨false, t⟩ := by
      rw [hp, relativeTo, if_pos hpre]; simp
    have hpl' : Plain (cwd' ++ t) := by
      intro e
      rcases List.mem_append.mp e with e | e
      · exact hc' e
      · exact ht e
    rw [hp']
    simp only [locate, join, Bool.false_eq_true, if_false]
    rw [resolve_plain hpl']
    intro e
    exact hne (List.append_cancel_right e).symm
  cases v with
  | none =>
    simp only [meant, Option.some.injEq] at h
    have ht : t = [] := by
      have := congrArg List.length h
      simp at this
      exact this
    subst ht
    refine ⟨relativeTo cwd cwd, rfl, key _ (by simp) ?_⟩
    simpa [Plain] using hc
  | text p =>
    simp only [meant, Option.some.injEq] at h
    have h' : resolve (join ⟨true, cwd⟩ p).parts = cwd ++ t := h
    refine ⟨relativeTo cwd (cwd ++ t), ?_, key _ rfl (by rw [← h']; exact plain_resolve _)⟩
    simp only [set, simdirInit, h']
  | path p => exact absurd rfl (hv p)
  | other => simp [meant] at h

/-- **C213 fails** when the directory of a simulation is assigned: the configuration goes to the new one, all files of the components
stay in the old. -/
theorem C213_assign_fails (cwd : List String) (hc : ".." ∉ cwd) (n : ℕ) (v w : Value) (d e : List String)
    (h : meant cwd v = some d) (h' : meant cwd w = some e) (hne : d ≠ e) :
    (∃ p, (assign cwd (make cwd n v) w).own = some p ∧ configDir cwd p = e) ∧
    ∀ q ∈ (assign cwd (make cwd n v) w).parts, ∃ p, q = some p ∧ ∀ name ≠ "..",
      outputDir cwd p name = d ++ [name] ∧ outputDir cwd p name ≠ e ++ [name] := by
  refine ⟨locate_set cwd hc _ w e h', fun q hq => ?_⟩
  obtain ⟨p, hp, hd⟩ := (C213_together_partial cwd hc n v d h).2 q hq
  refine ⟨p, hp, fun name hn => ⟨hd name hn, ?_⟩⟩
  rw [hd name hn]
  intro x
  exact hne (List.append_cancel_right x)

/-- **C213 fails** for values that are no directory: they are not refused, and the old directory is kept. -/
theorem C213_other_fails (cwd : List String) (n : ℕ) (v : Value) :
    (assign cwd (make cwd n v) .other).own = (make cwd n v).own ∧ (make cwd n .other).own = none := ⟨rfl, rfl⟩

end Verif.SimDir
