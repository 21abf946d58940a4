import Verif.Model.Cleanup

/-!
C214: cleaning up removes what a simulation has written, and nothing else.
-/

namespace Verif.Cleanup

/-- The files in a directory. -/
def Below (p f : Path) : Prop := p <+: f

theorem prefix_iff (p f : Path) : p.isPrefixOf f = true ↔ Below p f := List.isPrefixOf_iff_prefix

theorem removeAll_done {ps : List Path} {d d' : Disk} (h : removeAll d ps = .done d') (f : Path) :
    f ∈ d' ↔ f ∈ d ∧ ∀ p ∈ ps, ¬ Below p f := by
  induction ps generalizing d with
  | nil => simp only [removeAll, Outcome.done.injEq] at h; subst h; simp
  | cons p ps ih =>
    simp only [removeAll, removeTree] at h
    by_cases he : exists? d p = true
    · rw [if_pos he] at h
      by_cases hm : p ∈ d
      · rw [if_pos hm] at h; cases h
      · rw [if_neg hm] at h
        simp only at h
        rw [ih h]
        simp only [List.mem_filter, Bool.not_eq_true', List.mem_cons, forall_eq_or_imp, ← prefix_iff, Bool.not_eq_true]
        tauto
    · rw [if_neg he] at h
      simp only at h
      rw [ih h]
      have : f ∈ d → ¬ Below p f := by
        intro hf hb
        apply he
        simp only [exists?, List.any_eq_true]
        exact ⟨f, hf, (prefix_iff p f).mpr hb⟩
      simp only [List.mem_cons, forall_eq_or_imp]
      tauto

theorem removeAll_plain {ps : List Path} {d : Disk} (h : ∀ p ∈ ps, p ∉ d) : ∃ d', removeAll d ps = .done d' := by
  induction ps generalizing d with
  | nil => exact ⟨d, rfl⟩
  | cons p ps ih =>
    simp only [removeAll, removeTree]
    by_cases he : exists? d p = true
    · rw [if_pos he, if_neg (h p List.mem_cons_self)]
      exact ih fun q hq hm => h q (List.mem_cons_of_mem _ hq) (List.mem_of_mem_filter hm)
    · rw [if_neg he]
      exact ih fun q hq => h q (List.mem_cons_of_mem _ hq)

/-- The directories that `cleanup` takes: those of the names of components, and the same with `_images`. -/
def Taken (simdir : Path) (f : Path) : Prop :=
  ∃ c ∈ ["counting", "target", "scaling", "production", "morphology", "projectile", "surface"],
    Below (simdir ++ [c]) f ∨ Below (simdir ++ [c ++ "_images"]) f

theorem taken_iff (simdir f : Path) : (∀ p ∈ directories simdir, ¬ Below p f) ↔ ¬ Taken simdir f := by
  simp [directories, componentNames, Taken]
  tauto

/-- The directory is fit to be cleaned: nothing that has to be a directory is a file, and the other way round. -/
def Fit (simdir : Path) (d : Disk) : Prop :=
  (∀ p ∈ directories simdir, p ∉ d) ∧ ∀ f ∈ d, Below (simdir ++ [configName]) f → f = simdir ++ [configName]

theorem cleanup_fit {simdir : Path} {d : Disk} (h : Fit simdir d) :
    ∃ d', cleanup simdir d = .done d' ∧
      ∀ f, f ∈ d' ↔ f ∈ d ∧ f ≠ simdir ++ [configName] ∧ ¬ Taken simdir f := by
  by_cases he : exists? d (simdir ++ [configName]) = true
  · have hm : simdir ++ [configName] ∈ d := by
      simp only [exists?, List.any_eq_true] at he
      obtain ⟨f, hf, hp⟩ := he
      rw [← h.2 f hf ((prefix_iff _ _).mp hp)]; exact hf
    obtain ⟨d', hd⟩ := removeAll_plain (d := d.filter fun f => f ≠ simdir ++ [configName]) (ps := directories simdir)
      fun p hp hm => h.1 p hp (List.mem_of_mem_filter hm)
    refine ⟨d', ?_, fun f => ?_⟩
    · simp only [cleanup]; rw [if_pos he, if_pos hm]; exact hd
    · rw [removeAll_done hd, taken_iff]
      simp [and_assoc]
  · obtain ⟨d', hd⟩ := removeAll_plain h.1
    refine ⟨d', ?_, fun f => ?_⟩
    · simp only [cleanup]; rw [if_neg he]; exact hd
    · rw [removeAll_done hd, taken_iff]
      have : f ∈ d → f ≠ simdir ++ [configName] := by
        rintro hf rfl
        apply he
        simp only [exists?, List.any_eq_true]
        exact ⟨_, hf, (prefix_iff _ _).mpr (List.prefix_refl _)⟩
      tauto

/-- The places where a simulation writes (`Props/SimDir.lean`): the configuration, saved data and pictures of the surface and of the
crater counts, and exports. -/
def Written (simdir : Path) (f : Path) : Prop :=
  f = simdir ++ ["cratermaker.yaml"] ∨
    ∃ c ∈ ["surface", "counting", "surface_images", "counting_images", "export"], Below (simdir ++ [c]) f

/-- **C214**, the part that holds: after `cleanup` neither the configuration nor any saved data or picture is left, so that a new
simulation begins as new; and files outside the simulation's directory, and those inside which are not in a directory called like a
component, are all still there. -/
theorem C214_cleaned_partial (simdir : Path) (d : Disk) (h : Fit simdir d) :
    ∃ d', cleanup simdir d = .done d' ∧
      (∀ f, Written simdir f → ¬ Below (simdir ++ ["export"]) f → f ∉ d') ∧
      (∀ f ∈ d', f ∈ d) ∧
      (∀ f ∈ d, ¬ Below simdir f → f ∈ d') ∧
      ∀ name rest, simdir ++ name :: rest ∈ d → name ≠ "cratermaker.yaml" →
        (∀ c ∈ ["counting", "target", "scaling", "production", "morphology", "projectile", "surface"],
          name ≠ c ∧ name ≠ c ++ "_images") →
        simdir ++ name :: rest ∈ d' := by
  obtain ⟨d', hd, hf⟩ := cleanup_fit h
  refine ⟨d', hd, fun f hw hx hm => ?_, fun f hm => ((hf f).mp hm).1, fun f hm hb => ?_, fun name rest hm hn hc => ?_⟩
  · obtain ⟨-, hne, hnt⟩ := (hf f).mp hm
    rcases hw with rfl | ⟨c, hc, hb⟩
    · exact hne rfl
    · apply hnt
      simp only [List.mem_cons, List.not_mem_nil, or_false] at hc
      rcases hc with rfl | rfl | rfl | rfl | rfl
      · exact ⟨"surface", by simp, .inl hb⟩
      · exact ⟨"counting", by simp, .inl hb⟩
      · exact ⟨"surface", by simp, .inr hb⟩
      · exact ⟨"counting", by simp, .inr hb⟩
      · exact absurd hb hx
  · refine (hf f).mpr ⟨hm, ?_, ?_⟩
    · rintro rfl; exact hb (List.prefix_append _ _)
    · rintro ⟨c, -, hc | hc⟩
      · exact hb ((List.prefix_append _ _).trans hc)
      · exact hb ((List.prefix_append _ _).trans hc)
  · refine (hf _).mpr ⟨hm, ?_, ?_⟩
    · intro e
      have := List.append_cancel_left e
      simp only [List.cons.injEq] at this
      exact hn this.1
    · have key : ∀ c, Below (simdir ++ [c]) (simdir ++ name :: rest) → name = c := by
        intro c hb
        have := (List.prefix_append_right_inj simdir).mp hb
        rw [List.cons_prefix_cons] at this
        exact this.1.symm
      rintro ⟨c, hcm, hb | hb⟩
      · exact (hc c hcm).1 (key _ hb)
      · exact (hc c hcm).2 (key _ hb)

/-- A directory with a finished run, an export and a file of the user. -/
example : Fit ["run"] [["run", "cratermaker.yaml"], ["run", "surface", "grid.nc"], ["run", "counting", "observed_counting000001.nc"],
    ["run", "surface_images", "a.png"], ["run", "export", "surface000001.vtp"], ["run", "notes.txt"], ["other", "surface", "x"]] ∧
    cleanup ["run"] [["run", "cratermaker.yaml"], ["run", "surface", "grid.nc"], ["run", "counting", "observed_counting000001.nc"],
      ["run", "surface_images", "a.png"], ["run", "export", "surface000001.vtp"], ["run", "notes.txt"], ["other", "surface", "x"]] =
    .done [["run", "export", "surface000001.vtp"], ["run", "notes.txt"], ["other", "surface", "x"]] := by
  constructor
  · constructor
    · decide +kernel
    · intro f hf
      simp only [List.mem_cons, List.not_mem_nil, or_false] at hf
      rcases hf with rfl | rfl | rfl | rfl | rfl | rfl | rfl <;>
        (rw [← prefix_iff]; decide +kernel)
  · decide +kernel

/-- **C214 fails** for exported files, which the description says are removed: all of them stay. -/
theorem C214_exports_fails (simdir : Path) (d : Disk) (h : Fit simdir d) (rest : List String) (hf : simdir ++ "export" :: rest ∈ d) :
    ∃ d', cleanup simdir d = .done d' ∧ simdir ++ "export" :: rest ∈ d' := by
  obtain ⟨d', hd, -, -, -, hk⟩ := C214_cleaned_partial simdir d h
  exact ⟨d', hd, hk "export" rest hf (by decide) (by decide +kernel)⟩

/-- **C214 fails** for directories of the user: what is in a directory called `target`, `production`, `scaling`, `morphology` or
`projectile` (or the same with `_images`) is removed, although no simulation writes there. -/
theorem C214_others_fails (simdir : Path) (d : Disk) (h : Fit simdir d) (name : String) (rest : List String)
    (hn : name ∈ ["target", "scaling", "production", "morphology", "projectile"]) :
    ¬ Written simdir (simdir ++ name :: rest) ∧
    ∃ d', cleanup simdir d = .done d' ∧ simdir ++ name :: rest ∉ d' ∧ simdir ++ (name ++ "_images") :: rest ∉ d' := by
  constructor
  · have key : ∀ c, Below (simdir ++ [c]) (simdir ++ name :: rest) → name = c := by
      intro c hb
      have := (List.prefix_append_right_inj simdir).mp hb
      rw [List.cons_prefix_cons] at this
      exact this.1.symm
    rintro (e | ⟨c, hc, hb⟩)
    · have := List.append_cancel_left e
      simp only [List.cons.injEq] at this
      rw [this.1] at hn
      revert hn; decide
    · rw [← key c hb] at hc
      simp only [List.mem_cons, List.not_mem_nil, or_false] at hn
      rcases hn with rfl | rfl | rfl | rfl | rfl <;> revert hc <;> decide
  · obtain ⟨d', hd, hf⟩ := cleanup_fit h
    have hmem : name ∈ ["counting", "target", "scaling", "production", "morphology", "projectile", "surface"] := by
      simp only [List.mem_cons, List.not_mem_nil, or_false] at hn ⊢
      tauto
    refine ⟨d', hd, fun hm => ((hf _).mp hm).2.2 ⟨name, hmem, .inl ?_⟩, fun hm => ((hf _).mp hm).2.2 ⟨name, hmem, .inr ?_⟩⟩
    · exact (List.prefix_append_right_inj simdir).mpr (by simp)
    · exact (List.prefix_append_right_inj simdir).mpr (by simp)

/-- **C214 fails** where a file has the name of a component, for example a file `target`: the clean-up stops with an exception when it
comes to it.  The configuration is gone then, but the saved surface, whose turn is last, is still there and is found by the next run. -/
theorem C214_stops_fails (simdir : Path) (rest : List String) :
    cleanup simdir [simdir ++ ["cratermaker.yaml"], simdir ++ ["target"], simdir ++ "surface" :: rest] =
      .raised [simdir ++ ["target"], simdir ++ "surface" :: rest] := by
  have h : ∀ a b : String, a ≠ b → ∀ l : List String, (simdir ++ [a]).isPrefixOf (simdir ++ b :: l) = false := by
    intro a b hab l
    rw [← Bool.not_eq_true, prefix_iff, Below, List.prefix_append_right_inj, List.cons_prefix_cons]
    exact fun x => hab x.1
  have h1 : ∀ a b : String, a ≠ b → ∀ l : List String, (simdir ++ [a]).isPrefixOf (simdir ++ [b]) = false :=
    fun a b hab l => h a b hab []
  have hself : ∀ a : String, (simdir ++ [a]).isPrefixOf (simdir ++ [a]) = true := fun a =>
    (prefix_iff _ _).mpr (List.prefix_refl _)
  simp [cleanup, exists?, configName, hself, directories, componentNames, removeAll, removeTree, h]

end Verif.Cleanup
