import Verif.Model.CountFlag
import Mathlib.Data.List.Induction

/-! When craters are counted (C206). -/

namespace Verif.CountFlag

/-- Specification: one crater was formed completely, and counted or not. -/
def Formed (before after : Book) (c : ℕ) (counted : Bool) : Prop :=
  after.shaped = before.shaped ++ [c] ∧ after.ejecta = before.ejecta ++ [c] ∧ after.emplaced = before.emplaced ++ [c] ∧
    after.counted = before.counted ++ if counted then [c] else []

/-- Specification: the names of counting models that exist. -/
def Valid (known : String → Bool) : Arg → Prop
  | .name s => known s = true
  | _ => True

theorem form_formed {m : Morph} {o : Obj} (ho : m.counting = some o) {x : Bool} (hx : m.flag = some x) (b : Book) (c : ℕ) :
    ∃ b', form m b c = (b', none) ∧ Formed b b' c x := by
  obtain ⟨cm, fm, om⟩ := m
  obtain rfl : cm = some o := ho
  obtain rfl : fm = some x := hx
  refine ⟨_, rfl, ?_⟩
  cases x <;> simp [Formed]

theorem construct_eq {known : String → Bool} {a : Arg} (h : Valid known a) (surfaceGiven : Bool) (d : Option Bool) :
    ∃ o k, construct known surfaceGiven a d = .ok (⟨some o, some (d.getD true), true⟩, k) ∧ (∀ o', a = .object o' → o = o') := by
  cases a with
  | nothing =>
    refine ⟨.made 0, 1, ?_, by simp⟩
    rcases d with _ | b
    · cases surfaceGiven <;> simp [construct, first, second, third, make, setCounting]
    · cases surfaceGiven <;> cases b <;> simp [construct, first, second, third, make, setCounting, setFlag]
  | name s =>
    refine ⟨.made 1, 2, ?_, by simp⟩
    have h' : known s = true := h
    rcases d with _ | b
    · cases surfaceGiven <;> simp [construct, first, second, third, make, setCounting, h']
    · cases surfaceGiven <;> cases b <;> simp [construct, first, second, third, make, setCounting, setFlag, h']
  | object o =>
    refine ⟨o, 0, ?_, by simp⟩
    rcases d with _ | b
    · cases surfaceGiven <;> simp [construct, first, second, third, make, setCounting]
    · cases surfaceGiven <;> cases b <;> simp [construct, first, second, third, make, setCounting, setFlag]

/-- **C206, part.**  When the morphology model is made with `do_counting` true or false, or with a counting object, every crater formed
afterwards is listed as emplaced, and counted exactly when `do_counting` is not false; the assignments of `do_counting` that follow are
obeyed in the same way.  A counting object that is given is the one used.  Missing: without counting object and flag
(`C206_unasked_fails`), when the counting object is removed or assigned later (`C206_removed_fails`, `C206_switched_fails`), and when a
simulation is resumed (`C206_resumed_fails`). -/
theorem C206_asked_partial (known : String → Bool) (a : Arg) (h : Valid known a) (surfaceGiven : Bool) (d : Option Bool)
    (later : List Bool) (b : Book) (c : ℕ) :
    ∃ m k, construct known surfaceGiven a d = .ok (m, k) ∧ (∀ o, a = .object o → m.counting = some o) ∧
      ∃ b', form ((later.map Assign.flag).foldl assign m) b c = (b', none) ∧
        Formed b b' c (later.getLast?.getD (d.getD true)) := by
  obtain ⟨o, k, he, ho⟩ := construct_eq h surfaceGiven d
  refine ⟨_, k, he, fun o' h' => by rw [ho o' h'], ?_⟩
  have key : ∀ (l : List Bool) (m : Morph) (x : Bool), m.flag = some x →
      ((l.map Assign.flag).foldl assign m).flag = some (l.getLast?.getD x) ∧
        ((l.map Assign.flag).foldl assign m).counting = m.counting := by
    intro l
    induction l with
    | nil => intro m x hx; exact ⟨hx, rfl⟩
    | cons y l ih =>
      intro m x hx
      obtain ⟨h1, h2⟩ := ih (assign m (.flag y)) y rfl
      refine ⟨?_, h2⟩
      simp only [List.map_cons, List.foldl_cons, h1, List.getLast?_cons]
      rfl
  obtain ⟨h1, h2⟩ := key later ⟨some o, some (d.getD true), true⟩ (d.getD true) rfl
  exact form_formed h2 h1 b c

example : Valid (fun s => s == "depthcount") (.name "depthcount") ∧ [true, false].getLast?.getD true = false := by
  constructor
  · simp [Valid]
  · rfl

/-- A name that no counting model has is refused. -/
theorem C206_unknown (known : String → Bool) (s : String) (h : known s = false) (surfaceGiven : Bool) (d : Option Bool) :
    construct known surfaceGiven (.name s) d = .error .key := by
  cases surfaceGiven <;> simp [construct, first, make, h]

example : (fun s => s == "depthcount") "none" = false := by decide +kernel

/-- **C206 fails** without counting object and flag: the documentation says that no counting is done then, but an object is made and
every crater is counted. -/
theorem C206_unasked_fails (known : String → Bool) (surfaceGiven : Bool) (b : Book) (c : ℕ) :
    ∃ m k, construct known surfaceGiven .nothing none = .ok (m, k) ∧ 0 < k ∧
      ∃ b', form m b c = (b', none) ∧ Formed b b' c true := by
  refine ⟨⟨some (.made 0), some true, true⟩, 1, by cases surfaceGiven <;> rfl, by simp, _, rfl, by simp [Formed]⟩

/-- **C206 fails** when the counting object is removed with `counting = None`: the next crater, whatever `do_counting` says, is shaped
into the surface and then an AttributeError is raised; it has no ejecta and is not listed. -/
theorem C206_removed_fails (m : Morph) (flags : List Bool) (b : Book) (c : ℕ) :
    form ((flags.map Assign.flag).foldl assign (assign m (.counting none))) b c =
      (⟨b.shaped ++ [c], b.ejecta, b.emplaced, b.counted⟩, some .attribute) := by
  have key : ∀ (l : List Bool) (m : Morph), m.counting = none → ((l.map Assign.flag).foldl assign m).counting = none := by
    intro l
    induction l with
    | nil => intro m h; exact h
    | cons y l ih => intro m h; exact ih _ h
  simp [form, key flags _ (rfl : (assign m (.counting none)).counting = none)]

/-- **C206 fails** when a counting object is assigned to a model for which counting was switched off: it is switched on. -/
theorem C206_switched_fails (known : String → Bool) (a : Arg) (h : Valid known a) (surfaceGiven : Bool) (o : Obj) (b : Book) (c : ℕ) :
    ∃ m k, construct known surfaceGiven a (some false) = .ok (m, k) ∧
      ∃ b', form (assign m (.counting (some o))) b c = (b', none) ∧ Formed b b' c true := by
  obtain ⟨o', k, he, -⟩ := construct_eq h surfaceGiven (some false)
  exact ⟨_, k, he, _, rfl, by simp [Formed, assign, setCounting]⟩

/-- **C206 fails** when a simulation is resumed: counting that was switched off, which the configuration file says, is switched on unless
the argument is given again. -/
theorem C206_resumed_fails (saved : Bool) : simulationFlag (some saved) none = saved ↔ saved = true := by
  cases saved <;> simp [simulationFlag]

/-- Specification: what the last assignment says about counting; `x` if there is none. -/
def lastSays (x : Bool) (h : List Assign) : Bool :=
  match h.getLast? with
  | none => x
  | some (.flag b) => b
  | some (.counting o) => o.isSome

/-- After any history of assignments the flag is what the last assignment says: the value assigned to it, or whether there is a counting object when that was
assigned.  As long as the counting object is not removed, craters are formed completely and counted accordingly. -/
theorem C206_history (known : String → Bool) (a : Arg) (h : Valid known a) (surfaceGiven : Bool) (d : Option Bool) (later : List Assign)
    (b : Book) (c : ℕ) :
    ∃ m k, construct known surfaceGiven a d = .ok (m, k) ∧ (later.foldl assign m).flag = some (lastSays (d.getD true) later) ∧
      ((∀ o, Assign.counting o ∈ later → o ≠ none) →
        ∃ b', form (later.foldl assign m) b c = (b', none) ∧ Formed b b' c (lastSays (d.getD true) later)) := by
  obtain ⟨o, k, he, -⟩ := construct_eq h surfaceGiven d
  have key : ∀ (l : List Assign) (m : Morph) (x : Bool), m.flag = some x → (l.foldl assign m).flag = some (lastSays x l) := by
    intro l
    induction l using List.reverseRecOn with
    | nil => intro m x hx; exact hx
    | append_singleton l y _ =>
      intro m x hx
      rw [List.foldl_append]
      simp only [List.foldl_cons, List.foldl_nil, lastSays, List.getLast?_concat]
      rcases y with (_ | o) | f <;> rfl
  have key2 : ∀ (l : List Assign) (m : Morph), m.counting ≠ none → (∀ o, Assign.counting o ∈ l → o ≠ none) →
      (l.foldl assign m).counting ≠ none := by
    intro l
    induction l with
    | nil => intro m hm _; exact hm
    | cons y l ih =>
      intro m hm hl
      refine ih _ ?_ fun o ho => hl o (List.mem_cons_of_mem _ ho)
      rcases y with (_ | o) | f
      · exact absurd rfl (hl none List.mem_cons_self)
      · simp [assign, setCounting]
      · exact hm
  have hf := key later ⟨some o, some (d.getD true), true⟩ _ rfl
  refine ⟨_, k, he, hf, fun hl => ?_⟩
  obtain ⟨o', ho'⟩ := Option.ne_none_iff_exists'.1 (key2 later ⟨some o, some (d.getD true), true⟩ (by simp) hl)
  exact form_formed ho' hf b c

/-- Switched off, then another object assigned, then switched off once more. -/
example : lastSays true [.flag false, .counting (some (.given 1)), .flag false] = false := rfl

/-- With the argument, the argument decides. -/
theorem C206_simulation (saved : Option Bool) (known : String → Bool) (o : Obj) (argument : Bool) (b : Book) (c : ℕ) :
    ∃ m k, construct known true (.object o) (some (simulationFlag saved (some argument))) = .ok (m, k) ∧ m.counting = some o ∧
      ∃ b', form m b c = (b', none) ∧ Formed b b' c argument := by
  obtain ⟨m, k, h1, h2, b', h3, h4⟩ := C206_asked_partial known (.object o) trivial true (some argument) [] b c
  exact ⟨m, k, h1, h2 o rfl, b', h3, by simpa using h4⟩

end Verif.CountFlag
