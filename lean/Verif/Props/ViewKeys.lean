import Verif.Model.ViewKeys
import Mathlib.Tactic.Linarith
import Mathlib.Tactic.IntervalCases
import Mathlib.Data.List.Induction

/-!
# C259: the keys of the three-dimensional view of a simulation
-/

namespace Verif.ViewKeys

private theorem act_other (k : Key) (ids : List ℕ) (vis : ℕ → Bool) (i : ℕ) (hi : i ∉ ids) : act k ids vis i = vis i := by
  have hs : ∀ (l : List ℕ) (v : ℕ → Bool), i ∉ l → showFirst l v i = v i := by
    intro l v h
    cases l with
    | nil => rfl
    | cons j t =>
      have : i ≠ j := fun e => h (by simp [e])
      simp [showFirst, this]
  have hc : cycle ids vis i = vis i := by
    unfold cycle
    rcases he : ids.dropWhile fun i => !vis i with _ | ⟨j, rest⟩
    · exact hs _ _ hi
    · have hsub : ∀ x ∈ j :: rest, x ∈ ids := by
        rw [← he]
        exact fun x hx => (List.dropWhile_sublist _).subset hx
      simp only
      rw [hs _ _ (fun h => hi (hsub i (by simp [h])))]
      have : i ≠ j := fun e => hi (hsub i (by simp [e]))
      simp [this]
  cases k
  · simp [act, toggle, hi]
  · simp [act, toggle, hi]
  · exact hc

private theorem press_other (p : Plotter) (k : Key) (i : ℕ) (hi : ∀ b ∈ p.keys, i ∉ b.2) : (press p k).vis i = p.vis i := by
  have key : ∀ (l : List (Key × List ℕ)) (v : ℕ → Bool), (∀ b ∈ l, i ∉ b.2) → l.foldl (fun vis b => act k b.2 vis) v i = v i := by
    intro l
    induction l with
    | nil => intro v _; rfl
    | cons b t ih =>
      intro v h
      rw [List.foldl_cons, ih _ (fun x hx => h x (by simp [hx]))]
      exact act_other k b.2 v i (h b (by simp))
  exact key _ _ fun b hb => hi b (List.mem_filter.1 hb).1

/-- All actors that keys act on have been made. -/
private def Made (p : Plotter) (m : ℕ) : Prop := m ≤ p.next ∧ ∀ b ∈ p.keys, ∀ i ∈ b.2, i < m

/-- The state after an arrow key. -/
private def Moved (p : Plotter) : Prop :=
  ∃ m, Made p m ∧ (∀ a ∈ p.shown, m ≤ a.2) ∧ picture p = [What.surface, What.label]

private theorem made_opened (label craters : Bool) : ∃ m, Made (opened label craters) m := by
  refine ⟨(opened label craters).next, le_refl _, ?_⟩
  cases label <;> cases craters <;> decide

private theorem moved_arrow (p : Plotter) (c : Bool) (h : ∃ m, Made p m) : Moved (step p (.arrow c)) := by
  obtain ⟨m, hm, hb⟩ := h
  refine ⟨m, ⟨?_, ?_⟩, ?_, ?_⟩
  · cases c <;> simp [step, build, Plotter.add, Plotter.addCraters] <;> omega
  · cases c <;> simpa [step, build, Plotter.add, Plotter.addCraters] using hb
  · cases c <;> simp [step, build, Plotter.add, Plotter.addCraters] <;> omega
  · cases c <;> simp [step, build, Plotter.add, Plotter.addCraters, picture, List.filter_cons]
    rw [if_pos (by omega)]
    rfl

private theorem press_made (p : Plotter) (k : Key) (m : ℕ) (h : Made p m) : Made (press p k) m := h

private theorem moved_press (p : Plotter) (k : Key) (h : Moved p) : Moved (press p k) := by
  obtain ⟨m, hm, hs, hp⟩ := h
  refine ⟨m, press_made p k m hm, hs, ?_⟩
  rw [← hp]
  have : (p.shown.filter fun a => (press p k).vis a.2) = p.shown.filter fun a => p.vis a.2 := by
    apply List.filter_congr
    intro a ha
    rw [press_other p k a.2]
    intro b hb hi
    have h1 := hm.2 b hb _ hi
    have h2 := hs a ha
    omega
  simp only [picture]
  exact congrArg _ this

/-- **C259 fails** after a step to another interval: whatever has happened to the view before and whatever keys are pressed afterwards, from
the first arrow key on the view shows the surface and the default label.  The keys for the craters and the label do nothing any more, the
craters cannot be shown, the help text is gone, and a label is shown even if none was asked for. -/
theorem C259_moved_fails (label craters : Bool) (es : List Event) (h : ∃ c, Event.arrow c ∈ es) :
    picture (run (opened label craters) es) = [What.surface, What.label] := by
  have key : ∀ (es : List Event) (p : Plotter), (∃ m, Made p m) → (Moved p ∨ ∃ c, Event.arrow c ∈ es) → Moved (run p es) := by
    intro es
    induction es with
    | nil =>
      intro p _ h
      rcases h with h | ⟨c, h⟩
      · exact h
      · simp at h
    | cons e t ih =>
      intro p hm h
      cases e with
      | key k =>
        obtain ⟨m, hm'⟩ := hm
        refine ih (press p k) ⟨m, press_made p k m hm'⟩ ?_
        rcases h with h | ⟨c, h⟩
        · exact Or.inl (moved_press p k h)
        · right
          refine ⟨c, ?_⟩
          simpa using h
      | arrow c =>
        have hmv := moved_arrow p c hm
        obtain ⟨m, hm', _⟩ := id hmv
        exact ih _ ⟨m, hm'⟩ (Or.inl hmv)
  obtain ⟨_, _, _, hp⟩ := key es _ (made_opened label craters) (Or.inr h)
  exact hp

example : picture (run (opened true true) [.key .c]) = [What.surface, What.craters 0, What.label] ∧
    picture (run (opened true true) [.key .c, .arrow true, .key .c, .key .h]) = [What.surface, What.label] := by decide

private theorem keys_true_true (ks : List Key) (w : What) :
    w ∈ picture (run (opened true true) (ks.map Event.key)) ↔
      match w with
      | .surface => True
      | .help => ks.count Key.h % 2 = 1
      | .label => true = true ∧ ks.count Key.l % 2 = 0
      | .craters s => true = true ∧ s < 4 ∧ ks.count Key.c % 5 = s + 1 := by
  have key : ∀ ks : List Key, let p := run (opened true true) (ks.map Event.key)
      p.shown = (opened true true).shown ∧ p.keys = (opened true true).keys ∧
      p.vis 0 = true ∧
      p.vis 10 = decide (ks.count Key.h % 2 = 1) ∧
      p.vis 7 = decide (ks.count Key.l % 2 = 0) ∧
      p.vis 2 = decide (ks.count Key.c % 5 = 1) ∧
      p.vis 3 = decide (ks.count Key.c % 5 = 2) ∧
      p.vis 4 = decide (ks.count Key.c % 5 = 3) ∧
      p.vis 5 = decide (ks.count Key.c % 5 = 4) := by
    intro ks
    induction ks using List.reverseRecOn with
    | nil => decide
    | append_singleton t k ih =>
      simp only [run, List.map_append, List.map_cons, List.map_nil, List.foldl_append, List.foldl_cons, List.foldl_nil] at ih ⊢
      generalize List.foldl step (opened true true) (t.map Event.key) = p at ih ⊢
      obtain ⟨h1, h2, h3, h4, h5, h6, h7, h8, h9⟩ := ih
      have hk : (opened true true).keys = [(Key.h, [1]), (Key.h, [6]), (Key.c, [2, 3, 4, 5]), (Key.h, [8]), (Key.l, [7]), (Key.h, [9]), (Key.h, [10])] := by
        decide
      refine ⟨h1, h2, ?_⟩
      rw [hk] at h2
      cases k with
      | h =>
        have e : (t.count Key.h + 1) % 2 = 1 ↔ ¬ t.count Key.h % 2 = 1 := by omega
        rcases Nat.mod_two_eq_zero_or_one (t.count Key.h) with hm | hm <;>
          simp [step, press, h2, act, toggle, List.count_append, h3, h4, h5, h6, h7, h8, h9, e, hm]
      | l =>
        have e : (t.count Key.l + 1) % 2 = 0 ↔ ¬ t.count Key.l % 2 = 0 := by omega
        rcases Nat.mod_two_eq_zero_or_one (t.count Key.l) with hm | hm <;>
          simp [step, press, h2, act, toggle, List.count_append, h3, h4, h5, h6, h7, h8, h9, e, hm]
      | c =>
        have hr : t.count Key.c % 5 < 5 := Nat.mod_lt _ (by omega)
        have hcount : (t ++ [Key.c]).count Key.c % 5 = (t.count Key.c % 5 + 1) % 5 := by
          rw [List.count_append]; simp
        rw [hcount]
        generalize t.count Key.c % 5 = r at hr h6 h7 h8 h9
        interval_cases r <;>
          simp_all [step, press, act, cycle, showFirst, List.count_append, List.dropWhile]
  obtain ⟨h1, -, h3, h4, h5, h6, h7, h8, h9⟩ := key ks
  have hs : (opened true true).shown = [(What.surface, 0), (.craters 0, 2), (.craters 1, 3), (.craters 2, 4), (.craters 3, 5), (.label, 7), (.help, 10)] := by decide
  rw [hs] at h1
  simp only [picture, h1, List.mem_map, List.mem_filter, List.mem_cons, List.not_mem_nil, or_false]
  cases w with
  | surface => simp [h3]
  | help => simp [h4]
  | label => simp [h5]
  | craters s =>
    constructor
    · rintro ⟨a, ⟨ha, hv⟩, hw⟩
      rcases ha with rfl | rfl | rfl | rfl | rfl | rfl | rfl <;> simp_all <;> (subst hw; simp_all)
    · rintro ⟨-, hs4, hc⟩
      interval_cases s
      · exact ⟨(.craters 0, 2), ⟨by simp, by simp [h6, hc]⟩, rfl⟩
      · exact ⟨(.craters 1, 3), ⟨by simp, by simp [h7, hc]⟩, rfl⟩
      · exact ⟨(.craters 2, 4), ⟨by simp, by simp [h8, hc]⟩, rfl⟩
      · exact ⟨(.craters 3, 5), ⟨by simp, by simp [h9, hc]⟩, rfl⟩

private theorem keys_true_false (ks : List Key) (w : What) :
    w ∈ picture (run (opened true false) (ks.map Event.key)) ↔
      match w with
      | .surface => True
      | .help => ks.count Key.h % 2 = 1
      | .label => true = true ∧ ks.count Key.l % 2 = 0
      | .craters s => false = true ∧ s < 4 ∧ ks.count Key.c % 5 = s + 1 := by
  have key : ∀ ks : List Key, let p := run (opened true false) (ks.map Event.key)
      p.shown = (opened true false).shown ∧ p.keys = (opened true false).keys ∧
      p.vis 0 = true ∧
      p.vis 5 = decide (ks.count Key.h % 2 = 1) ∧
      p.vis 2 = decide (ks.count Key.l % 2 = 0) := by
    intro ks
    induction ks using List.reverseRecOn with
    | nil => decide
    | append_singleton t k ih =>
      simp only [run, List.map_append, List.map_cons, List.map_nil, List.foldl_append, List.foldl_cons, List.foldl_nil] at ih ⊢
      generalize List.foldl step (opened true false) (t.map Event.key) = p at ih ⊢
      obtain ⟨h1, h2, h3, h4, h5⟩ := ih
      have hk : (opened true false).keys = [(Key.h, [1]), (Key.h, [3]), (Key.l, [2]), (Key.h, [4]), (Key.h, [5])] := by
        decide
      refine ⟨h1, h2, ?_⟩
      rw [hk] at h2
      cases k with
      | h =>
        have e : (t.count Key.h + 1) % 2 = 1 ↔ ¬ t.count Key.h % 2 = 1 := by omega
        rcases Nat.mod_two_eq_zero_or_one (t.count Key.h) with hm | hm <;>
          simp [step, press, h2, act, toggle, List.count_append, h3, h4, h5, e, hm]
      | l =>
        have e : (t.count Key.l + 1) % 2 = 0 ↔ ¬ t.count Key.l % 2 = 0 := by omega
        rcases Nat.mod_two_eq_zero_or_one (t.count Key.l) with hm | hm <;>
          simp [step, press, h2, act, toggle, List.count_append, h3, h4, h5, e, hm]
      | c => simp [step, press, h2, List.count_append, h3, h4, h5]
  obtain ⟨h1, -, h3, h4, h5⟩ := key ks
  have hs : (opened true false).shown = [(What.surface, 0), (.label, 2), (.help, 5)] := by decide
  rw [hs] at h1
  simp only [picture, h1, List.mem_map, List.mem_filter, List.mem_cons, List.not_mem_nil, or_false]
  cases w with
  | surface => simp [h3]
  | help => simp [h4]
  | label => simp [h5]
  | craters s => simp

private theorem keys_false_true (ks : List Key) (w : What) :
    w ∈ picture (run (opened false true) (ks.map Event.key)) ↔
      match w with
      | .surface => True
      | .help => ks.count Key.h % 2 = 1
      | .label => false = true ∧ ks.count Key.l % 2 = 0
      | .craters s => true = true ∧ s < 4 ∧ ks.count Key.c % 5 = s + 1 := by
  have key : ∀ ks : List Key, let p := run (opened false true) (ks.map Event.key)
      p.shown = (opened false true).shown ∧ p.keys = (opened false true).keys ∧
      p.vis 0 = true ∧
      p.vis 8 = decide (ks.count Key.h % 2 = 1) ∧
      p.vis 2 = decide (ks.count Key.c % 5 = 1) ∧
      p.vis 3 = decide (ks.count Key.c % 5 = 2) ∧
      p.vis 4 = decide (ks.count Key.c % 5 = 3) ∧
      p.vis 5 = decide (ks.count Key.c % 5 = 4) := by
    intro ks
    induction ks using List.reverseRecOn with
    | nil => decide
    | append_singleton t k ih =>
      simp only [run, List.map_append, List.map_cons, List.map_nil, List.foldl_append, List.foldl_cons, List.foldl_nil] at ih ⊢
      generalize List.foldl step (opened false true) (t.map Event.key) = p at ih ⊢
      obtain ⟨h1, h2, h3, h4, h6, h7, h8, h9⟩ := ih
      have hk : (opened false true).keys = [(Key.h, [1]), (Key.h, [6]), (Key.c, [2, 3, 4, 5]), (Key.h, [7]), (Key.h, [8])] := by
        decide
      refine ⟨h1, h2, ?_⟩
      rw [hk] at h2
      cases k with
      | h =>
        have e : (t.count Key.h + 1) % 2 = 1 ↔ ¬ t.count Key.h % 2 = 1 := by omega
        rcases Nat.mod_two_eq_zero_or_one (t.count Key.h) with hm | hm <;>
          simp [step, press, h2, act, toggle, List.count_append, h3, h4, h6, h7, h8, h9, e, hm]
      | l => simp [step, press, h2, List.count_append, h3, h4, h6, h7, h8, h9]
      | c =>
        have hr : t.count Key.c % 5 < 5 := Nat.mod_lt _ (by omega)
        have hcount : (t ++ [Key.c]).count Key.c % 5 = (t.count Key.c % 5 + 1) % 5 := by
          rw [List.count_append]; simp
        rw [hcount]
        generalize t.count Key.c % 5 = r at hr h6 h7 h8 h9
        interval_cases r <;>
          simp_all [step, press, act, cycle, showFirst, List.count_append, List.dropWhile]
  obtain ⟨h1, -, h3, h4, h6, h7, h8, h9⟩ := key ks
  have hs : (opened false true).shown = [(What.surface, 0), (.craters 0, 2), (.craters 1, 3), (.craters 2, 4), (.craters 3, 5), (.help, 8)] := by decide
  rw [hs] at h1
  simp only [picture, h1, List.mem_map, List.mem_filter, List.mem_cons, List.not_mem_nil, or_false]
  cases w with
  | surface => simp [h3]
  | help => simp [h4]
  | label => simp
  | craters s =>
    constructor
    · rintro ⟨a, ⟨ha, hv⟩, hw⟩
      rcases ha with rfl | rfl | rfl | rfl | rfl | rfl <;> simp_all <;> (subst hw; simp_all)
    · rintro ⟨-, hs4, hc⟩
      interval_cases s
      · exact ⟨(.craters 0, 2), ⟨by simp, by simp [h6, hc]⟩, rfl⟩
      · exact ⟨(.craters 1, 3), ⟨by simp, by simp [h7, hc]⟩, rfl⟩
      · exact ⟨(.craters 2, 4), ⟨by simp, by simp [h8, hc]⟩, rfl⟩
      · exact ⟨(.craters 3, 5), ⟨by simp, by simp [h9, hc]⟩, rfl⟩

private theorem keys_false_false (ks : List Key) (w : What) :
    w ∈ picture (run (opened false false) (ks.map Event.key)) ↔
      match w with
      | .surface => True
      | .help => ks.count Key.h % 2 = 1
      | .label => false = true ∧ ks.count Key.l % 2 = 0
      | .craters s => false = true ∧ s < 4 ∧ ks.count Key.c % 5 = s + 1 := by
  have key : ∀ ks : List Key, let p := run (opened false false) (ks.map Event.key)
      p.shown = (opened false false).shown ∧ p.keys = (opened false false).keys ∧
      p.vis 0 = true ∧
      p.vis 3 = decide (ks.count Key.h % 2 = 1) := by
    intro ks
    induction ks using List.reverseRecOn with
    | nil => decide
    | append_singleton t k ih =>
      simp only [run, List.map_append, List.map_cons, List.map_nil, List.foldl_append, List.foldl_cons, List.foldl_nil] at ih ⊢
      generalize List.foldl step (opened false false) (t.map Event.key) = p at ih ⊢
      obtain ⟨h1, h2, h3, h4⟩ := ih
      have hk : (opened false false).keys = [(Key.h, [1]), (Key.h, [2]), (Key.h, [3])] := by
        decide
      refine ⟨h1, h2, ?_⟩
      rw [hk] at h2
      cases k with
      | h =>
        have e : (t.count Key.h + 1) % 2 = 1 ↔ ¬ t.count Key.h % 2 = 1 := by omega
        rcases Nat.mod_two_eq_zero_or_one (t.count Key.h) with hm | hm <;>
          simp [step, press, h2, act, toggle, List.count_append, h3, h4, e, hm]
      | l => simp [step, press, h2, List.count_append, h3, h4]
      | c => simp [step, press, h2, List.count_append, h3, h4]
  obtain ⟨h1, -, h3, h4⟩ := key ks
  have hs : (opened false false).shown = [(What.surface, 0), (.help, 3)] := by decide
  rw [hs] at h1
  simp only [picture, h1, List.mem_map, List.mem_filter, List.mem_cons, List.not_mem_nil, or_false]
  cases w with
  | surface => simp [h3]
  | help => simp [h4]
  | label => simp
  | craters s => simp

/-- **C259** (proved part).  As long as no other interval is gone to, the keys work, however often they are pressed: the help text is to be
seen after an odd number of `h`, the label, if there is one, after an even number of `l`, and the key of the craters, if there are any, goes
through the four styles and then hides them; the surface is always to be seen. -/
theorem C259_keys_partial (label craters : Bool) (ks : List Key) (w : What) :
    w ∈ picture (run (opened label craters) (ks.map Event.key)) ↔
      match w with
      | .surface => True
      | .help => ks.count Key.h % 2 = 1
      | .label => label = true ∧ ks.count Key.l % 2 = 0
      | .craters s => craters = true ∧ s < 4 ∧ ks.count Key.c % 5 = s + 1 := by
  cases label <;> cases craters
  · exact keys_false_false ks w
  · exact keys_false_true ks w
  · exact keys_true_false ks w
  · exact keys_true_true ks w

example : picture (run (opened true true) ([Key.h, .c, .c, .l].map Event.key)) = [What.surface, .craters 1, .help] := by decide

end Verif.ViewKeys
