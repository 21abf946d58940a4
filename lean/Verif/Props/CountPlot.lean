import Verif.Model.CountPlot
import Mathlib.Data.List.Pairwise
import Mathlib.Tactic.Ring
import Mathlib.Tactic.Linarith
import Mathlib.Logic.Function.Iterate

/-!
# Pictures of crater counts: C190, C191
-/

namespace Verif.CountPlot

variable {C : Type}

/-- One list at most is saved for an interval. -/
def Numbered (fs : Saved C) : Prop := fs.Pairwise fun a b => a.1 < b.1

/-- What is shown of one kind is what was saved of it for interval `k`: its list, or nothing if there is none. -/
def Shows (shown : Option (List C)) (fs : Saved C) (k : ℤ) : Prop := ∀ l, shown = some l ↔ (k, l) ∈ fs

theorem numbered_unique {fs : Saved C} (h : Numbered fs) {k : ℤ} {l l' : List C} (a : (k, l) ∈ fs) (b : (k, l') ∈ fs) : l = l' := by
  induction fs with
  | nil => simp at a
  | cons x xs ih =>
    obtain ⟨h1, h2⟩ := List.pairwise_cons.1 h
    rcases List.mem_cons.1 a with rfl | a' <;> rcases List.mem_cons.1 b with hb | b'
    · exact (Prod.mk.inj hb).2.symm
    · have := h1 _ b'; simp at this
    · subst hb; have := h1 _ a'; simp at this
    · exact ih h2 a' b'

theorem read_shows {fs : Saved C} (h : Numbered fs) {k : ℤ} (hk : 0 ≤ k) :
    ∃ r, read fs k = .ok r ∧ Shows (r.map Prod.snd) fs k ∧ (r = none ↔ ∀ l, (k, l) ∉ fs) := by
  have hk' : ¬ k < 0 := not_lt.2 hk
  by_cases hf : fs = []
  · subst hf
    exact ⟨none, by simp [read], by simp [Shows], by simp⟩
  · refine ⟨fs.find? fun f => f.1 = k, by simp [read, hf, hk'], ?_, ?_⟩
    · intro l
      constructor
      · intro hl
        obtain ⟨⟨a, b⟩, hx, rfl⟩ := Option.map_eq_some_iff.1 hl
        have h1 := List.find?_some hx
        have h2 := List.mem_of_find?_eq_some hx
        simp only [decide_eq_true_eq] at h1
        subst h1
        exact h2
      · intro hl
        cases hx : fs.find? (fun f => f.1 = k) with
        | none =>
          have := List.find?_eq_none.1 hx _ hl
          simp at this
        | some x =>
          obtain ⟨a, b⟩ := x
          have h1 := List.find?_some hx
          have h2 := List.mem_of_find?_eq_some hx
          simp only [decide_eq_true_eq] at h1
          subst h1
          simp [numbered_unique h h2 hl]
    · rw [List.find?_eq_none]
      constructor
      · intro hx l hl
        have := hx _ hl
        simp at this
      · rintro hx ⟨a, b⟩ hab
        simp only [decide_eq_true_eq]
        rintro rfl
        exact hx _ hab

/-- C190.  A map of the crater counts for an interval shows exactly the observed and the emplaced craters saved for it, **provided** the lists in
memory are still those saved last (for each kind of which the interval is the last one saved) and the emplaced craters of the interval need not be
read from a file. -/
theorem C190_interval_partial {obs emp : Saved C} (ho : Numbered obs) (he : Numbered emp) {obsNow empNow : List C} {k : ℤ} (hk : 0 ≤ k)
    (hobs : ∀ l, obs.getLast? = some (k, l) → l = obsNow)
    (hemp : emp.getLast? = some (k, empNow) ∨ ∀ l, (k, l) ∉ emp) :
    ∃ o e, plot obs emp obsNow empNow (some k) = .ok (o, e) ∧ Shows o obs k ∧ Shows e emp k := by
  obtain ⟨ro, hro, so, -⟩ := read_shows ho hk
  obtain ⟨re, hre, se, ne⟩ := read_shows he hk
  have key : ∀ {fs : Saved C} {now : List C}, Numbered fs → fs.getLast? = some (k, now) → Shows (some now) fs k := by
    intro fs now hn hl l
    have hm := List.mem_of_getLast? hl
    constructor
    · intro h; rw [← Option.some.inj h]; exact hm
    · intro h; rw [numbered_unique hn hm h]
  have cur : ∀ {fs : Saved C} {now : List C}, fs.getLast? = some (k, now) → current fs now k = some now := by
    intro fs now hl; simp [current, hl]
  have curn : ∀ {fs : Saved C} {now : List C}, (∀ l, fs.getLast? ≠ some (k, l)) → current fs now k = none := by
    intro fs now hl
    unfold current
    rw [if_neg]
    intro h
    obtain ⟨⟨a, b⟩, hx, rfl⟩ := Option.map_eq_some_iff.1 h
    exact hl b hx
  by_cases hO : ∃ l, obs.getLast? = some (k, l)
  · obtain ⟨l, hl⟩ := hO
    have := hobs l hl
    subst this
    rcases hemp with hE | hE
    · refine ⟨some l, some empNow, ?_, key ho hl, key he hE⟩
      simp [plot, cur hl, cur hE]
    · have hE' : ∀ l, emp.getLast? ≠ some (k, l) := fun l' h => hE l' (List.mem_of_getLast? h)
      have hr := ne.2 hE
      subst hr
      refine ⟨some l, none, ?_, key ho hl, by simpa [Shows] using hE⟩
      simp [plot, cur hl, curn hE', hro, hre]
  · have hO' : ∀ l, obs.getLast? ≠ some (k, l) := fun l h => hO ⟨l, h⟩
    rcases hemp with hE | hE
    · refine ⟨ro.map Prod.snd, some empNow, ?_, so, key he hE⟩
      simp [plot, curn hO', cur hE, hro, hre]
    · have hE' : ∀ l, emp.getLast? ≠ some (k, l) := fun l' h => hE l' (List.mem_of_getLast? h)
      have hr := ne.2 hE
      subst hr
      refine ⟨ro.map Prod.snd, none, ?_, so, by simpa [Shows] using hE⟩
      simp [plot, curn hO', curn hE', hro, hre]

/-- Without an interval the map shows the lists in memory. -/
theorem C190_now (obs emp : Saved C) (obsNow empNow : List C) : plot obs emp obsNow empNow none = .ok (some obsNow, some empNow) := rfl

/-- Counted from the end, the map shows the observed craters of the interval so counted, if no emplaced craters were ever saved. -/
theorem C190_from_end (obs : Saved C) (hk : ∀ f ∈ obs, 0 ≤ f.1) (obsNow empNow : List C) (n : ℕ) (f : ℤ × List C)
    (hf : obs.reverse[n]? = some f) : plot obs [] obsNow empNow (some (-(n + 1))) = .ok (some f.2, none) := by
  have hn : n < obs.length := by
    have := (List.getElem?_eq_some_iff.1 hf).1
    simpa using this
  have hne : obs ≠ [] := by rintro rfl; simp at hn
  have hc : current obs obsNow (-((n : ℤ) + 1)) = none := by
    unfold current
    rw [if_neg]
    intro h
    obtain ⟨x, hx, hx'⟩ := Option.map_eq_some_iff.1 h
    have := hk x (List.mem_of_getLast? hx)
    omega
  have hlt : -((n : ℤ) + 1) < 0 := by omega
  have hr : read obs (-((n : ℤ) + 1)) = .ok (some f) := by
    unfold read
    rw [if_neg hne, if_pos hlt, if_pos (by omega)]
    rw [List.getElem?_reverse hn] at hf
    rw [← hf]
    congr 2
    omega
  have hc' : current ([] : Saved C) empNow (-((n : ℤ) + 1)) = none := by simp [current]
  unfold plot
  simp only [hc, hc', hr]
  simp [read]

/-- C190 fails: a map of an interval with saved emplaced craters, when emplaced craters were also saved later, is never drawn: the code asks `None`
for its intervals (`counting/__init__.py` line 700: `emplaced.interval` for `emplaced_ds.interval`) and raises. -/
theorem C190_emplaced_fails {obs emp : Saved C} (ho : Numbered obs) (he : Numbered emp) (obsNow empNow : List C) {k : ℤ} (hk : 0 ≤ k) {l : List C}
    (hl : (k, l) ∈ emp) (hlast : emp.getLast?.map Prod.fst ≠ some k) : plot obs emp obsNow empNow (some k) = .error .attribute := by
  obtain ⟨ro, hro, -, -⟩ := read_shows ho hk
  obtain ⟨re, hre, -, ne⟩ := read_shows he hk
  have hc : current emp empNow k = none := by simp [current, hlast]
  cases re with
  | none => exact absurd hl (ne.1 rfl l)
  | some r => simp [plot, hc, hro, hre]

/-- C190 fails: the interval saved last is drawn from memory, also when the lists have changed since: after a round without craters (for which no file
is written) the map of the round before shows none of the craters emplaced in it. -/
theorem C190_stale_fails (obs emp : Saved C) (obsNow empNow : List C) (k : ℤ) (ho : obs.getLast?.map Prod.fst = some k)
    (he : emp.getLast?.map Prod.fst = some k) : plot obs emp obsNow empNow (some k) = .ok (some obsNow, some empNow) := by
  simp [plot, current, ho, he]

/-- Two craters saved for interval 1, none in memory after an empty round. -/
example : (1, [7, 8]) ∈ [((1 : ℤ), [7, 8])] ∧ plot [(1, [7, 8])] [(1, [7, 8])] [7, 8] [] (some 1) = .ok (some [7, 8], some []) :=
  ⟨by simp, C190_stale_fails _ _ _ _ 1 rfl rfl⟩

/-- Three saves of observed craters, the second of which is drawn, no emplaced craters having been formed in it. -/
example : ∃ o e, plot [(0, [1]), (1, [1, 2]), (2, [2])] [(0, [1]), (2, [3])] [2] [3] (some 1) = .ok (o, e) ∧
    Shows o [(0, [1]), (1, [1, 2]), (2, [2])] 1 ∧ Shows e [(0, [1]), (2, [3])] 1 ∧ o = some [1, 2] := by
  obtain ⟨o, e, h1, h2, h3⟩ := C190_interval_partial (obs := [(0, [1]), (1, [1, 2]), (2, [2])]) (emp := [(0, [1]), (2, [3])]) (obsNow := [2])
    (empNow := [3]) (k := 1) (by simp [Numbered]) (by simp [Numbered]) (by norm_num) (by simp) (Or.inr (by simp))
  exact ⟨o, e, h1, h2, h3, (h2 [1, 2]).2 (by simp)⟩

example : plot [(0, [1]), (1, [1, 2])] [(0, [1]), (1, [2])] [1, 2] [2] (some 0) = .error .attribute :=
  C190_emplaced_fails (by simp [Numbered]) (by simp [Numbered]) _ _ (by norm_num) (l := [1]) (by simp) (by simp)

example : plot [(0, [1]), (1, [1, 2])] [] [9] [] (some (-1)) = .ok (some [1, 2], none) :=
  C190_from_end [(0, [1]), (1, [1, 2])] (by simp) [9] [] 0 _ rfl

/-! ### Three-dimensional views -/

/-- What a view of interval `k` should show of one kind: the list in memory without a number (or for `-1`), otherwise what was saved for `k`. -/
def Wanted (fs : Saved C) (now : List C) (interval : Option ℤ) (shown : Option (List C)) : Prop :=
  match interval with
  | none => shown = some now
  | some k => if k = -1 then shown = some now else Shows shown fs k

theorem lists_wanted {obs emp : Saved C} (ho : Numbered obs) (he : Numbered emp) (obsNow empNow : List C) (interval : Option ℤ)
    (hi : ∀ k, interval = some k → -1 ≤ k) :
    ∃ o e, lists obs emp obsNow empNow interval = .ok (o, e) ∧ Wanted obs obsNow interval o ∧ Wanted emp empNow interval e := by
  cases interval with
  | none => exact ⟨some obsNow, some empNow, by simp [lists], rfl, rfl⟩
  | some k =>
    by_cases h : k = -1
    · subst h
      exact ⟨some obsNow, some empNow, by simp [lists], by simp [Wanted], by simp [Wanted]⟩
    · have hk : 0 ≤ k := by have := hi k rfl; omega
      obtain ⟨ro, hro, so, -⟩ := read_shows ho hk
      obtain ⟨re, hre, se, -⟩ := read_shows he hk
      exact ⟨ro.map Prod.snd, re.map Prod.snd, by simp [lists, h, hro, hre], by simpa [Wanted, h] using so, by simpa [Wanted, h] using se⟩

/-- The names of the styles of craters. -/
def Style (st : String) : Prop := st = "rings" ∨ st = "points" ∨ st = "impacts" ∨ st = "spheres"

theorem style_ok {st : String} (h : Style st) : ["rings", "points", "impacts", "spheres"].contains st = true := by
  rcases h with rfl | rfl | rfl | rfl <;> decide +kernel

/-- C191.  A three-dimensional view of the observed craters of an interval adds one actor, with these craters in the first colour given and their measured
properties, and leaves what else the plotter shows; it adds nothing if none were saved for the interval. -/
theorem C191_observed_partial {obs emp : Saved C} (ho : Numbered obs) (he : Numbered emp) (obsNow empNow : List C) (interval : Option ℤ)
    (hi : ∀ k, interval = some k → -1 ≤ k) (c : String) (cs : List String) {st : String} (hst : Style st.toLower) (s₀ : Scene C) :
    ∃ o, Wanted obs obsNow interval o ∧
      view obs emp obsNow empNow interval .observed (.many (c :: cs)) false st s₀ = .ok (match o with
        | none => s₀
        | some l => s₀.filter (fun x => x.1 ≠ "observed_" ++ st.toLower) ++ [("observed_" ++ st.toLower, ⟨l, c, true⟩)]) := by
  obtain ⟨o, e, h, wo, -⟩ := lists_wanted ho he obsNow empNow interval hi
  refine ⟨o, wo, ?_⟩
  have h1 := style_ok hst
  have hn : Kind.observed.text ++ "_" ++ st.toLower = "observed_" ++ st.toLower := rfl
  unfold view
  rw [h1]
  cases o <;> simp [view.go, h, drawLists, drawAll, styles, add, hn]

/-- The emplaced craters are shown likewise, in the last colour given and with the properties they were emplaced with. -/
theorem C191_emplaced {obs emp : Saved C} (ho : Numbered obs) (he : Numbered emp) (obsNow empNow : List C) (interval : Option ℤ)
    (hi : ∀ k, interval = some k → -1 ≤ k) (c : String) (cs : List String) {st : String} (hst : Style st.toLower) (s₀ : Scene C) :
    ∃ e, Wanted emp empNow interval e ∧
      view obs emp obsNow empNow interval .emplaced (.many (cs ++ [c])) false st s₀ = .ok (match e with
        | none => s₀
        | some l => s₀.filter (fun x => x.1 ≠ "emplaced_" ++ st.toLower) ++ [("emplaced_" ++ st.toLower, ⟨l, c, false⟩)]) := by
  obtain ⟨o, e, h, -, we⟩ := lists_wanted ho he obsNow empNow interval hi
  refine ⟨e, we, ?_⟩
  have h1 := style_ok hst
  have hn : Kind.emplaced.text ++ "_" ++ st.toLower = "emplaced_" ++ st.toLower := rfl
  unfold view
  rw [h1]
  cases e <;> simp [view.go, h, drawLists, drawAll, styles, add, hn]

/-- C191 fails: a view of both kinds shows only the emplaced craters, whatever the interval, style and colours: the actors of both kinds are named after the
argument (`counting/__init__.py` line 841), so that the second replaces the first. -/
theorem C191_both_fails (obs emp : Saved C) (obsNow empNow : List C) (c d st : String) (interactive : Bool)
    (hst : interactive = true ∨ Style st.toLower) : ∃ s, view obs emp obsNow empNow none .both (.many [c, d]) interactive st [] = .ok s ∧ s ≠ [] ∧
      ∀ x ∈ s, x.2 = ⟨empNow, d, false⟩ := by
  cases interactive with
  | true =>
    have e : drawAll .both (styles true st.toLower) ⟨empNow, d, false⟩ (drawAll .both (styles true st.toLower) ⟨obsNow, c, true⟩ []) =
        [("both_rings", ⟨empNow, d, false⟩), ("both_points", ⟨empNow, d, false⟩), ("both_impacts", ⟨empNow, d, false⟩),
          ("both_spheres", ⟨empNow, d, false⟩)] := by
      simp [drawAll, styles, add, Kind.text]
    refine ⟨_, ?_, List.cons_ne_nil ("both_rings", ⟨empNow, d, false⟩) [("both_points", ⟨empNow, d, false⟩), ("both_impacts", ⟨empNow, d, false⟩),
      ("both_spheres", ⟨empNow, d, false⟩)], ?_⟩
    · unfold view
      simp only [Bool.not_true, Bool.false_and, Bool.false_eq_true, if_false, List.length_cons, List.length_nil, ne_eq, not_true_eq_false,
        and_false, view.go, lists, Option.getD_none, if_true, drawLists]
      rw [e]
    · simp
  | false =>
    have hst' : Style st.toLower := by simpa using hst
    have h1 := style_ok hst'
    have e : drawAll .both (styles false st.toLower) ⟨empNow, d, false⟩ (drawAll .both (styles false st.toLower) ⟨obsNow, c, true⟩ []) =
        [(Kind.both.text ++ "_" ++ st.toLower, ⟨empNow, d, false⟩)] := by
      simp [drawAll, styles, add]
    refine ⟨[(Kind.both.text ++ "_" ++ st.toLower, ⟨empNow, d, false⟩)], ?_, by simp, by simp⟩
    unfold view
    rw [h1]
    simp only [Bool.not_true, Bool.and_false, Bool.false_eq_true, if_false, List.length_cons, List.length_nil, ne_eq, not_true_eq_false,
      and_false, view.go, lists, Option.getD_none, if_true, drawLists]
    rw [e]

/-- C191 fails: one colour for both kinds, which is accepted for each of them, raises for both. -/
theorem C191_color_fails {obs emp : Saved C} (ho : Numbered obs) (he : Numbered emp) (obsNow empNow : List C) (interval : Option ℤ)
    (hi : ∀ k, interval = some k → -1 ≤ k) (c st : String) (interactive : Bool) (s₀ : Scene C) :
    view obs emp obsNow empNow interval .both (.one c) interactive st s₀ = .error .value := by
  obtain ⟨o, e, h, -, -⟩ := lists_wanted ho he obsNow empNow interval hi
  unfold view
  split_ifs
  · rfl
  · simp [view.go, h, drawLists]

/-- C191 fails: a list of craters, which the documentation allows, raises for lack of names. -/
theorem C191_list_fails (obs emp : Saved C) (obsNow empNow : List C) (interval : Option ℤ) (colors : Colors) (st : String) (s₀ : Scene C) :
    view obs emp obsNow empNow interval .craters colors true st s₀ = .error .unbound := by
  cases colors <;> simp [view, view.go]

/-- In an interactive view the key goes through the styles: after `j` times it shows the style `j - 1`, and after the last style none. -/
theorem C191_keys (n j : ℕ) (i : ℕ) (hi : i < n) :
    (pressKey^[j] (List.replicate n false))[i]? = some (decide (i + 1 = j % (n + 1))) := by
  have key : ∀ j, pressKey^[j] (List.replicate n false) = (List.range n).map fun i => decide (i + 1 = j % (n + 1)) := by
    intro j
    induction j with
    | zero =>
      apply List.ext_getElem
      · simp
      · intro i h1 h2; simp
    | succ j ih =>
      rw [Function.iterate_succ_apply', ih]
      have hm : j % (n + 1) < n + 1 := Nat.mod_lt _ (by omega)
      have hs : (j + 1) % (n + 1) = if j % (n + 1) = n then 0 else j % (n + 1) + 1 := by
        rw [Nat.add_mod]
        by_cases h1 : n = 0
        · subst h1; simp [Nat.mod_one]
        · rw [Nat.mod_eq_of_lt (show 1 < n + 1 by omega)]
          split_ifs with h2
          · rw [h2]; simp
          · rw [Nat.mod_eq_of_lt (by omega)]
      generalize hr : j % (n + 1) = r at *
      unfold pressKey
      have hfind : (List.map (fun i => decide (i + 1 = r)) (List.range n)).findIdx? id = if r = 0 then none else some (r - 1) := by
        split_ifs with h0
        · rw [List.findIdx?_eq_none_iff]
          intro x hx
          obtain ⟨a, -, rfl⟩ := List.mem_map.1 hx
          simp; omega
        · rw [List.findIdx?_eq_some_iff_getElem]
          refine ⟨by simp; omega, by simp; omega, ?_⟩
          intro j hj
          simp; omega
      rw [hfind]
      by_cases h0 : r = 0
      · subst h0
        rw [if_pos rfl]
        apply List.ext_getElem
        · simp
        · intro i h1 h2
          have hin : i < n := by simpa using h2
          have : n ≠ 0 := by omega
          simp [List.getElem_set, hs, Ne.symm this]
          omega
      · rw [if_neg h0]
        apply List.ext_getElem
        · simp
        · intro i h1 h2
          have hin : i < n := by simpa using h2
          simp only [List.getElem_set, List.getElem_map, List.getElem_range, hs]
          split_ifs <;> simp <;> omega
  rw [key j]
  simp [hi]

/-- The emplaced craters saved for interval 3, on a plotter with something else. -/
example : view (C := ℕ) [] [(0, [1]), (3, [2])] [] [5] (some 3) .emplaced (.many ["w", "y"]) false "Rings" [("other", ⟨[], "k", true⟩)] =
    .ok [("other", ⟨[], "k", true⟩), ("emplaced_rings", ⟨[2], "y", false⟩)] := by
  have hl : "Rings".toLower = "rings" := by decide +kernel
  obtain ⟨e, h1, h2⟩ := C191_emplaced (C := ℕ) (obs := []) (emp := [(0, [1]), (3, [2])]) (by simp [Numbered]) (by simp [Numbered]) [] [5] (some 3)
    (by simp) "y" ["w"] (st := "Rings") (by rw [hl]; exact Or.inl rfl) [("other", ⟨[], "k", true⟩)]
  have h3 : e = some [2] := by
    simp only [Wanted] at h1
    rw [if_neg (by norm_num)] at h1
    exact (h1 [2]).2 (by simp)
  subst h3
  refine h2.trans ?_
  simp [hl]

example : (pressKey^[7] (List.replicate 4 false))[1]? = some true := by
  rw [C191_keys 4 7 1 (by norm_num)]; rfl

end Verif.CountPlot
