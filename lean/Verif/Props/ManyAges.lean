import Verif.Model.ManyAges
import Mathlib.Tactic.Linarith

/-! Property C195: production functions called with several diameters and several ages. -/

namespace Verif.ManyAges

/-- The `i`-th number of an argument; a single number stands for all. -/
def nth : Arg → ℕ → Option ℝ
  | .one x, _ => some x
  | .many xs, i => xs[i]?

/-- The end of the `j`-th window: not given means no end is given. -/
def nthEnd : Option Arg → ℕ → Option (Option Arg)
  | none, _ => some none
  | some a, j => (nth a j).map fun e => some (.one e)

/-- How many rows and columns a result has. -/
def size : Arg → Option ℕ
  | .one _ => none
  | .many xs => some xs.length

/-- The value that belongs to the `i`-th diameter and the `j`-th age, for arguments of the given shapes. -/
def entry (v : Val) (i j : ℕ) : Arg → Arg → Option ℝ
  | .one _, .one _ => match v with | .num x => some x | _ => none
  | .many _, .one _ => match v with | .vec xs => xs[i]? | _ => none
  | .one _, .many _ => match v with | .vec xs => xs[j]? | _ => none
  | .many _, .many _ => match v with | .tab rows => rows[i]?.bind (·[j]?) | _ => none

/-- A result has one number for every diameter and age, and no others. -/
def Shape (v : Val) : Arg → Arg → Prop
  | .one _, .one _ => ∃ x, v = .num x
  | .many ds, .one _ => ∃ xs, v = .vec xs ∧ xs.length = ds.length
  | .one _, .many ts => ∃ xs, v = .vec xs ∧ xs.length = ts.length
  | .many ds, .many ts => ∃ rows, v = .tab rows ∧ rows.length = ds.length ∧ ∀ r ∈ rows, r.length = ts.length

theorem diam_ok {a d : Arg} (h : validDiameter a = some d) : d = a ∧ ∀ i x, nth a i = some x → ¬ x < 0 := by
  cases a with
  | one x =>
    simp only [validDiameter] at h
    split_ifs at h with h0
    obtain rfl := Option.some.inj h
    exact ⟨rfl, fun i y hy => by obtain rfl := Option.some.inj hy; exact h0⟩
  | many xs =>
    simp only [validDiameter] at h
    split_ifs at h with h0
    obtain rfl := Option.some.inj h
    refine ⟨rfl, fun i y hy hlt => h0 ⟨y, ?_, hlt⟩⟩
    exact List.mem_of_getElem? hy

theorem many_ok {p : Production} {ts : List ℝ} {te : Option Arg} {ws : List (ℝ × ℝ)} (h : validMany p ts te = some ws) :
    ws.length = ts.length ∧ ∀ j t, ts[j]? = some t → ∃ e, ∃ a, nthEnd te j = some a ∧ ws[j]? = some (t, e) ∧
      validOne p t a = some (t, e) := by
  simp only [validMany] at h
  generalize hes : endsFor ts te = es at h
  split_ifs at h with h1 h2 h3 h4
  obtain rfl := Option.some.inj h
  simp only [ne_eq, not_not] at h1
  refine ⟨by simp [h1], fun j t hj => ?_⟩
  have hjl : j < ts.length := (List.getElem?_eq_some_iff.mp hj).1
  obtain ⟨e, he⟩ : ∃ e, es[j]? = some e := ⟨es[j]'(h1 ▸ hjl), List.getElem?_eq_getElem _⟩
  have hz : (ts.zip es)[j]? = some (t, e) := by
    rw [List.getElem?_zip_eq_some]; exact ⟨hj, he⟩
  have hval : ∀ a : Option Arg, endOne a = some e → validOne p t a = some (t, e) := by
    intro a ha
    simp only [validOne, ha]
    rw [if_neg (fun hlt => h2 ⟨(t, e), List.mem_of_getElem? hz, hlt⟩),
      if_neg (fun ⟨f, hf, hlt⟩ => h3 ⟨f, hf, .inl ⟨t, List.mem_of_getElem? hj, hlt⟩⟩),
      if_neg (fun ⟨l, hl, hgt⟩ => h4 ⟨l, hl, .inl ⟨t, List.mem_of_getElem? hj, hgt⟩⟩)]
  refine ⟨e, ?_⟩
  match te, hes with
  | none, hes =>
    refine ⟨none, rfl, hz, hval none ?_⟩
    subst hes
    simp only [endsFor] at he
    rw [List.getElem?_map, hj] at he
    exact he
  | some (.one e'), hes =>
    subst hes
    simp only [endsFor] at he
    rw [List.getElem?_map, hj] at he
    obtain rfl := Option.some.inj he
    exact ⟨some (.one e'), rfl, hz, hval _ rfl⟩
  | some (.many es'), hes =>
    subst hes
    refine ⟨some (.one e), ?_, hz, hval _ rfl⟩
    simp only [nthEnd, nth]
    simp only [endsFor] at he
    rw [he]; rfl

/-- **C195, part.**  (Missing: the call is accepted whenever the single calls are, see `C195_refused_fails`.)  If a call with any
combination of single numbers and arrays is accepted, the result has one number for every diameter and every age, and the
number for the `i`-th diameter and the `j`-th age is the result of the call for this diameter, start and end alone. -/
theorem C195_table_partial (p : Production) (diameter ts : Arg) (te : Option Arg) (v : Val)
    (h : function p diameter ts te = some v) :
    Shape v diameter ts ∧
    ∀ i j d t, nth diameter i = some d → nth ts j = some t →
      ∃ a x, (nthEnd te j = some a) ∧ entry v i j diameter ts = some x ∧ function p (.one d) (.one t) a = some (.num x) := by
  simp only [function] at h
  split at h
  · cases h
  rename_i D hD
  obtain ⟨rfl, hpos⟩ := diam_ok hD
  have single : ∀ i d t e a, nth D i = some d → validOne p t a = some (t, e) →
      function p (.one d) (.one t) a = some (.num (p.csfd d * p.window t e)) := by
    intro i d t e a h1 h2
    simp [function, validDiameter, if_neg (hpos i d h1), h2]
  cases ts with
  | one t =>
    simp only at h
    split at h
    · cases h
    rename_i t' e hv
    obtain ⟨rfl, hte⟩ : t' = t ∧ (nthEnd te = fun _ => some te) := by
      simp only [validOne] at hv
      constructor
      · split at hv
        · cases hv
        · split_ifs at hv; exact (Prod.ext_iff.mp (Option.some.inj hv)).1.symm
      · match te, hv with
        | none, _ => rfl
        | some (.one e), _ => rfl
        | some (.many es), hv => simp [endOne] at hv
    cases D with
    | one d0 =>
      obtain rfl := Option.some.inj h
      refine ⟨⟨_, rfl⟩, fun i j d t hd ht => ?_⟩
      obtain rfl := Option.some.inj hd
      obtain rfl := Option.some.inj ht
      exact ⟨te, _, congrFun hte j, rfl, single i _ _ _ _ hd hv⟩
    | many ds =>
      obtain rfl := Option.some.inj h
      refine ⟨⟨_, rfl, by simp⟩, fun i j d t hd ht => ?_⟩
      obtain rfl := Option.some.inj ht
      refine ⟨te, _, congrFun hte j, ?_, single i _ _ _ _ hd hv⟩
      simp only [nth] at hd
      simp [entry, hd]
  | many tl =>
    simp only at h
    split at h
    · cases h
    rename_i ws hv
    obtain ⟨hlen, hw⟩ := many_ok hv
    cases D with
    | one d0 =>
      obtain rfl := Option.some.inj h
      refine ⟨⟨_, rfl, by simp [hlen]⟩, fun i j d t hd ht => ?_⟩
      obtain rfl := Option.some.inj hd
      obtain ⟨e, a, h1, h2, h3⟩ := hw j t ht
      refine ⟨a, _, h1, ?_, single i _ _ _ _ hd h3⟩
      simp [entry, h2]
    | many ds =>
      obtain rfl := Option.some.inj h
      refine ⟨⟨_, rfl, by simp, by simp [hlen]⟩, fun i j d t hd ht => ?_⟩
      obtain ⟨e, a, h1, h2, h3⟩ := hw j t ht
      refine ⟨a, _, h1, ?_, single i _ _ _ _ hd h3⟩
      simp only [nth] at hd
      simp [entry, hd, h2]

/-- Windows that end after the present are accepted when they are asked for one at a time; as the only element of an array the same
window is refused.  Full statement: an array is accepted when each of its windows is. -/
theorem C195_refused_fails (p : Production) (hp : p.first = some 0) (d ts te : ℝ) (hd : 0 ≤ d) (hs : 0 ≤ ts) (he : te < 0)
    (hl : ∀ l, p.last = some l → ts ≤ l) :
    function p (.one d) (.one ts) (some (.one te)) = some (.num (p.csfd d * p.window ts te)) ∧
    function p (.one d) (.many [ts]) (some (.many [te])) = none := by
  have h1 : ¬ ts < te := by linarith
  have h2 : ¬ ts < 0 := not_lt.mpr hs
  have h3 : ¬ ∃ l, p.last = some l ∧ ts > l := fun ⟨l, h, hgt⟩ => absurd (hl l h) (not_le.mpr hgt)
  constructor
  · simp only [function, validDiameter, if_neg (not_lt.mpr hd), validOne, endOne, if_neg h1, hp]
    rw [if_neg (fun ⟨f, hf, hlt⟩ => h2 (by obtain rfl := Option.some.inj hf; exact hlt)), if_neg h3]
  · simp [function, validDiameter, if_neg (not_lt.mpr hd), validMany, endsFor, hp, he, h2, h1]

/-- If no end lies outside the valid times, an array of windows is accepted exactly when each window is. -/
theorem C195_accepted (p : Production) (d : ℝ) (ts es : List ℝ) (hlen : ts.length = es.length)
    (hf : ∀ f, p.first = some f → ∀ e ∈ es, f ≤ e) (hd : 0 ≤ d) :
    (∃ v, function p (.one d) (.many ts) (some (.many es)) = some v) ↔
      ∀ (j : ℕ) (t e : ℝ), ts[j]? = some t → es[j]? = some e → ∃ v, function p (.one d) (.one t) (some (.one e)) = some v := by
  have hone : ∀ t e, (∃ v, function p (.one d) (.one t) (some (.one e)) = some v) ↔
      ¬ t < e ∧ (∀ f, p.first = some f → ¬ t < f) ∧ ∀ l, p.last = some l → ¬ t > l := by
    intro t e
    simp only [function, validDiameter, if_neg (not_lt.mpr hd), validOne, endOne]
    by_cases h1 : t < e
    · simp [h1]
    by_cases h2 : ∃ f, p.first = some f ∧ t < f
    · simp only [if_neg h1, if_pos h2]
      obtain ⟨f, hf, hlt⟩ := h2
      simp only [reduceCtorEq, exists_false, false_iff]
      exact fun h => h.2.1 f hf hlt
    by_cases h3 : ∃ l, p.last = some l ∧ t > l
    · simp only [if_neg h1, if_neg h2, if_pos h3]
      obtain ⟨f, hf, hlt⟩ := h3
      simp only [reduceCtorEq, exists_false, false_iff]
      exact fun h => h.2.2 f hf hlt
    · simp only [if_neg h1, if_neg h2, if_neg h3]
      exact ⟨fun _ => ⟨h1, fun f hf hlt => h2 ⟨f, hf, hlt⟩, fun l hl hgt => h3 ⟨l, hl, hgt⟩⟩, fun _ => ⟨_, rfl⟩⟩
  constructor
  · rintro ⟨v, hv⟩ j t e ht he
    obtain ⟨a, x, h1, _, h3⟩ := (C195_table_partial p _ _ _ v hv).2 0 j d t rfl ht
    simp only [nthEnd, nth, he, Option.map_some, Option.some.injEq] at h1
    subst h1
    exact ⟨_, h3⟩
  · intro hall
    have hz : ∀ q ∈ ts.zip es, ¬ q.1 < q.2 ∧ (∀ f, p.first = some f → ¬ q.1 < f) ∧ ∀ l, p.last = some l → ¬ q.1 > l := by
      intro q hq
      obtain ⟨j, hj⟩ := List.getElem?_of_mem hq
      rw [List.getElem?_zip_eq_some] at hj
      exact (hone q.1 q.2).mp (hall j q.1 q.2 hj.1 hj.2)
    have hts : ∀ t ∈ ts, ∃ e, (t, e) ∈ ts.zip es := by
      intro t ht
      obtain ⟨j, hj⟩ := List.getElem?_of_mem ht
      have hjl : j < ts.length := (List.getElem?_eq_some_iff.mp hj).1
      exact ⟨es[j]'(hlen ▸ hjl), List.mem_of_getElem? (i := j)
        (List.getElem?_zip_eq_some.mpr ⟨hj, List.getElem?_eq_getElem _⟩)⟩
    have hes : ∀ e ∈ es, ∃ t, (t, e) ∈ ts.zip es := by
      intro e he
      obtain ⟨j, hj⟩ := List.getElem?_of_mem he
      have hjl : j < es.length := (List.getElem?_eq_some_iff.mp hj).1
      exact ⟨ts[j]'(hlen ▸ hjl), List.mem_of_getElem? (i := j)
        (List.getElem?_zip_eq_some.mpr ⟨List.getElem?_eq_getElem _, hj⟩)⟩
    refine ⟨.vec ((ts.zip es).map fun w => p.csfd d * p.window w.1 w.2), ?_⟩
    have hv : validMany p ts (some (.many es)) = some (ts.zip es) := by
      have c1 : ¬ ∃ f, p.first = some f ∧ ((∃ t ∈ ts, t < f) ∨ ∃ e ∈ es, e < f) := by
        rintro ⟨f, hff, ⟨t, ht, hlt⟩ | ⟨e, he, hlt⟩⟩
        · obtain ⟨e, hq⟩ := hts t ht
          exact (hz _ hq).2.1 f hff hlt
        · exact absurd (hf f hff e he) (not_le.mpr hlt)
      have c2 : ¬ ∃ l, p.last = some l ∧ ((∃ t ∈ ts, t > l) ∨ ∃ e ∈ es, e > l) := by
        rintro ⟨l, hl, ⟨t, ht, hgt⟩ | ⟨e, he, hgt⟩⟩
        · obtain ⟨e, hq⟩ := hts t ht
          exact (hz _ hq).2.2 l hl hgt
        · obtain ⟨t, hq⟩ := hes e he
          have h1 := (hz _ hq).1
          have h2 := (hz _ hq).2.2 l hl
          simp only at h1 h2
          linarith
      have c0 : ¬ ∃ q ∈ ts.zip es, q.1 < q.2 := fun ⟨q, hq, hlt⟩ => (hz q hq).1 hlt
      simp only [validMany]
      split_ifs with d1 d2 d3 d4
      · exact absurd hlen d1
      · exact absurd d2 c0
      · exact absurd d3 c1
      · exact absurd d4 c2
      · rfl
    simp only [function, validDiameter, if_neg (not_lt.mpr hd), hv]

/-- Three windows are accepted; a window into the future is not. -/
example : (∃ v, function ⟨fun d => d, fun a b => a - b, some 0, some 4500⟩ (.one 1) (.many [10, 20, 30])
      (some (.many [1, 2, 3])) = some v) ∧
    function ⟨fun d => d, fun a b => a - b, some 0, some 4500⟩ (.one 1) (.many [5]) (some (.many [-3])) = none := by
  constructor
  · obtain ⟨v, hv⟩ := (C195_accepted ⟨fun d => d, fun a b => a - b, some 0, some 4500⟩ 1 [10, 20, 30] [1, 2, 3] rfl
      (by simp) (by norm_num)).mpr (by
        intro j t e ht he
        have : (t = 10 ∧ e = 1) ∨ (t = 20 ∧ e = 2) ∨ (t = 30 ∧ e = 3) := by
          match j, ht, he with
          | 0, ht, he => left; simp at ht he; exact ⟨ht.symm, he.symm⟩
          | 1, ht, he => right; left; simp at ht he; exact ⟨ht.symm, he.symm⟩
          | 2, ht, he => right; right; simp at ht he; exact ⟨ht.symm, he.symm⟩
          | j + 3, ht, _ => simp at ht
        refine ⟨.num (1 * (t - e)), ?_⟩
        rcases this with ⟨rfl, rfl⟩ | ⟨rfl, rfl⟩ | ⟨rfl, rfl⟩ <;>
          norm_num [function, validDiameter, validOne, endOne])
    exact ⟨v, hv⟩
  · exact (C195_refused_fails _ rfl 1 5 (-3) (by norm_num) (by norm_num) (by norm_num)
      (fun l hl => by simp only [Option.some.injEq] at hl; linarith)).2

end Verif.ManyAges
