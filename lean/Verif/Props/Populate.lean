import Verif.Model.Populate
import Verif.Props.Law
import Verif.Props.Sample
import Verif.Props.RunArgs
import Mathlib.Probability.Distributions.Poisson.Basic
import Mathlib.MeasureTheory.Constructions.Pi

/-! Properties C155-C157: the craters that `populate` makes. -/

namespace Verif.Populate

open Verif.Sampling MeasureTheory

/-! ### C155: the window of each bin -/

/-- What a production function provides for craters larger than `D`: no craters now, a number that is not negative, and the age for
a number. -/
structure Dates (c : RunArgs.Ctx) (D : ℝ) : Prop where
  none_now : c.F D 0 = 0
  nonneg : ∀ t, 0 ≤ t → 0 ≤ c.F D t
  age : ∀ t, 0 ≤ t → (∀ m, c.vmax = some m → t ≤ m) → c.ageOf D (c.F D t) = some t

theorem cancel {area bin n : ℝ} (ha : 0 < area) (hb : 0 < bin) : n * (bin / area) / bin = n / area := by
  field_simp

open RunArgs in
theorem fnV_ok {c : Ctx} {D t n : ℝ} (h : fnV c D t = .ok n) : 0 ≤ D ∧ 0 ≤ t ∧ n = c.F D t := by
  simp only [fnV, bind_ok, pure_ok, failIf_ok] at h
  obtain ⟨_, h1, _, h2, rfl⟩ := h
  exact ⟨not_lt.mp h1, (validateAge_ok h2).1, rfl⟩

open RunArgs in
theorem ageV_ok {c : Ctx} {D N t : ℝ} : ageV c D N = .ok t ↔ 0 ≤ D ∧ 0 ≤ N ∧ c.ageOf D N = some t := by
  simp only [ageV, validateCsfd, bind_ok, failIf_ok, not_lt]
  constructor
  · rintro ⟨_, ⟨_, h1, h2⟩, h3⟩
    refine ⟨h1, h2, ?_⟩
    split at h3
    next t' e => rw [pure_ok] at h3; rw [e, h3]
    next => simp at h3
  · rintro ⟨h1, h2, h3⟩
    refine ⟨(), ⟨(), h1, h2⟩, ?_⟩
    rw [h3]
    rfl

open RunArgs in
theorem endOf_pair {c : Ctx} {t : ℝ} {p : ℝ × ℝ} {te : Option ℝ} {q : Option (ℝ × ℝ)} {e : ℝ × (ℝ × ℝ)} (hA : 0 < c.area)
    (hd : Dates c p.1) (h : endOf c t p te q = .ok e) :
    e.2.1 = p.1 ∧ 0 ≤ e.2.2 ∧ 0 ≤ e.2.1 ∧ c.ageOf p.1 (e.2.2 / c.area) = some e.1 ∧ validateAge c t e.1 = .ok () := by
  have hage0 : ∀ u, validateAge c t 0 = .ok u → c.ageOf p.1 0 = some 0 := by
    intro u hv
    have hv' := validateAge_ok hv
    have := hd.age 0 (le_refl _) fun m hm => hv'.1.trans (hv'.2.2 m hm)
    rwa [hd.none_now] at this
  cases te with
  | none =>
    cases q with
    | none =>
      simp only [endOf] at h
      split_ifs at h with hp
      · simp only [bind_ok, pure_ok] at h
        obtain ⟨_, h1, rfl⟩ := h
        exact ⟨hp.symm, le_refl _, by norm_num, by simpa using hage0 _ h1, h1⟩
      · simp only [bind_ok, pure_ok] at h
        obtain ⟨n, hn, _, h1, rfl⟩ := h
        obtain ⟨a, _, rfl⟩ := fnV_ok hn
        refine ⟨rfl, ?_, a, ?_, h1⟩
        · simp [hd.none_now]
        · simpa [hd.none_now] using hage0 _ h1
    | some q =>
      simp only [endOf, bind_ok, pure_ok, failIf_ok, not_not] at h
      obtain ⟨_, h0, _, h1, s, hs, _, h2, rfl⟩ := h
      obtain ⟨a, b, hs⟩ := ageV_ok.mp hs
      have hq : 0 ≤ q.2 := by
        simp only [validateCsfd, bind_ok, failIf_ok, not_lt] at h0
        obtain ⟨_, _, h0⟩ := h0
        exact h0
      exact ⟨h1, hq, a, by rw [← h1]; exact hs, h2⟩
  | some s =>
    cases q with
    | some q => simp [endOf] at h
    | none =>
      simp only [endOf, bind_ok, pure_ok] at h
      obtain ⟨_, h1, n, hn, rfl⟩ := h
      obtain ⟨a, b, rfl⟩ := fnV_ok hn
      have hv := validateAge_ok h1
      refine ⟨rfl, mul_nonneg (hd.nonneg s b) hA.le, a, ?_, h1⟩
      simp only
      rw [mul_div_assoc, div_self hA.ne', mul_one]
      exact hd.age s b fun m hm => hv.1.trans (hv.2.2 m hm)

open RunArgs in
theorem startOf_pair {c : Ctx} {ts : Option ℝ} {dn : Option (ℝ × ℝ)} {s : ℝ × (ℝ × ℝ)} (hA : 0 < c.area)
    (h : startOf c ts dn = .ok s) (hd : Dates c s.2.1) :
    0 ≤ s.2.1 ∧ 0 ≤ s.2.2 ∧ c.ageOf s.2.1 (s.2.2 / c.area) = some s.1 := by
  match dn, ts with
  | some p, none =>
    simp only [startOf, bind_ok, pure_ok] at h
    obtain ⟨_, h0, t, ht, rfl⟩ := h
    obtain ⟨a, b, ht⟩ := ageV_ok.mp ht
    simp only [validateCsfd, bind_ok, failIf_ok, not_lt] at h0
    obtain ⟨_, _, h0⟩ := h0
    exact ⟨a, h0, ht⟩
  | none, some t =>
    simp only [startOf, bind_ok, pure_ok] at h
    obtain ⟨n, hn, rfl⟩ := h
    have hn' := hn
    obtain ⟨a, b, rfl⟩ := fnV_ok hn
    simp only [fnV, bind_ok, pure_ok, failIf_ok] at hn'
    obtain ⟨_, _, _, h2, _⟩ := hn'
    have hv := validateAge_ok h2
    refine ⟨a, mul_nonneg (hd.nonneg t b) hA.le, ?_⟩
    simp only
    rw [mul_div_assoc, div_self hA.ne', mul_one]
    exact hd.age t b hv.2.2
  | some p, some t => simp [startOf] at h
  | none, none => simp [startOf] at h

/-- Whatever way the period of a call of `populate` is given in, every bin of faces is sampled over that same period: the number of
craters is shared out by area and divided by the area of the bin again. -/
theorem C155_window (c : RunArgs.Ctx) (a : RunArgs.Args) (r : RunArgs.Res) (h : RunArgs.runArgs c a = .ok r) (hA : 0 < c.area)
    (hd : Dates c r.dn.1) (bin lo hi : ℝ) (hb : 0 < bin) (hlo : 0 < lo) (hhi : lo ≤ hi) :
    ∃ p q, binWindow c bin lo hi r.dn r.dnEnd = .ok (r.ts, r.te, p, q) := by
  have key : ∃ ts te dn dnEnd, RunArgs.sampleArgs c ts te dn dnEnd = .ok (r.ts, r.te, r.dn, r.dnEnd) := by
    simp only [RunArgs.runArgs, RunArgs.bind_ok] at h
    obtain ⟨w, _, n, _, x, hx, h⟩ := h
    refine ⟨w.1, w.2.1, w.2.2.1, w.2.2.2, ?_⟩
    rw [hx]
    split at h
    · split at h
      · simp only [RunArgs.bind_ok, RunArgs.pure_ok] at h
        obtain ⟨_, _, _, _, rfl⟩ := h
        rfl
      · simp at h
    · rw [RunArgs.pure_ok] at h
      subst h
      rfl
  obtain ⟨ts, te, dn, dnEnd, h⟩ := key
  simp only [RunArgs.sampleArgs, RunArgs.bind_ok, RunArgs.pure_ok] at h
  obtain ⟨_, _, _, _, _, _, s, hs, e, he, heq⟩ := h
  simp only [Prod.mk.injEq] at heq
  obtain ⟨e1, e2, e3, e4⟩ := heq
  rw [← e3] at hd
  obtain ⟨a1, a2, a3⟩ := startOf_pair hA hs hd
  obtain ⟨b1, b2, b3, b4, b5⟩ := endOf_pair hA hd he
  refine ⟨share c.area bin r.dn, share c.area bin r.dnEnd, ?_⟩
  have hr : 0 ≤ bin / c.area := by positivity
  have hc2 : (s.2.2 * (bin / c.area)) / bin = s.2.2 / c.area := cancel hA hb
  have hc3 : (e.2.2 * (bin / c.area)) / bin = e.2.2 / c.area := cancel hA hb
  simp only [binWindow, RunArgs.sampleArgs, RunArgs.bind_ok, RunArgs.pure_ok, RunArgs.failIf_ok]
  refine ⟨(), by simpa using hlo, (), by simpa using hhi, (), by simpa using hb.le, (s.1, share c.area bin r.dn), ?_,
    (e.1, share c.area bin r.dnEnd), ?_, ?_⟩
  · simp only [RunArgs.startOf, RunArgs.bind_ok, RunArgs.pure_ok]
    refine ⟨(), ?_, s.1, ageV_ok.mpr ?_, rfl⟩
    · simp only [RunArgs.validateCsfd, RunArgs.bind_ok, RunArgs.failIf_ok, not_lt, share, ← e3]
      exact ⟨(), a1, mul_nonneg a2 hr⟩
    · simp only [share, ← e3]
      rw [hc2]
      exact ⟨a1, by positivity, a3⟩
  · simp only [RunArgs.endOf, RunArgs.bind_ok, RunArgs.pure_ok]
    refine ⟨(), ?_, (), ?_, e.1, ageV_ok.mpr ?_, (), ?_, rfl⟩
    · simp only [RunArgs.validateCsfd, RunArgs.bind_ok, RunArgs.failIf_ok, not_lt, share, ← e4]
      exact ⟨(), b3, mul_nonneg b2 hr⟩
    · rw [RunArgs.failIf_ok, not_not]
      simp only [share, ← e3, ← e4]
      exact b1
    · simp only [share, ← e4]
      rw [hc3]
      exact ⟨b3, by positivity, by rw [b1]; exact b4⟩
    · exact b5
  · rw [e1, e2]

/-- A period of 3000 My on a surface of 10 square metres where one crater per square metre forms in a million years. -/
example : ∃ (c : RunArgs.Ctx) (r : RunArgs.Res), RunArgs.runArgs c { age := some 3000 } = .ok r ∧ 0 < c.area ∧ Dates c r.dn.1 ∧
    r.ts = 3000 := by
  refine ⟨⟨none, 10, 1000, 1, fun _ t => t, fun _ n => some n, none, none, 1, 2⟩,
    ⟨3000, 0, (1000, 30000), (1000, 0), 1, none, 30000⟩, ?_, by norm_num, ⟨rfl, fun t h => h, fun t _ _ => rfl⟩, rfl⟩
  norm_num [RunArgs.runArgs, RunArgs.window, RunArgs.intervals, RunArgs.sampleArgs, RunArgs.startOf, RunArgs.endOf, RunArgs.fnV,
    RunArgs.validateAge, RunArgs.failIf, bind, Except.bind, pure, Except.pure]
  simp only [reduceCtorEq, false_and, exists_false, if_false]
  norm_num

/-! ### C156: the list of craters -/

/-- A mesh: every face has a positive area, in the sense used for choosing faces and in the sense of its triangles. -/
structure Faces (area : ℕ → ℝ) (nodes : ℕ → List Vec) : Prop where
  pos : ∀ f, 0 < area f
  tri : ∀ f, 0 < totalArea (nodes f)

/-- The ranges of the draws. -/
def Draw.Ok (d : Draw) : Prop := 0 ≤ d.u ∧ d.u < 1 ∧ 0 ≤ d.r0 ∧ d.r0 < 1 ∧ 0 ≤ d.r1 ∧ d.r1 < 1 ∧ 0 ≤ d.r2 ∧ d.r2 < 1

/-- The cumulative probabilities are the cumulative areas. -/
theorem faceCdf_get (areas : List ℝ) (h : 0 < areas.sum) (k : ℕ) (hk : k < areas.length) :
    (faceCdf areas)[k]? = some ((areas.take (k + 1)).sum / areas.sum) := by
  have hm : ∀ l : List ℝ, (l.map (· / areas.sum)).sum = l.sum / areas.sum := by
    intro l
    induction l with
    | nil => simp
    | cons a l ih => simp [ih, add_div]
  unfold faceCdf
  simp only [List.getElem?_map, List.getElem?_range hk, Option.map_some]
  rw [← List.map_take, hm, hm, div_self h.ne', div_one]

theorem faceCdf_length (areas : List ℝ) : (faceCdf areas).length = areas.length := by simp [faceCdf]

theorem sum_pos' {l : List ℝ} (h : ∀ x ∈ l, 0 < x) (hne : l ≠ []) : 0 < l.sum := by
  cases l with
  | nil => exact absurd rfl hne
  | cons a l =>
    rw [List.sum_cons]
    have h1 := h a (by simp)
    have h2 : 0 ≤ l.sum := List.sum_nonneg fun x hx => (h x (by simp [hx])).le
    linarith

/-- The `k`-th face of a bin is chosen exactly when the draw lies in the `k`-th of the intervals whose lengths are the shares of
the faces in the area of the bin. -/
theorem searchRight_face (areas : List ℝ) (hpos : ∀ a ∈ areas, 0 < a) (u : ℝ) (h0 : 0 ≤ u) (k : ℕ)
    (hk : k < areas.length) :
    searchRight (faceCdf areas) u = k ↔ (areas.take k).sum / areas.sum ≤ u ∧ u < (areas.take (k + 1)).sum / areas.sum := by
  have hS : 0 < areas.sum := sum_pos' hpos (by rintro rfl; simp at hk)
  have cmono : ∀ i j, i ≤ j → (areas.take i).sum / areas.sum ≤ (areas.take j).sum / areas.sum := by
    intro i j hij
    have : (areas.take i).sum ≤ (areas.take j).sum := by
      obtain ⟨d, rfl⟩ := Nat.exists_eq_add_of_le hij
      rw [List.take_add, List.sum_append]
      have : 0 ≤ ((areas.drop i).take d).sum := by
        apply List.sum_nonneg
        intro x hx
        exact (hpos x (List.mem_of_mem_drop (List.mem_of_mem_take hx))).le
      linarith
    exact div_le_div_of_nonneg_right this hS.le
  have hle := searchRight_le (faceCdf areas) u
  rw [faceCdf_length] at hle
  constructor
  · intro h
    constructor
    · cases k with
      | zero => simpa using h0
      | succ m => exact searchRight_lt (a := faceCdf areas) (j := m) (by omega) (faceCdf_get areas hS m (by omega))
    · exact searchRight_at (a := faceCdf areas) (by rw [h]; exact faceCdf_get areas hS k hk)
  · rintro ⟨a, b⟩
    rcases lt_trichotomy (searchRight (faceCdf areas) u) k with h | h | h
    · have hx := searchRight_at (a := faceCdf areas) (faceCdf_get areas hS _ (by omega : searchRight (faceCdf areas) u < areas.length))
      have := cmono _ k h
      linarith
    · exact h
    · have hx := searchRight_lt (a := faceCdf areas) (j := k) h (faceCdf_get areas hS k hk)
      linarith

/-- A face of the bin is always chosen. -/
theorem chooseFace_mem (area : ℕ → ℝ) (hpos : ∀ f, 0 < area f) (faces : List ℕ) (hne : faces ≠ []) (u : ℝ) (h1 : u < 1) :
    ∃ f ∈ faces, chooseFace area faces u = some f := by
  have hlen : 0 < faces.length := List.length_pos_iff.mpr hne
  set areas := faces.map area with ha
  have hp : ∀ a ∈ areas, 0 < a := by
    intro a h
    obtain ⟨f, _, rfl⟩ := List.mem_map.mp h
    exact hpos f
  have hS : 0 < areas.sum := sum_pos' hp (by rw [ha]; simpa using hne)
  have hl : areas.length = faces.length := by simp [ha]
  have hlt : searchRight (faceCdf areas) u < faces.length := by
    by_contra hc
    have hx := searchRight_lt (a := faceCdf areas) (u := u) (j := areas.length - 1) (by omega)
      (faceCdf_get areas hS _ (by omega))
    rw [show areas.length - 1 + 1 = areas.length by omega, List.take_length, div_self hS.ne'] at hx
    linarith
  exact ⟨faces[searchRight (faceCdf areas) u], List.getElem_mem hlt, List.getElem?_eq_getElem hlt⟩

theorem place_ok (area : ℕ → ℝ) (nodes : ℕ → List Vec) (hm : Faces area nodes) (faces : List ℕ) (hne : faces ≠ []) (d : Draw)
    (hd : d.Ok) : ∃ p, place area nodes faces d = some p ∧ ∃ f ∈ faces, p ∈ convexHull ℝ {v | v ∈ nodes f} := by
  obtain ⟨h1, h2, h3, h4, h5, h6, h7, h8⟩ := hd
  obtain ⟨f, hf, e⟩ := chooseFace_mem area hm.pos faces hne d.u h2
  obtain ⟨p, hp, hc⟩ := C56_inside (nodes f) (hm.tri f) d.r0 d.r1 d.r2 h4 h5 h6 h7 h8
  exact ⟨p, by rw [place, e]; exact hp, f, hf, hc⟩

theorem mapM_some {α β : Type} (f : α → Option β) (l : List α) (P : β → Prop) (h : ∀ a ∈ l, ∃ b, f a = some b ∧ P b) :
    ∃ bs, l.mapM f = some bs ∧ bs.length = l.length ∧ (∀ b ∈ bs, P b) ∧ l.map f = bs.map some := by
  induction l with
  | nil => exact ⟨[], rfl, rfl, by simp, rfl⟩
  | cons a l ih =>
    obtain ⟨b, hb, hP⟩ := h a (by simp)
    obtain ⟨bs, h1, h2, h3, h4⟩ := ih fun c hc => h c (by simp [hc])
    refine ⟨b :: bs, ?_, by simp [h2], ?_, by simp [hb, h4]⟩
    · rw [List.mapM_cons, hb, h1]; rfl
    · intro x hx
      rcases List.mem_cons.mp hx with rfl | hx
      · exact hP
      · exact h3 x hx

/-- Put together the craters of one bin. -/
def together (ds ts : List ℝ) (ls : List Vec) : List Impact := (ds.zip (ts.zip ls)).map fun x => ⟨x.1, x.2.1, x.2.2⟩

theorem together_append {ds ds' ts ts' : List ℝ} {ls ls' : List Vec} (h1 : ts.length = ds.length) (h2 : ls.length = ds.length) :
    together (ds ++ ds') (ts ++ ts') (ls ++ ls') = together ds ts ls ++ together ds' ts' ls' := by
  unfold together
  rw [List.zip_append (h1.trans h2.symm), List.zip_append (by simp [h1, h2]), List.map_append]

/-- The craters of the `b`-th bin: the diameters and times that were sampled for it, each at the point that its own draws give, on
a face of the bin. -/
def MadeFrom (area : ℕ → ℝ) (nodes : ℕ → List Vec) (draws : ℕ → ℕ → Draw) (b : ℕ) (x : Bin) (l : List Impact) : Prop :=
  l.map Impact.diam = x.diams ∧ l.map Impact.time = x.times ∧
  ∀ i c, l[i]? = some c → place area nodes x.faces (draws b i) = some c.loc ∧ ∃ f ∈ x.faces, c.loc ∈ convexHull ℝ {v | v ∈ nodes f}

theorem collect_ok (area : ℕ → ℝ) (nodes : ℕ → List Vec) (hm : Faces area nodes) (draws : ℕ → ℕ → Draw) (hd : ∀ b i, (draws b i).Ok)
    (bins : List Bin) (hb : ∀ x ∈ bins, x.faces ≠ [] ∧ x.times.length = x.diams.length) (b : ℕ) :
    ∃ ds ts ls, collect area nodes draws b bins = some (ds, ts, ls) ∧
    ∃ parts : List (List Impact), together ds ts ls = parts.flatten ∧ parts.length = bins.length ∧
      ∀ j x l, bins[j]? = some x → parts[j]? = some l → MadeFrom area nodes draws (b + j) x l := by
  induction bins generalizing b with
  | nil => exact ⟨[], [], [], rfl, [], rfl, rfl, by simp⟩
  | cons x rest ih =>
    obtain ⟨ds, ts, ls, h1, parts, h2, hlp, h3⟩ := ih (fun y hy => hb y (by simp [hy])) (b + 1)
    obtain ⟨hne, hlen⟩ := hb x (by simp)
    have hcons : ∀ l, MadeFrom area nodes draws b x l → ∀ j y m, (x :: rest)[j]? = some y → (l :: parts)[j]? = some m →
        MadeFrom area nodes draws (b + j) y m := by
      intro l hl j y m hy hm'
      cases j with
      | zero =>
        simp only [List.getElem?_cons_zero, Option.some.injEq] at hy hm'
        subst hy hm'
        exact hl
      | succ j =>
        simp only [List.getElem?_cons_succ] at hy hm'
        have := h3 j y m hy hm'
        rwa [show b + 1 + j = b + (j + 1) by omega] at this
    unfold collect
    by_cases h0 : x.diams.length = 0
    · rw [if_pos h0]
      refine ⟨ds, ts, ls, h1, [] :: parts, by simpa using h2, by simp [hlp], hcons [] ⟨?_, ?_, by simp⟩⟩
      · rw [List.length_eq_zero_iff.mp h0]; rfl
      · rw [List.length_eq_zero_iff.mp (hlen.trans h0)]; rfl
    · rw [if_neg h0]
      obtain ⟨locs, e, hl, hP, hmap⟩ := mapM_some (fun i => place area nodes x.faces (draws b i)) (List.range x.diams.length)
        (fun p => ∃ f ∈ x.faces, p ∈ convexHull ℝ {v | v ∈ nodes f})
        (fun i _ => place_ok area nodes hm x.faces hne (draws b i) (hd b i))
      rw [List.length_range] at hl
      rw [e, h1]
      refine ⟨x.diams ++ ds, x.times ++ ts, locs ++ ls, rfl, together x.diams x.times locs :: parts, ?_, by simp [hlp],
        hcons _ ⟨?_, ?_, ?_⟩⟩
      · rw [together_append hlen hl, h2, List.flatten_cons]
      · unfold together
        rw [List.map_map]
        exact List.map_fst_zip (by simp [hlen, hl])
      · unfold together
        rw [List.map_map]
        have : (Impact.time ∘ fun x : ℝ × ℝ × Vec => (⟨x.1, x.2.1, x.2.2⟩ : Impact)) = (fun x => x.1) ∘ fun x : ℝ × ℝ × Vec => x.2 := rfl
        rw [this, ← List.map_map, List.map_snd_zip (by simp [hlen, hl]), List.map_fst_zip (by omega)]
      · intro i c hc
        unfold together at hc
        rw [List.getElem?_map, Option.map_eq_some_iff] at hc
        obtain ⟨⟨d, t, p⟩, hz, rfl⟩ := hc
        rw [List.getElem?_zip_eq_some] at hz
        have hz2 := hz.2
        rw [List.getElem?_zip_eq_some] at hz2
        have hp : locs[i]? = some p := hz2.2
        have hi : i < locs.length := (List.getElem?_eq_some_iff.mp hp).1
        refine ⟨?_, hP p (List.mem_of_getElem? hp)⟩
        have := congrArg (·[i]?) hmap
        simp only [List.getElem?_map, List.getElem?_range (hl ▸ hi), Option.map_some, hp, Option.some.injEq] at this
        exact this

/-- `populate` makes one crater for every diameter that is sampled for a bin, with the time sampled along with the diameter, at the
point of a face of that bin that draws of its own give, and orders the craters from oldest to youngest. -/
theorem C156_craters (area : ℕ → ℝ) (nodes : ℕ → List Vec) (hm : Faces area nodes) (draws : ℕ → ℕ → Draw)
    (hd : ∀ b i, (draws b i).Ok) (bins : List Bin) (hb : ∀ x ∈ bins, x.faces ≠ [] ∧ x.times.length = x.diams.length) :
    ∃ cs, craters area nodes draws bins = some cs ∧ cs.Pairwise (fun a b => b.time ≤ a.time) ∧
    ∃ parts : List (List Impact), cs.Perm parts.flatten ∧ parts.length = bins.length ∧
      ∀ b x l, bins[b]? = some x → parts[b]? = some l → MadeFrom area nodes draws b x l := by
  classical
  obtain ⟨ds, ts, ls, h1, parts, h2, hlp, h3⟩ := collect_ok area nodes hm draws hd bins hb 0
  refine ⟨_, by rw [craters, h1]; rfl, ?_, parts, ?_, hlp, ?_⟩
  · have := List.pairwise_mergeSort (le := fun a b : Impact => decide (b.time ≤ a.time))
      (by intro a b c h h'; simp only [decide_eq_true_eq] at *; linarith)
      (by intro a b; simp only [Bool.or_eq_true, decide_eq_true_eq]; exact le_total _ _) (together ds ts ls)
    refine this.imp ?_
    intro a b h
    simpa using h
  · rw [← h2]
    exact List.mergeSort_perm _ _
  · intro b x l hx hl
    have := h3 b x l hx hl
    rwa [Nat.zero_add] at this

/-- Two equal triangles as faces, one bin with two craters and one without any. -/
example : Faces (fun _ => 1) (fun _ => [![0, 0, 0], ![1, 0, 0], ![0, 1, 0]]) ∧ Draw.Ok ⟨0.5, 0.1, 0.2, 0.3⟩ ∧
    ∀ x ∈ [(⟨[0, 1], [100, 200], [3000, 3500]⟩ : Bin), ⟨[2], [], []⟩], x.faces ≠ [] ∧ x.times.length = x.diams.length := by
  refine ⟨⟨by simp, ?_⟩, by norm_num [Draw.Ok], by simp⟩
  intro f
  simp [totalArea, fan, fanArea, crossV, normV]
  norm_num

/-! ### C157: how many craters form where -/

section Thinning

open ProbabilityTheory ENNReal Finset

variable {α : Type*} [MeasurableSpace α]

/-- How many of `n` independent draws fall into a set: binomial. -/
theorem count_binomial (ν : Measure α) [IsProbabilityMeasure ν] (I : Set α) (hI : MeasurableSet I) (n k : ℕ) :
    Measure.pi (fun _ : Fin n => ν) {ω | ∃ S : Finset (Fin n), (∀ i, i ∈ S ↔ ω i ∈ I) ∧ S.card = k} =
      (n.choose k) * (ν I ^ k * ν Iᶜ ^ (n - k)) := by
  classical
  set B : Finset (Fin n) → Set (Fin n → α) := fun S => Set.univ.pi fun i => if i ∈ S then I else Iᶜ with hB
  have hmem : ∀ S ω, ω ∈ B S ↔ ∀ i, i ∈ S ↔ ω i ∈ I := by
    intro S ω
    simp only [hB, Set.mem_univ_pi]
    refine forall_congr' fun i => ?_
    by_cases h : i ∈ S <;> simp [h]
  have hset : {ω : Fin n → α | ∃ S : Finset (Fin n), (∀ i, i ∈ S ↔ ω i ∈ I) ∧ S.card = k} =
      ⋃ S ∈ powersetCard k (univ : Finset (Fin n)), B S := by
    ext ω
    simp only [Set.mem_iUnion, mem_powersetCard, subset_univ, true_and, exists_prop]
    constructor
    · rintro ⟨S, h1, h2⟩; exact ⟨S, h2, (hmem S ω).mpr h1⟩
    · rintro ⟨S, h2, h1⟩; exact ⟨S, (hmem S ω).mp h1, h2⟩
  have hdis : Set.PairwiseDisjoint (↑(powersetCard k (univ : Finset (Fin n)))) B := by
    intro S _ T _ hST
    rw [Function.onFun, Set.disjoint_left]
    intro ω h1 h2
    apply hST
    ext i
    rw [(hmem S ω).mp h1 i, (hmem T ω).mp h2 i]
  have hmeas : ∀ S ∈ powersetCard k (univ : Finset (Fin n)), MeasurableSet (B S) := by
    intro S _
    apply MeasurableSet.univ_pi
    intro i
    by_cases h : i ∈ S
    · simpa [h] using hI
    · simpa [h] using hI.compl
  rw [hset, measure_biUnion_finset hdis hmeas]
  have hval : ∀ S ∈ powersetCard k (univ : Finset (Fin n)), Measure.pi (fun _ : Fin n => ν) (B S) = ν I ^ k * ν Iᶜ ^ (n - k) := by
    intro S hS
    rw [mem_powersetCard] at hS
    rw [hB, Measure.pi_pi]
    have : ∀ i, ν (if i ∈ S then I else Iᶜ) = if i ∈ S then ν I else ν Iᶜ := by
      intro i; split_ifs <;> rfl
    simp only [this]
    rw [prod_ite]
    have e1 : (univ.filter fun i => i ∈ S) = S := by ext; simp
    have e2 : (univ.filter fun i => i ∉ S) = Sᶜ := by ext; simp
    rw [e1, e2, prod_const, prod_const, hS.2, card_compl, hS.2, Fintype.card_fin]
  rw [sum_congr rfl hval, sum_const, card_powersetCard, card_univ, Fintype.card_fin, nsmul_eq_mul]

/-- If the number of draws is Poisson, so is the number of draws in a set. -/
theorem count_poisson (ν : Measure α) [IsProbabilityMeasure ν] (I : Set α) (hI : MeasurableSet I) (lam mean : NNReal)
    (hmean : (mean : ℝ≥0∞) = lam * ν I) (k : ℕ) :
    ∑' n, poissonMeasure lam {n} *
      Measure.pi (fun _ : Fin n => ν) {ω | ∃ S : Finset (Fin n), (∀ i, i ∈ S ↔ ω i ∈ I) ∧ S.card = k} =
    poissonMeasure mean {k} := by
  set p : ℝ := (ν I).toReal with hp
  have hp0 : 0 ≤ p := toReal_nonneg
  have hfin : ν I ≠ ∞ := measure_ne_top ν I
  have hpe : ν I = ENNReal.ofReal p := (ofReal_toReal hfin).symm
  have hp1 : p ≤ 1 := by
    have : ν I ≤ 1 := prob_le_one
    exact (ENNReal.toReal_mono one_ne_top this).trans_eq toReal_one
  have hq : ν Iᶜ = ENNReal.ofReal (1 - p) := by
    rw [prob_compl_eq_one_sub hI, hpe, ENNReal.ofReal_sub _ hp0, ofReal_one]
  have hm : (mean : ℝ) = lam * p := by
    have := congrArg ENNReal.toReal hmean
    simpa [hp] using this
  set g : ℕ → ℝ := fun n => Real.exp (-lam) * lam ^ n / n.factorial * (n.choose k * (p ^ k * (1 - p) ^ (n - k))) with hg
  have hg0 : ∀ n, 0 ≤ g n := by
    intro n
    have : 0 ≤ 1 - p := by linarith
    simp only [hg]
    positivity
  have hterm : ∀ n, poissonMeasure lam {n} *
      Measure.pi (fun _ : Fin n => ν) {ω | ∃ S : Finset (Fin n), (∀ i, i ∈ S ↔ ω i ∈ I) ∧ S.card = k} = ENNReal.ofReal (g n) := by
    intro n
    have h1p : 0 ≤ 1 - p := by linarith
    rw [count_binomial ν I hI n k, poissonMeasure_singleton, hpe, hq, ← ofReal_pow hp0, ← ofReal_pow h1p,
      ← ofReal_mul (by positivity), ← ofReal_natCast, ← ofReal_mul (by positivity), ← ofReal_mul (by positivity)]
  have hsum : HasSum g (Real.exp (-mean) * mean ^ k / k.factorial) := by
    have hz : ∀ n ∈ Finset.range k, g n = 0 := by
      intro n hn
      simp only [hg]
      rw [Nat.choose_eq_zero_of_lt (Finset.mem_range.mp hn)]
      simp
    rw [← hasSum_nat_add_iff' k, Finset.sum_eq_zero hz, sub_zero]
    have hshift : (fun m => g (m + k)) = fun m : ℕ =>
        (Real.exp (-lam) * (lam * p) ^ k / k.factorial) * ((lam * (1 - p)) ^ m / m.factorial) := by
      funext m
      simp only [hg]
      have hc : ((m + k).choose k : ℝ) * (k.factorial * m.factorial) = (m + k).factorial := by
        have := Nat.add_choose_mul_factorial_mul_factorial m k
        have h' : ((m + k).choose k : ℝ) * m.factorial * k.factorial = (m + k).factorial := by exact_mod_cast this
        rw [← h']
        ring
      rw [Nat.add_sub_cancel, ← hc, pow_add, mul_pow, mul_pow]
      have a1 : (k.factorial : ℝ) ≠ 0 := by positivity
      have a2 : (m.factorial : ℝ) ≠ 0 := by positivity
      have a3 : ((m + k).choose k : ℝ) ≠ 0 := by
        have : 0 < (m + k).choose k := Nat.choose_pos (by omega)
        positivity
      field_simp
    rw [hshift]
    have hexp : HasSum (fun m : ℕ => (lam * (1 - p)) ^ m / (m.factorial : ℝ)) (Real.exp (lam * (1 - p))) := by
      rw [Real.exp_eq_exp_ℝ]
      exact NormedSpace.expSeries_div_hasSum_exp _
    have := hexp.mul_left (Real.exp (-lam) * (lam * p) ^ k / k.factorial)
    have e : Real.exp (-mean) * mean ^ k / k.factorial =
        Real.exp (-lam) * (lam * p) ^ k / k.factorial * Real.exp (lam * (1 - p)) := by
      rw [hm, show (-(↑lam * p) : ℝ) = -lam + lam * (1 - p) by ring, Real.exp_add]
      ring
    rw [e]
    exact this
  rw [tsum_congr hterm, poissonMeasure_singleton, ← hsum.tsum_eq, ENNReal.ofReal_tsum_of_nonneg hg0 hsum.summable]

end Thinning

/-! The draws of one crater as a point of the unit cube. -/

/-- The cube. -/
def cube : Set (ℝ × ℝ × ℝ × ℝ) :=
  {x | (0 ≤ x.1 ∧ x.1 < 1) ∧ (0 ≤ x.2.1 ∧ x.2.1 < 1) ∧ (0 ≤ x.2.2.1 ∧ x.2.2.1 < 1) ∧ (0 ≤ x.2.2.2 ∧ x.2.2.2 < 1)}

/-- Four independent uniform draws. -/
noncomputable def uniform4 : Measure (ℝ × ℝ × ℝ × ℝ) := volume.restrict cube

/-- The draws that put a crater of a bin into the region `A`. -/
def hits (area : ℕ → ℝ) (nodes : ℕ → List Vec) (faces : List ℕ) (A : Set Vec) : Set (ℝ × ℝ × ℝ × ℝ) :=
  {x | ∃ p ∈ A, place area nodes faces ⟨x.1, x.2.1, x.2.2.1, x.2.2.2⟩ = some p}

/-- The fraction of a face in a region: the shares of its triangles, each times the part of the triangle in the region (`C56`). -/
noncomputable def fraction (nodes : List Vec) (A : Set Vec) : ENNReal :=
  ((fan nodes).map fun t => ENNReal.ofReal (fanArea t.1 t.2.1 t.2.2 / totalArea nodes) * (2 * volume (weightsIn t A))).sum

theorem cube_eq : cube = Set.Ico (0 : ℝ) 1 ×ˢ (Set.Ico (0 : ℝ) 1 ×ˢ (Set.Ico (0 : ℝ) 1 ×ˢ Set.Ico (0 : ℝ) 1)) := by
  ext x; simp [cube]

theorem cube_measurable : MeasurableSet cube := by
  rw [cube_eq]
  exact measurableSet_Ico.prod (measurableSet_Ico.prod (measurableSet_Ico.prod measurableSet_Ico))

instance : IsProbabilityMeasure uniform4 := by
  constructor
  rw [uniform4, Measure.restrict_apply MeasurableSet.univ, Set.univ_inter, cube_eq]
  simp only [Measure.volume_eq_prod, Measure.prod_prod, Real.volume_Ico]
  norm_num

theorem searchRight_mono (a : List ℝ) : Monotone (searchRight a) := by
  classical
  intro u v h
  unfold searchRight
  induction a with
  | nil => simp
  | cons x l ih =>
    rw [List.takeWhile_cons, List.takeWhile_cons]
    by_cases hx : x ≤ u
    · rw [if_pos (by simpa using hx), if_pos (by simpa using hx.trans h)]
      simpa using ih
    · rw [if_neg (by simpa using hx)]; simp

theorem measurable_trianglePoint (t : Vec × Vec × Vec) : Measurable fun r : ℝ × ℝ => trianglePoint t r.1 r.2 := by
  classical
  have hc : MeasurableSet {r : ℝ × ℝ | r.1 + r.2 > 1} := measurableSet_lt measurable_const (measurable_fst.add measurable_snd)
  have e : (fun r : ℝ × ℝ => trianglePoint t r.1 r.2) = fun r : ℝ × ℝ =>
      bary t (if r.1 + r.2 > 1 then ((1, 1) : ℝ × ℝ) - r else r) := by
    funext r
    unfold trianglePoint bary
    by_cases h : r.1 + r.2 > 1
    · simp only [if_pos h, Prod.fst_sub, Prod.snd_sub]
    · simp only [if_neg h]
  rw [e]
  exact (measurable_bary t).comp (Measurable.ite hc (measurable_const.sub measurable_id) measurable_id)

theorem measurable_location (nodes : List Vec) (A : Set Vec) (hA : MeasurableSet A) :
    MeasurableSet {r : ℝ × ℝ × ℝ | ∃ p ∈ A, locationOnFace nodes r.1 r.2.1 r.2.2 = some p} := by
  set areas := (fan nodes).map fun t => fanArea t.1 t.2.1 t.2.2 with ha
  have e : {r : ℝ × ℝ × ℝ | ∃ p ∈ A, locationOnFace nodes r.1 r.2.1 r.2.2 = some p} =
      ⋃ k : Fin (fan nodes).length, {r : ℝ × ℝ × ℝ | searchLeft (cumAreas areas) r.1 = k} ∩
        {r : ℝ × ℝ × ℝ | trianglePoint (fan nodes)[k.1] r.2.1 r.2.2 ∈ A} := by
    ext r
    simp only [Set.mem_iUnion, locationOnFace, Option.map_eq_some_iff]
    constructor
    · rintro ⟨p, hp, t, ht, rfl⟩
      obtain ⟨hk, rfl⟩ := List.getElem?_eq_some_iff.mp ht
      exact ⟨⟨_, hk⟩, rfl, hp⟩
    · rintro ⟨k, h1, h2⟩
      have h1' : searchLeft (cumAreas areas) r.1 = k := h1
      refine ⟨_, h2, (fan nodes)[k.1], ?_, rfl⟩
      rw [← ha, h1', List.getElem?_eq_getElem k.2]
  rw [e]
  refine MeasurableSet.iUnion fun k => MeasurableSet.inter ?_ ?_
  · exact ((searchLeft_mono _).measurable.comp measurable_fst) (measurableSet_singleton k.1)
  · exact ((measurable_trianglePoint _).comp measurable_snd) hA

/-- The draws that choose the `k`-th face. -/
theorem volume_face (areas : List ℝ) (hpos : ∀ a ∈ areas, 0 < a) (k : ℕ) (hk : k < areas.length) :
    volume {u : ℝ | (0 ≤ u ∧ u < 1) ∧ searchRight (faceCdf areas) u = k} = ENNReal.ofReal (areas[k] / areas.sum) := by
  have hS : 0 < areas.sum := sum_pos' hpos (by rintro rfl; simp at hk)
  have hnn : ∀ l : List ℝ, (∀ x ∈ l, x ∈ areas) → 0 ≤ l.sum := fun l h => List.sum_nonneg fun x hx => (hpos x (h x hx)).le
  have e : {u : ℝ | (0 ≤ u ∧ u < 1) ∧ searchRight (faceCdf areas) u = k} =
      Set.Ico ((areas.take k).sum / areas.sum) ((areas.take (k + 1)).sum / areas.sum) := by
    ext u
    simp only [Set.mem_Ico]
    constructor
    · rintro ⟨⟨h0, h1⟩, h⟩
      exact (searchRight_face areas hpos u h0 k hk).mp h
    · rintro ⟨h1, h2⟩
      have h0 : 0 ≤ u := le_trans (div_nonneg (hnn _ fun x hx => List.mem_of_mem_take hx) hS.le) h1
      have h3 : u < 1 := by
        refine h2.trans_le ?_
        rw [div_le_one hS]
        have := hnn (areas.drop (k + 1)) fun x hx => List.mem_of_mem_drop hx
        have e := List.sum_take_add_sum_drop areas (k + 1)
        linarith
      exact ⟨⟨h0, h3⟩, (searchRight_face areas hpos u h0 k hk).mpr ⟨h1, h2⟩⟩
  rw [e, Real.volume_Ico, ← sub_div, List.take_succ_eq_append_getElem hk, List.sum_append]
  simp

/-- A face is chosen with a probability that is its share in the area of the bin. -/
theorem C157_face (area : ℕ → ℝ) (hpos : ∀ f, 0 < area f) (faces : List ℕ) (hn : faces.Nodup) (f : ℕ) (hf : f ∈ faces) :
    volume {u : ℝ | (0 ≤ u ∧ u < 1) ∧ chooseFace area faces u = some f} =
      ENNReal.ofReal (area f / (faces.map area).sum) := by
  obtain ⟨k, hk, rfl⟩ := List.getElem_of_mem hf
  have h := volume_face (faces.map area) (by simpa using fun a _ => hpos a) k (by simpa using hk)
  rw [List.getElem_map] at h
  rw [← h]
  congr 1
  ext u
  simp only [Set.mem_ofPred_eq, chooseFace]
  refine and_congr_right fun _ => ?_
  rw [List.getElem?_eq_some_iff]
  constructor
  · rintro ⟨h1, h2⟩
    exact (hn.getElem_inj_iff).mp h2
  · intro h
    exact ⟨by rw [h]; exact hk, by simp only [h]⟩

/-- A face that is three times as large gets three quarters of the craters. -/
example : volume {u : ℝ | (0 ≤ u ∧ u < 1) ∧ chooseFace (fun f => if f = 1 then 3 else 1) [0, 1] u = some 1} =
    ENNReal.ofReal (3 / 4) := by
  rw [C157_face _ (fun f => by split_ifs <;> norm_num) [0, 1] (by simp) 1 (by simp)]
  norm_num

theorem hits_eq (area : ℕ → ℝ) (nodes : ℕ → List Vec) (faces : List ℕ) (A : Set Vec) :
    hits area nodes faces A = ⋃ k : Fin faces.length,
      {u : ℝ | searchRight (faceCdf (faces.map area)) u = k} ×ˢ
        {r : ℝ × ℝ × ℝ | ∃ p ∈ A, locationOnFace (nodes faces[k.1]) r.1 r.2.1 r.2.2 = some p} := by
  ext x
  simp only [hits, place, chooseFace, Set.mem_iUnion, Set.mem_ofPred_eq, Option.bind_eq_some_iff, Set.mem_prod]
  constructor
  · rintro ⟨p, hp, f, hf, hl⟩
    obtain ⟨hk, rfl⟩ := List.getElem?_eq_some_iff.mp hf
    exact ⟨⟨_, hk⟩, rfl, p, hp, hl⟩
  · rintro ⟨k, h1, p, hp, hl⟩
    exact ⟨p, hp, faces[k.1], by rw [h1]; exact List.getElem?_eq_getElem k.2, hl⟩

theorem hits_measurable (area : ℕ → ℝ) (nodes : ℕ → List Vec) (faces : List ℕ) (A : Set Vec) (hA : MeasurableSet A) :
    MeasurableSet (hits area nodes faces A) := by
  rw [hits_eq]
  refine MeasurableSet.iUnion fun k => MeasurableSet.prod ?_ (measurable_location _ A hA)
  exact (searchRight_mono _).measurable (measurableSet_singleton k.1)

/-- The probability that a crater of a bin lies in a region: the sum over the faces of the bin of the share of the face in the area
of the bin, times the fraction of the face in the region. -/
theorem C157_region (area : ℕ → ℝ) (nodes : ℕ → List Vec) (hm : Faces area nodes) (faces : List ℕ) (A : Set Vec)
    (hA : MeasurableSet A) :
    uniform4 (hits area nodes faces A) =
      (faces.map fun f => ENNReal.ofReal (area f / (faces.map area).sum) * fraction (nodes f) A).sum := by
  set R : Fin faces.length → Set (ℝ × ℝ × ℝ) := fun k =>
    {r | (0 ≤ r.1 ∧ r.1 < 1) ∧ (0 ≤ r.2.1 ∧ r.2.1 < 1) ∧ (0 ≤ r.2.2 ∧ r.2.2 < 1) ∧
      ∃ p ∈ A, locationOnFace (nodes faces[k.1]) r.1 r.2.1 r.2.2 = some p} with hR
  set U : Fin faces.length → Set ℝ := fun k => {u | (0 ≤ u ∧ u < 1) ∧ searchRight (faceCdf (faces.map area)) u = k} with hU
  have e : hits area nodes faces A ∩ cube = ⋃ k, U k ×ˢ R k := by
    rw [hits_eq]
    ext x
    simp only [Set.mem_inter_iff, Set.mem_iUnion, Set.mem_prod, Set.mem_ofPred_eq, cube, hU, hR]
    constructor
    · rintro ⟨⟨k, h1, h2⟩, c0, c1, c2, c3⟩
      exact ⟨k, ⟨c0, h1⟩, c1, c2, c3, h2⟩
    · rintro ⟨k, ⟨c0, h1⟩, c1, c2, c3, h2⟩
      exact ⟨⟨k, h1, h2⟩, c0, c1, c2, c3⟩
  have hUm : ∀ k, MeasurableSet (U k) := fun k =>
    ((measurableSet_le measurable_const measurable_id).inter (measurableSet_lt measurable_id measurable_const)).inter
      ((searchRight_mono _).measurable (measurableSet_singleton k.1))
  have hRm : ∀ k, MeasurableSet (R k) := by
    intro k
    have h1 : MeasurableSet {r : ℝ × ℝ × ℝ | 0 ≤ r.1 ∧ r.1 < 1} :=
      (measurableSet_le measurable_const measurable_fst).inter (measurableSet_lt measurable_fst measurable_const)
    have h2 : MeasurableSet {r : ℝ × ℝ × ℝ | 0 ≤ r.2.1 ∧ r.2.1 < 1} :=
      (measurableSet_le measurable_const measurable_snd.fst).inter (measurableSet_lt measurable_snd.fst measurable_const)
    have h3 : MeasurableSet {r : ℝ × ℝ × ℝ | 0 ≤ r.2.2 ∧ r.2.2 < 1} :=
      (measurableSet_le measurable_const measurable_snd.snd).inter (measurableSet_lt measurable_snd.snd measurable_const)
    exact h1.inter (h2.inter (h3.inter (measurable_location _ A hA)))
  rw [uniform4, Measure.restrict_apply (hits_measurable area nodes faces A hA), e, measure_iUnion]
  · rw [tsum_fintype, ← Fin.sum_univ_fun_getElem]
    apply Finset.sum_congr rfl
    intro k _
    rw [Measure.volume_eq_prod, Measure.prod_prod]
    congr 1
    · have h := volume_face (faces.map area) (by simpa using fun a _ => hm.pos a) k (by simp)
      rw [List.getElem_map] at h
      exact h
    · exact C56_uniform (nodes faces[k.1]) (hm.tri _) A hA
  · intro i j hij
    rw [Function.onFun, Set.disjoint_left]
    rintro ⟨a, b⟩ ⟨h1, _⟩ ⟨h2, _⟩
    exact hij (Fin.ext (h1.2.symm.trans h2.2))
  · intro k
    exact (hUm k).prod (hRm k)

theorem fraction_all (nodes : List Vec) (h : 0 < totalArea nodes) : fraction nodes Set.univ = 1 := by
  unfold fraction
  have hnn : ∀ t ∈ fan nodes, 0 ≤ fanArea t.1 t.2.1 t.2.2 / totalArea nodes := by
    intro t _
    have := normV_nonneg (crossV (t.2.1 - t.1) (t.2.2 - t.1))
    unfold fanArea
    positivity
  have key : ∀ l : List (Vec × Vec × Vec), (∀ t ∈ l, 0 ≤ fanArea t.1 t.2.1 t.2.2 / totalArea nodes) →
      (l.map fun t => ENNReal.ofReal (fanArea t.1 t.2.1 t.2.2 / totalArea nodes) * (2 * volume (weightsIn t Set.univ))).sum =
        ENNReal.ofReal ((l.map fun t => fanArea t.1 t.2.1 t.2.2).sum / totalArea nodes) := by
    intro l hl
    induction l with
    | nil => simp
    | cons t l ih =>
      have h1 := ih fun s hs => hl s (by simp [hs])
      simp only [List.map_cons, List.sum_cons, weights_all, mul_one] at h1 ⊢
      rw [h1, add_div, ENNReal.ofReal_add (hl t (by simp))]
      have : ∀ l : List (Vec × Vec × Vec), (∀ t ∈ l, 0 ≤ fanArea t.1 t.2.1 t.2.2 / totalArea nodes) →
          0 ≤ (l.map fun t => fanArea t.1 t.2.1 t.2.2).sum / totalArea nodes := by
        intro l hl
        induction l with
        | nil => simp
        | cons t l ih =>
          simp only [List.map_cons, List.sum_cons, add_div]
          exact add_nonneg (hl t (by simp)) (ih fun s hs => hl s (by simp [hs]))
      exact this l fun s hs => hl s (by simp [hs])
  rw [key _ hnn]
  have : ((fan nodes).map fun t => fanArea t.1 t.2.1 t.2.2).sum = totalArea nodes := rfl
  rw [this, div_self h.ne', ENNReal.ofReal_one]

/-- The mean in a region, without a name for it. -/
theorem region_mass (area : ℕ → ℝ) (nodes : ℕ → List Vec) (hm : Faces area nodes) (faces : List ℕ) (hne : faces ≠ [])
    (A : Set Vec) (hA : MeasurableSet A) (F : ℝ → ℝ) (lo : ℝ) (hF : 0 ≤ F lo) (lam : NNReal)
    (hlam : (lam : ℝ) = expectedNumber F lo (faces.map area).sum) :
    ENNReal.ofReal (F lo) * (faces.map fun f => ENNReal.ofReal (area f) * fraction (nodes f) A).sum =
      lam * uniform4 (hits area nodes faces A) := by
  rw [C157_region area nodes hm faces A hA]
  have hS : 0 < (faces.map area).sum := sum_pos' (by simpa using fun a _ => hm.pos a) (by simpa using hne)
  have hl : (lam : ENNReal) = ENNReal.ofReal (F lo) * ENNReal.ofReal (faces.map area).sum := by
    rw [← ENNReal.ofReal_mul hF, ← ENNReal.ofReal_coe_nnreal, hlam]
    rfl
  rw [hl, mul_assoc]
  congr 1
  have key : ∀ l : List ℕ, (l.map fun f => ENNReal.ofReal (area f) * fraction (nodes f) A).sum =
      ENNReal.ofReal (faces.map area).sum *
        (l.map fun f => ENNReal.ofReal (area f / (faces.map area).sum) * fraction (nodes f) A).sum := by
    intro l
    induction l with
    | nil => simp
    | cons f l ih =>
      simp only [List.map_cons, List.sum_cons]
      rw [ih, mul_add, ← mul_assoc, ← ENNReal.ofReal_mul hS.le, mul_div_cancel₀ _ hS.ne']
  exact key faces

/-- The mean number of craters of the group in a region. -/
theorem mean_region (area : ℕ → ℝ) (nodes : ℕ → List Vec) (hm : Faces area nodes) (faces : List ℕ) (hne : faces ≠ [])
    (A : Set Vec) (hA : MeasurableSet A) (F : ℝ → ℝ) (lo : ℝ) (hF : 0 ≤ F lo) (lam mean : NNReal)
    (hlam : (lam : ℝ) = expectedNumber F lo (faces.map area).sum)
    (hmean : (mean : ENNReal) = ENNReal.ofReal (F lo) * (faces.map fun f => ENNReal.ofReal (area f) * fraction (nodes f) A).sum) :
    (mean : ENNReal) = lam * uniform4 (hits area nodes faces A) :=
  hmean.trans (region_mass area nodes hm faces hne A hA F lo hF lam hlam)

/-- The number of craters of a bin in a region is Poisson distributed: when the number of craters is Poisson with the mean that
`sample` uses, the number of those that lie in the region is Poisson, with a mean that is the number density of craters times the
area of the region, added up over the faces.  The area of the bin has dropped out. -/
theorem C157_poisson (area : ℕ → ℝ) (nodes : ℕ → List Vec) (hm : Faces area nodes) (faces : List ℕ) (hne : faces ≠ [])
    (A : Set Vec) (hA : MeasurableSet A) (F : ℝ → ℝ) (lo : ℝ) (hF : 0 ≤ F lo) (lam mean : NNReal)
    (hlam : (lam : ℝ) = expectedNumber F lo (faces.map area).sum)
    (hmean : (mean : ENNReal) = ENNReal.ofReal (F lo) * (faces.map fun f => ENNReal.ofReal (area f) * fraction (nodes f) A).sum)
    (k : ℕ) :
    ∑' n, ProbabilityTheory.poissonMeasure lam {n} *
      Measure.pi (fun _ : Fin n => uniform4)
        {ω | ∃ S : Finset (Fin n), (∀ i, i ∈ S ↔ ω i ∈ hits area nodes faces A) ∧ S.card = k} =
    ProbabilityTheory.poissonMeasure mean {k} := by
  apply count_poisson uniform4 _ (hits_measurable area nodes faces A hA)
  exact mean_region area nodes hm faces hne A hA F lo hF lam mean hlam hmean

/-- A mesh of equal triangles meets the hypotheses. -/
theorem triangles : Faces (fun _ => 1) (fun _ => [![0, 0, 0], ![1, 0, 0], ![0, 1, 0]]) := by
  refine ⟨fun _ => one_pos, fun _ => ?_⟩
  have h2 : ∀ a b c : ℝ, (![a, b, c] : Vec) 2 = c := fun _ _ _ => rfl
  simp only [totalArea, fan, fanArea, normV, crossV, List.tail, List.zip, List.zipWith, List.map,
    List.sum_cons, List.sum_nil, Pi.sub_apply, h2, Matrix.cons_val_zero, Matrix.cons_val_one]
  norm_num

example : ∃ lam mean : NNReal, (lam : ℝ) = expectedNumber (fun d => d ^ (-3 : ℝ)) 10 (([0, 1] : List ℕ).map fun _ => (1 : ℝ)).sum ∧
    (mean : ENNReal) = ENNReal.ofReal ((fun d : ℝ => d ^ (-3 : ℝ)) 10) * (([0, 1] : List ℕ).map fun _ => ENNReal.ofReal 1 *
      fraction [![0, 0, 0], ![1, 0, 0], ![0, 1, 0]] Set.univ).sum := by
  have h := triangles.tri 0
  have h0 : (0 : ℝ) ≤ (10 : ℝ) ^ (-3 : ℝ) * 2 := by positivity
  refine ⟨Real.toNNReal _, Real.toNNReal ((10 : ℝ) ^ (-3 : ℝ) * 2), (Real.coe_toNNReal _ h0).trans ?_, ?_⟩
  · norm_num [expectedNumber]
  · rw [fraction_all _ h]
    change ENNReal.ofReal _ = _
    rw [ENNReal.ofReal_mul (by positivity)]
    norm_num

end Verif.Populate
