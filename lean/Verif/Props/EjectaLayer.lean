import Verif.Model.EjectaLayer
import Verif.Props.SurfaceData
import Verif.Props.Region
import Mathlib.Analysis.Real.Pi.Bounds

/-! C169, C170: the layer of ejecta over a history of craters, and which craters are formed. -/

namespace Verif.EjectaLayer

open Verif.Region (Mesh Local extractRegion extractSubregion withBuffer mem_withBuffer C67_region C67_absent pair)
open Verif.SurfaceData (Store addData Data write)

/-! ### Specification -/

/-- The thickness of the ejecta on a face; there are none without the layer. -/
def thickness (s : Store) (f : ℕ) : ℝ :=
  match s "ejecta_thickness" with
  | none => 0
  | some v => v.vals f

/-- The layer, if there is one, is a layer of faces. -/
def FaceLayer (s : Store) : Prop := ∀ v, s "ejecta_thickness" = some v → v.face = true

/-- The centre of the face is inside the rim of the crater, or that of a face that it touches is. -/
def Clears (m : Mesh) (c : Crater) (f : ℕ) : Prop := ∃ g, m.Touch g f ∧ c.dist g ≤ c.radius

open Classical in
/-- What a face receives from a crater: the deposit if the face or one that it touches is within the extent of the ejecta. -/
noncomputable def received (m : Mesh) (c : Crater) (f : ℕ) : ℝ :=
  if ∃ g, m.Touch g f ∧ c.dist g ≤ c.rmax then c.deposit f else 0

open Classical in
/-- What is left on a face of the ejecta of the craters of a history: those that no later crater removes. -/
noncomputable def remaining (m : Mesh) (f : ℕ) : List Crater → ℝ
  | [] => 0
  | c :: later => (if ∃ d ∈ later, Clears m d f then 0 else received m c f) + remaining m f later

/-- A crater on the mesh with ejecta that reach a face. -/
structure Crater.Wf (m : Mesh) (half : ℝ) (c : Crater) : Prop where
  radius : 0 < c.radius
  nearest : c.nearest < m.nFace
  half : ∀ f < m.nFace, c.dist f ≤ half
  reach : ∃ f < m.nFace, c.dist f ≤ c.rmax

/-! ### Helpers -/

theorem write_map (v : ℕ → ℝ) (idx : List ℕ) (g : ℕ → ℝ) (f : ℕ) :
    write v idx (idx.map g) f = if f ∈ idx then g f else v f := by
  induction idx generalizing v with
  | nil => simp [write]
  | cons i idx ih =>
    simp only [List.map_cons, write, ih, List.mem_cons]
    by_cases h1 : f ∈ idx
    · simp [h1]
    · by_cases h2 : f = i
      · subst h2; simp [h1]
      · simp [h1, h2]

theorem addData_face (m : SurfaceData.Mesh) (s : Store) (hs : FaceLayer s) (r : SurfaceData.Region)
    (hr : ∀ i ∈ r.faces, i < m.nFace) (g : ℕ → ℝ) (ow : Bool) :
    ∃ s', addData m s r "ejecta_thickness" (.array (r.faces.map g)) { overwrite := ow } = some s' ∧ FaceLayer s' ∧
      (∀ n, n ≠ "ejecta_thickness" → s' n = s n) ∧
      ∀ f, thickness s' f = if f ∈ r.faces then (if ow then g f else thickness s f + g f) else thickness s f := by
  have ht : SurfaceData.target r (SurfaceData.toArray r true (.array (r.faces.map g))) = some (true, r.faces) := by
    simp [SurfaceData.target, SurfaceData.toArray]
  rcases e : s "ejecta_thickness" with _ | v
  · refine ⟨_, by simp only [addData, ht, e]; rfl, ?_, ?_, ?_⟩
    · intro w hw
      simp only [Function.update_self, Option.some.injEq] at hw
      rw [← hw]
    · intro n hn
      rw [Function.update_of_ne hn]
    · intro f
      have h0 : thickness s f = 0 := by simp [thickness, e]
      simp only [thickness, Function.update_self, SurfaceData.assign, SurfaceData.newValues, SurfaceData.toArray]
      simp only [if_true, Bool.false_eq_true, if_false, write_map, e]
      split_ifs <;> simp
  · have hv := hs v e
    have hall : r.faces.all (· < m.size v.face) = true := by
      simp only [List.all_eq_true, decide_eq_true_eq, SurfaceData.Mesh.size, hv, if_true]
      exact hr
    refine ⟨_, by simp only [addData, ht, e, hall, if_true]; rfl, ?_, ?_, ?_⟩
    · intro w hw
      simp only [Function.update_self, Option.some.injEq] at hw
      rw [← hw]; exact hv
    · intro n hn
      rw [Function.update_of_ne hn]
    · intro f
      have h0 : thickness s f = v.vals f := by simp [thickness, e]
      rw [h0]
      simp only [thickness, Function.update_self, SurfaceData.assign, SurfaceData.newValues, SurfaceData.toArray,
        Bool.false_eq_true, if_false]
      cases ow with
      | true => simp only [if_true, write_map]
      | false =>
        have hz : List.zipWith (fun i d => v.vals i + d) r.faces (r.faces.map g) = r.faces.map fun i => v.vals i + g i := by
          rw [List.zipWith_map_right, List.zipWith_self]
        simp only [Bool.false_eq_true, if_false, hz, write_map]

theorem mem_indices (l : Local) (f : ℕ) : f ∈ (indices l).faces ↔ f ∈ l.faces := by
  simp [indices]

theorem region_radius {m : Mesh} {dist : ℕ → ℝ} {half : ℝ} {nearest : ℕ} {r : ℝ} {one : Bool} {l : Local}
    (h : extractRegion m dist half nearest r one = some l) : l.radius = r := by
  unfold extractRegion at h
  simp only at h
  split_ifs at h <;> cases h <;> rfl

/-- The removal of ejecta. -/
theorem clear_spec {m : Mesh} (hm : m.Good) {half : ℝ} {c : Crater} (hc : c.Wf m half) {l : Local}
    (hl : craterRegion m half c = some l) (s : Store) (hs : FaceLayer s) :
    ∃ s', clear m c l s = some s' ∧ FaceLayer s' ∧ (∀ n, n ≠ "ejecta_thickness" → s' n = s n) ∧
      ∀ f, (Clears m c f → thickness s' f = 0) ∧ (¬ Clears m c f → thickness s' f = thickness s f) := by
  have hrad : l.radius = 1.5 * c.radius := region_radius hl
  obtain ⟨h1, _, h3, _⟩ := C67_region m hm c.dist half hc.half c.nearest hc.nearest _ false l hl
  have hlt : c.radius < l.radius := by rw [hrad]; linarith [hc.radius]
  have hcore : ∀ f, f ∈ l.faces.filter (fun f => c.dist f ≤ c.radius) ↔ f < m.nFace ∧ c.dist f ≤ c.radius := by
    intro f
    simp only [Finset.mem_filter]
    constructor
    · rintro ⟨a, b⟩; exact ⟨(h3 f a).1, b⟩
    · rintro ⟨a, b⟩; exact ⟨h1 f a (by linarith [hc.radius]), b⟩
  unfold clear extractSubregion
  simp only [hlt, if_true]
  split_ifs with he
  · refine ⟨s, rfl, hs, fun _ _ => rfl, fun f => ⟨?_, fun _ => rfl⟩⟩
    rintro ⟨g, hg, hd⟩
    have := (hcore g).2 ⟨hg.1, hd⟩
    rw [he] at this
    simp at this
  · dsimp only
    have hb : ∀ f, f ∈ withBuffer m (l.faces.filter fun f => c.dist f ≤ c.radius) ↔ Clears m c f := by
      intro f
      rw [mem_withBuffer hm (fun f hf => ((hcore f).1 hf).1)]
      constructor
      · rintro ⟨g, hg, ht⟩; exact ⟨g, ht, ((hcore g).1 hg).2⟩
      · rintro ⟨g, ht, hd⟩; exact ⟨g, (hcore g).2 ⟨ht.1, hd⟩, ht⟩
    generalize hin : (⟨withBuffer m (l.faces.filter fun f => c.dist f ≤ c.radius), _, _, _⟩ : Local) = inner
    have hf : inner.faces = withBuffer m (l.faces.filter fun f => c.dist f ≤ c.radius) := by rw [← hin]
    have hsc : addData (sizes m) s (indices inner) "ejecta_thickness" (.scalar 0) { overwrite := true } =
        addData (sizes m) s (indices inner) "ejecta_thickness" (.array ((indices inner).faces.map fun _ => 0)) { overwrite := true } := by
      rw [SurfaceData.C35_scalar]
      simp [SurfaceData.Region.of, List.map_const']
    rw [hsc]
    obtain ⟨s', e1, e2, e3, e4⟩ := addData_face (sizes m) s hs (indices inner) (by
      intro i hi
      rw [mem_indices, hf, hb] at hi
      obtain ⟨g, hg, _⟩ := hi
      exact hg.2.1) (fun _ => 0) true
    refine ⟨s', e1, e2, e3, fun f => ?_⟩
    rw [e4 f]
    have hi : f ∈ (indices inner).faces ↔ Clears m c f := by rw [mem_indices, hf, hb]
    exact ⟨fun h => by rw [if_pos (hi.2 h)]; rfl, fun h => by rw [if_neg (fun h' => h (hi.1 h'))]⟩

/-- The new ejecta. -/
theorem deposit_spec {m : Mesh} (hm : m.Good) {half : ℝ} {c : Crater} (hc : c.Wf m half) {l : Local}
    (hl : craterRegion m half c = some l) (s : Store) (hs : FaceLayer s) :
    ∃ s', deposit m half c s = some s' ∧ FaceLayer s' ∧ (∀ n, n ≠ "ejecta_thickness" → s' n = s n) ∧
      ∀ f, thickness s' f = thickness s f + received m c f := by
  rcases he : extractRegion m c.dist half c.nearest c.rmax false with _ | e
  · obtain ⟨f, hf, hd⟩ := hc.reach
    exact absurd (((C67_absent _ _ _ _ _ _).1 he).2.2 f hf) (not_lt.2 hd)
  · obtain ⟨_, h2, h3, h4⟩ := C67_region m hm c.dist half hc.half c.nearest hc.nearest _ false e he
    have hmem : ∀ f, f ∈ e.faces ↔ ∃ g, m.Touch g f ∧ c.dist g ≤ c.rmax := by
      intro f
      constructor
      · intro hf
        obtain ⟨g, ht, hd | hd⟩ := h4 f hf
        · exact ⟨g, ht, hd⟩
        · cases hd.2.1
      · rintro ⟨g, ht, hd⟩; exact h2 g f ht hd
    obtain ⟨s', e1, e2, e3, e4⟩ := addData_face (sizes m) s hs (indices e) (by
      intro i hi
      rw [mem_indices] at hi
      exact (h3 i hi).1) c.deposit false
    refine ⟨s', by simp only [deposit, ejectaRegion, hl, he]; exact e1, e2, e3, fun f => ?_⟩
    rw [e4 f]
    have hi : f ∈ (indices e).faces ↔ ∃ g, m.Touch g f ∧ c.dist g ≤ c.rmax := by rw [mem_indices, hmem]
    by_cases h : ∃ g, m.Touch g f ∧ c.dist g ≤ c.rmax
    · rw [if_pos (hi.2 h), received, if_pos h]; rfl
    · rw [if_neg (fun h' => h (hi.1 h')), received, if_neg h, add_zero]

/-- One crater that is formed. -/
theorem form_spec {m : Mesh} (hm : m.Good) {half : ℝ} {area : ℕ → ℝ} {c : Crater} (hc : c.Wf m half)
    (hF : isFormed m half area c) (s : Store) (es : List Crater) (hs : FaceLayer s) :
    ∃ s', form m half area (s, es) c = some (s', es ++ [c]) ∧ FaceLayer s' ∧ (∀ n, n ≠ "ejecta_thickness" → s' n = s n) ∧
      ∀ f, (Clears m c f → thickness s' f = received m c f) ∧
        (¬ Clears m c f → thickness s' f = thickness s f + received m c f) := by
  rcases hl : craterRegion m half c with _ | l
  · simp [isFormed, hl] at hF
  · obtain ⟨s1, a1, a2, a3, a4⟩ := clear_spec hm hc hl s hs
    obtain ⟨s2, b1, b2, b3, b4⟩ := deposit_spec hm hc hl s1 a2
    refine ⟨s2, by simp only [form, hl, hF, if_true, a1, b1], b2, fun n hn => by rw [b3 n hn, a3 n hn], fun f => ?_⟩
    rw [b4 f]
    exact ⟨fun h => by rw [(a4 f).1 h, zero_add], fun h => by rw [(a4 f).2 h]⟩

theorem form_skipped {m : Mesh} {half : ℝ} {area : ℕ → ℝ} {c : Crater} (hF : ¬ isFormed m half area c) (st : Store × List Crater) :
    form m half area st c = some st := by
  rcases hl : craterRegion m half c with _ | l
  · simp only [form, hl]
  · simp only [form, hl, hF, if_false]

/-! ### C169: the layer of ejecta -/

open Classical in
/-- After any history of craters the thickness on each face is what was there before plus what all craters deposited, in each
case without what later craters removed; only craters that are formed count, and they are recorded in order; nothing else
changes.  A crater removes the ejecta from the faces with centres inside its rim and from all faces that touch these.
Missing from the full claim: only ejecta inside the rim should be removed, see `C169_outside_fails`. -/
theorem C169_history_partial (m : Mesh) (hm : m.Good) (half : ℝ) (area : ℕ → ℝ) (s : Store) (hs : FaceLayer s)
    (es cs : List Crater) (hw : ∀ c ∈ cs, c.Wf m half) :
    ∃ s', history m half area (s, es) cs = some (s', es ++ cs.filter fun c => isFormed m half area c) ∧
      (∀ n, n ≠ "ejecta_thickness" → s' n = s n) ∧
      ∀ f, thickness s' f =
        (if ∃ c ∈ cs, isFormed m half area c ∧ Clears m c f then 0 else thickness s f) +
          remaining m f (cs.filter fun c => isFormed m half area c) := by
  induction cs generalizing s es with
  | nil => exact ⟨s, by simp [history], fun _ _ => rfl, fun f => by simp [remaining]⟩
  | cons c cs ih =>
    have hw' : ∀ d ∈ cs, d.Wf m half := fun d hd => hw d (List.mem_cons_of_mem _ hd)
    by_cases hF : isFormed m half area c
    · obtain ⟨s1, a1, a2, a3, a4⟩ := form_spec hm (hw c (List.mem_cons_self ..)) hF s es hs
      obtain ⟨s2, b1, b2, b3⟩ := ih s1 a2 (es ++ [c]) hw'
      refine ⟨s2, by simp only [history, a1, b1]; simp [hF], fun n hn => by rw [b2 n hn, a3 n hn], fun f => ?_⟩
      rw [b3 f]
      have hex : (∃ d ∈ cs.filter fun c => isFormed m half area c, Clears m d f) ↔
          ∃ d ∈ cs, isFormed m half area d ∧ Clears m d f := by
        simp only [List.mem_filter, decide_eq_true_eq, and_assoc]
      simp only [List.mem_cons, exists_eq_or_imp, hF, true_and, List.filter_cons, decide_true, if_true, remaining, hex]
      by_cases h1 : ∃ d ∈ cs, isFormed m half area d ∧ Clears m d f
      · simp [h1]
      · simp only [h1, if_false, or_false]
        by_cases h2 : Clears m c f
        · rw [(a4 f).1 h2]; simp [h2]
        · rw [(a4 f).2 h2]; simp only [h2, if_false]; ring
    · obtain ⟨s2, b1, b2, b3⟩ := ih s hs es hw'
      refine ⟨s2, by simp only [history, form_skipped hF, b1]; simp [hF], b2, fun f => ?_⟩
      rw [b3 f]
      simp [hF]

/-- Right after a crater without ejecta inside its rim there are none inside its rim. -/
theorem C169_interior (m : Mesh) (hm : m.Good) (half : ℝ) (area : ℕ → ℝ) (s : Store) (hs : FaceLayer s) (es : List Crater)
    (c : Crater) (hc : c.Wf m half) (hF : isFormed m half area c) (f : ℕ) (hf : f < m.nFace) (hd : c.dist f ≤ c.radius)
    (h0 : c.deposit f = 0) :
    ∃ s', form m half area (s, es) c = some (s', es ++ [c]) ∧ thickness s' f = 0 := by
  obtain ⟨s', h1, _, _, h2⟩ := form_spec hm hc hF s es hs
  obtain ⟨n, hn⟩ := hm.has_node f hf
  refine ⟨s', h1, ?_⟩
  rw [(h2 f).1 ⟨f, ⟨hf, hf, n, hn, hn⟩, hd⟩, received, h0, ite_self]

theorem remaining_nonneg (m : Mesh) (f : ℕ) (cs : List Crater) (h : ∀ c ∈ cs, ∀ f, 0 ≤ c.deposit f) : 0 ≤ remaining m f cs := by
  classical
  induction cs with
  | nil => exact le_rfl
  | cons c cs ih =>
    have h1 := ih fun d hd => h d (List.mem_cons_of_mem _ hd)
    have h2 : 0 ≤ received m c f := by
      unfold received
      split_ifs
      · exact h c (List.mem_cons_self ..) f
      · exact le_rfl
    simp only [remaining]
    split_ifs <;> linarith

/-- With deposits that are not negative the thickness never gets negative. -/
theorem C169_nonneg (m : Mesh) (hm : m.Good) (half : ℝ) (area : ℕ → ℝ) (s : Store) (hs : FaceLayer s)
    (h0 : ∀ f, 0 ≤ thickness s f) (es cs : List Crater) (hw : ∀ c ∈ cs, c.Wf m half) (hdep : ∀ c ∈ cs, ∀ f, 0 ≤ c.deposit f) :
    ∃ st, history m half area (s, es) cs = some st ∧ ∀ f, 0 ≤ thickness st.1 f := by
  classical
  obtain ⟨s', h1, _, h2⟩ := C169_history_partial m hm half area s hs es cs hw
  refine ⟨_, h1, fun f => ?_⟩
  rw [h2 f]
  have := remaining_nonneg m f (cs.filter fun c => isFormed m half area c) fun c hc => hdep c (List.mem_filter.1 hc).1
  have h3 := h0 f
  split_ifs <;> linarith

/-- Distances of the two faces of the example from the centre of a crater on face 0. -/
def first : Crater := ⟨fun f => f, 0, 0.5, 3, fun f => if f = 0 then 0 else 7⟩

theorem first_wf : first.Wf pair 10 := by
  refine ⟨by norm_num [first], by norm_num [first, pair], ?_, 0, by norm_num [pair], by norm_num [first]⟩
  intro f hf
  have : f < 2 := hf
  have : (f : ℝ) < 2 := by exact_mod_cast this
  simp only [first]
  linarith

theorem first_formed : isFormed pair 10 (fun _ => 1) first := by
  have hl : ∃ l, craterRegion pair 10 first = some l := by
    rw [← Option.ne_none_iff_exists']
    intro h
    have := ((C67_absent _ _ _ _ _ _).1 h).2.2 0 (by norm_num [pair])
    norm_num [first] at this
  obtain ⟨l, hl⟩ := hl
  simp only [isFormed, hl, region_radius hl]
  simp only [first]
  have := Real.pi_gt_three
  norm_num
  linarith

/-- The full claim fails: whatever the mesh, the crater that is formed and the ejecta already there, on a face that lies outside the rim but
touches one inside nothing is left of the older ejecta: afterwards it holds the deposit of this crater only. -/
theorem C169_outside_fails (m : Mesh) (hm : m.Good) (half : ℝ) (area : ℕ → ℝ) (s : Store) (hs : FaceLayer s) (es : List Crater)
    (c : Crater) (hc : c.Wf m half) (hF : isFormed m half area c) (hr : c.radius ≤ c.rmax) (f g : ℕ) (ht : m.Touch g f)
    (hg : c.dist g ≤ c.radius) (_hf : c.radius < c.dist f) :
    ∃ s', form m half area (s, es) c = some (s', es ++ [c]) ∧ thickness s' f = c.deposit f := by
  obtain ⟨s', h1, _, _, h2⟩ := form_spec hm hc hF s es hs
  exact ⟨s', h1, by rw [(h2 f).1 ⟨g, ht, hg⟩, received, if_pos ⟨g, ht, hg.trans hr⟩]⟩

/-- A layer of 100 on both faces; the second lies outside the rim and touches the first. -/
example : FaceLayer (fun n => if n = "ejecta_thickness" then some ⟨true, fun _ => 100⟩ else none) ∧ pair.Good ∧ first.Wf pair 10 ∧
    isFormed pair 10 (fun _ => 1) first ∧ first.radius ≤ first.rmax ∧ pair.Touch 0 1 ∧ first.dist 0 ≤ first.radius ∧
    first.radius < first.dist 1 ∧ first.deposit 1 = 7 := by
  refine ⟨fun v hv => ?_, Verif.Region.pair_good, first_wf, first_formed, by norm_num [first],
    ⟨by norm_num [pair], by norm_num [pair], 1, by simp [Verif.Region.Mesh.HasNode, pair], by simp [Verif.Region.Mesh.HasNode, pair]⟩,
    by norm_num [first], by norm_num [first], by simp [first]⟩
  simp only [if_true, Option.some.injEq] at hv
  rw [← hv]

/-- Two craters in a row. -/
example : (∀ c ∈ [first, first], c.Wf pair 10) ∧ (∀ c ∈ [first, first], ∀ f, 0 ≤ c.deposit f) ∧
    isFormed pair 10 (fun _ => 1) first ∧ first.dist 0 ≤ first.radius ∧ first.deposit 0 = 0 := by
  refine ⟨by simp [first_wf], ?_, first_formed, by norm_num [first], by simp [first]⟩
  intro c hc f
  simp only [List.mem_cons, List.not_mem_nil, or_false, or_self] at hc
  subst hc
  simp only [first]
  split_ifs <;> norm_num

/-! ### C170: which craters are formed -/

/-- A crater is formed exactly if a face lies within one and a half times its radius (or that is half way around the
target) and two and a quarter times its area exceeds that of the face at its centre.  Missing from the full claim: the
area compared should be that of the crater, see `C170_area_fails`, and it should not fail, see `C170_raises_fails`. -/
theorem C170_formed_partial (m : Mesh) (half : ℝ) (area : ℕ → ℝ) (c : Crater) :
    isFormed m half area c ↔
      (half ≤ 1.5 * c.radius ∨ ∃ f < m.nFace, c.dist f ≤ 1.5 * c.radius) ∧ area c.nearest < 2.25 * (Real.pi * c.radius ^ 2) := by
  have hab := C67_absent m c.dist half c.nearest (1.5 * c.radius) false
  rcases hl : craterRegion m half c with _ | l
  · simp only [isFormed, hl, false_iff]
    rintro ⟨h1, _⟩
    obtain ⟨_, h2, h3⟩ := hab.1 hl
    rcases h1 with h1 | ⟨f, hf, hd⟩
    · linarith
    · exact absurd (h3 f hf) (not_lt.2 hd)
  · have hne : ¬ (1.5 * c.radius < half ∧ ∀ f < m.nFace, 1.5 * c.radius < c.dist f) := by
      intro h
      have := hab.2 ⟨rfl, h⟩
      unfold craterRegion at hl
      rw [this] at hl
      cases hl
    have h1 : half ≤ 1.5 * c.radius ∨ ∃ f < m.nFace, c.dist f ≤ 1.5 * c.radius := by
      by_contra hn
      push Not at hn
      exact hne hn
    simp only [isFormed, hl, h1, true_and, region_radius hl, gt_iff_lt]
    have : Real.pi * (1.5 * c.radius) ^ 2 = 2.25 * (Real.pi * c.radius ^ 2) := by ring
    rw [this]

/-- The full claim fails: every crater with a face near its centre is formed if it has less than the area of the face at its centre but more
than four ninths of it. -/
theorem C170_area_fails (m : Mesh) (half : ℝ) (area : ℕ → ℝ) (c : Crater) (hnear : ∃ f < m.nFace, c.dist f ≤ 1.5 * c.radius)
    (_hsmall : Real.pi * c.radius ^ 2 < area c.nearest) (hlarge : 4 / 9 * area c.nearest < Real.pi * c.radius ^ 2) :
    isFormed m half area c := by
  rw [C170_formed_partial]
  exact ⟨.inr hnear, by linarith⟩

example : ∃ c : Crater, pair.Good ∧ c.Wf pair 10 ∧ (∃ f < pair.nFace, c.dist f ≤ 1.5 * c.radius) ∧
    Real.pi * c.radius ^ 2 < 2 * Real.pi ∧ 4 / 9 * (2 * Real.pi) < Real.pi * c.radius ^ 2 := by
  have := Real.pi_pos
  refine ⟨⟨fun f => f, 0, 1, 3, fun _ => 0⟩, Verif.Region.pair_good, ⟨by norm_num, by norm_num [pair], ?_, 0, by norm_num [pair], by norm_num⟩,
    ⟨0, by norm_num [pair], by norm_num⟩, by simp only; linarith, by simp only; linarith⟩
  intro f hf
  have : f < 2 := hf
  have : (f : ℝ) < 2 := by exact_mod_cast this
  simp only; linarith

/-- The full claim fails: if the nearest face is within one and a half times the radius, but not within reach of the ejecta, a
crater that is large enough ends in an error. -/
theorem C170_raises_fails (m : Mesh) (half : ℝ) (area : ℕ → ℝ) (s : Store) (es : List Crater) (c : Crater)
    (hnear : ∃ f < m.nFace, c.dist f ≤ 1.5 * c.radius) (hfar : ∀ f < m.nFace, c.rmax < c.dist f)
    (hh : c.rmax < half) (ha : area c.nearest < 2.25 * (Real.pi * c.radius ^ 2)) :
    form m half area (s, es) c = none := by
  have hF : isFormed m half area c := (C170_formed_partial m half area c).2 ⟨.inr hnear, ha⟩
  rcases hl : craterRegion m half c with _ | l
  · simp [isFormed, hl] at hF
  · have he : extractRegion m c.dist half c.nearest c.rmax false = none := (C67_absent _ _ _ _ _ _).2 ⟨rfl, hh, hfar⟩
    have hd : ∀ t, deposit m half c t = none := by
      intro t
      simp only [deposit, ejectaRegion, hl, he]
    simp only [form, hl, hF, if_true]
    split
    · rfl
    · simp only [hd]

/-- A crater of radius 1 with ejecta up to 1.1, 1.2 away from the nearest face. -/
example : ∃ (m : Mesh) (half : ℝ) (area : ℕ → ℝ) (c : Crater), m.Good ∧ 0 < c.radius ∧ c.radius < c.rmax ∧
    ∀ s es, form m half area (s, es) c = none := by
  refine ⟨pair, 10, fun _ => 1, ⟨fun f => 1.2 + f, 0, 1, 1.1, fun _ => 0⟩, Verif.Region.pair_good, by norm_num, by norm_num, fun s es => ?_⟩
  apply C170_raises_fails
  · exact ⟨0, by norm_num [pair], by norm_num⟩
  · intro f _
    have : (0 : ℝ) ≤ f := Nat.cast_nonneg f
    simp only
    linarith
  · norm_num
  · have := Real.pi_gt_three
    simp only
    linarith

end Verif.EjectaLayer
