import Verif.Model.Remesh
import Verif.Props.FaceBins

/-! Property C248: what a surface says about its mesh is about the mesh that it has now. -/

namespace Verif.Remesh

open Verif.Geometry (Grid Vec)

variable (near : List Vec → Vec → ℕ) (r : ℝ)

/-- What each question should be answered for the mesh `g` on a sphere of radius `r`. -/
noncomputable def truth (g : Grid) : Ask → Option Value
  | .areas => some (.many (g.areas.map fun x => x * r ^ 2))
  | .sizes => some (.many (g.areas.map fun x => Real.sqrt (x * r ^ 2)))
  | .pixMean => some (.one ((g.areas.map fun x => Real.sqrt (x * r ^ 2)).sum / g.areas.length))
  | .faceCount => some (.indices [g.areas.length])
  | .kept .area => some (.one (g.areas.map fun x => x * r ^ 2).sum)
  | .kept .smallestLength => some (.one (Geometry.least (g.areas.map fun x => Real.sqrt (x * r ^ 2)) * 1e-5))
  | .kept .facePos => some (.points (g.faces.map fun v => ⟨r * v.x, r * v.y, r * v.z⟩))
  | .kept .nodePos => some (.points (g.nodes.map fun v => ⟨r * v.x, r * v.y, r * v.z⟩))
  | .kept .faceDistance => some (.many (g.faceAngles.map fun a => r * a))
  | .kept .edgeLength => some (.many (g.nodeAngles.map fun a => r * a))
  | .kept .edges => some (.indices (List.range g.nodeAngles.length))
  | .kept .bins => (SurfaceData.faceBins (g.areas.map fun x => x * r ^ 2)).map .bins
  | .kept .tree => some (.points g.faces)
  | .nearest p => some (.indices [near g.faces p])

/-- The quantity that a question makes the surface keep, if it is one that is never computed again. -/
def slot : Ask → Option Slot
  | .kept q => some q
  | .nearest _ => some .tree
  | _ => none

/-- The face areas that are kept are those of the present mesh. -/
def Sized (s : State) : Prop := ∀ a, s.areas = some a → a = meshAreas r s.grid

theorem sized_spec (s : State) (h : Sized r s) :
    (sized r s).2 = meshAreas r s.grid ∧ (sized r s).1.grid = s.grid ∧ (sized r s).1.kept = s.kept ∧ Sized r (sized r s).1 := by
  unfold sized
  split
  · next a e => exact ⟨h a e, rfl, rfl, h⟩
  · exact ⟨rfl, rfl, rfl, fun a e => by simpa using e.symm⟩

theorem meshAreas_sqrt (g : Grid) : (meshAreas r g).map Real.sqrt = g.areas.map fun x => Real.sqrt (x * r ^ 2) := by
  simp [meshAreas, List.map_map, Function.comp_def]

theorem compute_spec (s : State) (h : Sized r s) (q : Slot) :
    (compute r s q).2 = truth near r s.grid (.kept q) ∧ (compute r s q).1.grid = s.grid ∧ (compute r s q).1.kept = s.kept ∧
      Sized r (compute r s q).1 := by
  obtain ⟨a, b, c, d⟩ := sized_spec r s h
  cases q with
  | area => exact ⟨by simp only [compute, truth, a]; rfl, b, c, d⟩
  | smallestLength => exact ⟨by simp only [compute, truth, a, meshAreas_sqrt]; simp [Geometry.smallFac], b, c, d⟩
  | bins => exact ⟨by simp only [compute, truth, a]; rfl, b, c, d⟩
  | _ => exact ⟨rfl, rfl, rfl, h⟩

theorem readSlot_grid (s : State) (h : Sized r s) (q : Slot) :
    (readSlot r s q).1.grid = s.grid ∧ Sized r (readSlot r s q).1 := by
  unfold readSlot
  split
  · exact ⟨rfl, h⟩
  · obtain ⟨_, b, _, d⟩ := compute_spec (fun _ _ => 0) r s h q
    exact ⟨b, d⟩

/-- What is kept, or else what is computed now. -/
def orNow : Option Value → Option Value → Option Value
  | some v, _ => some v
  | none, w => w

theorem readSlot_kept (s : State) (h : Sized r s) (q x : Slot) :
    (readSlot r s q).1.kept x = if x = q then orNow (s.kept q) (truth near r s.grid (.kept q)) else s.kept x := by
  unfold readSlot
  split
  · next v e =>
    by_cases hx : x = q
    · subst hx; simp [e, orNow]
    · simp [hx]
  · next e =>
    obtain ⟨a, _, c, _⟩ := compute_spec near r s h q
    by_cases hx : x = q
    · subst hx; simp [a, e, orNow]
    · simp [hx, c]

theorem readSlot_value (s : State) (h : Sized r s) (q : Slot) :
    (readSlot r s q).2 = orNow (s.kept q) (truth near r s.grid (.kept q)) := by
  unfold readSlot
  split
  · next v e => rw [e]; rfl
  · next e => rw [e]; exact (compute_spec near r s h q).1

theorem ask_state (s : State) (h : Sized r s) (a : Ask) :
    (ask near r s a).1.grid = s.grid ∧ Sized r (ask near r s a).1 ∧
      ∀ x, (ask near r s a).1.kept x =
        if slot a = some x then orNow (s.kept x) (truth near r s.grid (.kept x)) else s.kept x := by
  obtain ⟨_, b, c, d⟩ := sized_spec r s h
  cases a with
  | areas => exact ⟨b, d, fun x => by simp only [ask, slot, c]; simp⟩
  | sizes => exact ⟨b, d, fun x => by simp only [ask, slot, c]; simp⟩
  | pixMean => exact ⟨b, d, fun x => by simp only [ask, slot, c]; simp⟩
  | faceCount => exact ⟨rfl, h, fun x => by simp [ask, slot]⟩
  | kept q =>
    refine ⟨(readSlot_grid r s h q).1, (readSlot_grid r s h q).2, fun x => ?_⟩
    simp only [ask, slot, readSlot_kept near r s h q x, Option.some.injEq]
    by_cases hx : q = x
    · subst hx; simp
    · rw [if_neg hx, if_neg fun e => hx e.symm]
  | nearest p =>
    refine ⟨(readSlot_grid r s h .tree).1, (readSlot_grid r s h .tree).2, fun x => ?_⟩
    simp only [ask, slot, readSlot_kept near r s h .tree x, Option.some.injEq]
    by_cases hx : Slot.tree = x
    · subst hx; simp
    · rw [if_neg hx, if_neg fun e => hx e.symm]

/-- Somebody has asked for the quantity `x`. -/
def Wanted (qs : List Ask) (x : Slot) : Prop := ∃ b ∈ qs, slot b = some x

open Classical in
theorem asks_state (qs : List Ask) (s : State) (h : Sized r s) :
    (run near r s (qs.map .asked)).grid = s.grid ∧ Sized r (run near r s (qs.map .asked)) ∧
      ∀ x, (run near r s (qs.map .asked)).kept x =
        if Wanted qs x then orNow (s.kept x) (truth near r s.grid (.kept x)) else s.kept x := by
  induction qs generalizing s with
  | nil => exact ⟨rfl, h, fun x => by simp [run, Wanted]⟩
  | cons b qs ih =>
    obtain ⟨a1, a2, a3⟩ := ask_state near r s h b
    obtain ⟨b1, b2, b3⟩ := ih (ask near r s b).1 a2
    refine ⟨b1.trans a1, b2, fun x => ?_⟩
    have e : run near r s ((b :: qs).map .asked) = run near r (ask near r s b).1 (qs.map .asked) := rfl
    rw [e, b3 x, a1, a3 x]
    by_cases h1 : slot b = some x <;> by_cases h2 : Wanted qs x
    · have : Wanted (b :: qs) x := ⟨b, by simp, h1⟩
      simp only [h1, h2, this, if_true]
      cases s.kept x <;> simp only [orNow]
      cases truth near r s.grid (.kept x) <;> rfl
    · have : Wanted (b :: qs) x := ⟨b, by simp, h1⟩
      simp [h1, h2, this]
    · have : Wanted (b :: qs) x := by obtain ⟨c, hc, e⟩ := h2; exact ⟨c, by simp [hc], e⟩
      simp [h1, h2, this]
    · have : ¬ Wanted (b :: qs) x := by
        rintro ⟨c, hc, he⟩
        rcases List.mem_cons.mp hc with rfl | hc
        · exact h1 he
        · exact h2 ⟨c, hc, he⟩
      simp [h1, h2, this]

theorem ask_now (s : State) (h : Sized r s) (a : Ask) (ha : ∀ x, slot a = some x → s.kept x = none ∨
    s.kept x = truth near r s.grid (.kept x)) : (ask near r s a).2 = truth near r s.grid a := by
  obtain ⟨e, _, _, _⟩ := sized_spec r s h
  have key (q : Slot) (hq : s.kept q = none ∨ s.kept q = truth near r s.grid (.kept q)) :
      orNow (s.kept q) (truth near r s.grid (.kept q)) = truth near r s.grid (.kept q) := by
    rcases hq with hq | hq
    · rw [hq]; rfl
    · rw [hq]; cases truth near r s.grid (.kept q) <;> rfl
  cases a with
  | areas => simp only [ask, truth, e]; rfl
  | sizes => simp only [ask, truth, e, meshAreas_sqrt]
  | pixMean => simp only [ask, truth, e, meshAreas_sqrt, Geometry.mean, List.length_map]
  | faceCount => rfl
  | kept q => simp only [ask, readSlot_value near r s h q]; exact key q (ha q rfl)
  | nearest p =>
    have := key .tree (ha .tree rfl)
    simp only [ask, readSlot_value near r s h .tree]
    rw [this]
    rfl

/-- As long as the mesh is not made anew, every answer is right, whatever else is asked before, in whatever order and however often;
loading the same mesh again changes nothing. -/
theorem C248_same_mesh_partial (g : Grid) (es : List Event) (hes : ∀ g', .loaded (some g') ∉ es) (a : Ask) :
    (ask near r (run near r { grid := g } es) a).2 = truth near r g a := by
  classical
  obtain ⟨qs, hqs⟩ : ∃ qs : List Ask, ∀ s, run near r s es = run near r s (qs.map .asked) := by
    induction es with
    | nil => exact ⟨[], fun _ => rfl⟩
    | cons e es ih =>
      obtain ⟨qs, h⟩ := ih fun g' hg => hes g' (List.mem_cons_of_mem _ hg)
      rcases e with b | n
      · exact ⟨b :: qs, fun s => h _⟩
      · cases n with
        | none => exact ⟨qs, fun s => h s⟩
        | some g' => exact absurd (by simp) (hes g')
  rw [hqs]
  obtain ⟨h1, h2, h3⟩ := asks_state near r qs { grid := g } (fun a e => by simp at e)
  rw [ask_now near r _ h2 a, h1]
  intro x _
  rw [h3 x, h1]
  by_cases hw : Wanted qs x
  · right; simp [hw, orNow]
  · left; simp [hw]

open Classical in
/-- Exactly what is answered after the mesh has been made anew: the areas and sizes of the faces, their mean and their number are those of the
new mesh; every other quantity is that of the old mesh if it was asked for (successfully) before, and that of the new mesh if it was not. -/
theorem C248_new_mesh_partial (g g' : Grid) (qs qs' : List Ask) (a : Ask) :
    (ask near r (run near r { grid := g } (qs.map .asked ++ .loaded (some g') :: qs'.map .asked)) a).2 =
      if ∃ x, slot a = some x ∧ Wanted qs x ∧ (truth near r g (.kept x)).isSome then truth near r g a else truth near r g' a := by
  obtain ⟨h1, h2, h3⟩ := asks_state near r qs { grid := g } (fun a e => by simp at e)
  set s1 := run near r { grid := g } (qs.map .asked) with hs1
  set s2 : State := { s1 with grid := g', areas := some (meshAreas r g') } with hs2
  have z2 : Sized r s2 := fun a e => by simpa [hs2] using e.symm
  obtain ⟨i1, i2, i3⟩ := asks_state near r qs' s2 z2
  have er : run near r { grid := g } (qs.map .asked ++ .loaded (some g') :: qs'.map .asked) = run near r s2 (qs'.map .asked) := by
    simp only [run, List.foldl_append, List.foldl_cons]
    rfl
  rw [er]
  set s3 := run near r s2 (qs'.map .asked) with hs3
  have k1 (x : Slot) : s2.kept x = if Wanted qs x then truth near r g (.kept x) else none := by
    change s1.kept x = _
    rw [h3 x]
    by_cases hw : Wanted qs x <;> simp [hw, orNow]
  by_cases hc : ∃ x, slot a = some x ∧ Wanted qs x ∧ (truth near r g (.kept x)).isSome
  · rw [if_pos hc]
    obtain ⟨x, hx, hw, hs⟩ := hc
    obtain ⟨v, hv⟩ := Option.isSome_iff_exists.mp hs
    have k3 : s3.kept x = some v := by
      rw [i3 x, k1 x]
      by_cases hw' : Wanted qs' x <;> simp [hw, hw', hv, orNow]
    cases a with
    | kept q =>
      simp only [slot, Option.some.injEq] at hx
      subst hx
      simp only [ask, readSlot, k3, hv]
    | nearest p =>
      simp only [slot, Option.some.injEq] at hx
      subst hx
      simp only [truth, Option.some.injEq] at hv
      simp only [ask, readSlot, k3, ← hv, truth]
    | areas => simp [slot] at hx
    | sizes => simp [slot] at hx
    | pixMean => simp [slot] at hx
    | faceCount => simp [slot] at hx
  · rw [if_neg hc, ask_now near r s3 i2 a, i1]
    intro x hx
    rw [i3 x, i1]
    have k0 : s2.kept x = none := by
      rw [k1 x]
      by_cases hw : Wanted qs x
      · rw [if_pos hw]
        by_contra hn
        exact hc ⟨x, hx, hw, Option.isSome_iff_ne_none.mpr hn⟩
      · rw [if_neg hw]
    rw [k0]
    by_cases hw' : Wanted qs' x
    · right; simp [hw', orNow, hs2]
    · left; simp [hw']

/-- The property fails for every quantity that is kept: once it has been answered, it is answered in the same way for ever, however often the mesh
is made anew and whatever the new meshes are. -/
theorem C248_kept_fails (s : State) (q : Slot) (v : Value) (h : (ask near r s (.kept q)).2 = some v) (es : List Event) :
    (ask near r (run near r (ask near r s (.kept q)).1 es) (.kept q)).2 = some v := by
  have hk : (ask near r s (.kept q)).1.kept q = some v := by
    simp only [ask, readSlot] at h ⊢
    split at h
    · next w e => simp only [Option.some.injEq] at h; subst h; simpa using e
    · next e => simp only at h; simp [h]
  have slotStep (t : State) (ht : t.kept q = some v) (x : Slot) : (readSlot r t x).1.kept q = some v := by
    have hs (u : State) : (sized r u).1.kept = u.kept := by unfold sized; split <;> rfl
    have hcomp : (compute r t x).1.kept = t.kept := by cases x <;> simp [compute, hs]
    unfold readSlot
    split
    · exact ht
    · next e =>
      by_cases hx : q = x
      · subst hx; rw [ht] at e; simp at e
      · simp [hx, hcomp, ht]
  have step (t : State) (ht : t.kept q = some v) (e : Event) : (event near r t e).kept q = some v := by
    have hs (u : State) : (sized r u).1.kept = u.kept := by unfold sized; split <;> rfl
    rcases e with a | n
    · cases a with
      | kept x => exact slotStep t ht x
      | nearest p => exact slotStep t ht .tree
      | areas => simp only [event, ask, hs]; exact ht
      | sizes => simp only [event, ask, hs]; exact ht
      | pixMean => simp only [event, ask, hs]; exact ht
      | faceCount => exact ht
    · cases n with
      | none => exact ht
      | some g => exact ht
  have all : ∀ (es : List Event) (t : State), t.kept q = some v → (run near r t es).kept q = some v := by
    intro es
    induction es with
    | nil => intro t ht; exact ht
    | cons e es ih => intro t ht; exact ih _ (step t ht e)
  have := all es _ hk
  generalize run near r (ask near r s (.kept q)).1 es = t at this
  simp only [ask, readSlot, this]

/-- With fewer faces in the new mesh, the bins of faces then name faces that the present mesh does not have: the next craters are to fall on
faces that do not exist. -/
theorem C248_bins_fails (g g' : Grid) (qs : List Ask) (hr : 0 < r) (hpos : ∀ x ∈ g.areas, 0 < x) (bins : List (List ℕ))
    (hb : SurfaceData.faceBins (g.areas.map fun x => x * r ^ 2) = some bins) (hless : g'.areas.length < g.areas.length) :
    (ask near r (run near r { grid := g } ([Event.asked (.kept .bins)] ++ .loaded (some g') :: qs.map .asked)) (.kept .bins)).2 =
        some (.bins bins) ∧
    (∃ b ∈ bins, ∃ f ∈ b, g'.areas.length ≤ f) ∧
    (ask near r (run near r { grid := g } ([Event.asked (.kept .bins)] ++ .loaded (some g') :: qs.map .asked)) .faceCount).2 =
        some (.indices [g'.areas.length]) := by
  classical
  refine ⟨?_, ?_, ?_⟩
  · have := C248_new_mesh_partial near r g g' [.kept .bins] qs (.kept .bins)
    simp only [List.map_cons, List.map_nil] at this
    rw [this, if_pos ⟨.bins, rfl, ⟨.kept .bins, by simp, rfl⟩, by simp [truth, hb]⟩]
    simp [truth, hb]
  · have hg := SurfaceData.C34_partition_partial _ (by
      intro a ha
      obtain ⟨x, hx, rfl⟩ := List.mem_map.mp ha
      exact mul_pos (hpos x hx) (by positivity)) bins hb
    have hm : g.areas.length - 1 ∈ bins.flatten := by
      rw [hg.1.mem_iff]
      simp only [List.mem_range, List.length_map]
      omega
    obtain ⟨b, hb, hf⟩ := List.mem_flatten.mp hm
    exact ⟨b, hb, _, hf, by omega⟩
  · have := C248_new_mesh_partial near r g g' [.kept .bins] qs .faceCount
    simp only [List.map_cons, List.map_nil] at this
    rw [this, if_neg (by simp [slot])]
    rfl

/-- Two faces of areas 1 and 3 can be put in bins. -/
example : ∃ bins, SurfaceData.faceBins ((⟨[1, 3], [], [], [], []⟩ : Grid).areas.map fun x => x * 1 ^ 2) = some bins := by
  rw [← Option.isSome_iff_exists]
  simp only [List.map_cons, List.map_nil, one_pow, mul_one]
  rw [Option.isSome_iff_ne_none, Ne, SurfaceData.C34_error_iff [1, 3] (by simp) 1 3 (by simp) (by simp) (by simp) (by simp)]
  rintro ⟨k, hk⟩
  rcases k with _ | _ | k
  · norm_num at hk
  · norm_num at hk
  · have : (0 : ℝ) < 2 ^ k := by positivity
    have h1 : (1 : ℝ) ≤ 2 ^ k := one_le_pow₀ (by norm_num)
    rw [pow_succ, pow_succ] at hk
    linarith

/-- The total area of a mesh of two faces, asked for before the mesh is replaced by one of a single face. -/
example : truth near 1 ⟨[4, 9], [], [], [], []⟩ (.kept .area) = some (.one 13) ∧
    (ask near 1 (run near 1 { grid := ⟨[4, 9], [], [], [], []⟩ } [.asked (.kept .area), .loaded (some ⟨[5], [], [], [], []⟩)])
      (.kept .area)).2 = some (.one 13) ∧
    (ask near 1 (run near 1 { grid := ⟨[4, 9], [], [], [], []⟩ } [.asked (.kept .area), .loaded (some ⟨[5], [], [], [], []⟩)])
      .areas).2 = some (.many [5]) := by
  have e : truth near 1 ⟨[4, 9], [], [], [], []⟩ (.kept .area) = some (.one 13) := by
    simp only [truth, List.map_cons, List.map_nil, List.sum_cons, List.sum_nil]
    norm_num
  refine ⟨e, ?_, ?_⟩
  · have := C248_new_mesh_partial near 1 ⟨[4, 9], [], [], [], []⟩ ⟨[5], [], [], [], []⟩ [.kept .area] [] (.kept .area)
    rw [if_pos ⟨.area, rfl, ⟨.kept .area, by simp, rfl⟩, by simp [truth]⟩, e] at this
    exact this
  · have := C248_new_mesh_partial near 1 ⟨[4, 9], [], [], [], []⟩ ⟨[5], [], [], [], []⟩ [.kept .area] [] .areas
    rw [if_neg (by simp [slot])] at this
    simpa [truth] using this

end Verif.Remesh
