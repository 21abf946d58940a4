import Verif.Model.SurfaceData
import Mathlib.Tactic.Linarith
import Mathlib.Tactic.Ring
import Mathlib.Tactic.FieldSimp
import Mathlib.Data.List.Nodup
import Mathlib.Algebra.BigOperators.Group.List.Lemmas

/-! Properties C35, C36, C63: adding data, elevation updates and noise. -/

namespace Verif.SurfaceData

/-! ### C35 -/

theorem write_notMem {v : ℕ → ℝ} {idx : List ℕ} {new : List ℝ} {i : ℕ} (h : i ∉ idx) :
    write v idx new i = v i := by
  induction idx generalizing v new with
  | nil => rfl
  | cons a idx ih =>
    rcases new with _ | ⟨d, new⟩
    · rfl
    · simp only [List.mem_cons, not_or] at h
      unfold write
      rw [ih h.2, Function.update_of_ne h.1]

theorem write_mem {v : ℕ → ℝ} {idx : List ℕ} {new : List ℝ} {i j : ℕ} {x : ℝ} (hn : idx.Nodup)
    (hi : idx[j]? = some i) (hx : new[j]? = some x) : write v idx new i = x := by
  induction idx generalizing v new j with
  | nil => simp at hi
  | cons a idx ih =>
    rcases new with _ | ⟨d, new⟩
    · simp at hx
    · unfold write
      rw [List.nodup_cons] at hn
      rcases j with _ | j
      · simp only [List.getElem?_cons_zero, Option.some.injEq] at hi hx
        subst hi hx
        rw [write_notMem hn.1, Function.update_self]
      · simp only [List.getElem?_cons_succ] at hi hx
        exact ih hn.2 hi hx

/-- The value a user expects: the new value, or the sum of old and new; not below zero if only positive
values are allowed. -/
noncomputable def expected (positiveOnly overwrite : Bool) (old x : ℝ) : ℝ :=
  if positiveOnly then max 0 (if overwrite then x else old + x) else (if overwrite then x else old + x)

/-- `new` differs from `old` only at the indices `idx`, where the data `l` was put in. -/
def Updated (positiveOnly overwrite : Bool) (idx : List ℕ) (l : List ℝ) (old new : ℕ → ℝ) : Prop :=
  (∀ i, i ∉ idx → new i = old i) ∧
  ∀ (j i : ℕ) (x : ℝ), idx[j]? = some i → l[j]? = some x → new i = expected positiveOnly overwrite (old i) x

theorem assign_updated (o : Opts) (ow : Bool) (v : ℕ → ℝ) (idx : List ℕ) (l : List ℝ) (hn : idx.Nodup) :
    Updated o.positiveOnly ow idx l v (assign o ow v idx l) := by
  have base : ∀ (j i : ℕ) (x : ℝ), idx[j]? = some i → l[j]? = some x →
      write v idx (newValues ow v idx l) i = if ow then x else v i + x := by
    intro j i x hi hx
    apply write_mem hn hi
    unfold newValues
    cases ow
    · simp [List.getElem?_zipWith, hi, hx]
    · simp [hx]
  constructor
  · intro i hi
    unfold assign
    split_ifs
    · rw [write_notMem hi, write_notMem hi]
    · rw [write_notMem hi]
  · intro j i x hi hx
    unfold assign expected
    split_ifs with hp ho
    · rw [write_mem hn hi (x := max 0 (write v idx (newValues ow v idx l) i)) (by simp [hi])]
      rw [base j i x hi hx, if_pos ho]
    · rw [write_mem hn hi (x := max 0 (write v idx (newValues ow v idx l) i)) (by simp [hi])]
      rw [base j i x hi hx, if_neg ho]
    · rw [base j i x hi hx, if_pos ‹_›]
    · rw [base j i x hi hx, if_neg ‹_›]

/-- A region of the mesh: distinct faces and nodes that exist. -/
structure Region.Wf (m : Mesh) (r : Region) : Prop where
  /-- No face twice. -/
  faces : r.faces.Nodup
  /-- No node twice. -/
  nodes : r.nodes.Nodup
  /-- Faces exist. -/
  facesLt : ∀ i ∈ r.faces, i < m.nFace
  /-- Nodes exist. -/
  nodesLt : ∀ i ∈ r.nodes, i < m.nNode

/-- The indices of the faces or of the nodes of a region. -/
def Region.of (r : Region) (face : Bool) : List ℕ := if face then r.faces else r.nodes

/-- Adding data of the size of the region's faces (nodes) to a face (node) variable, or creating such a
variable, changes exactly the region as requested and nothing else.  What is missing for the full
property: variables of the other kind (see `C35_wrong_kind_fails`) and regions with as many nodes as faces. -/
theorem C35_region_partial (m : Mesh) (s : Store) (r : Region) (hr : r.Wf m) (name : String) (face : Bool)
    (hd : r.faces.length ≠ r.nodes.length) (l : List ℝ) (hl : l.length = (r.of face).length) (o : Opts) :
    (∀ v, s name = some v → v.face = face →
      ∃ s', addData m s r name (.array l) o = some s' ∧ (∀ n, n ≠ name → s' n = s n) ∧
        ∃ w, s' name = some ⟨face, w⟩ ∧
          Updated o.positiveOnly o.overwrite (r.of face) l v.vals w) ∧
    (s name = none →
      ∃ s', addData m s r name (.array l) o = some s' ∧ (∀ n, n ≠ name → s' n = s n) ∧
        ∃ w, s' name = some ⟨face, w⟩ ∧
          Updated o.positiveOnly true (r.of face) l (fun _ => o.fill) w) := by
  have ht : target r (toArray r o.isFace (.array l)) = some (face, r.of face) := by
    unfold target toArray
    cases face
    · have h1 : l.length = r.nodes.length := hl
      have h2 : ¬ l.length = r.faces.length := fun h => hd (h.symm.trans h1)
      rw [if_neg h2, if_pos h1]
      rfl
    · have h1 : l.length = r.faces.length := hl
      rw [if_pos h1]
      rfl
  have hn : (r.of face).Nodup := by
    cases face
    · exact hr.nodes
    · exact hr.faces
  have hlt : (r.of face).all (· < m.size face) = true := by
    rw [List.all_eq_true]
    intro i hi
    cases face
    · simpa [Mesh.size] using hr.nodesLt i hi
    · simpa [Mesh.size] using hr.facesLt i hi
  constructor
  · intro v hv hf
    refine ⟨Function.update s name (some ⟨face, assign o o.overwrite v.vals (r.of face) l⟩), ?_,
      fun n hne => Function.update_of_ne hne _ _, _, Function.update_self _ _ _,
      assign_updated o o.overwrite v.vals _ l hn⟩
    unfold addData
    rw [ht, hv]
    simp only
    rw [hf, if_pos hlt]
    rfl
  · intro hv
    refine ⟨Function.update s name (some ⟨face, assign o true (fun _ => o.fill) (r.of face) l⟩), ?_,
      fun n hne => Function.update_of_ne hne _ _, _, Function.update_self _ _ _,
      assign_updated o true _ _ l hn⟩
    unfold addData
    rw [ht, hv]
    rfl

/-- A scalar means the same as an array of that value for every face (node) of the region. -/
theorem C35_scalar (m : Mesh) (s : Store) (r : Region) (name : String) (x : ℝ) (o : Opts) :
    addData m s r name (.scalar x) o =
      addData m s r name (.array (List.replicate (r.of o.isFace).length x)) o := by
  unfold addData toArray Region.of
  cases o.isFace <;> rfl

/-- Data of any other size is rejected. -/
theorem C35_rejects (m : Mesh) (s : Store) (r : Region) (name : String) (l : List ℝ) (o : Opts)
    (h1 : l.length ≠ r.faces.length) (h2 : l.length ≠ r.nodes.length) :
    addData m s r name (.array l) o = none := by
  unfold addData target toArray
  simp [h1, h2]

/-- Whatever call succeeds: other variables keep their values, an existing variable stays a face (node)
variable and changes at most at the numbers of the region's faces or at the numbers of its nodes, and a new
variable holds the fill value outside them. -/
theorem C35_others (m : Mesh) (s s' : Store) (r : Region) (name : String) (d : Data) (o : Opts)
    (h : addData m s r name d o = some s') :
    (∀ n, n ≠ name → s' n = s n) ∧
    ∃ idx w, (idx = r.faces ∨ idx = r.nodes) ∧ s' name = some w ∧
      (∀ v, s name = some v → w.face = v.face ∧ ∀ i, i ∉ idx → w.vals i = v.vals i) ∧
      (s name = none → ∀ i, i ∉ idx → w.vals i = o.fill) := by
  have out : ∀ (ow : Bool) (v : ℕ → ℝ) (idx : List ℕ) (l : List ℝ) (i : ℕ), i ∉ idx →
      assign o ow v idx l i = v i := by
    intro ow v idx l i hi
    unfold assign
    split_ifs
    · rw [write_notMem hi, write_notMem hi]
    · rw [write_notMem hi]
  unfold addData at h
  rcases ht : target r (toArray r o.isFace d) with _ | ⟨face, idx⟩
  · rw [ht] at h; cases h
  have hidx : idx = r.faces ∨ idx = r.nodes := by
    unfold target at ht
    split_ifs at ht
    · simp only [Option.some.injEq, Prod.mk.injEq] at ht
      exact Or.inl ht.2.symm
    · simp only [Option.some.injEq, Prod.mk.injEq] at ht
      exact Or.inr ht.2.symm
  rw [ht] at h
  simp only at h
  rcases hs : s name with _ | v
  · rw [hs] at h
    simp only [Option.some.injEq] at h
    subst h
    exact ⟨fun n hn => Function.update_of_ne hn _ _, idx, _, hidx, Function.update_self _ _ _,
      fun v hv => by simp at hv, fun _ i hi => out _ _ _ _ i hi⟩
  · rw [hs] at h
    simp only at h
    split_ifs at h
    simp only [Option.some.injEq] at h
    subst h
    refine ⟨fun n hn => Function.update_of_ne hn _ _, idx, _, hidx, Function.update_self _ _ _,
      fun v' hv => ?_, fun hv => by simp at hv⟩
    simp only [Option.some.injEq] at hv
    subst hv
    exact ⟨rfl, fun i hi => out _ _ _ _ i hi⟩

/-- Data for a variable of the other kind, for every mesh and region: face (node) sized data for an existing node (face) variable is written
to the nodes (faces) that have the numbers of the region's faces (nodes) if the mesh has nodes (faces) with all those numbers, and is
refused otherwise. -/
theorem C35_wrong_kind_exact_partial (m : Mesh) (s : Store) (r : Region) (hr : r.Wf m) (name : String) (face : Bool)
    (hd : r.faces.length ≠ r.nodes.length) (l : List ℝ) (hl : l.length = (r.of face).length) (o : Opts)
    (v : Var) (hv : s name = some v) (hk : v.face = !face) :
    ((∀ i ∈ r.of face, i < if face then m.nNode else m.nFace) →
      ∃ s', addData m s r name (.array l) o = some s' ∧ (∀ n, n ≠ name → s' n = s n) ∧
        ∃ w, s' name = some ⟨!face, w⟩ ∧ Updated o.positiveOnly o.overwrite (r.of face) l v.vals w) ∧
    ((∃ i ∈ r.of face, (if face then m.nNode else m.nFace) ≤ i) → addData m s r name (.array l) o = none) := by
  have ht : target r (toArray r o.isFace (.array l)) = some (face, r.of face) := by
    unfold target toArray
    cases face
    · have h1 : l.length = r.nodes.length := hl
      have h2 : ¬ l.length = r.faces.length := fun h => hd (h.symm.trans h1)
      rw [if_neg h2, if_pos h1]
      rfl
    · have h1 : l.length = r.faces.length := hl
      rw [if_pos h1]
      rfl
  have hn : (r.of face).Nodup := by
    cases face
    · exact hr.nodes
    · exact hr.faces
  have hsz : m.size (!face) = if face then m.nNode else m.nFace := by
    cases face <;> simp [Mesh.size]
  constructor
  · intro h
    have hlt : (r.of face).all (· < m.size (!face)) = true := by
      rw [List.all_eq_true]
      intro i hi
      rw [hsz]
      simpa using h i hi
    refine ⟨Function.update s name (some ⟨!face, assign o o.overwrite v.vals (r.of face) l⟩), ?_,
      fun n hne => Function.update_of_ne hne _ _, _, Function.update_self _ _ _,
      assign_updated o o.overwrite v.vals _ l hn⟩
    unfold addData
    rw [ht, hv]
    simp only
    rw [hk, if_pos hlt]
    rfl
  · rintro ⟨i, hi, h⟩
    have hlt : ¬ (r.of face).all (· < m.size (!face)) = true := by
      rw [List.all_eq_true]
      intro h'
      have h2 := h' i hi
      rw [hsz] at h2
      simp only [decide_eq_true_eq] at h2
      omega
    unfold addData
    rw [ht, hv]
    simp only
    rw [hk, if_neg hlt]

example : (⟨[2], [3, 4, 5]⟩ : Region).Wf ⟨3, 6⟩ ∧ (∀ i ∈ (⟨[2], [3, 4, 5]⟩ : Region).of true, i < 6) ∧
    (∃ i ∈ (⟨[2], [3, 4, 5]⟩ : Region).of false, 3 ≤ i) :=
  ⟨⟨by simp, by simp, by simp, by simp⟩, by simp [Region.of], by simp [Region.of]⟩

/-- Face sized data given for an existing node variable is not rejected: it is written to the nodes that
happen to have the numbers of the region's faces, even if those nodes are outside the region. -/
theorem C35_wrong_kind_fails : ∃ (m : Mesh) (s s' : Store) (r : Region) (v : Var) (w : Var),
    r.Wf m ∧ r.faces.length ≠ r.nodes.length ∧ s "node_elevation" = some v ∧ v.face = false ∧
    addData m s r "node_elevation" (.array [5]) {} = some s' ∧ s' "node_elevation" = some w ∧
    2 ∉ r.nodes ∧ w.vals 2 ≠ v.vals 2 := by
  let s : Store := fun n => if n = "node_elevation" then some ⟨false, fun _ => 0⟩ else none
  refine ⟨⟨3, 6⟩, s, Function.update s "node_elevation" (some ⟨false, assign {} false (fun _ => 0) [2] [5]⟩),
    ⟨[2], [3, 4, 5]⟩, ⟨false, fun _ => 0⟩, ⟨false, assign {} false (fun _ => 0) [2] [5]⟩,
    ⟨by simp, by simp, by simp, by simp⟩, by simp, by simp [s], rfl, ?_, Function.update_self _ _ _,
    by simp, ?_⟩
  · have hs : s "node_elevation" = some ⟨false, fun _ => 0⟩ := by simp [s]
    simp [addData, target, toArray, hs, Mesh.size]
  · simp [assign, write, newValues]

example : (⟨[2], [3, 4, 5]⟩ : Region).Wf ⟨3, 6⟩ ∧ [(5 : ℝ)].length = ((⟨[2], [3, 4, 5]⟩ : Region).of true).length :=
  ⟨⟨by simp, by simp, by simp, by simp⟩, rfl⟩

/-! ### C36 -/

/-- The face and node elevations exist, as on every surface. -/
def HasElevation (s : Store) (f n : ℕ → ℝ) : Prop :=
  s "face_elevation" = some ⟨true, f⟩ ∧ s "node_elevation" = some ⟨false, n⟩

theorem add_elev (m : Mesh) (s : Store) (r : Region) (hr : r.Wf m) (face : Bool) (name : String)
    (hd : r.faces.length ≠ r.nodes.length) (l : List ℝ) (hl : l.length = (r.of face).length) (ow : Bool)
    (v : ℕ → ℝ) (hv : s name = some ⟨face, v⟩) :
    ∃ s', addData m s r name (.array l) { overwrite := ow } = some s' ∧ (∀ n, n ≠ name → s' n = s n) ∧
      ∃ w, s' name = some ⟨face, w⟩ ∧ Updated false ow (r.of face) l v w :=
  (C35_region_partial m s r hr name face hd l hl { overwrite := ow }).1 _ hv rfl

/-- The effect of `update_elevation` for every accepted size.  Nothing but the elevations changes.
Missing from the full statement: regions with as many nodes as faces, see `C36_equal_fails`, and a one-face region with face
data, see `C36_one_face_fails`. -/
theorem C36_dispatch_partial (m : Mesh) (interp : (ℕ → ℝ) → List ℝ) (s : Store) (r : Region) (hr : r.Wf m)
    (hd : r.faces.length ≠ r.nodes.length) (hf1 : 0 < r.faces.length) (hn1 : 0 < r.nodes.length)
    (hi : ∀ v, (interp v).length = r.nodes.length)
    (f n : ℕ → ℝ) (hs : HasElevation s f n) (d : List ℝ) (ow : Bool) :
    -- a scalar: both
    (∀ x, d = [x] → ∃ s' f' n', updateElevation m interp s r d ow = some s' ∧ HasElevation s' f' n' ∧
      (∀ k, k ≠ "face_elevation" → k ≠ "node_elevation" → s' k = s k) ∧
      Updated false ow r.faces (List.replicate r.faces.length x) f f' ∧
      Updated false ow r.nodes (List.replicate r.nodes.length x) n n') ∧
    -- face data: faces, and the region's nodes become the average of the new faces
    (d.length ≠ 1 → d.length = r.faces.length →
      ∃ s' f' n', updateElevation m interp s r d ow = some s' ∧ HasElevation s' f' n' ∧
      (∀ k, k ≠ "face_elevation" → k ≠ "node_elevation" → s' k = s k) ∧
      Updated false ow r.faces d f f' ∧ Updated false true r.nodes (interp f') n n') ∧
    -- node data: only nodes
    (d.length ≠ 1 → d.length = r.nodes.length →
      ∃ s' n', updateElevation m interp s r d ow = some s' ∧ HasElevation s' f n' ∧
      (∀ k, k ≠ "node_elevation" → s' k = s k) ∧ Updated false ow r.nodes d n n') ∧
    -- face data followed by node data: both
    (d.length = r.faces.length + r.nodes.length →
      ∃ s' f' n', updateElevation m interp s r d ow = some s' ∧ HasElevation s' f' n' ∧
      (∀ k, k ≠ "face_elevation" → k ≠ "node_elevation" → s' k = s k) ∧
      Updated false ow r.faces (d.take r.faces.length) f f' ∧
      Updated false ow r.nodes (d.drop r.faces.length) n n') ∧
    -- anything else is rejected
    (d.length ≠ 1 → d.length ≠ r.faces.length → d.length ≠ r.nodes.length →
      d.length ≠ r.faces.length + r.nodes.length → updateElevation m interp s r d ow = none) := by
  have hne : "node_elevation" ≠ "face_elevation" := by decide
  -- faces first, then nodes
  have both : ∀ l₁ l₂ : List ℝ, ∀ ow₁ ow₂ : Bool, l₁.length = r.faces.length → l₂.length = r.nodes.length →
      ∃ s₁ s₂ f' n', addData m s r "face_elevation" (.array l₁) { overwrite := ow₁ } = some s₁ ∧
        s₁ "face_elevation" = some ⟨true, f'⟩ ∧
        addData m s₁ r "node_elevation" (.array l₂) { overwrite := ow₂ } = some s₂ ∧ HasElevation s₂ f' n' ∧
        (∀ k, k ≠ "face_elevation" → k ≠ "node_elevation" → s₂ k = s k) ∧
        Updated false ow₁ r.faces l₁ f f' ∧ Updated false ow₂ r.nodes l₂ n n' := by
    intro l₁ l₂ ow₁ ow₂ h₁ h₂
    obtain ⟨s₁, e₁, o₁, f', g₁, u₁⟩ := add_elev m s r hr true "face_elevation" hd l₁ h₁ ow₁ f hs.1
    have hs₁ : s₁ "node_elevation" = some ⟨false, n⟩ := by rw [o₁ _ hne]; exact hs.2
    obtain ⟨s₂, e₂, o₂, n', g₂, u₂⟩ := add_elev m s₁ r hr false "node_elevation" hd l₂ h₂ ow₂ n hs₁
    refine ⟨s₁, s₂, f', n', e₁, g₁, e₂, ⟨?_, g₂⟩, ?_, u₁, u₂⟩
    · rw [o₂ _ hne.symm]; exact g₁
    · intro k k1 k2
      rw [o₂ k k2, o₁ k k1]
  refine ⟨?_, ?_, ?_, ?_, ?_⟩
  · rintro x rfl
    obtain ⟨s₁, s₂, f', n', e₁, _, e₂, he, ho, u₁, u₂⟩ := both (List.replicate r.faces.length x)
      (List.replicate r.nodes.length x) ow ow (by simp) (by simp)
    refine ⟨s₂, f', n', ?_, he, ho, u₁, u₂⟩
    unfold updateElevation
    rw [if_pos (by simp)]
    simp only [List.getD_cons_zero]
    rw [e₁]
    exact e₂
  · intro h1 h2
    obtain ⟨s₁, e₁, o₁, f', g₁, u₁⟩ := add_elev m s r hr true "face_elevation" hd d h2 ow f hs.1
    have hs₁ : s₁ "node_elevation" = some ⟨false, n⟩ := by rw [o₁ _ hne]; exact hs.2
    obtain ⟨s₂, e₂, o₂, n', g₂, u₂⟩ := add_elev m s₁ r hr false "node_elevation" hd (interp f') (hi f') true n hs₁
    refine ⟨s₂, f', n', ?_, ⟨?_, g₂⟩, ?_, u₁, u₂⟩
    · unfold updateElevation
      rw [if_neg h1, if_pos h2, e₁]
      simp only [interpolate]
      rw [g₁]
      exact e₂
    · rw [o₂ _ hne.symm]; exact g₁
    · intro k k1 k2
      rw [o₂ k k2, o₁ k k1]
  · intro h1 h2
    obtain ⟨s₁, e₁, o₁, n', g₁, u₁⟩ := add_elev m s r hr false "node_elevation" hd d h2 ow n hs.2
    refine ⟨s₁, n', ?_, ⟨?_, g₁⟩, o₁, u₁⟩
    · unfold updateElevation
      rw [if_neg h1, if_neg (fun h => hd (h.symm.trans h2)), if_pos h2]
      exact e₁
    · rw [o₁ _ hne.symm]; exact hs.1
  · intro h
    obtain ⟨s₁, s₂, f', n', e₁, _, e₂, he, ho, u₁, u₂⟩ := both (d.take r.faces.length)
      (d.drop r.faces.length) ow ow (by simp; omega) (by simp; omega)
    refine ⟨s₂, f', n', ?_, he, ho, u₁, u₂⟩
    unfold updateElevation
    rw [if_neg (by omega), if_neg (by omega), if_neg (by omega), if_pos h, e₁]
    exact e₂
  · intro h1 h2 h3 h4
    unfold updateElevation
    rw [if_neg h1, if_neg h2, if_neg h3, if_neg h4]

example : HasElevation (fun k => if k = "face_elevation" then some ⟨true, fun _ => 1⟩ else
    if k = "node_elevation" then some ⟨false, fun _ => 2⟩ else none) (fun _ => 1) (fun _ => 2) := by
  constructor <;> simp

theorem add_equal (m : Mesh) (s : Store) (r : Region) (hr : r.Wf m) (face : Bool)
    (name : String) (l : List ℝ) (hl : l.length = r.faces.length) (ow : Bool) (v : ℕ → ℝ) (hv : s name = some ⟨face, v⟩)
    (hlt : ∀ i ∈ r.faces, i < m.size face) :
    ∃ s', addData m s r name (.array l) { overwrite := ow } = some s' ∧ (∀ n, n ≠ name → s' n = s n) ∧
      ∃ w, s' name = some ⟨face, w⟩ ∧ Updated false ow r.faces l v w := by
  refine ⟨Function.update s name (some ⟨face, assign { overwrite := ow } ow v r.faces l⟩), ?_,
    fun n hne => Function.update_of_ne hne _ _, _, Function.update_self _ _ _, assign_updated { overwrite := ow } ow v _ l hr.faces⟩
  have h : (r.faces.all fun x => decide (x < m.size face)) = true := by simpa using hlt
  unfold addData target toArray
  simp only [hl, if_true, hv]
  rw [if_pos h]

/-- A region with as many nodes as faces, such as the ten triangles around an edge: data for its faces changes the faces as asked,
but the averages for its nodes go to the nodes that happen to have the numbers of its faces, and the region's own nodes keep their
elevations unless they are among those.  If a face has a number that no node has, the call fails. -/
theorem C36_equal_fails (m : Mesh) (interp : (ℕ → ℝ) → List ℝ) (s : Store) (r : Region) (hr : r.Wf m)
    (he : r.faces.length = r.nodes.length) (h1 : r.faces.length ≠ 1) (hi : ∀ v, (interp v).length = r.nodes.length)
    (f n : ℕ → ℝ) (hs : HasElevation s f n) (d : List ℝ) (hd : d.length = r.faces.length) (ow : Bool) :
    ((∀ i ∈ r.faces, i < m.nNode) → ∃ s' f' n', updateElevation m interp s r d ow = some s' ∧ HasElevation s' f' n' ∧
      Updated false ow r.faces d f f' ∧ Updated false true r.faces (interp f') n n' ∧
      ∀ i ∈ r.nodes, i ∉ r.faces → n' i = n i) ∧
    ((∃ i ∈ r.faces, m.nNode ≤ i) → updateElevation m interp s r d ow = none) := by
  have hne : "node_elevation" ≠ "face_elevation" := by decide
  obtain ⟨s₁, e₁, o₁, f', g₁, u₁⟩ := add_equal m s r hr true "face_elevation" d hd ow f hs.1
    (fun i hi => by simpa [Mesh.size] using hr.facesLt i hi)
  have hs₁ : s₁ "node_elevation" = some ⟨false, n⟩ := by rw [o₁ _ hne]; exact hs.2
  constructor
  · intro hlt
    obtain ⟨s₂, e₂, o₂, n', g₂, u₂⟩ := add_equal m s₁ r hr false "node_elevation" (interp f') ((hi f').trans he.symm) true n hs₁
      (fun i hi => by simpa [Mesh.size] using hlt i hi)
    refine ⟨s₂, f', n', ?_, ⟨?_, g₂⟩, u₁, u₂, fun i _ hf => u₂.1 i hf⟩
    · unfold updateElevation
      rw [if_neg (by omega), if_pos hd, e₁]
      simp only [interpolate]
      rw [g₁]
      exact e₂
    · rw [o₂ _ hne.symm]; exact g₁
  · rintro ⟨i, him, hge⟩
    unfold updateElevation
    rw [if_neg (by omega), if_pos hd, e₁]
    simp only [interpolate]
    rw [g₁]
    unfold addData target toArray
    simp only [(hi f').trans he.symm, if_true, hs₁]
    rw [if_neg]
    simp only [List.all_eq_true, decide_eq_true_eq, not_forall]
    exact ⟨i, him, by simpa [Mesh.size] using hge⟩

/-- Face data for a region of a single face is taken for a scalar: the same number is added to the nodes, which are not
made averages of the faces. -/
theorem C36_one_face_fails : ∃ (m : Mesh) (interp : (ℕ → ℝ) → List ℝ) (s s' : Store) (r : Region) (f n f' n' : ℕ → ℝ),
    r.Wf m ∧ r.faces.length ≠ r.nodes.length ∧ (∀ v, (interp v).length = r.nodes.length) ∧ HasElevation s f n ∧
    updateElevation m interp s r [5] true = some s' ∧ HasElevation s' f' n' ∧
    ¬ Updated false true r.nodes (interp f') n n' := by
  let interp : (ℕ → ℝ) → List ℝ := fun v => [(v 0 + v 1) / 2, (v 0 + v 1) / 2, v 0]
  let s : Store := fun k => if k = "face_elevation" then some ⟨true, fun _ => 0⟩ else
    if k = "node_elevation" then some ⟨false, fun _ => 0⟩ else none
  have hs : HasElevation s (fun _ => 0) (fun _ => 0) := by constructor <;> simp [s]
  have hr : (⟨[0], [0, 1, 2]⟩ : Region).Wf ⟨2, 4⟩ := ⟨by simp, by simp, by simp, by simp⟩
  obtain ⟨s', f', n', h1, h2, _, u1, u2⟩ := (C36_dispatch_partial ⟨2, 4⟩ interp s ⟨[0], [0, 1, 2]⟩ hr (by simp) (by simp) (by simp)
    (fun v => rfl) _ _ hs [5] true).1 5 rfl
  refine ⟨⟨2, 4⟩, interp, s, s', ⟨[0], [0, 1, 2]⟩, _, _, f', n', hr, by simp, fun v => rfl, hs, h1, h2, ?_⟩
  intro h
  have a := u2.2 0 0 5 rfl rfl
  have b := h.2 0 0 ((f' 0 + f' 1) / 2) rfl rfl
  have c := u1.2 0 0 5 rfl rfl
  have e := u1.1 1 (by simp)
  simp only [expected, Bool.false_eq_true, if_false, if_true] at a b c
  rw [a, c, e] at b
  norm_num at b

example : (⟨[0, 1], [2, 3]⟩ : Region).Wf ⟨4, 4⟩ ∧ [(5 : ℝ), 6].length = (⟨[0, 1], [2, 3]⟩ : Region).faces.length ∧
    (⟨[0, 1], [2, 3]⟩ : Region).faces.length = (⟨[0, 1], [2, 3]⟩ : Region).nodes.length :=
  ⟨⟨by simp, by simp, by simp, by simp⟩, rfl, rfl⟩

/-! ### C63 -/

theorem sum_zipWith_sub (a l : List ℝ) (c : ℝ) (h : l.length = a.length) :
    (List.zipWith (· * ·) (l.map (· - c)) a).sum = (List.zipWith (· * ·) l a).sum - c * a.sum := by
  induction a generalizing l with
  | nil => simp
  | cons x a ih =>
    rcases l with _ | ⟨y, l⟩
    · simp at h
    · simp only [List.map_cons, List.zipWith_cons_cons, List.sum_cons]
      rw [ih l (by simpa using h)]
      ring

/-- The volume change of the region: area times elevation change, summed over its faces. -/
def volumeChange (r : Region) (area old new : ℕ → ℝ) : ℝ :=
  (r.faces.map fun i => (new i - old i) * area i).sum

theorem noise_volume (r : Region) (hf1 : 0 < r.faces.length) (area : ℕ → ℝ) (ha : ∀ i, 0 < area i) (noise : List ℝ)
    (hl : r.faces.length ≤ noise.length) (f f' : ℕ → ℝ)
    (u₁ : Updated false false r.faces ((centred (r.faces.map area) noise).take r.faces.length) f f') :
    volumeChange r area f f' = 0 := by
  set c := (List.zipWith (· * ·) (noise.take (r.faces.map area).length) (r.faces.map area)).sum /
    (r.faces.map area).sum with hc
  have hdelta : (r.faces.map fun i => (f' i - f i) * area i) =
      List.zipWith (· * ·) ((noise.take r.faces.length).map (· - c)) (r.faces.map area) := by
    apply List.ext_getElem?
    intro j
    rcases hj : r.faces[j]? with _ | i
    · have hj' := List.getElem?_eq_none_iff.mp hj
      rw [List.getElem?_eq_none (by simpa using hj'), List.getElem?_eq_none (by simp; omega)]
    · have hj' : j < r.faces.length := (List.getElem?_eq_some_iff.mp hj).1
      have hx : noise[j]? = some (noise[j]'(by omega)) := List.getElem?_eq_getElem (by omega)
      have := u₁.2 j i (noise[j]'(by omega) - c) hj (by
        unfold centred
        rw [List.getElem?_take_of_lt hj', List.getElem?_map, hx]
        rfl)
      simp only [expected, Bool.false_eq_true, if_false] at this
      have hij : r.faces[j] = i := (List.getElem?_eq_some_iff.mp hj).2
      simp [List.getElem?_zipWith, hj', hx]
      left
      rw [hij, this]
      ring
  unfold volumeChange
  rw [hdelta, sum_zipWith_sub _ _ _ (by simp; omega)]
  have hpos : 0 < (r.faces.map area).sum := by
    apply List.sum_pos
    · intro x hx
      obtain ⟨i, _, rfl⟩ := List.mem_map.mp hx
      exact ha i
    · intro h
      rw [List.map_eq_nil_iff] at h
      rw [h] at hf1
      simp at hf1
  rw [hc, List.length_map, div_mul_cancel₀ _ hpos.ne']
  ring

/-- For every noise field, `apply_noise` changes the elevation of the region's faces without changing its
volume, and changes nothing outside the region.  Missing from the full statement: regions with as many nodes as faces, see
`C63_equal_fails`. -/
theorem C63_noise_partial (m : Mesh) (interp : (ℕ → ℝ) → List ℝ) (s : Store) (r : Region) (hr : r.Wf m)
    (hd : r.faces.length ≠ r.nodes.length) (hf1 : 0 < r.faces.length) (hn1 : 0 < r.nodes.length)
    (hi : ∀ v, (interp v).length = r.nodes.length)
    (f n : ℕ → ℝ) (hs : HasElevation s f n) (area : ℕ → ℝ) (ha : ∀ i, 0 < area i) (noise : List ℝ)
    (hl : noise.length = r.faces.length + r.nodes.length) :
    ∃ s' f' n', applyNoise m interp s r area noise = some s' ∧ HasElevation s' f' n' ∧
      volumeChange r area f f' = 0 ∧ (∀ i, i ∉ r.faces → f' i = f i) ∧ (∀ i, i ∉ r.nodes → n' i = n i) ∧
      -- the shape of the noise is kept: differences between faces change by the noise
      ∀ (j k a b : ℕ) (x y : ℝ), r.faces[j]? = some a → r.faces[k]? = some b → noise[j]? = some x → noise[k]? = some y →
        f' a - f' b = f a - f b + (x - y) := by
  have hlen : (centred (r.faces.map area) noise).length = r.faces.length + r.nodes.length := by
    unfold centred
    rw [List.length_map, hl]
  obtain ⟨s', f', n', e, he, ho, u₁, u₂⟩ :=
    (C36_dispatch_partial m interp s r hr hd hf1 hn1 hi f n hs (centred (r.faces.map area) noise) false).2.2.2.1 hlen
  refine ⟨s', f', n', e, he, ?_, u₁.1, u₂.1, ?_⟩
  · exact noise_volume r hf1 area ha noise (by omega) f f' u₁
  · intro j k a b x y ja kb jx ky
    have hj' : j < r.faces.length := (List.getElem?_eq_some_iff.mp ja).1
    have hk' : k < r.faces.length := (List.getElem?_eq_some_iff.mp kb).1
    have h1 := u₁.2 j a _ ja (by
      unfold centred
      rw [List.getElem?_take_of_lt hj', List.getElem?_map, jx]
      rfl)
    have h2 := u₁.2 k b _ kb (by
      unfold centred
      rw [List.getElem?_take_of_lt hk', List.getElem?_map, ky]
      rfl)
    simp only [expected, Bool.false_eq_true, if_false] at h1 h2
    rw [h1, h2]
    ring

example : ∃ (m : Mesh) (r : Region), r.Wf m ∧ r.faces.length ≠ r.nodes.length ∧ 0 < r.faces.length ∧
    0 < r.nodes.length ∧ ∃ noise : List ℝ, noise.length = r.faces.length + r.nodes.length :=
  ⟨⟨3, 6⟩, ⟨[2], [3, 4, 5]⟩, ⟨by simp, by simp, by simp, by simp⟩, by simp, by simp, by simp, [1, 2, 3, 4], rfl⟩

/-- In a region with as many nodes as faces the volume is kept as well, but the noise of the nodes goes to the nodes that have the numbers of its faces, also
when these are outside the region. -/
theorem C63_equal_fails (m : Mesh) (interp : (ℕ → ℝ) → List ℝ) (s : Store) (r : Region) (hr : r.Wf m)
    (he : r.faces.length = r.nodes.length) (h1 : 0 < r.faces.length) (hlt : ∀ i ∈ r.faces, i < m.nNode)
    (f n : ℕ → ℝ) (hs : HasElevation s f n) (area : ℕ → ℝ) (ha : ∀ i, 0 < area i) (noise : List ℝ)
    (hl : noise.length = r.faces.length + r.nodes.length) :
    ∃ s' f' n', applyNoise m interp s r area noise = some s' ∧ HasElevation s' f' n' ∧ volumeChange r area f f' = 0 ∧
      (∀ i ∈ r.nodes, i ∉ r.faces → n' i = n i) ∧
      ∀ (j i : ℕ) (x : ℝ), r.faces[j]? = some i → (centred (r.faces.map area) noise)[r.faces.length + j]? = some x →
        n' i = n i + x := by
  have hne : "node_elevation" ≠ "face_elevation" := by decide
  have hlen : (centred (r.faces.map area) noise).length = r.faces.length + r.nodes.length := by
    unfold centred
    rw [List.length_map, hl]
  set d := centred (r.faces.map area) noise with hd
  obtain ⟨s₁, e₁, o₁, f', g₁, u₁⟩ := add_equal m s r hr true "face_elevation" (d.take r.faces.length) (by simp; omega) false f hs.1
    (fun i hi => by simpa [Mesh.size] using hr.facesLt i hi)
  have hs₁ : s₁ "node_elevation" = some ⟨false, n⟩ := by rw [o₁ _ hne]; exact hs.2
  obtain ⟨s₂, e₂, o₂, n', g₂, u₂⟩ := add_equal m s₁ r hr false "node_elevation" (d.drop r.faces.length) (by simp; omega) false n hs₁
    (fun i hi => by simpa [Mesh.size] using hlt i hi)
  refine ⟨s₂, f', n', ?_, ⟨?_, g₂⟩, noise_volume r h1 area ha noise (by omega) f f' u₁, fun i _ hf => u₂.1 i hf,
    fun j i x hj hx => ?_⟩
  · unfold applyNoise updateElevation
    rw [← hd, if_neg (by omega), if_neg (by omega), if_neg (by omega), if_pos hlen, e₁]
    exact e₂
  · rw [o₂ _ hne.symm]; exact g₁
  · have := u₂.2 j i x hj (by rw [List.getElem?_drop]; exact hx)
    simpa [expected] using this

end Verif.SurfaceData
