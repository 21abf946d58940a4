import Verif.Model.MeshView
import Verif.Props.Sphere
import Mathlib.Data.List.Sort

/-!
# Meshes of craters and of the surface for three-dimensional views (C237, C238)
-/

namespace Verif.MeshView

open Real

/-- The point of space with the longitude and latitude of `p`, in degrees, at the distance `ρ` from the centre. -/
def At (ρ : ℝ) (p : ℝ × ℝ) (v : ℝ × ℝ × ℝ) : Prop :=
  !₂[v.1, v.2.1, v.2.2] = ρ • Verif.Sphere.unit (p.1 * (π / 180)) (p.2 * (π / 180))

/-- `r` is one of the closed lines an outline consists of. -/
inductive Part : Geom → Ring → Prop
  | exterior (e is) : Part (.polygon e is) e
  | interior (e is r) (h : r ∈ is) : Part (.polygon e is) r
  | line (c) : Part (.line c) c
  | sub (gs g r) (h : g ∈ gs) (hr : Part g r) : Part (.many gs) r

theorem at_toXyz (R z : ℝ) (p : ℝ × ℝ) : At (R + z) p (toXyz R p z) := by
  unfold At toXyz Verif.Sphere.unit
  ext i
  fin_cases i <;> simp [mul_assoc]

theorem mem_ringsOf (gs : List Geom) (r : Ring) : r ∈ ringsOf gs ↔ ∃ g ∈ gs, r ∈ g.rings := by
  induction gs with
  | nil => simp [ringsOf]
  | cons g gs ih => simp [ringsOf, ih]

mutual
theorem part_of_mem : ∀ (g : Geom) (r : Ring), r ∈ g.rings → Part g r
  | .polygon e is, r, h => by
    simp only [Geom.rings, List.mem_cons] at h
    rcases h with h | h
    · exact h ▸ Part.exterior e is
    · exact Part.interior e is r h
  | .line c, r, h => by
    simp only [Geom.rings, List.mem_singleton] at h
    exact h ▸ Part.line c
  | .many gs, r, h => by
    simp only [Geom.rings] at h
    obtain ⟨g, hg, hp⟩ := part_of_memOf gs r h
    exact Part.sub gs g r hg hp
theorem part_of_memOf : ∀ (gs : List Geom) (r : Ring), r ∈ ringsOf gs → ∃ g ∈ gs, Part g r
  | [], r, h => by simp [ringsOf] at h
  | g :: gs, r, h => by
    simp only [ringsOf, List.mem_append] at h
    rcases h with h | h
    · exact ⟨g, by simp, part_of_mem g r h⟩
    · obtain ⟨g', hg', hp⟩ := part_of_memOf gs r h
      exact ⟨g', by simp [hg'], hp⟩
end

theorem mem_of_part {g : Geom} {r : Ring} (h : Part g r) : r ∈ g.rings := by
  induction h with
  | exterior e is => simp [Geom.rings]
  | interior e is r h => simp [Geom.rings, h]
  | line c => simp [Geom.rings]
  | sub gs g r h _ ih => simp only [Geom.rings, mem_ringsOf]; exact ⟨g, h, ih⟩

/-- The points a line of a mesh goes through. -/
def Mesh.course (m : Mesh) (l : List ℕ) : List (Option (ℝ × ℝ × ℝ)) := l.map fun i => m.points[i]?

theorem foldl_addRing (R : ℝ) (rs : List Ring) :
    let s := rs.foldl (addRing R) (⟨[], []⟩, 0)
    s.2 = s.1.points.length ∧ s.1.lines.flatten = List.range s.1.points.length ∧
      s.1.lines.map s.1.course = rs.map fun r => r.map fun p => some (toXyz R p 0) := by
  induction rs using List.reverseRecOn with
  | nil => simp
  | append_singleton rs r ih =>
    simp only [List.foldl_append, List.foldl_cons, List.foldl_nil]
    obtain ⟨h1, h2, h3⟩ := ih
    generalize rs.foldl (addRing R) (⟨[], []⟩, 0) = s at h1 h2 h3
    refine ⟨by simp [addRing, h1], ?_, ?_⟩
    · simp only [addRing, List.flatten_append, h2, h1, List.flatten_cons, List.flatten_nil, List.append_nil, List.length_append]
      rw [List.range_add]
    · simp only [addRing, List.map_append, List.map_cons, List.map_nil]
      congr 1
      · rw [← h3]
        apply List.map_congr_left
        intro l hl
        unfold Mesh.course
        apply List.map_congr_left
        intro i hi
        have : i ∈ s.1.lines.flatten := List.mem_flatten.mpr ⟨l, hl, hi⟩
        rw [h2, List.mem_range] at this
        simp only
        rw [List.getElem?_append_left this]
      · congr 1
        unfold Mesh.course
        apply List.ext_getElem
        · simp
        · intro i hi _
          simp only [List.length_map, List.length_range] at hi
          simp [h1, hi]

/-- C237.  The mesh of the outlines of craters has exactly one line for each closed line of each outline, taken with the measured properties if these are asked
for.  It goes, in order, through the points with the longitudes and latitudes of the outline at the distance of the radius of the body; no line
goes through a point of another, and no point is left over. -/
theorem C237_rings (measured : Bool) (factor : ℝ) (style : String) (hst : style.toLower = "rings") (s : Surf) (cs : List Crater) :
    ∃ m, craterMesh measured factor style s cs = some m ∧
      (∀ c ∈ cs, ∀ r, Part (c.outline measured) r → ∃ l ∈ m.lines, List.Forall₂ (fun p o => ∃ v, o = some v ∧ At s.radius p v) r (m.course l)) ∧
      (∀ l ∈ m.lines, ∃ c ∈ cs, ∃ r, Part (c.outline measured) r ∧ List.Forall₂ (fun p o => ∃ v, o = some v ∧ At s.radius p v) r (m.course l)) ∧
      m.lines.flatten = List.range m.points.length ∧
      m.lines.length = (cs.map fun c => (c.outline measured).rings.length).sum := by
  obtain ⟨_, h2, h3⟩ := foldl_addRing s.radius (ringsOf (cs.map fun c => c.outline measured))
  have key : ∀ r : Ring, List.Forall₂ (fun p o => ∃ v, o = some v ∧ At s.radius p v) r (r.map fun p => some (toXyz s.radius p 0)) := by
    intro r
    rw [List.forall₂_map_right_iff, List.forall₂_same]
    intro p _
    exact ⟨_, rfl, by simpa using at_toXyz s.radius 0 p⟩
  refine ⟨drawRings measured s cs, by simp [craterMesh, hst], ?_, ?_, h2, ?_⟩
  · intro c hc r hr
    have hm : r ∈ ringsOf (cs.map fun c => c.outline measured) :=
      (mem_ringsOf _ _).mpr ⟨_, List.mem_map.mpr ⟨c, hc, rfl⟩, mem_of_part hr⟩
    have : (r.map fun p => some (toXyz s.radius p 0)) ∈ (drawRings measured s cs).lines.map (drawRings measured s cs).course := by
      unfold drawRings
      rw [h3]
      exact List.mem_map.mpr ⟨r, hm, rfl⟩
    obtain ⟨l, hl, e⟩ := List.mem_map.mp this
    exact ⟨l, hl, e ▸ key r⟩
  · intro l hl
    have : (drawRings measured s cs).course l ∈ (drawRings measured s cs).lines.map (drawRings measured s cs).course :=
      List.mem_map.mpr ⟨l, hl, rfl⟩
    unfold drawRings at this
    rw [h3] at this
    obtain ⟨r, hr, e⟩ := List.mem_map.mp this
    obtain ⟨g, hg, hp⟩ := part_of_memOf _ _ hr
    obtain ⟨c, hc, rfl⟩ := List.mem_map.mp hg
    refine ⟨c, hc, r, hp, ?_⟩
    have k := key r
    rw [e] at k
    exact k
  · have := congrArg List.length h3
    simp only [List.length_map] at this
    unfold drawRings
    rw [this]
    clear this h2 h3 key
    rename_i h0
    clear h0
    induction cs with
    | nil => simp [ringsOf]
    | cons c cs ih => simp [ringsOf, ih]

/-- A crater with an outline of two lines. -/
noncomputable def two : Crater := ⟨fun _ => .many [.polygon [(0, 0), (1, 0), (0, 1), (0, 0)] [], .line [(5, 5), (6, 5)]], (0, 0), (1, 0), 0, 10, 100⟩

example : (drawRings true ⟨1, fun _ => 0, fun _ => 1⟩ [two, two]).lines = [[0, 1, 2, 3], [4, 5], [6, 7, 8, 9], [10, 11]] := by
  simp [drawRings, two, ringsOf, Geom.rings, addRing, List.range_succ]

/-- C237.  In the other styles the mesh has one point for each crater, in the order of the craters.  It lies in the direction of the place where
the crater was emplaced, above the surface there by half the scaled size of the face for points and by the scaled radius of the projectile for
spheres. -/
theorem C237_points_partial (measured : Bool) (factor : ℝ) (style : String) (s : Surf) (cs : List Crater) :
    (style.toLower = "points" → ∃ m, craterMesh measured factor style s cs = some m ∧ m.lines = [] ∧
      List.Forall₂ (fun c v => At (s.radius + s.elevation c.face + factor * s.faceSize c.face / 2) c.location v) cs m.points) ∧
    (style.toLower = "spheres" → ∃ m, craterMesh measured factor style s cs = some m ∧ m.lines = [] ∧
      List.Forall₂ (fun c v => At (s.radius + s.elevation c.face + factor * c.projectileRadius) c.location v) cs m.points) ∧
    (style.toLower = "impacts" → factor = 1 → ∃ m, craterMesh measured factor style s cs = some m ∧ m.lines = [] ∧
      List.Forall₂ (fun c v => At (s.radius + s.elevation c.face + c.floorDiameter / 2) c.location v) cs m.points) := by
  refine ⟨fun h => ?_, fun h => ?_, fun h hf => ?_⟩
  all_goals
    refine ⟨_, by simp [craterMesh, h]; rfl, rfl, ?_⟩
    unfold drawPoints
    rw [List.forall₂_map_right_iff, List.forall₂_same]
    intro c _
    simp only [height]
  · simp only [if_true]
    rw [add_assoc]
    exact at_toXyz _ _ _
  · simp only [String.reduceEq, if_false, if_true]
    rw [add_assoc]
    exact at_toXyz _ _ _
  · subst hf
    simp only [String.reduceEq, if_false, if_true, sqrt_one, one_mul]
    rw [add_assoc]
    exact at_toXyz _ _ _

/-- No other style is accepted, and the letter case does not matter. -/
theorem C237_styles (measured : Bool) (factor : ℝ) (style : String) (s : Surf) (cs : List Crater) :
    (craterMesh measured factor style s cs).isSome ↔
      style.toLower = "rings" ∨ style.toLower = "points" ∨ style.toLower = "impacts" ∨ style.toLower = "spheres" := by
  unfold craterMesh
  simp only [List.mem_cons, List.not_mem_nil, or_false]
  split <;> simp_all

/-- C237 fails: in these styles the choice of measured properties makes no difference.  A crater whose measured location is another one is
shown at the place where it was emplaced (`counting/__init__.py` line 1240). -/
theorem C237_measured_fails (factor : ℝ) (style : String) (hst : style.toLower ≠ "rings") (s : Surf) (cs : List Crater)
    (moved : Crater → ℝ × ℝ) : craterMesh true factor style s (cs.map fun c => { c with measuredLocation := moved c }) =
      craterMesh false factor style s cs := by
  unfold craterMesh
  simp only [hst, if_false]
  have : drawPoints factor style.toLower s (cs.map fun c => { c with measuredLocation := moved c }) = drawPoints factor style.toLower s cs := by
    unfold drawPoints height
    simp [List.map_map, Function.comp_def]
  rw [this]

/-- C237 fails: the marks of the style `impacts` are above the surface by half the size they are shown with only when this size is not scaled: the size goes
with the factor, the height with its square root (`counting/__init__.py` lines 824 and 1239). -/
theorem C237_impacts_fails (factor : ℝ) (hf : 0 < factor) (s : Surf) (c : Crater) (hd : 0 < c.floorDiameter) :
    ∃ size, shownSize factor "impacts" s c = some size ∧
      (height factor "impacts" s c = s.elevation c.face + size / 2 ↔ factor = 1) := by
  refine ⟨factor * c.floorDiameter, by simp [shownSize], ?_⟩
  simp only [height, String.reduceEq, if_false, if_true]
  constructor
  · intro h
    have h1 : (√factor - factor) * c.floorDiameter = 0 := by linarith
    have h2 : √factor = factor := by
      rcases mul_eq_zero.mp h1 with h | h
      · linarith
      · linarith
    have h3 : factor * factor = factor := by
      conv_lhs => rw [← h2]
      exact mul_self_sqrt hf.le
    exact mul_right_cancel₀ hf.ne' (by linarith)
  · rintro rfl
    simp

example : height 4 "impacts" ⟨1, fun _ => 0, fun _ => 1⟩ two = 100 ∧ shownSize 4 "impacts" ⟨1, fun _ => 0, fun _ => 1⟩ two = some 400 := by
  have : √(4 : ℝ) = 2 := by rw [show (4 : ℝ) = 2 ^ 2 by norm_num, sqrt_sq (by norm_num)]
  constructor
  · simp [height, two, this]
  · simp [shownSize, two]; norm_num

/-! ### C238 -/

open SurfaceExport (Files Snap)

variable {D T : Type}

/-- The numbers of saved intervals: not negative and increasing. -/
def Numbered {A : Type} (l : List (ℤ × A)) : Prop := (l.map Prod.fst).Pairwise (· < ·) ∧ ∀ x ∈ l, 0 ≤ x.1

/-- C238.  Without a dataset a mesh of the surface is made of the surface as it is now, and with a number of an interval of what was saved for it.
For a number that was not saved it raises. -/
theorem C238_own (current : D) (files : Files D T) (hf : Numbered files) :
    meshData current files none none = .ok current ∧
      (∀ k s, (k, s) ∈ files → meshData current files none (some k) = .ok s.data) ∧
      (∀ k, 0 ≤ k → (∀ s, (k, s) ∉ files) → meshData current files none (some k) = .error .index) := by
  refine ⟨rfl, ?_, ?_⟩
  · intro k s h
    have hk : ¬ k < 0 := not_lt.mpr (hf.2 _ h)
    have hl : files.lookup k = some s := by
      have hn := hf.1
      clear hf hk
      induction files with
      | nil => simp at h
      | cons x xs ih =>
        obtain ⟨i, t⟩ := x
        simp only [List.map_cons, List.pairwise_cons] at hn
        rcases List.mem_cons.mp h with e | h
        · obtain ⟨rfl, rfl⟩ := Prod.mk.inj e
          simp
        · have := hn.1 k (List.mem_map.mpr ⟨_, h, rfl⟩)
          have hne : (k == i) = false := by simp; omega
          simp only [List.lookup, hne]
          exact ih h hn.2
    simp [meshData, SurfaceExport.read, hk, hl]
  · intro k hk h
    have hl : files.lookup k = none := by
      rw [List.lookup_eq_none_iff]
      rintro ⟨i, t⟩ hx
      simp only [ne_eq, bne_iff_ne]
      rintro rfl
      exact h t hx
    simp [meshData, SurfaceExport.read, not_lt.mpr hk, hl]

/-- C238.  From a dataset given with the states of intervals numbered from 0 without a gap, the mesh of an interval is made of the state with its number. -/
theorem C238_given_partial (current : D) (files : Files D T) (l : List (ℤ × D)) (hl : ∀ (i : ℕ) x, l[i]? = some x → x.1 = (i : ℤ)) (k : ℤ) (d : D)
    (h : (k, d) ∈ l) : meshData current files (some (.series l)) (some k) = .ok d := by
  obtain ⟨i, hi⟩ := List.mem_iff_getElem?.mp h
  have := hl i _ hi
  simp only at this
  subst this
  simp [meshData, isel, hi]

/-- C238 fails: from a dataset given whose numbers do not begin with 0, as every dataset of one later interval read from the files, the mesh of an interval is
never made of the state with its number: the number is taken as a position (`surface/__init__.py` line 2958), so the mesh is of another
interval, or the call raises. -/
theorem C238_given_fails (current : D) (files : Files D T) (l : List (ℤ × D)) (hl : Numbered l) (a : ℤ × D) (ha : l.head? = some a) (h0 : a.1 ≠ 0)
    (k : ℤ) (hk : 0 ≤ k) : meshData current files (some (.series l)) (some k) = .error .index ∨
      ∃ x ∈ l, meshData current files (some (.series l)) (some k) = .ok x.2 ∧ k < x.1 := by
  simp only [meshData, isel, hk, if_true]
  cases h : l[k.toNat]? with
  | none => exact Or.inl rfl
  | some x =>
    refine Or.inr ⟨x, List.mem_of_getElem? h, rfl, ?_⟩
    have key : ∀ (n : ℕ) (l : List (ℤ × D)) (b : ℤ) (x : ℤ × D), (l.map Prod.fst).Pairwise (· < ·) → (∀ y ∈ l, b ≤ y.1) → l[n]? = some x →
        b + n ≤ x.1 := by
      intro n
      induction n with
      | zero =>
        intro l b x _ hb hx
        have := hb x (List.mem_of_getElem? hx)
        simpa using this
      | succ n ih =>
        intro l b x hp hb hx
        cases l with
        | nil => simp at hx
        | cons y ys =>
          simp only [List.map_cons, List.pairwise_cons] at hp
          simp only [List.getElem?_cons_succ] at hx
          have := ih ys (b + 1) x hp.2 (fun z hz => by
            have h1 := hp.1 z.1 (List.mem_map.mpr ⟨z, hz, rfl⟩)
            have h2 := hb y (by simp)
            omega) hx
          push_cast
          omega
    have hb : ∀ y ∈ l, 1 ≤ y.1 := by
      cases l with
      | nil => simp at ha
      | cons z zs =>
        simp only [List.head?_cons, Option.some.injEq] at ha
        subst ha
        have h1 : 1 ≤ z.1 := by have := hl.2 z (by simp); omega
        intro y hy
        rcases List.mem_cons.mp hy with rfl | hy
        · exact h1
        · have h2 := hl.1
          simp only [List.map_cons, List.pairwise_cons] at h2
          have := h2.1 y.1 (List.mem_map.mpr ⟨y, hy, rfl⟩)
          omega
    have := key k.toNat l 1 x hl.1 hb h
    omega

/-- One interval read from the files: the mesh of its number raises. -/
theorem C238_single_fails (current d : D) (files : Files D T) (k : ℤ) (hk : 0 < k) :
    meshData current files (some (.series [(k, d)])) (some k) = .error .index := by
  have : ([(k, d)] : List (ℤ × D))[k.toNat]? = none := by
    rw [List.getElem?_eq_none_iff]
    simp
    omega
  simp [meshData, isel, hk.le, this]

example : Numbered [((2 : ℤ), "b"), (3, "c"), (4, "d")] ∧
    (meshData "now" ([] : Files String Unit) (some (.series [((2 : ℤ), "b"), (3, "c"), (4, "d")])) (some 2)).toOption = some "d" := by
  refine ⟨⟨by simp, by simp⟩, by decide⟩

example : ∀ (i : ℕ) x, ([((0 : ℤ), "a"), (1, "b")] : List (ℤ × String))[i]? = some x → x.1 = (i : ℤ) := by
  intro i x h
  match i with
  | 0 => simp at h; simp [← h]
  | 1 => simp at h; simp [← h]
  | (n + 2) => simp at h

end Verif.MeshView
