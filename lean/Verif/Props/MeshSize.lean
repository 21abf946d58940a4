import Verif.Model.MeshSize
import Mathlib.Analysis.SpecialFunctions.Pow.Real
import Mathlib.Tactic.Linarith
import Mathlib.Tactic.FieldSimp
import Mathlib.Tactic.Ring
import Mathlib.Tactic.Positivity

/-!
# C144: reported face sizes, C145: levels of an icosphere
-/

namespace Verif.MeshSize

open Classical

theorem le_of_sq_le_sq' {a b : ℝ} (hb : 0 ≤ b) (h : a ^ 2 ≤ b ^ 2) : a ≤ b := by
  by_contra hc
  nlinarith [not_le.1 hc]

theorem foldl_min_le (xs : List ℝ) (x : ℝ) : xs.foldl min x ≤ x ∧ ∀ y ∈ xs, xs.foldl min x ≤ y := by
  induction xs generalizing x with
  | nil => simp
  | cons a as ih =>
    obtain ⟨h1, h2⟩ := ih (min x a)
    simp only [List.foldl_cons]
    refine ⟨h1.trans (min_le_left _ _), ?_⟩
    intro y hy
    rcases List.mem_cons.1 hy with rfl | hy
    · exact h1.trans (min_le_right _ _)
    · exact h2 y hy

theorem foldl_min_mem (xs : List ℝ) (x : ℝ) : xs.foldl min x ∈ x :: xs := by
  induction xs generalizing x with
  | nil => simp
  | cons a as ih =>
    simp only [List.foldl_cons]
    rcases List.mem_cons.1 (ih (min x a)) with h | h
    · rw [h]
      rcases min_choice x a with e | e <;> simp [e]
    · simp [h]

theorem le_foldl_max (xs : List ℝ) (x : ℝ) : x ≤ xs.foldl max x ∧ ∀ y ∈ xs, y ≤ xs.foldl max x := by
  induction xs generalizing x with
  | nil => simp
  | cons a as ih =>
    obtain ⟨h1, h2⟩ := ih (max x a)
    simp only [List.foldl_cons]
    refine ⟨(le_max_left _ _).trans h1, ?_⟩
    intro y hy
    rcases List.mem_cons.1 hy with rfl | hy
    · exact (le_max_right _ _).trans h1
    · exact h2 y hy

theorem foldl_max_mem (xs : List ℝ) (x : ℝ) : xs.foldl max x ∈ x :: xs := by
  induction xs generalizing x with
  | nil => simp
  | cons a as ih =>
    simp only [List.foldl_cons]
    rcases List.mem_cons.1 (ih (max x a)) with h | h
    · rw [h]
      rcases max_choice x a with e | e <;> simp [e]
    · simp [h]

theorem sum_le_of_le (l : List ℝ) (c : ℝ) (h : ∀ x ∈ l, x ≤ c) : l.sum ≤ l.length * c := by
  induction l with
  | nil => simp
  | cons a as ih =>
    have := ih fun x hx => h x (List.mem_cons_of_mem _ hx)
    have ha := h a List.mem_cons_self
    simp only [List.sum_cons, List.length_cons, Nat.cast_add, Nat.cast_one]
    nlinarith

theorem le_sum_of_le (l : List ℝ) (c : ℝ) (h : ∀ x ∈ l, c ≤ x) : l.length * c ≤ l.sum := by
  induction l with
  | nil => simp
  | cons a as ih =>
    have := ih fun x hx => h x (List.mem_cons_of_mem _ hx)
    have ha := h a List.mem_cons_self
    simp only [List.sum_cons, List.length_cons, Nat.cast_add, Nat.cast_one]
    nlinarith

theorem sum_sq_dev (l : List ℝ) (c : ℝ) :
    (l.map fun x => (x - c) ^ 2).sum = (l.map fun x => x ^ 2).sum - 2 * c * l.sum + l.length * c ^ 2 := by
  induction l with
  | nil => simp
  | cons a as ih =>
    simp only [List.map_cons, List.sum_cons, List.length_cons, Nat.cast_add, Nat.cast_one, ih]
    ring

theorem sum_sq_dev_nonneg (l : List ℝ) (c : ℝ) : 0 ≤ (l.map fun x => (x - c) ^ 2).sum := by
  induction l with
  | nil => simp
  | cons a as ih =>
    simp only [List.map_cons, List.sum_cons]
    have := sq_nonneg (a - c)
    linarith

/-- The squared spread is the mean square minus the squared mean. -/
theorem std_sq (l : List ℝ) (hl : l ≠ []) :
    l.length * (mean l ^ 2 + std l ^ 2) = (l.map fun x => x ^ 2).sum := by
  have hn : (0 : ℝ) < l.length := by
    exact_mod_cast List.length_pos_iff.2 hl
  have h0 : 0 ≤ mean (l.map fun x => (x - mean l) ^ 2) := by
    unfold mean
    exact div_nonneg (sum_sq_dev_nonneg _ _) (by positivity)
  unfold std
  rw [Real.sq_sqrt h0]
  show l.length * (mean l ^ 2 + (l.map fun x => (x - mean l) ^ 2).sum / (l.map fun x => (x - mean l) ^ 2).length) = _
  rw [sum_sq_dev, List.length_map]
  have hm : l.sum = l.length * mean l := by
    unfold mean
    field_simp
  rw [hm]
  field_simp
  ring

theorem map_sqrt_sq (l : List ℝ) (h : ∀ a ∈ l, 0 ≤ a) :
    ((l.map Real.sqrt).map fun x => x ^ 2).sum = l.sum := by
  induction l with
  | nil => simp
  | cons a as ih =>
    simp only [List.map_cons, List.sum_cons]
    rw [Real.sq_sqrt (h a List.mem_cons_self), ih fun x hx => h x (List.mem_cons_of_mem _ hx)]

theorem compute_eq {u : List ℝ} {r : ℝ} {s : Sizes} (h : compute u r = some s) :
    s.faceArea = u.map (fun a => a * r ^ 2) ∧ s.faceSize = s.faceArea.map Real.sqrt ∧ s.faceSize ≠ [] ∧
    s.mean = mean s.faceSize ∧ s.std = std s.faceSize ∧
    (s.min ∈ s.faceSize ∧ ∀ x ∈ s.faceSize, s.min ≤ x) ∧
    (s.max ∈ s.faceSize ∧ ∀ x ∈ s.faceSize, x ≤ s.max) := by
  unfold compute at h
  dsimp only at h
  split at h
  · simp at h
  · rename_i x xs hx
    simp only [Option.some.injEq] at h
    subst h
    dsimp only
    refine ⟨rfl, rfl, ?_, rfl, rfl, ?_, ?_⟩
    · rw [hx]; simp
    · rw [hx]
      refine ⟨foldl_min_mem xs x, ?_⟩
      intro y hy
      rcases List.mem_cons.1 hy with rfl | hy
      · exact (foldl_min_le xs y).1
      · exact (foldl_min_le xs x).2 y hy
    · rw [hx]
      refine ⟨foldl_max_mem xs x, ?_⟩
      intro y hy
      rcases List.mem_cons.1 hy with rfl | hy
      · exact (le_foldl_max xs y).1
      · exact (le_foldl_max xs x).2 y hy

/-- C144 (each face): the area of a face is its area on the unit sphere times the squared radius and its
size is the side of the square with that area. -/
theorem C144_faces (u : List ℝ) (r : ℝ) (s : Sizes) (h : compute u r = some s) (hu : ∀ a ∈ u, 0 ≤ a)
    (i : ℕ) (hi : i < u.length) :
    ∃ a d, s.faceArea[i]? = some a ∧ s.faceSize[i]? = some d ∧ a = u[i] * r ^ 2 ∧ 0 ≤ d ∧ d ^ 2 = a := by
  obtain ⟨h1, h2, -⟩ := compute_eq h
  have h0 : 0 ≤ u[i] * r ^ 2 := mul_nonneg (hu _ (List.getElem_mem hi)) (sq_nonneg r)
  refine ⟨u[i] * r ^ 2, Real.sqrt (u[i] * r ^ 2), ?_, ?_, rfl, Real.sqrt_nonneg _, Real.sq_sqrt h0⟩
  · rw [h1]; simp [hi]
  · rw [h2, h1]; simp [hi]

/-- C144 (statistics): the smallest and largest sizes are sizes of faces and bound all others, the mean
lies between them, and the whole area is the number of faces times the sum of the squares of the mean
and the spread. -/
theorem C144_statistics (u : List ℝ) (r : ℝ) (s : Sizes) (h : compute u r = some s) (hu : ∀ a ∈ u, 0 ≤ a) :
    s.min ∈ s.faceSize ∧ s.max ∈ s.faceSize ∧ (∀ x ∈ s.faceSize, s.min ≤ x ∧ x ≤ s.max) ∧
    s.min ≤ s.mean ∧ s.mean ≤ s.max ∧ 0 ≤ s.std ∧
    s.area = u.length * (s.mean ^ 2 + s.std ^ 2) ∧ s.area = u.sum * r ^ 2 := by
  obtain ⟨h1, h2, h3, h4, h5, ⟨h6, h7⟩, h8, h9⟩ := compute_eq h
  have hn : (0 : ℝ) < s.faceSize.length := by
    exact_mod_cast List.length_pos_iff.2 h3
  have hlen : s.faceSize.length = u.length := by rw [h2, h1]; simp
  have hpos : ∀ a ∈ s.faceArea, 0 ≤ a := by
    rw [h1]
    intro a ha
    obtain ⟨b, hb, rfl⟩ := List.mem_map.1 ha
    exact mul_nonneg (hu b hb) (sq_nonneg r)
  refine ⟨h6, h8, fun x hx => ⟨h7 x hx, h9 x hx⟩, ?_, ?_, ?_, ?_, ?_⟩
  · rw [h4]
    show _ ≤ _ / _
    rw [le_div_iff₀ hn, mul_comm]
    exact le_sum_of_le _ _ h7
  · rw [h4]
    show _ / _ ≤ _
    rw [div_le_iff₀ hn, mul_comm]
    exact sum_le_of_le _ _ h9
  · rw [h5]; exact Real.sqrt_nonneg _
  · rw [h4, h5, ← hlen, std_sq _ h3, h2, map_sqrt_sq _ hpos]
    rfl
  · show s.faceArea.sum = _
    rw [h1, List.sum_map_mul_right]
    simp

/-- C144 (empty): the sizes of a mesh are computed whenever it has a face. -/
theorem C144_total (u : List ℝ) (r : ℝ) : (∃ s, compute u r = some s) ↔ u ≠ [] := by
  unfold compute
  cases u <;> simp

/-! ### C145: icosphere -/

theorem counts (n : ℕ) : (icosphere n).vertices = 10 * 4 ^ n + 2 ∧ (icosphere n).edges = 30 * 4 ^ n ∧
    (icosphere n).triangles = 20 * 4 ^ n := by
  induction n with
  | zero => exact ⟨rfl, rfl, rfl⟩
  | succ n ih =>
    obtain ⟨h1, h2, h3⟩ := ih
    show (icosphere n).vertices + (icosphere n).edges = _ ∧
      2 * (icosphere n).edges + 3 * (icosphere n).triangles = _ ∧ 4 * (icosphere n).triangles = _
    rw [h1, h2, h3, pow_succ]
    refine ⟨by ring, by ring, by ring⟩

/-- C145 (counts): the mesh of every level has the documented numbers of faces and nodes, and the
number of faces that the nominal size assumes is the number of faces of the mesh. -/
theorem C145_counts (level : ℕ) :
    faces level = 10 * 4 ^ level + 2 ∧ nodes level = 20 * 4 ^ level ∧ nominalFaces level = faces level :=
  ⟨(counts level).1, (counts level).2.2, (counts level).1.symm⟩

theorem nominal_sq (level : ℕ) (r : ℝ) : (faces level : ℝ) * nominal level r ^ 2 = 4 * Real.pi * r ^ 2 := by
  have h : (0 : ℝ) < (nominalFaces level : ℝ) := by
    unfold nominalFaces
    positivity
  have hp := Real.pi_pos
  have e : ((faces level : ℕ) : ℝ) = (nominalFaces level : ℝ) := by rw [(C145_counts level).2.2]
  unfold nominal
  rw [e, ← Real.sqrt_eq_rpow, Real.sq_sqrt (by positivity)]
  field_simp

theorem nominal_nonneg (level : ℕ) (r : ℝ) : 0 ≤ nominal level r := by
  unfold nominal
  have hp := Real.pi_pos
  positivity

/-- C145 (nominal size): a face with the nominal size has an equal share of the sphere; for the actual
mesh, whose faces cover the sphere, the nominal size lies between the smallest and the largest size, is
never below the mean size, and equals it exactly when all the spread is zero. -/
theorem C145_nominal (level : ℕ) (r : ℝ) (u : List ℝ) (s : Sizes)
    (h : compute u r = some s) (hu : ∀ a ∈ u, 0 ≤ a) (hlen : u.length = faces level)
    (hcover : u.sum = 4 * Real.pi) :
    (faces level : ℝ) * nominal level r ^ 2 = 4 * Real.pi * r ^ 2 ∧
    s.min ≤ nominal level r ∧ nominal level r ≤ s.max ∧ s.mean ≤ nominal level r ∧
    (s.mean = nominal level r ↔ s.std = 0) := by
  obtain ⟨h1, h2, h3, h4, h5, h6, h7, h8⟩ := C144_statistics u r s h hu
  obtain ⟨e1, e2, e3, -⟩ := compute_eq h
  have hs := nominal_sq level r
  have h0 := nominal_nonneg level r
  have hF : (0 : ℝ) < (faces level : ℝ) := by
    rw [(C145_counts level).1]
    positivity
  have hsizes : ∀ x ∈ s.faceSize, 0 ≤ x := by
    rw [e2]
    intro x hx
    obtain ⟨a, -, rfl⟩ := List.mem_map.1 hx
    exact Real.sqrt_nonneg a
  have hmin0 := hsizes _ h1
  have hmean0 : 0 ≤ s.mean := hmin0.trans h4
  have key : nominal level r ^ 2 = s.mean ^ 2 + s.std ^ 2 := by
    have : (faces level : ℝ) * nominal level r ^ 2 = (faces level : ℝ) * (s.mean ^ 2 + s.std ^ 2) := by
      rw [hs, ← hlen, ← h7, h8, hcover]
    exact mul_left_cancel₀ hF.ne' this
  have hmn : s.mean ≤ nominal level r := by
    apply le_of_sq_le_sq' h0
    nlinarith [sq_nonneg s.std]
  refine ⟨hs, h4.trans hmn, ?_, hmn, ?_⟩
  · -- all sizes at most max, so the total area at most n * max²
    have hmax0 : 0 ≤ s.max := hmin0.trans ((h3 _ h1).2)
    have hsum : s.area ≤ (faces level : ℝ) * s.max ^ 2 := by
      have hb : ∀ a ∈ s.faceArea, a ≤ s.max ^ 2 := by
        intro a ha
        have h10 : Real.sqrt a ∈ s.faceSize := by
          rw [e2]; exact List.mem_map_of_mem ha
        have h11 := (h3 _ h10).2
        have h12 : 0 ≤ a := by
          rw [e1] at ha
          obtain ⟨b, hb, rfl⟩ := List.mem_map.1 ha
          exact mul_nonneg (hu b hb) (sq_nonneg r)
        have := Real.sq_sqrt h12
        nlinarith [Real.sqrt_nonneg a]
      have := sum_le_of_le s.faceArea _ hb
      have hl : s.faceArea.length = faces level := by rw [e1, List.length_map, hlen]
      rw [hl] at this
      exact this
    have : (faces level : ℝ) * nominal level r ^ 2 ≤ (faces level : ℝ) * s.max ^ 2 := by
      rw [hs, ← hcover, ← h8]
      exact hsum
    exact le_of_sq_le_sq' hmax0 (le_of_mul_le_mul_left this hF)
  · constructor
    · intro he
      rw [he] at key
      have : s.std ^ 2 = 0 := by linarith
      exact pow_eq_zero_iff (two_ne_zero) |>.1 this
    · intro he
      rw [he] at key
      have : s.mean ^ 2 = nominal level r ^ 2 := by rw [key]; ring
      exact (sq_eq_sq₀ hmean0 h0).1 this

/-- C145 (setting): a level is accepted exactly when it is not negative, and a whole number is kept. -/
theorem C145_level_partial (v : ℝ) :
    ((∃ n, setLevel v = some n) ↔ 0 ≤ v) ∧ ∀ n : ℕ, setLevel (n : ℝ) = some n := by
  constructor
  · unfold setLevel
    by_cases h : v < 0
    · simp [h]
    · simp [h, not_lt.1 h]
  · intro n
    unfold setLevel
    rw [if_neg (not_lt.2 (Nat.cast_nonneg n)), Nat.floor_natCast]

/-- C145 (setting) refuted: a value that is not a whole number is not rejected, although the message says
that the level must be a non-negative integer; it is cut down to the whole number below. -/
theorem C145_level_fails (n : ℕ) (f : ℝ) (h0 : 0 < f) (h1 : f < 1) :
    setLevel (n + f) = some n ∧ ((n : ℝ) + f ≠ n) := by
  have hn := Nat.cast_nonneg (α := ℝ) n
  constructor
  · unfold setLevel
    rw [if_neg (by linarith)]
    congr 1
    rw [Nat.floor_eq_iff (by linarith)]
    constructor <;> linarith
  · linarith

/-- C145 (histories): as long as the level is not assigned again, the nominal size is that of the mesh,
however often it has been read. -/
theorem C145_read_partial (v radius : ℝ) (s : Ico) (h : Ico.make v = some s) (ops : List Op)
    (ho : ∀ o ∈ ops, o = .read) :
    ((s.run radius ops).pix radius).1 = nominal (s.run radius ops).mesh radius := by
  have key : ∀ (ops : List Op) (s : Ico), s.level = s.mesh →
      (s.cached = none ∨ s.cached = some (nominal s.mesh radius)) → (∀ o ∈ ops, o = .read) →
      (((s.run radius ops).pix radius).1 = nominal (s.run radius ops).mesh radius) := by
    intro ops
    induction ops with
    | nil =>
      intro s hl hc _
      show (s.pix radius).1 = nominal s.mesh radius
      unfold Ico.pix
      rcases hc with hc | hc <;> rw [hc]
      · simp [hl]
    | cons o os ih =>
      intro s hl hc ho
      have := ho o List.mem_cons_self
      subst this
      show (((s.pix radius).2.run radius os).pix radius).1 = nominal ((s.pix radius).2.run radius os).mesh radius
      apply ih
      · unfold Ico.pix
        rcases hc with hc | hc <;> rw [hc] <;> exact hl
      · unfold Ico.pix
        rcases hc with hc | hc <;> rw [hc]
        · right; simp [hl]
        · right; simp [hc]
      · intro o ho'
        exact ho o (List.mem_cons_of_mem _ ho')
  unfold Ico.make at h
  rw [Option.map_eq_some_iff] at h
  obtain ⟨n, -, rfl⟩ := h
  exact key ops _ rfl (Or.inl rfl) ho

/-- The level at the first reading of the size in a history that starts at level `n`, or at its end if it is never read. -/
noncomputable def firstRead : ℕ → List Op → ℕ
  | n, [] => n
  | n, .read :: _ => n
  | n, .assign v :: ops => firstRead (if v < 0 then n else ⌊v⌋₊) ops

/-- C145 (histories): after any history the size that is read is the one of the level that was set at the first reading, while the
mesh is still the one the surface was made with. -/
theorem C145_history (v radius : ℝ) (s : Ico) (h : Ico.make v = some s) (ops : List Op) :
    ((s.run radius ops).pix radius).1 = nominal (firstRead ⌊v⌋₊ ops) radius ∧ (s.run radius ops).mesh = ⌊v⌋₊ := by
  have mesh : ∀ (ops : List Op) (s : Ico), (s.run radius ops).mesh = s.mesh := by
    intro ops
    induction ops with
    | nil => intro s; rfl
    | cons o os ih =>
      intro s
      show ((s.step radius o).run radius os).mesh = s.mesh
      rw [ih]
      cases o with
      | read =>
        show (s.pix radius).2.mesh = s.mesh
        unfold Ico.pix
        split <;> rfl
      | assign w =>
        show ((s.assign w).getD s).mesh = s.mesh
        unfold Ico.assign
        cases setLevel w <;> rfl
  have kept : ∀ (ops : List Op) (s : Ico) (p : ℝ), s.cached = some p → ((s.run radius ops).pix radius).1 = p := by
    intro ops
    induction ops with
    | nil =>
      intro s p hp
      show (s.pix radius).1 = p
      unfold Ico.pix
      rw [hp]
    | cons o os ih =>
      intro s p hp
      show (((s.step radius o).run radius os).pix radius).1 = p
      apply ih
      cases o with
      | read =>
        show (s.pix radius).2.cached = some p
        unfold Ico.pix
        rw [hp]; exact hp
      | assign w =>
        show ((s.assign w).getD s).cached = some p
        unfold Ico.assign
        cases setLevel w <;> exact hp
  have first : ∀ (ops : List Op) (s : Ico), s.cached = none →
      ((s.run radius ops).pix radius).1 = nominal (firstRead s.level ops) radius := by
    intro ops
    induction ops with
    | nil =>
      intro s hc
      show (s.pix radius).1 = nominal s.level radius
      unfold Ico.pix
      rw [hc]
    | cons o os ih =>
      intro s hc
      cases o with
      | read =>
        show (((s.pix radius).2.run radius os).pix radius).1 = nominal s.level radius
        apply kept
        unfold Ico.pix
        rw [hc]
      | assign w =>
        show ((((s.assign w).getD s).run radius os).pix radius).1 = _
        unfold Ico.assign setLevel
        by_cases hw : w < 0
        · rw [if_pos hw]
          show ((s.run radius os).pix radius).1 = _
          rw [ih s hc, firstRead, if_pos hw]
        · rw [if_neg hw]
          show ((Ico.run radius { s with level := ⌊w⌋₊ } os).pix radius).1 = _
          rw [ih { s with level := ⌊w⌋₊ } hc, firstRead, if_neg hw]
  unfold Ico.make setLevel at h
  by_cases hv : v < 0
  · rw [if_pos hv] at h; cases h
  rw [if_neg hv] at h
  obtain rfl : (⟨⌊v⌋₊, none, ⌊v⌋₊⟩ : Ico) = s := Option.some.inj h
  exact ⟨first ops _ rfl, mesh ops _⟩

/-- C145 (histories) refuted: a new level takes effect or not depending on whether the size was read
before.  After reading it, the new level leaves it unchanged; without reading it, the size changes
although the mesh is still the old one. -/
theorem C145_read_fails (radius : ℝ) (a b : ℕ) (hab : a ≠ b) (hr : 0 < radius) :
    ∃ s, Ico.make a = some s ∧
      ((s.run radius [.read, .assign b]).pix radius).1 = nominal a radius ∧
      ((s.run radius [.assign b]).pix radius).1 = nominal b radius ∧
      (s.run radius [.assign b]).mesh = a ∧ nominal b radius ≠ nominal a radius := by
  refine ⟨⟨a, none, a⟩, ?_, ?_, ?_, ?_, ?_⟩
  · show (setLevel a).map _ = _
    rw [(C145_level_partial a).2]; rfl
  · simp [Ico.run, Ico.step, Ico.pix, Ico.assign, (C145_level_partial 0).2]
  · simp [Ico.run, Ico.step, Ico.pix, Ico.assign, (C145_level_partial 0).2]
  · simp [Ico.run, Ico.step, Ico.assign, (C145_level_partial 0).2]
  · intro he
    have h1 := nominal_sq a radius
    have h2 := nominal_sq b radius
    rw [he, ← h1] at h2
    have hpos : 0 < nominal a radius ^ 2 := by
      have hp : 0 < 4 * Real.pi * radius ^ 2 := by have := Real.pi_pos; positivity
      rw [← h1] at hp
      have hF : (0 : ℝ) ≤ (faces a : ℝ) := Nat.cast_nonneg _
      by_contra hc
      have := sq_nonneg (nominal a radius)
      have h0 : nominal a radius ^ 2 = 0 := by linarith [not_lt.1 hc]
      rw [h0] at hp
      simp at hp
    have h3 : (faces b : ℝ) = faces a := mul_right_cancel₀ hpos.ne' h2
    have h4 : faces b = faces a := by exact_mod_cast h3
    rw [(C145_counts b).1, (C145_counts a).1] at h4
    have h5 : 4 ^ b = 4 ^ a := by omega
    exact hab (Nat.pow_right_injective (le_refl 2 |>.trans (by norm_num : 2 ≤ 4)) h5).symm

/-- C145 (arbitrary size): the setter keeps every positive size, rejects the others, and without a
value uses the size of which a million faces cover the body. -/
theorem C145_arbitrary (radius : ℝ) (v : ℝ) :
    (setPix radius (some v) = if 0 < v then some v else none) ∧
    ∃ d, setPix radius none = some d ∧ 0 ≤ d ∧ 1000000 * d ^ 2 = 4 * Real.pi * radius ^ 2 := by
  have hp := Real.pi_pos
  constructor
  · show (if v ≤ 0 then none else some v) = _
    by_cases h : 0 < v
    · rw [if_neg (not_le.2 h), if_pos h]
    · rw [if_pos (not_lt.1 h), if_neg h]
  · refine ⟨_, rfl, by positivity, ?_⟩
    rw [mul_pow, Real.sq_sqrt (by positivity)]
    ring

/-! ### Non-vacuity -/

example : ∃ s, compute [1, 4] 2 = some s ∧ s.min ≤ s.mean ∧ s.area = 20 := by
  obtain ⟨s, hs⟩ := (C144_total [1, 4] 2).2 (by simp)
  have hu : ∀ a ∈ [(1 : ℝ), 4], 0 ≤ a := by simp
  have h := C144_statistics _ _ s hs hu
  exact ⟨s, hs, h.2.2.2.1, by rw [h.2.2.2.2.2.2.2]; norm_num⟩

example : ∃ (u : List ℝ) (s : Sizes), compute u 1 = some s ∧ (∀ a ∈ u, 0 ≤ a) ∧ u.length = faces 0 ∧
    u.sum = 4 * Real.pi ∧ s.mean = nominal 0 1 := by
  have hf : faces 0 = 12 := rfl
  have hu : ∀ a ∈ List.replicate 12 (Real.pi / 3), 0 ≤ a := by
    intro a ha
    rw [List.eq_of_mem_replicate ha]
    have := Real.pi_pos
    positivity
  have hsum : (List.replicate 12 (Real.pi / 3)).sum = 4 * Real.pi := by
    rw [List.sum_replicate]; simp; ring
  obtain ⟨s, hs⟩ := (C144_total (List.replicate 12 (Real.pi / 3)) 1).2 (by simp)
  have h := C145_nominal 0 1 _ s hs hu (by rw [hf]; simp) hsum
  refine ⟨_, s, hs, hu, by rw [hf]; simp, hsum, ?_⟩
  obtain ⟨e1, e2, e3, e4, e5, ⟨e6, e6'⟩, e7, e7'⟩ := compute_eq hs
  have hall : ∀ x ∈ s.faceSize, x = Real.sqrt (Real.pi / 3) := by
    rw [e2, e1]
    intro x hx
    simp only [List.map_replicate] at hx
    rw [List.eq_of_mem_replicate hx]
    norm_num
  have h1 := hall _ e6
  have h2 := hall _ e7
  have h3 := h.2.1
  have h4 := h.2.2.1
  have h5 := (C144_statistics _ _ s hs hu).2.2.2.1
  have h6 := h.2.2.2.1
  linarith

example : ∃ s, Ico.make 3 = some s ∧ ((s.run 1 [.read, .read]).pix 1).1 = nominal 3 1 := by
  have e : setLevel 3 = some 3 := by exact_mod_cast (C145_level_partial 0).2 3
  have hm : Ico.make 3 = some ⟨3, none, 3⟩ := by
    show (setLevel 3).map _ = _
    rw [e]; rfl
  exact ⟨_, hm, C145_read_partial 3 1 _ hm _ (by simp)⟩

end Verif.MeshSize
