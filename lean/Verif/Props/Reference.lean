import Verif.Model.Measure
import Mathlib.Tactic.Linarith
import Mathlib.Tactic.NormNum
import Mathlib.Tactic.Ring
import Mathlib.Algebra.Order.BigOperators.Group.List
import Mathlib.Analysis.InnerProductSpace.PiL2
import Mathlib.Analysis.InnerProductSpace.Projection.FiniteDimensional

namespace Verif.Measure

/-! ### Specification -/

/-- Height of the plane with coefficients `c` at a point. -/
def plane (c : ℝ × ℝ × ℝ) (p : Point) : ℝ := c.1 * p.x + c.2.1 * p.y + c.2.2

/-- The solver returns a plane of least squares. -/
def LeastSquares (lstsq : List Point → ℝ × ℝ × ℝ) : Prop :=
  ∀ (ps : List Point) (c : ℝ × ℝ × ℝ), (ps.map fun p => (plane (lstsq ps) p - p.z) ^ 2).sum ≤ (ps.map fun p => (plane c p - p.z) ^ 2).sum

/-- The same region with a plane added to its elevations. -/
def tilt (t : ℝ × ℝ × ℝ) (p : Point) : Point := { p with z := p.z + plane t p }

theorem misfit_eq (ps : List Point) (c : ℝ × ℝ × ℝ) : misfit ps c = (ps.map fun p => (plane c p - p.z) ^ 2).sum := rfl

/-- Two planes of least squares agree at the points they are fitted to. -/
theorem minimisers_agree {ps : List Point} {c c' : ℝ × ℝ × ℝ} (h : ∀ e, misfit ps c ≤ misfit ps e)
    (h' : ∀ e, misfit ps c' ≤ misfit ps e) : ∀ p ∈ ps, plane c p = plane c' p := by
  have key : ∀ qs : List Point, misfit qs ((c.1 + c'.1) / 2, (c.2.1 + c'.2.1) / 2, (c.2.2 + c'.2.2) / 2)
      = (misfit qs c + misfit qs c') / 2 - (qs.map fun p => (plane c p - plane c' p) ^ 2).sum / 4 := by
    intro qs
    induction qs with
    | nil => simp [misfit]
    | cons q qs ih =>
      simp only [misfit, plane, List.map_cons, List.sum_cons] at *
      rw [ih]
      ring
  have h1 := h ((c.1 + c'.1) / 2, (c.2.1 + c'.2.1) / 2, (c.2.2 + c'.2.2) / 2)
  have h2 := h' ((c.1 + c'.1) / 2, (c.2.1 + c'.2.1) / 2, (c.2.2 + c'.2.2) / 2)
  rw [key] at h1 h2
  have hs : (ps.map fun p => (plane c p - plane c' p) ^ 2).sum ≤ 0 := by linarith
  intro p hp
  have h3 : (plane c p - plane c' p) ^ 2 ≤ (ps.map fun p => (plane c p - plane c' p) ^ 2).sum :=
    List.single_le_sum (by
      intro x hx
      simp only [List.mem_map] at hx
      obtain ⟨q, _, rfl⟩ := hx
      positivity) _ (List.mem_map.mpr ⟨p, hp, rfl⟩)
  have h4 : plane c p - plane c' p = 0 := by
    have := sq_nonneg (plane c p - plane c' p)
    exact pow_eq_zero_iff (n := 2) (by norm_num) |>.mp (le_antisymm (h3.trans hs) this)
  linarith

theorem misfit_tilt (ps : List Point) (t c : ℝ × ℝ × ℝ) :
    misfit (ps.map (tilt t)) c = misfit ps (c.1 - t.1, c.2.1 - t.2.1, c.2.2 - t.2.2) := by
  simp only [misfit, List.map_map]
  congr 1
  apply List.map_congr_left
  intro p _
  simp only [Function.comp, tilt, plane]
  ring

/-- The points within the radius. -/
noncomputable def within (radius : ℝ) (ps : List Point) : List Point :=
  open Classical in ps.filter fun p => decide (p.dist ≤ radius)

theorem desloped_eq (lstsq : List Point → ℝ × ℝ × ℝ) (radius : ℝ) (ps : List Point)
    (h5 : 5 ≤ (within radius ps).length) :
    desloped lstsq radius ps =
      ps.map fun p => open Classical in if p.dist ≤ radius then p.z - plane (lstsq (within radius ps)) p else 0 := by
  classical
  unfold desloped reference
  have : ¬ (ps.filter fun p => decide (p.dist ≤ radius)).length < 5 := by
    unfold within at h5
    omega
  simp only [if_neg this, List.zipWith_map_right, List.zipWith_self]
  apply List.map_congr_left
  intro p _
  by_cases h : p.dist ≤ radius
  · simp only [if_pos h]
    congr 1
  · simp [if_neg h]

theorem desloped_small (lstsq : List Point → ℝ × ℝ × ℝ) (radius : ℝ) (ps : List Point)
    (h5 : (within radius ps).length < 5) : desloped lstsq radius ps = ps.map fun _ => 0 := by
  classical
  unfold desloped reference
  unfold within at h5
  simp only [if_pos h5, List.zipWith_map_right, List.zipWith_self, sub_self]

/-- Tilting or raising the region leaves the elevations after subtraction of the reference plane as they are. -/
theorem C113_tilt (lstsq : List Point → ℝ × ℝ × ℝ) (hl : LeastSquares lstsq) (radius : ℝ) (ps : List Point)
    (t : ℝ × ℝ × ℝ) : desloped lstsq radius (ps.map (tilt t)) = desloped lstsq radius ps := by
  classical
  have hw : within radius (ps.map (tilt t)) = (within radius ps).map (tilt t) := by
    unfold within
    rw [List.filter_map]
    rfl
  by_cases h5 : 5 ≤ (within radius ps).length
  · rw [desloped_eq _ _ _ h5, desloped_eq _ _ _ (by rw [hw, List.length_map]; exact h5), hw, List.map_map]
    apply List.map_congr_left
    intro p hp
    set c' := lstsq ((within radius ps).map (tilt t)) with hc'
    have hag : plane (c'.1 - t.1, c'.2.1 - t.2.1, c'.2.2 - t.2.2) p = plane (lstsq (within radius ps)) p ∨ ¬ p.dist ≤ radius := by
      by_cases hd : p.dist ≤ radius
      · left
        refine minimisers_agree (ps := within radius ps) ?_ (fun e => hl _ e) p ?_
        · intro e
          rw [← misfit_tilt]
          have := hl ((within radius ps).map (tilt t)) (e.1 + t.1, e.2.1 + t.2.1, e.2.2 + t.2.2)
          rw [← misfit_eq, ← misfit_eq, misfit_tilt _ t (e.1 + t.1, _, _)] at this
          simpa using this
        · unfold within
          exact List.mem_filter.mpr ⟨hp, by simpa using hd⟩
      · exact Or.inr hd
    simp only [Function.comp]
    have htd : (tilt t p).dist = p.dist := rfl
    by_cases hd : p.dist ≤ radius
    · rcases hag with h | h
      · rw [if_pos hd, if_pos (htd ▸ hd), ← h]
        simp only [plane, tilt]
        ring
      · exact absurd hd h
    · rw [if_neg hd, if_neg (htd ▸ hd)]
  · push Not at h5
    rw [desloped_small _ _ _ h5, desloped_small _ _ _ (by rw [hw, List.length_map]; exact h5), List.map_map]
    rfl

/-- A region that is a plane comes out level. -/
theorem C113_plane (lstsq : List Point → ℝ × ℝ × ℝ) (hl : LeastSquares lstsq) (radius : ℝ) (ps : List Point)
    (t : ℝ × ℝ × ℝ) (hp : ∀ p ∈ ps, p.z = plane t p) : ∀ z ∈ desloped lstsq radius ps, z = 0 := by
  classical
  intro z hz
  by_cases h5 : 5 ≤ (within radius ps).length
  · rw [desloped_eq _ _ _ h5] at hz
    obtain ⟨p, hp', rfl⟩ := List.mem_map.mp hz
    split_ifs with hd
    · have hz0 : misfit (within radius ps) t = 0 := by
        rw [misfit_eq]
        apply List.sum_eq_zero
        intro x hx
        obtain ⟨q, hq, rfl⟩ := List.mem_map.mp hx
        have : q ∈ ps := (List.mem_filter.mp hq).1
        simp [hp q this]
      have := minimisers_agree (ps := within radius ps) (c := lstsq (within radius ps)) (c' := t) (fun e => hl _ e)
        (fun e => by
          rw [hz0, misfit_eq]
          apply List.sum_nonneg
          intro x hx
          obtain ⟨q, _, rfl⟩ := List.mem_map.mp hx
          positivity) p (List.mem_filter.mpr ⟨hp', by simpa using hd⟩)
      rw [hp p hp', this, sub_self]
    · rfl
  · push Not at h5
    rw [desloped_small _ _ _ h5] at hz
    obtain ⟨_, _, rfl⟩ := List.mem_map.mp hz
    rfl

/-- Nothing is added on balance: the elevations after subtraction sum to zero. -/
theorem C113_balance (lstsq : List Point → ℝ × ℝ × ℝ) (hl : LeastSquares lstsq) (radius : ℝ) (ps : List Point) :
    (desloped lstsq radius ps).sum = 0 := by
  classical
  by_cases h5 : 5 ≤ (within radius ps).length
  · rw [desloped_eq _ _ _ h5]
    set c := lstsq (within radius ps) with hc
    have e : (ps.map fun p => if p.dist ≤ radius then p.z - plane c p else 0).sum
        = ((within radius ps).map fun p => p.z - plane c p).sum := by
      unfold within
      clear_value c
      clear hc h5
      induction ps with
      | nil => simp
      | cons q qs ih =>
        by_cases hq : q.dist ≤ radius <;> simp [hq, ih]
    rw [e]
    set ws := within radius ps with hws
    set S := (ws.map fun p => p.z - plane c p).sum with hS
    have key : ∀ (δ : ℝ) (qs : List Point), misfit qs (c.1, c.2.1, c.2.2 + δ)
        = misfit qs c - 2 * δ * (qs.map fun p => p.z - plane c p).sum + δ ^ 2 * qs.length := by
      intro δ qs
      induction qs with
      | nil => simp [misfit]
      | cons q qs ih =>
        simp only [misfit, plane, List.map_cons, List.sum_cons, List.length_cons] at *
        rw [ih]
        push_cast
        ring
    have hn : (0 : ℝ) < ws.length := by
      have : 0 < ws.length := by omega
      exact_mod_cast this
    have h1 := hl ws (c.1, c.2.1, c.2.2 + S / ws.length)
    rw [← misfit_eq, ← misfit_eq, key] at h1
    have h2 : 2 * (S / ws.length) * S - (S / ws.length) ^ 2 * ws.length = S ^ 2 / ws.length := by
      field_simp
      ring
    have h3 : S ^ 2 / ws.length ≤ 0 := by rw [← h2]; linarith
    have h4 : S ^ 2 ≤ 0 := by
      rw [div_le_iff₀ hn] at h3
      linarith
    exact pow_eq_zero_iff (n := 2) (by norm_num) |>.mp (le_antisymm h4 (sq_nonneg S))
  · push Not at h5
    rw [desloped_small _ _ _ h5]
    simp

/-- With fewer than five faces in the circle everything comes out at height zero, whatever the elevations: the depth of a
crater that small cannot be told. -/
theorem C113_small_fails (lstsq : List Point → ℝ × ℝ × ℝ) (radius : ℝ) (ps : List Point)
    (h5 : (within radius ps).length < 5) : ∀ z ∈ desloped lstsq radius ps, z = 0 := by
  rw [desloped_small _ _ _ h5]
  simp

/-- Faces outside the circle come out at height zero, whatever their elevation. -/
theorem C113_outside_fails (lstsq : List Point → ℝ × ℝ × ℝ) (radius : ℝ) (ps : List Point) (i : ℕ) (p : Point)
    (hp : ps[i]? = some p) (hd : radius < p.dist) : (desloped lstsq radius ps)[i]? = some 0 := by
  classical
  by_cases h5 : 5 ≤ (within radius ps).length
  · rw [desloped_eq _ _ _ h5]
    simp [hp, not_le.mpr hd]
  · push Not at h5
    rw [desloped_small _ _ _ h5, List.getElem?_map, hp]
    rfl

/-- A plane of least squares exists for every list of points, so that a solver as required exists. -/
theorem leastSquares_exists : ∃ lstsq, LeastSquares lstsq := by
  have h : ∀ ps : List Point, ∃ c, ∀ e, misfit ps c ≤ misfit ps e := by
    intro ps
    let L : (ℝ × ℝ × ℝ) →ₗ[ℝ] EuclideanSpace ℝ (Fin ps.length) :=
      { toFun := fun c => WithLp.toLp 2 fun i => plane c (ps.get i)
        map_add' := fun a b => by
          ext i
          simp only [plane, Prod.fst_add, Prod.snd_add, PiLp.add_apply]
          ring
        map_smul' := fun a b => by
          ext i
          simp only [plane, Prod.smul_fst, Prod.smul_snd, smul_eq_mul, PiLp.smul_apply, RingHom.id_apply]
          ring }
    let y : EuclideanSpace ℝ (Fin ps.length) := WithLp.toLp 2 fun i => (ps.get i).z
    have hm : ∀ c, misfit ps c = ‖y - L c‖ ^ 2 := by
      intro c
      rw [EuclideanSpace.norm_sq_eq, misfit_eq]
      conv_lhs => rw [← List.ofFn_get ps, List.map_ofFn, List.sum_ofFn]
      apply Finset.sum_congr rfl
      intro i _
      simp only [Function.comp, PiLp.sub_apply, Real.norm_eq_abs, sq_abs, y, L, LinearMap.coe_mk, AddHom.coe_mk]
      ring
    obtain ⟨v, hv, hmin⟩ := Submodule.exists_norm_eq_iInf_of_complete_subspace (LinearMap.range L)
      (Submodule.complete_of_finiteDimensional _) y
    obtain ⟨c, rfl⟩ := hv
    refine ⟨c, fun e => ?_⟩
    rw [hm, hm]
    have : ‖y - L c‖ ≤ ‖y - L e‖ := by
      rw [hmin]
      exact ciInf_le ⟨0, by rintro x ⟨w, rfl⟩; exact norm_nonneg _⟩
        (⟨L e, LinearMap.mem_range_self L e⟩ : (LinearMap.range L : Set (EuclideanSpace ℝ (Fin ps.length))))
    exact pow_le_pow_left₀ (norm_nonneg _) this 2
  choose f hf using h
  exact ⟨f, fun ps c => hf ps c⟩

/-- Four faces with a pit of 100 m in one of them. -/
noncomputable def pit : List Point := [⟨0, 0, -100, 0⟩, ⟨1, 0, 0, 1⟩, ⟨0, 1, 0, 1⟩, ⟨-1, 0, 0, 1⟩]

example : (within 1.5 pit).length < 5 ∧ pit ≠ [] := by
  refine ⟨lt_of_le_of_lt (List.length_filter_le _ _) (by simp [pit]), by simp [pit]⟩

end Verif.Measure
