import Mathlib.Tactic.IntervalCases
import Verif.Model.Diffusion
import Mathlib.Tactic.Linarith
import Mathlib.Tactic.Positivity
import Mathlib.Tactic.FieldSimp
import Mathlib.Algebra.BigOperators.Ring.Finset
import Mathlib.Algebra.BigOperators.Group.List.Lemmas
import Mathlib.Algebra.Order.BigOperators.Group.List

/-! Properties C37, C38, C39, C40, C61, C95: diffusion, slope collapse, node interpolation and local
connectivity. -/

namespace Verif.Diffusion

/-- A mesh whose areas and distances are positive and whose edge lengths are not negative. -/
structure Mesh.Wf (m : Mesh) : Prop where
  /-- Areas. -/
  area : ∀ f < m.n, 0 < m.area f
  /-- Distances. -/
  dist : ∀ e ∈ m.edges, 0 < e.dist
  /-- Lengths. -/
  len : ∀ e ∈ m.edges, 0 ≤ e.len

/-- Volume: elevation times area, summed over the faces of the region. -/
noncomputable def volume (m : Mesh) (h : ℕ → ℝ) : ℝ := ∑ f ∈ Finset.range m.n, h f * m.area f

theorem edgeFaces_lt {n : ℕ} {e : Edge} {a b : ℕ} (h : edgeFaces n e = some (a, b)) : a < n ∧ b < n := by
  unfold edgeFaces at h
  split_ifs at h with hc
  simp only [Option.some.injEq, Prod.mk.injEq] at h
  omega

/-! ### C37 -/

theorem addFlux_apply (m : Mesh) (kappa h d : ℕ → ℝ) (e : Edge) (f : ℕ) :
    addFlux m kappa h d e f = match edgeFaces m.n e with
      | none => d f
      | some (a, b) => d f + (if f = a then (kappa a + kappa b) * (h b - h a) / e.dist * e.len / m.area a else 0)
          - (if f = b then (kappa a + kappa b) * (h b - h a) / e.dist * e.len / m.area b else 0) := by
  unfold addFlux
  rcases edgeFaces m.n e with _ | ⟨a, b⟩
  · rfl
  · simp only [Function.update_apply]
    by_cases h1 : f = b
    · subst h1
      by_cases h2 : f = a
      · subst h2; simp
      · simp [h2]
    · by_cases h2 : f = a
      · subst h2; simp [h1]
      · simp [h1, h2]

theorem volume_addFlux (m : Mesh) (hm : m.Wf) (kappa h d : ℕ → ℝ) (e : Edge) :
    volume m (addFlux m kappa h d e) = volume m d := by
  unfold volume
  rcases he : edgeFaces m.n e with _ | ⟨a, b⟩
  · apply Finset.sum_congr rfl
    intro f _
    rw [addFlux_apply, he]
  · obtain ⟨ha, hb⟩ := edgeFaces_lt he
    have pa := (hm.area a ha).ne'
    have pb := (hm.area b hb).ne'
    set q := (kappa a + kappa b) * (h b - h a) / e.dist * e.len with hq
    have e1 : ∀ f ∈ Finset.range m.n, addFlux m kappa h d e f * m.area f =
        d f * m.area f + (if f = a then q else 0) - (if f = b then q else 0) := by
      intro f _
      rw [addFlux_apply, he]
      simp only
      rw [← hq]
      by_cases h1 : f = a <;> by_cases h2 : f = b
      · subst h1; subst h2; simp
      · subst h1; simp [h2, add_mul, pa]
      · subst h2; simp [h1, sub_mul, pb]
      · simp [h1, h2]
    rw [Finset.sum_congr rfl e1, Finset.sum_sub_distrib, Finset.sum_add_distrib, Finset.sum_ite_eq',
      Finset.sum_ite_eq', if_pos (Finset.mem_range.mpr ha), if_pos (Finset.mem_range.mpr hb)]
    ring

theorem volume_fluxes (m : Mesh) (hm : m.Wf) (kappa h : ℕ → ℝ) (es : List Edge) (d : ℕ → ℝ) :
    volume m (fluxes m kappa h es d) = volume m d := by
  induction es generalizing d with
  | nil => rfl
  | cons e es ih =>
    unfold fluxes
    rw [ih, volume_addFlux m hm]

theorem volume_diffStep (m : Mesh) (hm : m.Wf) (kappa h : ℕ → ℝ) (fac : ℝ) (d : ℕ → ℝ) :
    volume m (diffStep m kappa h fac d) = volume m d := by
  have h0 := volume_fluxes m hm kappa (fun g => h g + d g) m.edges (fun _ => 0)
  unfold volume at h0 ⊢
  unfold diffStep
  simp only [zero_mul, Finset.sum_const_zero] at h0
  have : ∀ f ∈ Finset.range m.n, (d f + fac * fluxes m kappa (fun g => h g + d g) m.edges (fun _ => 0) f) * m.area f
      = d f * m.area f + fac * (fluxes m kappa (fun g => h g + d g) m.edges (fun _ => 0) f * m.area f) := by
    intro f _; ring
  rw [Finset.sum_congr rfl this, Finset.sum_add_distrib, ← Finset.mul_sum, h0]
  ring

theorem iterate_inv {α : Type} {P : α → Prop} {step : α → α} (hs : ∀ x, P x → P (step x)) (k : ℕ) (x : α)
    (hx : P x) : P (step^[k] x) := by
  induction k generalizing x with
  | zero => exact hx
  | succ k ih => exact ih _ (hs x hx)

/-- Diffusion conserves volume, for every elevation and every diffusivity. -/
theorem C37_volume (m : Mesh) (hm : m.Wf) (kappa h : ℕ → ℝ) :
    volume m (fun f => h f + diffusion m kappa h f) = volume m h := by
  have hz : volume m (fun _ => 0) = 0 := by simp [volume]
  have hd : volume m (diffusion m kappa h) = 0 := by
    unfold diffusion
    rcases dtMax m kappa with _ | t
    · exact hz
    · simp only
      split_ifs
      · exact hz
      · exact iterate_inv (P := fun d => volume m d = 0)
          (fun d hd => (volume_diffStep m hm kappa h _ d).trans hd) _ _ hz
  unfold volume at hd ⊢
  simp only [add_mul, Finset.sum_add_distrib, hd, add_zero]

/-! ### C38 -/

theorem addInverse_apply (m : Mesh) (kappa inv : ℕ → ℝ) (e : Edge) (he : 0 < e.dist) (f : ℕ) :
    addInverse m kappa inv e f = match edgeFaces m.n e with
      | none => inv f
      | some (a, b) => if 0 < kappa a + kappa b then
          inv f + (if f = a then (kappa a + kappa b) * e.len / (e.dist * m.area a) else 0)
          + (if f = b then (kappa a + kappa b) * e.len / (e.dist * m.area b) else 0)
          else inv f := by
  unfold addInverse
  rw [if_neg (not_le.mpr he)]
  rcases edgeFaces m.n e with _ | ⟨a, b⟩
  · rfl
  · simp only
    have e2 : 2 * (0.5 * (kappa a + kappa b)) = kappa a + kappa b := by ring
    have e3 : (0.5 * (kappa a + kappa b) > 0) ↔ 0 < kappa a + kappa b := by
      constructor <;> intro h <;> linarith
    by_cases h0 : 0 < kappa a + kappa b
    · rw [if_pos (e3.mpr h0), if_pos h0, e2]
      simp only [Function.update_apply]
      by_cases h1 : f = b
      · subst h1
        by_cases h2 : f = a
        · subst h2; simp
        · simp [h2]
      · by_cases h2 : f = a
        · subst h2; simp [h1]
        · simp [h1, h2]
    · rw [if_neg (fun h => h0 (e3.mp h)), if_neg h0]

/-- The flux into a face is bounded by the sum of `compute_dt_max` times the distance to the bound. -/
theorem flux_bound (m : Mesh) (hm : m.Wf) (kappa : ℕ → ℝ) (hk : ∀ f < m.n, 0 ≤ kappa f) (lo hi : ℝ)
    (h : ℕ → ℝ) (hb : ∀ f < m.n, lo ≤ h f ∧ h f ≤ hi) (es : List Edge) (hes : ∀ e ∈ es, e ∈ m.edges)
    (d inv : ℕ → ℝ) (hd : ∀ f < m.n, inv f * (lo - h f) ≤ d f ∧ d f ≤ inv f * (hi - h f)) :
    ∀ f < m.n, inverseSum m kappa es inv f * (lo - h f) ≤ fluxes m kappa h es d f ∧
      fluxes m kappa h es d f ≤ inverseSum m kappa es inv f * (hi - h f) := by
  induction es generalizing d inv with
  | nil => exact hd
  | cons e es ih =>
    unfold inverseSum fluxes
    apply ih (fun x hx => hes x (by simp [hx]))
    intro f hf
    have hem := hes e (by simp)
    have pd := hm.dist e hem
    have pl := hm.len e hem
    rw [addInverse_apply m kappa inv e pd, addFlux_apply]
    rcases he : edgeFaces m.n e with _ | ⟨a, b⟩
    · exact hd f hf
    obtain ⟨ha, hb'⟩ := edgeFaces_lt he
    simp only
    have ka := hk a ha
    have kb := hk b hb'
    have pa := hm.area a ha
    have pb := hm.area b hb'
    obtain ⟨d1, d2⟩ := hd f hf
    by_cases h0 : 0 < kappa a + kappa b
    · rw [if_pos h0]
      -- the weight of the edge
      have wa : 0 ≤ (kappa a + kappa b) * e.len / (e.dist * m.area a) := by positivity
      have wb : 0 ≤ (kappa a + kappa b) * e.len / (e.dist * m.area b) := by positivity
      have ea : (kappa a + kappa b) * (h b - h a) / e.dist * e.len / m.area a =
          (kappa a + kappa b) * e.len / (e.dist * m.area a) * (h b - h a) := by field_simp
      have eb : (kappa a + kappa b) * (h b - h a) / e.dist * e.len / m.area b =
          (kappa a + kappa b) * e.len / (e.dist * m.area b) * (h b - h a) := by field_simp
      rw [ea, eb]
      generalize (kappa a + kappa b) * e.len / (e.dist * m.area a) = w1 at *
      generalize (kappa a + kappa b) * e.len / (e.dist * m.area b) = w2 at *
      obtain ⟨la, ua⟩ := hb a ha
      obtain ⟨lb, ub⟩ := hb b hb'
      by_cases h1 : f = a <;> by_cases h2 : f = b
      · subst h1; subst h2
        simp only [if_true]
        constructor <;> nlinarith
      · subst h1
        simp only [if_true, if_neg h2]
        constructor <;> nlinarith
      · subst h2
        simp only [if_true, if_neg h1]
        constructor <;> nlinarith
      · simp only [if_neg h1, if_neg h2, add_zero, sub_zero]
        exact ⟨d1, d2⟩
    · rw [if_neg h0]
      have z : kappa a + kappa b = 0 := by linarith
      simp only [z, zero_mul, zero_div, ite_self, add_zero, sub_zero]
      exact ⟨d1, d2⟩

theorem inverseSum_nonneg (m : Mesh) (hm : m.Wf) (kappa : ℕ → ℝ) (es : List Edge)
    (hes : ∀ e ∈ es, e ∈ m.edges) (inv : ℕ → ℝ) (hi : ∀ f < m.n, 0 ≤ inv f) :
    ∀ f < m.n, 0 ≤ inverseSum m kappa es inv f := by
  induction es generalizing inv with
  | nil => exact hi
  | cons e es ih =>
    unfold inverseSum
    apply ih (fun x hx => hes x (by simp [hx]))
    intro f hf
    have hem := hes e (by simp)
    have pd := hm.dist e hem
    have pl := hm.len e hem
    rw [addInverse_apply m kappa inv e pd]
    rcases he : edgeFaces m.n e with _ | ⟨a, b⟩
    · exact hi f hf
    obtain ⟨ha, hb'⟩ := edgeFaces_lt he
    have pa := hm.area a ha
    have pb := hm.area b hb'
    have := hi f hf
    simp only
    split_ifs <;> positivity

theorem minReciprocal_spec (inv : ℕ → ℝ) (n : ℕ) :
    (minReciprocal inv n = none → ∀ f < n, inv f ≤ 0) ∧
    (∀ t, minReciprocal inv n = some t → 0 < t ∧ ∀ f < n, 0 < inv f → t * inv f ≤ 1) := by
  induction n with
  | zero => simp [minReciprocal]
  | succ n ih =>
    unfold minReciprocal
    by_cases hp : inv n > 0
    · rw [if_pos hp]
      rcases hr : minReciprocal inv n with _ | x
      · refine ⟨by simp, ?_⟩
        intro t ht
        simp only [Option.some.injEq] at ht
        subst ht
        refine ⟨by positivity, ?_⟩
        intro f hf h0
        rcases Nat.lt_succ_iff_lt_or_eq.mp hf with h | rfl
        · exact absurd h0 (not_lt.mpr (ih.1 hr f h))
        · field_simp; exact le_refl _
      · refine ⟨by simp, ?_⟩
        intro t ht
        simp only [Option.some.injEq] at ht
        subst ht
        obtain ⟨px, hx⟩ := ih.2 x hr
        refine ⟨lt_min px (by positivity), ?_⟩
        intro f hf h0
        rcases Nat.lt_succ_iff_lt_or_eq.mp hf with h | rfl
        · exact le_trans (mul_le_mul_of_nonneg_right (min_le_left _ _) h0.le) (hx f h h0)
        · refine le_trans (mul_le_mul_of_nonneg_right (min_le_right _ _) h0.le) ?_
          field_simp; exact le_refl _
    · rw [if_neg hp]
      refine ⟨?_, ?_⟩
      · intro h f hf
        rcases Nat.lt_succ_iff_lt_or_eq.mp hf with h' | rfl
        · exact ih.1 h f h'
        · exact not_lt.mp hp
      · intro t ht
        obtain ⟨pt, hx⟩ := ih.2 t ht
        refine ⟨pt, ?_⟩
        intro f hf h0
        rcases Nat.lt_succ_iff_lt_or_eq.mp hf with h' | rfl
        · exact hx f h' h0
        · exact absurd h0 hp

theorem diffStep_bound (m : Mesh) (hm : m.Wf) (kappa : ℕ → ℝ) (hk : ∀ f < m.n, 0 ≤ kappa f) (lo hi : ℝ)
    (h : ℕ → ℝ) (fac : ℝ) (hfac : 0 ≤ fac)
    (hstab : ∀ f < m.n, fac * inverseSum m kappa m.edges (fun _ => 0) f ≤ 1)
    (d : ℕ → ℝ) (hb : ∀ f < m.n, lo ≤ h f + d f ∧ h f + d f ≤ hi) :
    ∀ f < m.n, lo ≤ h f + diffStep m kappa h fac d f ∧ h f + diffStep m kappa h fac d f ≤ hi := by
  intro f hf
  obtain ⟨b1, b2⟩ := flux_bound m hm kappa hk lo hi (fun g => h g + d g) hb m.edges (fun e he => he)
    (fun _ => 0) (fun _ => 0) (by simp) f hf
  obtain ⟨c1, c2⟩ := hb f hf
  have hs := hstab f hf
  unfold diffStep
  generalize inverseSum m kappa m.edges (fun _ => 0) f = s at *
  generalize fluxes m kappa (fun g => h g + d g) m.edges (fun _ => 0) f = q at *
  have e1 := mul_le_mul_of_nonneg_left b1 hfac
  have e2 := mul_le_mul_of_nonneg_left b2 hfac
  constructor <;> nlinarith

/-- Diffusion never creates new extrema: bounds on the elevations of the region are kept. -/
theorem C38_maximum_principle (m : Mesh) (hm : m.Wf) (kappa : ℕ → ℝ) (hk : ∀ f < m.n, 0 ≤ kappa f)
    (h : ℕ → ℝ) (lo hi : ℝ) (hb : ∀ f < m.n, lo ≤ h f ∧ h f ≤ hi) :
    ∀ f < m.n, lo ≤ h f + diffusion m kappa h f ∧ h f + diffusion m kappa h f ≤ hi := by
  unfold diffusion
  rcases ht : dtMax m kappa with _ | t
  · simpa using hb
  · simp only
    split_ifs with h0
    · simpa using hb
    · obtain ⟨pt, hx⟩ := (minReciprocal_spec _ _).2 t ht
      have hnn := inverseSum_nonneg m hm kappa m.edges (fun e he => he) (fun _ => 0) (by simp)
      have hc : 1 / t ≤ (⌈1 / t⌉₊ : ℝ) := Nat.le_ceil _
      have h1t : 0 < 1 / t := by positivity
      have pc : (0 : ℝ) < (⌈1 / t⌉₊ : ℝ) := lt_of_lt_of_le h1t hc
      have hdt : 1 / (⌈1 / t⌉₊ : ℝ) ≤ t := by
        rw [div_le_iff₀ pc]
        have := mul_le_mul_of_nonneg_left hc pt.le
        rwa [mul_one_div_cancel pt.ne'] at this
      apply iterate_inv (P := fun d : ℕ → ℝ => ∀ f < m.n, lo ≤ h f + d f ∧ h f + d f ≤ hi)
      · intro d hd
        apply diffStep_bound m hm kappa hk lo hi h _ (by positivity) _ d hd
        intro f hf
        have hn := hnn f hf
        rcases hn.eq_or_lt with e | e
        · rw [← e]; simp
        · have h1 := hx f hf e
          have h2 : 1 / (⌈1 / t⌉₊ : ℝ) * inverseSum m kappa m.edges (fun _ => 0) f ≤ 1 :=
            le_trans (mul_le_mul_of_nonneg_right hdt hn) h1
          have h3 : 0 ≤ 1 / (⌈1 / t⌉₊ : ℝ) * inverseSum m kappa m.edges (fun _ => 0) f := by positivity
          linarith
      · simpa using hb

/-- A level region stays level. -/
theorem C38_level (m : Mesh) (hm : m.Wf) (kappa : ℕ → ℝ) (hk : ∀ f < m.n, 0 ≤ kappa f) (c : ℝ) (h : ℕ → ℝ)
    (hc : ∀ f < m.n, h f = c) : ∀ f < m.n, diffusion m kappa h f = 0 := by
  intro f hf
  have := C38_maximum_principle m hm kappa hk h c c (fun g hg => by rw [hc g hg]; exact ⟨le_refl _, le_refl _⟩) f hf
  rw [hc f hf] at this
  linarith [this.1, this.2]

/-- Two faces with an edge between them and one edge at the border. -/
def twoFaces : Mesh where
  n := 2
  edges := [⟨0, 1, 1, 1⟩, ⟨0, -1, 1, 1⟩]
  area := fun _ => 1
  faceEdges := fun _ => [0, 1]
  bearing := fun _ _ => 0

example : twoFaces.Wf := ⟨by simp [twoFaces], by simp [twoFaces], by simp [twoFaces]⟩

/-- Diffusion does something: with unit diffusivity half the difference of the two faces flows. -/
theorem C38_flow : diffusion twoFaces (fun _ => 1) (fun f => if f = 0 then 1 else 0) 0 ≠ 0 := by
  have hinv : ∀ f, inverseSum twoFaces (fun _ => 1) twoFaces.edges (fun _ => 0) f =
      if f = 0 then 2 else if f = 1 then 2 else 0 := by
    intro f
    simp only [twoFaces, inverseSum, addInverse, edgeFaces]
    norm_num [Function.update_apply]
    rcases f with _ | _ | f <;> simp
  have hdt : dtMax twoFaces (fun _ => 1) = some (1 / 2) := by
    have h0 := hinv 0
    have h1 := hinv 1
    unfold dtMax
    generalize inverseSum twoFaces (fun _ => 1) twoFaces.edges (fun _ => 0) = I at *
    simp at h0 h1
    simp [twoFaces, minReciprocal, h0, h1]
  unfold diffusion
  rw [hdt]
  norm_num [diffStep, twoFaces, fluxes, addFlux, edgeFaces, Function.update_apply]

/-! ### C39 -/

theorem collapseKappa_nonneg (m : Mesh) (crit : ℝ) (h : ℕ → ℝ) (f : ℕ) :
    0 ≤ collapseKappa m crit h f := by
  unfold collapseKappa
  split_ifs with hs
  · have h1 : 0 ≤ slopeSq m h f := le_trans (mul_self_nonneg crit) hs.le
    have h2 : 0 ≤ slopeSq m h f / (crit * crit) := div_nonneg h1 (mul_self_nonneg crit)
    have h3 : 0 ≤ (dtMax m (fun _ => 1)).getD 0 := by
      rcases ht : dtMax m (fun _ => 1) with _ | t
      · simp
      · exact ((minReciprocal_spec _ _).2 t ht).1.le
    positivity
  · exact le_refl _

/-- The largest slope of the region does not exceed the critical one. -/
def Stable (m : Mesh) (crit : ℝ) (h : ℕ → ℝ) : Prop := ∀ f < m.n, slopeSq m h f ≤ crit ^ 2

/-- A face with a non-zero slope has a neighbour, so unit diffusivity has a finite stable time step. -/
theorem inverseSum_mono (m : Mesh) (hm : m.Wf) (kappa : ℕ → ℝ) (es : List Edge) (hes : ∀ e ∈ es, e ∈ m.edges)
    (inv : ℕ → ℝ) : ∀ f < m.n, inv f ≤ inverseSum m kappa es inv f := by
  induction es generalizing inv with
  | nil => intro f _; exact le_refl _
  | cons e es ih =>
    intro f hf
    unfold inverseSum
    refine le_trans ?_ (ih (fun x hx => hes x (by simp [hx])) _ f hf)
    have hem := hes e (by simp)
    have pd := hm.dist e hem
    have pl := hm.len e hem
    rw [addInverse_apply m kappa inv e pd]
    rcases he : edgeFaces m.n e with _ | ⟨a, b⟩
    · exact le_refl _
    obtain ⟨ha, hb'⟩ := edgeFaces_lt he
    have pa := hm.area a ha
    have pb := hm.area b hb'
    simp only
    have wa : 0 < kappa a + kappa b → 0 ≤ (kappa a + kappa b) * e.len / (e.dist * m.area a) := fun _ => by positivity
    have wb : 0 < kappa a + kappa b → 0 ≤ (kappa a + kappa b) * e.len / (e.dist * m.area b) := fun _ => by positivity
    split_ifs with h0 <;> first | linarith [wa h0, wb h0] | exact le_refl _

theorem inverseSum_pos (m : Mesh) (hm : m.Wf) (es : List Edge) (hes : ∀ e ∈ es, e ∈ m.edges)
    (inv : ℕ → ℝ) (hi : ∀ f < m.n, 0 ≤ inv f) (e : Edge) (he : e ∈ es) (hl : 0 < e.len) (a b : ℕ)
    (hab : edgeFaces m.n e = some (a, b)) : 0 < inverseSum m (fun _ => 1) es inv a := by
  induction es generalizing inv with
  | nil => simp at he
  | cons x es ih =>
    obtain ⟨ha, hb'⟩ := edgeFaces_lt hab
    have hsub : ∀ y ∈ es, y ∈ m.edges := fun y hy => hes y (by simp [hy])
    unfold inverseSum
    by_cases hxe : e ∈ es
    · refine ih hsub _ ?_ hxe
      have := inverseSum_nonneg m hm (fun _ => 1) [x] (fun y hy => hes y (by simp at hy; simp [hy])) inv hi
      simpa [inverseSum] using this
    · have : e = x := by
        rcases List.mem_cons.mp he with h | h
        · exact h
        · exact absurd h hxe
      subst this
      refine lt_of_lt_of_le ?_ (inverseSum_mono m hm _ es hsub _ a ha)
      have pd := hm.dist e (hes e (by simp))
      rw [addInverse_apply m _ inv e pd, hab]
      have pa := hm.area a ha
      have pb := hm.area b hb'
      simp only
      rw [if_pos (by norm_num)]
      have h1 : 0 < (1 + 1) * e.len / (e.dist * m.area a) := by positivity
      have h2 : 0 ≤ (1 + 1) * e.len / (e.dist * m.area b) := by positivity
      have := hi a ha
      simp only [if_true]
      split_ifs <;> linarith

theorem dtMax_of_slope (m : Mesh) (hm : m.Wf) (h : ℕ → ℝ) (f : ℕ) (hs : 0 < slopeSq m h f) :
    ∃ t, dtMax m (fun _ => 1) = some t ∧ 0 < t := by
  have hn : neighbors m f ≠ [] := by
    intro hn
    unfold slopeSq at hs
    rw [hn] at hs
    simp at hs
  obtain ⟨⟨o, d, l⟩, hmem⟩ := List.exists_mem_of_ne_nil _ hn
  unfold neighbors at hmem
  rw [List.mem_filterMap] at hmem
  obtain ⟨id, _, hid⟩ := hmem
  split_ifs at hid with h1
  rcases he : m.edges[id.toNat]? with _ | e
  · rw [he] at hid; cases hid
  rw [he] at hid
  simp only at hid
  rcases hab : edgeFaces m.n e with _ | ⟨a, b⟩
  · rw [hab] at hid; cases hid
  rw [hab] at hid
  simp only at hid
  by_cases h2 : e.dist ≤ 0 ∨ e.len ≤ 0
  · rw [if_pos h2] at hid; cases hid
  push Not at h2
  have hpos := inverseSum_pos m hm m.edges (fun _ h => h) (fun _ => 0) (by simp) e (List.mem_of_getElem? he) h2.2 a b hab
  rcases ht : dtMax m (fun _ => 1) with _ | t
  · have := (minReciprocal_spec _ _).1 ht a (edgeFaces_lt hab).1
    linarith
  · exact ⟨t, rfl, ((minReciprocal_spec _ _).2 t ht).1⟩

/-- A further round is made exactly when some slope is above the critical one. -/
theorem active_iff (m : Mesh) (hm : m.Wf) (crit : ℝ) (h : ℕ → ℝ) :
    active m.n (collapseKappa m crit h) ↔ ¬ Stable m crit h := by
  unfold active Stable
  push Not
  apply exists_congr
  intro f
  apply and_congr_right
  intro _
  unfold collapseKappa
  rw [sq]
  by_cases hs : slopeSq m h f > crit * crit
  · rw [if_pos hs]
    refine ⟨fun _ => hs, fun _ => ?_⟩
    have h1 : 0 < slopeSq m h f := lt_of_le_of_lt (mul_self_nonneg crit) hs
    obtain ⟨t, ht, pt⟩ := dtMax_of_slope m hm h f h1
    rw [ht]
    have h2 : 0 ≤ slopeSq m h f / (crit * crit) := div_nonneg h1.le (mul_self_nonneg crit)
    simp only [Option.getD_some]
    positivity
  · rw [if_neg hs]
    simp only [lt_irrefl, false_iff]
    exact hs

/-- One round of slope collapse of a surface: diffusion of the steep faces. -/
noncomputable def round (m : Mesh) (crit : ℝ) (h : ℕ → ℝ) : ℕ → ℝ :=
  fun f => h f + diffusion m (collapseKappa m crit h) h f

theorem collapseLoop_spec (m : Mesh) (hm : m.Wf) (crit : ℝ) (h : ℕ → ℝ) (n : ℕ) (delta : ℕ → ℝ) :
    ∃ k ≤ n, (fun f => h f + collapseLoop m crit h n delta f) = (round m crit)^[k] (fun f => h f + delta f) ∧
      (∀ j < k, ¬ Stable m crit ((round m crit)^[j] (fun f => h f + delta f))) ∧
      (k = n ∨ Stable m crit (fun f => h f + collapseLoop m crit h n delta f)) := by
  induction n generalizing delta with
  | zero => exact ⟨0, le_refl _, rfl, by simp, Or.inl rfl⟩
  | succ n ih =>
    unfold collapseLoop
    simp only
    by_cases ha : active m.n (collapseKappa m crit fun f => h f + delta f)
    · simp only [if_pos ha]
      obtain ⟨k, hk, h1, h2, h3⟩ := ih (fun f => delta f +
        diffusion m (collapseKappa m crit fun f => h f + delta f) (fun f => h f + delta f) f)
      have hr : (fun f => h f + (delta f + diffusion m (collapseKappa m crit fun f => h f + delta f)
          (fun f => h f + delta f) f)) = round m crit (fun f => h f + delta f) := by
        funext f
        unfold round
        ring
      simp only [hr] at h1 h2
      refine ⟨k + 1, by omega, ?_, ?_, ?_⟩
      · rw [Function.iterate_succ_apply]
        exact h1
      · intro j hj
        rcases j with _ | j
        · exact (active_iff m hm crit _).mp ha
        · rw [Function.iterate_succ_apply]
          exact h2 j (by omega)
      · rcases h3 with h3 | h3
        · left; omega
        · right; exact h3
    · simp only [if_neg ha]
      refine ⟨0, by omega, rfl, by simp, Or.inr ?_⟩
      by_contra hs
      exact ha ((active_iff m hm crit _).mpr hs)

/-- Slope collapse makes rounds of diffusion on steep surfaces only, and ends with a surface without steep
slopes unless it has made 1000 rounds.  The critical slope is not 0. -/
theorem C39_stops (m : Mesh) (hm : m.Wf) (crit : ℝ) (hc : crit ≠ 0) (h : ℕ → ℝ) :
    ∃ k ≤ 1000, (fun f => h f + slopeCollapse m crit h f) = (round m crit)^[k] h ∧
      (∀ j < k, ¬ Stable m crit ((round m crit)^[j] h)) ∧
      (k = 1000 ∨ Stable m crit (fun f => h f + slopeCollapse m crit h f)) := by
  have := collapseLoop_spec m hm crit h 1000 (fun _ => 0)
  simpa [slopeCollapse, hc] using this

/-- With a critical slope of 0 nothing collapses, however steep the surface. -/
theorem C39_zero_fails (m : Mesh) (h : ℕ → ℝ) : slopeCollapse m 0 h = fun _ => 0 := by
  simp [slopeCollapse]

/-- A stable surface is left as it is. -/
theorem C39_stable_unchanged (m : Mesh) (hm : m.Wf) (crit : ℝ) (h : ℕ → ℝ) (hs : Stable m crit h) :
    slopeCollapse m crit h = fun _ => 0 := by
  unfold slopeCollapse
  split_ifs with hc
  · rfl
  unfold collapseLoop
  have : ¬ active m.n (collapseKappa m crit fun f => h f + (fun _ => 0) f) := by
    rw [active_iff m hm]
    simpa using hs
  simp only [if_neg this]

/-- Slope collapse conserves volume and bounds. -/
theorem C39_volume_and_bounds (m : Mesh) (hm : m.Wf) (crit : ℝ) (h : ℕ → ℝ) :
    volume m (fun f => h f + slopeCollapse m crit h f) = volume m h ∧
    ∀ lo hi, (∀ f < m.n, lo ≤ h f ∧ h f ≤ hi) →
      ∀ f < m.n, lo ≤ h f + slopeCollapse m crit h f ∧ h f + slopeCollapse m crit h f ≤ hi := by
  by_cases hc : crit = 0
  · subst hc
    simp only [C39_zero_fails, add_zero, true_and]
    exact fun lo hi hb => hb
  obtain ⟨k, _, hk, _, _⟩ := C39_stops m hm crit hc h
  constructor
  · rw [hk]
    exact iterate_inv (P := fun g => volume m g = volume m h)
      (fun g hg => (C37_volume m hm _ g).trans hg) k h rfl
  · intro lo hi hb f hf
    have := iterate_inv (P := fun g : ℕ → ℝ => ∀ f < m.n, lo ≤ g f ∧ g f ≤ hi) (step := round m crit)
      (fun g hg => C38_maximum_principle m hm _ (fun f _ => collapseKappa_nonneg m crit g f) g lo hi hg) k h hb f hf
    rw [← hk] at this
    exact this

/-- A level surface is stable, so it is left as it is. -/
theorem C39_level (m : Mesh) (hm : m.Wf) (crit c : ℝ) : slopeCollapse m crit (fun _ => c) = fun _ => 0 := by
  apply C39_stable_unchanged m hm
  intro f _
  unfold slopeSq
  simp only [sub_self, zero_mul, zero_div]
  have : ∀ l : List (ℕ × ℝ × ℝ), (l.map fun _ => (0 : ℝ)).sum = 0 := by
    intro l; induction l with
    | nil => rfl
    | cons _ _ ih => simp
  rw [this]
  split_ifs <;> simp <;> positivity

/-- Four faces in a row with a step of 10 between the second and the third. -/
noncomputable def stepMesh : Mesh where
  n := 4
  edges := [⟨0, 1, 1, 1⟩, ⟨1, 2, 1, 1⟩, ⟨2, 3, 1, 1⟩]
  area := fun _ => 1
  faceEdges := fun f => if f = 0 then [0] else if f = 3 then [2] else [(f : ℤ) - 1, f]
  bearing := fun f g => if f < g then Real.pi / 2 else -(Real.pi / 2)

/-- The step. -/
noncomputable def stepHeights : ℕ → ℝ := fun f => if f < 2 then 10 else 0

/-- The theorems of C37 to C39 apply to the step: the mesh is well formed, and the step is not stable for a slope of 1 but is for a
slope of 10. -/
example : stepMesh.Wf ∧ ¬ Stable stepMesh 1 stepHeights ∧ Stable stepMesh 10 stepHeights := by
  have key : ∀ f < 4, slopeSq stepMesh stepHeights f = if f = 1 ∨ f = 2 then 25 else 0 := by
    intro f hf
    interval_cases f <;>
      simp [slopeSq, neighbors, stepMesh, stepHeights, edgeFaces] <;> norm_num
  refine ⟨⟨by simp [stepMesh], by simp [stepMesh], by simp [stepMesh]⟩, ?_, ?_⟩
  · intro h
    have := h 1 (by simp [stepMesh])
    rw [key 1 (by norm_num)] at this
    norm_num at this
  · intro f hf
    rw [key f hf]
    split_ifs <;> norm_num

/-! ### C40 -/

/-- A node's elevation is between the lowest and the highest of its faces; a node without faces gets 0. -/
theorem C40_average (area h : ℕ → ℝ) (row : List ℤ) (ha : ∀ x ∈ row, 0 ≤ x → 0 < area x.toNat) :
    (∀ lo hi, (∃ x ∈ row, 0 ≤ x) → (∀ x ∈ row, 0 ≤ x → lo ≤ h x.toNat ∧ h x.toNat ≤ hi) →
      lo ≤ interpolateNode area h row ∧ interpolateNode area h row ≤ hi) ∧
    ((∀ x ∈ row, x < 0) → interpolateNode area h row = 0) := by
  constructor
  · intro lo hi ⟨x, hx, hx0⟩ hb
    unfold interpolateNode
    simp only
    generalize hfs : (row.filter (0 ≤ ·)).map Int.toNat = fs
    have hmem : ∀ f ∈ fs, 0 < area f ∧ lo ≤ h f ∧ h f ≤ hi := by
      intro f hf
      rw [← hfs] at hf
      obtain ⟨y, hy, rfl⟩ := List.mem_map.mp hf
      rw [List.mem_filter] at hy
      have hy0 : 0 ≤ y := by simpa using hy.2
      exact ⟨ha y hy.1 hy0, hb y hy.1 hy0⟩
    have hne : fs ≠ [] := by
      intro h0
      rw [h0] at hfs
      have := List.map_eq_nil_iff.mp hfs
      rw [List.filter_eq_nil_iff] at this
      exact this x hx (by simpa using hx0)
    have hpos : 0 < (fs.map area).sum := by
      apply List.sum_pos
      · intro y hy
        obtain ⟨f, hf, rfl⟩ := List.mem_map.mp hy
        exact (hmem f hf).1
      · simpa using hne
    rw [if_pos hpos]
    have hlo : lo * (fs.map area).sum ≤ (fs.map fun f => h f * area f).sum := by
      rw [← List.sum_map_mul_left]
      apply List.sum_le_sum
      intro f hf
      exact mul_le_mul_of_nonneg_right (hmem f hf).2.1 (hmem f hf).1.le
    have hhi : (fs.map fun f => h f * area f).sum ≤ hi * (fs.map area).sum := by
      rw [← List.sum_map_mul_left]
      apply List.sum_le_sum
      intro f hf
      exact mul_le_mul_of_nonneg_right (hmem f hf).2.2 (hmem f hf).1.le
    exact ⟨(le_div_iff₀ hpos).mpr hlo, (div_le_iff₀ hpos).mpr hhi⟩
  · intro hneg
    have : (row.filter (0 ≤ ·)) = [] := by
      rw [List.filter_eq_nil_iff]
      intro x hx
      simpa using hneg x hx
    simp [interpolateNode, this]

example : interpolateNode (fun _ => 1) (fun f => if f = 0 then 1 else 3) [0, 1, -1] = 2 := by
  norm_num [interpolateNode]

/-! ### C61 -/

/-- What a global entry stands for in the region: the fill value stays, elements of the region keep their
identity under translation back, all others become the fill value. -/
theorem C61_round_trip (fill : ℤ) (hfill : fill < 0) (table : List (List ℤ)) (rows values : List ℕ) :
    (remap fill table rows values).length = rows.length ∧
    ∀ (i r : ℕ) (row lrow : List ℤ), rows[i]? = some r → table[r]? = some row →
      (remap fill table rows values)[i]? = some lrow →
      lrow.length = row.length ∧ ∀ (j : ℕ) (x y : ℤ), row[j]? = some x → lrow[j]? = some y →
        (x = fill → y = fill) ∧
        (x ≠ fill → x.toNat ∈ values → 0 ≤ y ∧ values[y.toNat]? = some x.toNat) ∧
        (x ≠ fill → x.toNat ∉ values → y = fill) ∧ (0 ≤ y ↔ x ≠ fill ∧ x.toNat ∈ values) := by
  refine ⟨by simp [remap], ?_⟩
  intro i r row lrow hi hr hl
  unfold remap at hl
  rw [List.getElem?_map, hi] at hl
  simp only [Option.map_some, Option.some.injEq] at hl
  rw [List.getD_eq_getElem?_getD, hr] at hl
  simp only [Option.getD_some] at hl
  subst hl
  refine ⟨by simp, ?_⟩
  intro j x y hx hy
  rw [List.getElem?_map, hx] at hy
  simp only [Option.map_some, Option.some.injEq] at hy
  subst hy
  refine ⟨fun h => by simp [h], ?_, ?_, ?_⟩
  · intro h1 h2
    rw [if_neg h1]
    unfold localIndex
    rw [if_pos h2]
    have hlt := List.idxOf_lt_length_of_mem h2
    refine ⟨by omega, ?_⟩
    rw [Int.toNat_natCast, List.getElem?_eq_getElem hlt, List.getElem_idxOf]
  · intro h1 h2
    rw [if_neg h1]
    unfold localIndex
    rw [if_neg h2]
  · by_cases h1 : x = fill
    · simp [h1, hfill]
    · by_cases h2 : x.toNat ∈ values
      · simp [h1, h2, localIndex]
      · simp [h1, h2, localIndex, hfill]

example : remap (-1) [[0, 3], [3, 5]] [1] [2, 3] = [[1, -1]] := by decide

/-! ### C95 -/

/-- The elevation that a node gets from a region is the one it would get on the whole mesh if the faces outside the region did not
exist. -/
theorem C95_exact (fill : ℤ) (hfill : fill < 0) (area h : ℕ → ℝ) (values : List ℕ)
    (row : List ℤ) (hrow : ∀ x ∈ row, x ≠ fill → 0 ≤ x) :
    interpolateNode (fun k => area (values.getD k 0)) (fun k => h (values.getD k 0))
        ((remap fill [row] [0] values).getD 0 []) =
      interpolateNode area h (row.filter fun x => x.toNat ∈ values) := by
  have e : (((remap fill [row] [0] values).getD 0 []).filter (0 ≤ ·)).map
      (fun x => values.getD x.toNat 0) =
        ((row.filter fun x => x.toNat ∈ values).filter (0 ≤ ·)).map Int.toNat := by
    simp only [remap, List.map_cons, List.map_nil, List.getD_cons_zero]
    induction row with
    | nil => rfl
    | cons x row ih =>
      have ih := ih (fun y hy => hrow y (by simp [hy]))
      simp only [List.map_cons]
      by_cases hx : x = fill
      · rw [if_pos hx, List.filter_cons_of_neg (by simpa using hfill), ih]
        by_cases hv : x.toNat ∈ values
        · rw [List.filter_cons_of_pos (l := row) (by simpa using hv),
            List.filter_cons_of_neg (by rw [hx]; simpa using hfill)]
        · rw [List.filter_cons_of_neg (l := row) (by simpa using hv)]
      · have h1 := hrow x (by simp) hx
        by_cases h2 : x.toNat ∈ values
        · have hl : localIndex fill values x.toNat = (values.idxOf x.toNat : ℤ) := by
            unfold localIndex; rw [if_pos h2]
          rw [if_neg hx, hl, List.filter_cons_of_pos (by simp), List.filter_cons_of_pos (l := row) (by simpa using h2),
            List.filter_cons_of_pos (by simpa using h1)]
          simp only [List.map_cons]
          rw [ih]
          congr 1
          have hlt := List.idxOf_lt_length_of_mem h2
          rw [Int.toNat_natCast, List.getD_eq_getElem?_getD, List.getElem?_eq_getElem hlt, List.getElem_idxOf]
          rfl
        · have hl : localIndex fill values x.toNat = fill := by
            unfold localIndex; rw [if_neg h2]
          rw [if_neg hx, hl, List.filter_cons_of_neg (by simpa using hfill), List.filter_cons_of_neg (l := row) (by simpa using h2)]
          exact ih
  unfold interpolateNode
  simp only
  have e1 : ∀ g : ℕ → ℝ, ((((remap fill [row] [0] values).getD 0 []).filter (0 ≤ ·)).map Int.toNat).map
      (fun k => g (values.getD k 0)) =
        (((row.filter fun x => x.toNat ∈ values).filter (0 ≤ ·)).map Int.toNat).map g := by
    intro g
    rw [← e]
    simp [List.map_map, Function.comp_def]
  rw [e1 area]
  have e2 := e1 (fun k => h k * area k)
  rw [e2]

/-- A node whose faces all belong to the region gets the same elevation from the region as from the whole
mesh. -/
theorem C95_interior_partial (fill : ℤ) (hfill : fill < 0) (area h : ℕ → ℝ) (values : List ℕ)
    (row : List ℤ) (hrow : ∀ x ∈ row, x ≠ fill → 0 ≤ x ∧ x.toNat ∈ values) :
    interpolateNode (fun k => area (values.getD k 0)) (fun k => h (values.getD k 0))
        ((remap fill [row] [0] values).getD 0 []) = interpolateNode area h row := by
  rw [C95_exact fill hfill area h values row (fun x hx hn => (hrow x hx hn).1)]
  have e : (row.filter fun x => x.toNat ∈ values).filter (0 ≤ ·) = row.filter (0 ≤ ·) := by
    rw [List.filter_filter]
    apply List.filter_congr
    intro x hx
    by_cases h0 : x = fill
    · subst h0; simp [hfill]
    · simp [hrow x hx h0]
  unfold interpolateNode
  rw [e]

example : (-1 : ℤ) < 0 ∧ ∀ x ∈ [4, 7, -1], x ≠ (-1 : ℤ) → 0 ≤ x ∧ x.toNat ∈ [2, 4, 7] := by decide

/-- Mean of the elevations of the faces, weighted with their areas. -/
noncomputable def weighted (area h : ℕ → ℝ) (fs : List ℕ) : ℝ := (fs.map fun f => h f * area f).sum / (fs.map area).sum

/-- At a node on the border of a region, with faces `row` of which some are in the region and some not, the elevation interpolated in
the region is the one of the whole mesh exactly if the mean of the faces outside is that of the faces inside; otherwise a local update
that changes no face still moves the node. -/
theorem C95_border_iff (fill : ℤ) (hfill : fill < 0) (area h : ℕ → ℝ) (ha : ∀ f, 0 < area f) (values row : List ℕ)
    (hin : ∃ f ∈ row, f ∈ values) (hout : ∃ f ∈ row, f ∉ values) :
    interpolateNode (fun k => area (values.getD k 0)) (fun k => h (values.getD k 0))
        ((remap fill [row.map (fun f : ℕ => (f : ℤ))] [0] values).getD 0 []) =
      interpolateNode area h (row.map (fun f : ℕ => (f : ℤ))) ↔
    weighted area h (row.filter (· ∈ values)) = weighted area h (row.filter (· ∉ values)) := by
  rw [C95_exact fill hfill area h values _ (by simp)]
  have e0 : ∀ l : List ℕ, ((l.map (fun f : ℕ => (f : ℤ))).filter (0 ≤ ·)).map Int.toNat = l := by
    intro l
    rw [List.filter_eq_self.mpr (by simp)]
    simp [Function.comp_def]
  have e1 : ((row.map (fun f : ℕ => (f : ℤ))).filter fun x => decide (x.toNat ∈ values)) =
      (row.filter (· ∈ values)).map (fun f : ℕ => (f : ℤ)) := by
    rw [List.filter_map]
    simp [Function.comp_def]
  have pos : ∀ l : List ℕ, l ≠ [] → 0 < (l.map area).sum := by
    intro l hl
    apply List.sum_pos
    · simp only [List.mem_map]
      rintro _ ⟨f, _, rfl⟩
      exact ha f
    · simpa using hl
  have split : ∀ g : ℕ → ℝ, (row.map g).sum =
      ((row.filter (· ∈ values)).map g).sum + ((row.filter (· ∉ values)).map g).sum := by
    intro g
    induction row with
    | nil => simp
    | cons f row ih =>
      have ih' : (row.map g).sum = ((row.filter (· ∈ values)).map g).sum + ((row.filter (· ∉ values)).map g).sum := by
        clear ih hin hout e1
        induction row with
        | nil => simp
        | cons f row ih =>
          by_cases hf : f ∈ values <;> simp [hf] at ih ⊢ <;> linarith
      by_cases hf : f ∈ values <;> simp [hf] at ih' ⊢ <;> linarith
  have pin := pos (row.filter (· ∈ values)) (by
    obtain ⟨f, h1, h2⟩ := hin
    exact List.ne_nil_of_mem (List.mem_filter.mpr ⟨h1, by simpa using h2⟩))
  have pout := pos (row.filter (· ∉ values)) (by
    obtain ⟨f, h1, h2⟩ := hout
    exact List.ne_nil_of_mem (List.mem_filter.mpr ⟨h1, by simpa using h2⟩))
  unfold interpolateNode weighted
  simp only [e1, e0]
  rw [split area, split (fun f => h f * area f), if_pos pin, if_pos (by linarith)]
  generalize ((row.filter (· ∈ values)).map area).sum = A at *
  generalize ((row.filter (· ∉ values)).map area).sum = B at *
  generalize ((row.filter (· ∈ values)).map fun f => h f * area f).sum = S
  generalize ((row.filter (· ∉ values)).map fun f => h f * area f).sum = T
  rw [div_eq_div_iff pin.ne' (by linarith), div_eq_div_iff pin.ne' pout.ne']
  constructor <;> intro h <;> nlinarith

example : (∃ f ∈ [0, 1], f ∈ [0]) ∧ (∃ f ∈ [0, 1], f ∉ [0]) := by decide

/-- At the border of a region the node elevation depends on the region: a node between face 0 (elevation
0) and face 1 (elevation 1) has elevation 1/2 on the mesh, but 0 when it is interpolated in a region that
contains only face 0.  So a local update that changes nothing still moves border nodes. -/
theorem C95_border_fails :
    interpolateNode (fun _ => 1) (fun f => if f = 1 then 1 else 0) [0, 1] = 1 / 2 ∧
    interpolateNode (fun k => (fun _ => (1 : ℝ)) ([0].getD k 0))
      (fun k => (fun f => if f = 1 then (1 : ℝ) else 0) ([0].getD k 0))
      ((remap (-1) [[0, 1]] [0] [0]).getD 0 []) = 0 := by
  constructor
  · norm_num [interpolateNode]
  · norm_num [interpolateNode, remap, localIndex]

end Verif.Diffusion
