import Verif.Props.Diffusion

/-! Property C136: diffusion is applied in full, as the flow across the edges of the mesh. -/

namespace Verif.Diffusion

/-- The faces on the other side of an edge of a face, for edges between two faces of the region. -/
def across (n : ℕ) (e : Edge) (f : ℕ) : List ℕ :=
  if 0 ≤ e.f1 ∧ e.f1 < n ∧ 0 ≤ e.f2 ∧ e.f2 < n then
    (if e.f1 = f then [e.f2.toNat] else []) ++ (if e.f2 = f then [e.f1.toNat] else [])
  else []

/-- The rate of change of a face: for each edge, the mean diffusivity of the two faces times the slope between them times the length of
the edge, over the area of the face. -/
noncomputable def rate (m : Mesh) (kappa h : ℕ → ℝ) (f : ℕ) : ℝ :=
  (m.edges.map fun e => ((across m.n e f).map fun g => (kappa f + kappa g) / 2 * ((h g - h f) / e.dist) * e.len).sum).sum / m.area f

/-- One explicit time step. -/
noncomputable def forward (m : Mesh) (kappa : ℕ → ℝ) (dt : ℝ) (h : ℕ → ℝ) : ℕ → ℝ := fun f => h f + dt * rate m kappa h f

theorem fluxes_eq (m : Mesh) (kappa h : ℕ → ℝ) (es : List Edge) (d : ℕ → ℝ) (f : ℕ) :
    fluxes m kappa h es d f = d f +
      2 * ((es.map fun e => ((across m.n e f).map fun g => (kappa f + kappa g) / 2 * ((h g - h f) / e.dist) * e.len).sum).sum / m.area f) := by
  induction es generalizing d with
  | nil => simp [fluxes]
  | cons e es ih =>
    unfold fluxes
    rw [ih, addFlux_apply, List.map_cons, List.sum_cons]
    rcases he : edgeFaces m.n e with _ | ⟨a, b⟩
    · have : across m.n e f = [] := by
        unfold edgeFaces at he
        unfold across
        split_ifs at he with hc
        rw [if_neg hc]
      simp [this]
    · unfold edgeFaces at he
      split_ifs at he with hc
      simp only [Option.some.injEq, Prod.mk.injEq] at he
      obtain ⟨ha, hb⟩ := he
      have hac : across m.n e f = (if f = a then [b] else []) ++ (if f = b then [a] else []) := by
        unfold across
        rw [if_pos hc, ha, hb]
        have e1 : (e.f1 = (f : ℤ)) ↔ f = a := by omega
        have e2 : (e.f2 = (f : ℤ)) ↔ f = b := by omega
        simp only [e1, e2]
      rw [hac]
      simp only
      by_cases h1 : f = a <;> by_cases h2 : f = b
      · subst h1; subst h2; simp
      · subst h1; simp [h2]; ring
      · subst h2; simp [h1]; ring
      · simp [h1, h2]

theorem diffStep_eq (m : Mesh) (kappa h : ℕ → ℝ) (dt : ℝ) (d : ℕ → ℝ) :
    (fun f => h f + diffStep m kappa h (dt / 2) d f) = forward m kappa dt (fun f => h f + d f) := by
  funext f
  unfold diffStep forward rate
  rw [fluxes_eq]
  ring

theorem iterate_eq (m : Mesh) (kappa h : ℕ → ℝ) (dt : ℝ) (k : ℕ) (d : ℕ → ℝ) :
    (fun f => h f + (diffStep m kappa h (dt / 2))^[k] d f) = (forward m kappa dt)^[k] (fun f => h f + d f) := by
  induction k generalizing d with
  | zero => rfl
  | succ k ih =>
    rw [Function.iterate_succ_apply, Function.iterate_succ_apply, ih, diffStep_eq]

theorem inverseSum_eq (m : Mesh) (hm : m.Wf) (kappa : ℕ → ℝ) (hk : ∀ f < m.n, 0 ≤ kappa f) (es : List Edge)
    (hes : ∀ e ∈ es, e ∈ m.edges) (inv : ℕ → ℝ) (f : ℕ) :
    inverseSum m kappa es inv f = inv f +
      2 * (es.map fun e => ((across m.n e f).map fun g => (kappa f + kappa g) / 2 / e.dist * e.len).sum).sum / m.area f := by
  induction es generalizing inv with
  | nil => simp [inverseSum]
  | cons e es ih =>
    unfold inverseSum
    have pd := hm.dist e (hes e (by simp))
    rw [ih (fun x hx => hes x (by simp [hx])), addInverse_apply m kappa inv e pd, List.map_cons, List.sum_cons]
    rcases he : edgeFaces m.n e with _ | ⟨a, b⟩
    · have : across m.n e f = [] := by
        unfold edgeFaces at he
        unfold across
        split_ifs at he with hc
        rw [if_neg hc]
      simp [this]
    · obtain ⟨la, lb⟩ := edgeFaces_lt he
      have ka := hk a la
      have kb := hk b lb
      have pa := hm.area a la
      have pb := hm.area b lb
      unfold edgeFaces at he
      split_ifs at he with hc
      simp only [Option.some.injEq, Prod.mk.injEq] at he
      obtain ⟨ha, hb⟩ := he
      have hac : across m.n e f = (if f = a then [b] else []) ++ (if f = b then [a] else []) := by
        unfold across
        rw [if_pos hc, ha, hb]
        have e1 : (e.f1 = (f : ℤ)) ↔ f = a := by omega
        have e2 : (e.f2 = (f : ℤ)) ↔ f = b := by omega
        simp only [e1, e2]
      rw [hac]
      simp only
      have hz : ¬ 0 < kappa a + kappa b → kappa a + kappa b = 0 := fun h => by linarith
      by_cases h0 : 0 < kappa a + kappa b
      · rw [if_pos h0]
        by_cases h1 : f = a <;> by_cases h2 : f = b
        · subst h1; subst h2; simp; field_simp; ring
        · subst h1; simp [h2]; field_simp; ring
        · subst h2; simp [h1]; field_simp; ring
        · simp [h1, h2]
      · rw [if_neg h0]
        have z := hz h0
        by_cases h1 : f = a <;> by_cases h2 : f = b
        · subst h1; subst h2; simp [z]
        · subst h1; simp [h2, z]
        · subst h2
          have z' : kappa f + kappa a = 0 := by linarith
          simp [h1, z']
        · simp [h1, h2]

/-- C136: diffusion of a surface is a number of equal, stable time steps of the flow between neighbouring faces that add up to the whole
time; their number depends on the mesh and the diffusivity only. -/
theorem C136_whole_time (m : Mesh) (hm : m.Wf) (kappa : ℕ → ℝ) (hk : ∀ f < m.n, 0 ≤ kappa f) :
    ∃ N : ℕ, 0 < N ∧ (∀ h, ∀ f < m.n, h f + diffusion m kappa h f = (forward m kappa (1 / N))^[N] h f) ∧
      ∀ f < m.n, 1 / (N : ℝ) *
        (m.edges.map fun e => ((across m.n e f).map fun g => (kappa f + kappa g) * e.len / e.dist).sum).sum ≤ m.area f := by
  have hst : ∀ f, (m.edges.map fun e => ((across m.n e f).map fun g => (kappa f + kappa g) * e.len / e.dist).sum).sum =
      2 * (m.edges.map fun e => ((across m.n e f).map fun g => (kappa f + kappa g) / 2 / e.dist * e.len).sum).sum := by
    intro f
    have hin : ∀ (e : Edge) (l : List ℕ), (l.map fun g => (kappa f + kappa g) * e.len / e.dist).sum =
        2 * (l.map fun g => (kappa f + kappa g) / 2 / e.dist * e.len).sum := by
      intro e l
      induction l with
      | nil => simp
      | cons a l ih => rw [List.map_cons, List.map_cons, List.sum_cons, List.sum_cons, ih]; ring
    generalize m.edges = es
    induction es with
    | nil => simp
    | cons e es ih => rw [List.map_cons, List.map_cons, List.sum_cons, List.sum_cons, ih, hin]; ring
  have hsum : ∀ f, inverseSum m kappa m.edges (fun _ => 0) f * m.area f =
      if m.area f = 0 then 0 else
      (m.edges.map fun e => ((across m.n e f).map fun g => (kappa f + kappa g) * e.len / e.dist).sum).sum := by
    intro f
    rw [inverseSum_eq m hm kappa hk m.edges (fun e he => he), hst]
    by_cases h0 : m.area f = 0
    · simp [h0]
    · rw [if_neg h0]
      field_simp
      ring
  rcases ht : dtMax m kappa with _ | t
  · -- no edge carries any flow
    have hz := (minReciprocal_spec _ _).1 ht
    have hnn := inverseSum_nonneg m hm kappa m.edges (fun e he => he) (fun _ => 0) (by simp)
    have hzero : ∀ f < m.n, inverseSum m kappa m.edges (fun _ => 0) f = 0 := fun f hf => le_antisymm (hz f hf) (hnn f hf)
    have hb : ∀ h : ℕ → ℝ, ∀ f < m.n, -(∑ g ∈ Finset.range m.n, |h g|) ≤ h f ∧ h f ≤ ∑ g ∈ Finset.range m.n, |h g| := by
      intro h f hf
      have : |h f| ≤ ∑ g ∈ Finset.range m.n, |h g| :=
        Finset.single_le_sum (f := fun g => |h g|) (fun g _ => abs_nonneg _) (Finset.mem_range.mpr hf)
      exact abs_le.mp this
    have hflux := fun h => flux_bound m hm kappa hk _ _ h (hb h) m.edges (fun e he => he) (fun _ => 0) (fun _ => 0) (by simp)
    refine ⟨1, Nat.one_pos, ?_, ?_⟩
    · intro h f hf
      have h1 := hflux h f hf
      rw [hzero f hf, zero_mul, zero_mul] at h1
      have h2 : fluxes m kappa h m.edges (fun _ => 0) f = 0 := le_antisymm h1.2 h1.1
      rw [fluxes_eq, zero_add] at h2
      have h3 : rate m kappa h f = 0 := by
        unfold rate
        linarith
      simp only [Function.iterate_one, forward, h3, diffusion, ht]
      ring
    · intro f hf
      have pa := hm.area f hf
      have := hsum f
      rw [hzero f hf, if_neg pa.ne', zero_mul] at this
      rw [← this]
      simp [pa.le]
  · obtain ⟨pt, hx⟩ := (minReciprocal_spec _ _).2 t ht
    have hN : 0 < ⌈1 / t⌉₊ := Nat.ceil_pos.mpr (by positivity)
    have hNr : (0 : ℝ) < (⌈1 / t⌉₊ : ℝ) := by exact_mod_cast hN
    refine ⟨⌈1 / t⌉₊, hN, ?_, ?_⟩
    · intro h f _
      have he := congrFun (iterate_eq m kappa h (1 / (⌈1 / t⌉₊ : ℝ)) ⌈1 / t⌉₊ (fun _ => 0)) f
      simp only [add_zero] at he
      rw [← he]
      simp only [diffusion, ht, if_neg (not_le.mpr pt)]
    · intro f hf
      have pa := hm.area f hf
      have h1 := hsum f
      rw [if_neg pa.ne'] at h1
      rw [← h1]
      have hle : 1 / (⌈1 / t⌉₊ : ℝ) ≤ t := by
        rw [div_le_iff₀ hNr]
        have := Nat.le_ceil (1 / t)
        have h2 : t * (1 / t) ≤ t * (⌈1 / t⌉₊ : ℝ) := mul_le_mul_of_nonneg_left this pt.le
        rwa [mul_one_div_cancel pt.ne'] at h2
      have hnn := inverseSum_nonneg m hm kappa m.edges (fun e he => he) (fun _ => 0) (by simp) f hf
      have hle1 : t * inverseSum m kappa m.edges (fun _ => 0) f ≤ 1 := by
        rcases hnn.eq_or_lt with h0 | h0
        · rw [← h0]; norm_num
        · exact hx f hf h0
      calc 1 / (⌈1 / t⌉₊ : ℝ) * (inverseSum m kappa m.edges (fun _ => 0) f * m.area f)
          ≤ t * (inverseSum m kappa m.edges (fun _ => 0) f * m.area f) := mul_le_mul_of_nonneg_right hle (by positivity)
        _ = t * inverseSum m kappa m.edges (fun _ => 0) f * m.area f := by ring
        _ ≤ 1 * m.area f := mul_le_mul_of_nonneg_right hle1 pa.le
        _ = m.area f := one_mul _

/-- Between two faces of one unit the height flows at the rate of the difference. -/
example : rate twoFaces (fun _ => 1) (fun f => if f = 0 then 1 else 0) 0 = -1 := by
  norm_num [rate, twoFaces, across]

end Verif.Diffusion
