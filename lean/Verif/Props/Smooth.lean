import Verif.Props.DiffusionTime
import Mathlib.Tactic.LinearCombination
import Mathlib.Algebra.Order.Ring.Abs

/-! Property C216: diffusion and slope collapse smooth a surface. -/

namespace Verif.Diffusion

/-- How rough a surface is: the squared height above a level, weighted with the areas of the faces. -/
noncomputable def roughness (m : Mesh) (c : ℝ) (h : ℕ → ℝ) : ℝ := ∑ f ∈ Finset.range m.n, m.area f * (h f - c) ^ 2

/-- No edge that material can flow across (between two faces of the region that do not both have zero diffusivity, of positive length) has different
heights on its two sides. -/
def Settled (m : Mesh) (kappa h : ℕ → ℝ) : Prop :=
  ∀ e ∈ m.edges, ∀ a < m.n, ∀ b < m.n, e.f1 = a → e.f2 = b → 0 < kappa a + kappa b → 0 < e.len → h a = h b

/-- The conductance of an edge between two faces. -/
noncomputable def conduct (kappa : ℕ → ℝ) (e : Edge) (f g : ℕ) : ℝ := (kappa f + kappa g) / 2 / e.dist * e.len

/-- All faces across the edges of a face, with the conductance. -/
noncomputable def links (m : Mesh) (kappa : ℕ → ℝ) (es : List Edge) (f : ℕ) : List (ℝ × ℕ) :=
  es.flatMap fun e => (across m.n e f).map fun g => (conduct kappa e f g, g)

theorem rate_links (m : Mesh) (kappa h : ℕ → ℝ) (f : ℕ) :
    rate m kappa h f = ((links m kappa m.edges f).map fun x => x.1 * (h x.2 - h f)).sum / m.area f := by
  unfold rate links
  congr 1
  generalize m.edges = es
  induction es with
  | nil => rfl
  | cons e es ih =>
    rw [List.map_cons, List.sum_cons, ih, List.flatMap_cons, List.map_append, List.sum_append, List.map_map]
    congr 3
    funext g
    simp only [Function.comp, conduct]
    ring

theorem stable_links (m : Mesh) (kappa : ℕ → ℝ) (f : ℕ) :
    (m.edges.map fun e => ((across m.n e f).map fun g => (kappa f + kappa g) * e.len / e.dist).sum).sum =
      2 * ((links m kappa m.edges f).map fun x => x.1).sum := by
  unfold links
  generalize m.edges = es
  induction es with
  | nil => simp
  | cons e es ih =>
    rw [List.map_cons, List.sum_cons, ih, List.flatMap_cons, List.map_append, List.sum_append, List.map_map, mul_add]
    congr 1
    rw [← List.sum_map_mul_left]
    congr 2
    funext g
    simp only [Function.comp, conduct]
    ring

theorem across_mem {n : ℕ} {e : Edge} {f g : ℕ} (h : g ∈ across n e f) : g < n ∧ f < n := by
  unfold across at h
  split_ifs at h with hc h1 h2 <;> simp at h <;> omega

theorem links_nonneg (m : Mesh) (hm : m.Wf) (kappa : ℕ → ℝ) (hk : ∀ f < m.n, 0 ≤ kappa f) (es : List Edge)
    (hes : ∀ e ∈ es, e ∈ m.edges) (f : ℕ) : ∀ x ∈ links m kappa es f, 0 ≤ x.1 := by
  intro x hx
  obtain ⟨e, he, hx⟩ := List.mem_flatMap.mp hx
  obtain ⟨g, hg, rfl⟩ := List.mem_map.mp hx
  obtain ⟨h1, h2⟩ := across_mem hg
  have k1 := hk f h2
  have k2 := hk g h1
  have pd := hm.dist e (hes e he)
  have pl := hm.len e (hes e he)
  unfold conduct
  positivity

/-- Cauchy-Schwarz for weighted sums. -/
theorem weighted_sq {α : Type} (l : List α) (q d : α → ℝ) (hq : ∀ x ∈ l, 0 ≤ q x) :
    (l.map fun x => q x * d x).sum ^ 2 ≤ (l.map q).sum * (l.map fun x => q x * d x ^ 2).sum ∧
      0 ≤ (l.map q).sum ∧ 0 ≤ (l.map fun x => q x * d x ^ 2).sum := by
  induction l with
  | nil => simp
  | cons a l ih =>
    obtain ⟨h1, h2, h3⟩ := ih fun x hx => hq x (by simp [hx])
    have ha := hq a (by simp)
    simp only [List.map_cons, List.sum_cons]
    generalize (l.map fun x => q x * d x).sum = S at *
    generalize (l.map q).sum = Q at *
    generalize (l.map fun x => q x * d x ^ 2).sum = T at *
    have key : 2 * (S * d a) ≤ T + Q * d a ^ 2 := by
      have hnn : 0 ≤ T + Q * d a ^ 2 := by positivity
      refine le_of_abs_le (abs_le_of_sq_le_sq ?_ hnn)
      nlinarith [sq_nonneg (T - Q * d a ^ 2), mul_le_mul_of_nonneg_right h1 (sq_nonneg (d a))]
    refine ⟨?_, by positivity, by positivity⟩
    nlinarith [mul_le_mul_of_nonneg_left key ha]

theorem conduct_comm (kappa : ℕ → ℝ) (e : Edge) (f g : ℕ) : conduct kappa e f g = conduct kappa e g f := by
  unfold conduct
  ring

/-- Both faces of an edge are in the region. -/
def Inner (m : Mesh) (e : Edge) : Prop := 0 ≤ e.f1 ∧ e.f1 < m.n ∧ 0 ≤ e.f2 ∧ e.f2 < m.n

open Classical in
/-- A sum over all faces and the faces across one edge has two terms. -/
theorem edge_sum (m : Mesh) (e : Edge) (F : ℕ → ℕ → ℝ) :
    ∑ f ∈ Finset.range m.n, ((across m.n e f).map (F f)).sum =
      if Inner m e then F e.f1.toNat e.f2.toNat + F e.f2.toNat e.f1.toNat else 0 := by
  by_cases hc : Inner m e
  · rw [if_pos hc]
    have hc' := hc
    unfold Inner at hc'
    have : ∀ f ∈ Finset.range m.n, ((across m.n e f).map (F f)).sum =
        (if f = e.f1.toNat then F f e.f2.toNat else 0) + (if f = e.f2.toNat then F f e.f1.toNat else 0) := by
      intro f _
      unfold across
      rw [if_pos hc']
      have e1 : (e.f1 = (f : ℤ)) ↔ f = e.f1.toNat := by omega
      have e2 : (e.f2 = (f : ℤ)) ↔ f = e.f2.toNat := by omega
      simp only [e1, e2, List.map_append, List.sum_append]
      congr 1 <;> split_ifs <;> simp
    rw [Finset.sum_congr rfl this, Finset.sum_add_distrib, Finset.sum_ite_eq', Finset.sum_ite_eq',
      if_pos (Finset.mem_range.mpr (by omega)), if_pos (Finset.mem_range.mpr (by omega))]
  · rw [if_neg hc]
    apply Finset.sum_eq_zero
    intro f _
    unfold across
    unfold Inner at hc
    rw [if_neg hc]
    rfl

open Classical in
/-- The loss of roughness at an edge. -/
noncomputable def loss (m : Mesh) (kappa h : ℕ → ℝ) (e : Edge) : ℝ :=
  if Inner m e then conduct kappa e e.f1.toNat e.f2.toNat * (h e.f1.toNat - h e.f2.toNat) ^ 2 else 0

theorem loss_nonneg (m : Mesh) (hm : m.Wf) (kappa : ℕ → ℝ) (hk : ∀ f < m.n, 0 ≤ kappa f) (h : ℕ → ℝ) (e : Edge) (he : e ∈ m.edges) :
    0 ≤ loss m kappa h e := by
  unfold loss
  split_ifs with hc
  · have k1 := hk e.f1.toNat (by unfold Inner at hc; omega)
    have k2 := hk e.f2.toNat (by unfold Inner at hc; omega)
    have pd := hm.dist e he
    have pl := hm.len e he
    unfold conduct
    positivity
  · exact le_refl _

theorem links_sum (m : Mesh) (kappa : ℕ → ℝ) (es : List Edge) (G : ℕ → ℝ × ℕ → ℝ) :
    ∑ f ∈ Finset.range m.n, ((links m kappa es f).map (G f)).sum =
      (es.map fun e => ∑ f ∈ Finset.range m.n, ((across m.n e f).map fun g => G f (conduct kappa e f g, g)).sum).sum := by
  induction es with
  | nil => simp [links]
  | cons e es ih =>
    rw [List.map_cons, List.sum_cons, ← ih, ← Finset.sum_add_distrib]
    apply Finset.sum_congr rfl
    intro f _
    rw [links, List.flatMap_cons, List.map_append, List.sum_append, List.map_map]
    rfl

theorem flow_sum (m : Mesh) (kappa h : ℕ → ℝ) :
    ∑ f ∈ Finset.range m.n, h f * ((links m kappa m.edges f).map fun x => x.1 * (h x.2 - h f)).sum =
      -(m.edges.map (loss m kappa h)).sum := by
  have e1 : ∀ f ∈ Finset.range m.n, h f * ((links m kappa m.edges f).map fun x => x.1 * (h x.2 - h f)).sum =
      ((links m kappa m.edges f).map fun x => h f * (x.1 * (h x.2 - h f))).sum := fun f _ => (List.sum_map_mul_left ..).symm
  rw [Finset.sum_congr rfl e1, links_sum m kappa m.edges (fun f x => h f * (x.1 * (h x.2 - h f))), ← neg_one_mul,
    ← List.sum_map_mul_left]
  congr 2
  funext e
  rw [edge_sum m e (fun f g => h f * (conduct kappa e f g * (h g - h f)))]
  simp only [loss]
  split_ifs
  · rw [conduct_comm kappa e e.f2.toNat]
    ring
  · simp

theorem square_sum (m : Mesh) (kappa h : ℕ → ℝ) :
    ∑ f ∈ Finset.range m.n, ((links m kappa m.edges f).map fun x => x.1 * (h x.2 - h f) ^ 2).sum =
      2 * (m.edges.map (loss m kappa h)).sum := by
  rw [links_sum m kappa m.edges (fun f x => x.1 * (h x.2 - h f) ^ 2), ← List.sum_map_mul_left]
  congr 2
  funext e
  rw [edge_sum m e (fun f g => conduct kappa e f g * (h g - h f) ^ 2)]
  simp only [loss]
  split_ifs
  · rw [conduct_comm kappa e e.f2.toNat]
    ring
  · simp

/-- A stable time step. -/
def Stable' (m : Mesh) (kappa : ℕ → ℝ) (dt : ℝ) : Prop :=
  ∀ f < m.n, dt * (2 * ((links m kappa m.edges f).map fun x => x.1).sum) ≤ m.area f

/-- One stable time step lowers the roughness by the loss at all edges, or more. -/
theorem forward_roughness (m : Mesh) (hm : m.Wf) (kappa : ℕ → ℝ) (hk : ∀ f < m.n, 0 ≤ kappa f) (dt : ℝ) (hdt : 0 ≤ dt)
    (hs : Stable' m kappa dt) (h : ℕ → ℝ) :
    roughness m 0 (forward m kappa dt h) ≤ roughness m 0 h - dt * (m.edges.map (loss m kappa h)).sum := by
  have hterm : ∀ f ∈ Finset.range m.n, m.area f * (forward m kappa dt h f - 0) ^ 2 ≤
      m.area f * (h f - 0) ^ 2 + 2 * dt * (h f * ((links m kappa m.edges f).map fun x => x.1 * (h x.2 - h f)).sum) +
        dt / 2 * ((links m kappa m.edges f).map fun x => x.1 * (h x.2 - h f) ^ 2).sum := by
    intro f hf
    have hf := Finset.mem_range.mp hf
    have pa := hm.area f hf
    obtain ⟨h1, h2, h3⟩ := weighted_sq (links m kappa m.edges f) (fun x => x.1) (fun x => h x.2 - h f)
      (links_nonneg m hm kappa hk m.edges (fun e he => he) f)
    have hst := hs f hf
    unfold forward
    rw [rate_links]
    generalize ((links m kappa m.edges f).map fun x => x.1 * (h x.2 - h f)).sum = S at *
    generalize ((links m kappa m.edges f).map fun x => x.1).sum = Q at *
    generalize ((links m kappa m.edges f).map fun x => x.1 * (h x.2 - h f) ^ 2).sum = T at *
    have e1 : m.area f * (h f + dt * (S / m.area f) - 0) ^ 2 =
        m.area f * (h f - 0) ^ 2 + 2 * dt * (h f * S) + dt * (dt * S ^ 2) / m.area f := by
      field_simp
      ring
    rw [e1]
    have e2 : dt * (dt * S ^ 2) / m.area f ≤ dt / 2 * T := by
      rw [div_le_iff₀ pa]
      have h4 : dt * S ^ 2 ≤ dt * (Q * T) := mul_le_mul_of_nonneg_left h1 hdt
      have h5 : dt * (2 * Q) * T ≤ m.area f * T := mul_le_mul_of_nonneg_right hst h3
      have h6 : dt * S ^ 2 ≤ m.area f * T / 2 := by linarith
      have h7 := mul_le_mul_of_nonneg_left h6 hdt
      linarith
    linarith
  have hsum := Finset.sum_le_sum hterm
  rw [Finset.sum_add_distrib, Finset.sum_add_distrib, ← Finset.mul_sum, ← Finset.mul_sum, flow_sum, square_sum] at hsum
  unfold roughness
  linarith

theorem rate_shift (m : Mesh) (kappa h : ℕ → ℝ) (c : ℝ) (f : ℕ) : rate m kappa (fun g => h g - c) f = rate m kappa h f := by
  rw [rate_links, rate_links]
  congr 3
  funext x
  ring

theorem forward_roughness_at (m : Mesh) (hm : m.Wf) (kappa : ℕ → ℝ) (hk : ∀ f < m.n, 0 ≤ kappa f) (dt : ℝ) (hdt : 0 ≤ dt)
    (hs : Stable' m kappa dt) (c : ℝ) (h : ℕ → ℝ) :
    roughness m c (forward m kappa dt h) ≤ roughness m c h - dt * (m.edges.map (loss m kappa h)).sum := by
  have h0 := forward_roughness m hm kappa hk dt hdt hs (fun g => h g - c)
  have e1 : roughness m 0 (forward m kappa dt fun g => h g - c) = roughness m c (forward m kappa dt h) := by
    unfold roughness forward
    apply Finset.sum_congr rfl
    intro f _
    rw [rate_shift]
    ring
  have e2 : roughness m 0 (fun g => h g - c) = roughness m c h := by simp [roughness]
  have e3 : (loss m kappa fun g => h g - c) = loss m kappa h := by
    funext e
    unfold loss
    split_ifs
    · ring
    · rfl
  rwa [e1, e2, e3] at h0

theorem losses_nonneg (m : Mesh) (hm : m.Wf) (kappa : ℕ → ℝ) (hk : ∀ f < m.n, 0 ≤ kappa f) (h : ℕ → ℝ) :
    0 ≤ (m.edges.map (loss m kappa h)).sum := by
  apply List.sum_nonneg
  intro x hx
  obtain ⟨e, he, rfl⟩ := List.mem_map.mp hx
  exact loss_nonneg m hm kappa hk h e he

/-- The roughness after diffusion, with the loss of its first time step. -/
theorem roughness_loss (m : Mesh) (hm : m.Wf) (kappa : ℕ → ℝ) (hk : ∀ f < m.n, 0 ≤ kappa f) :
    ∃ dt : ℝ, 0 < dt ∧ ∀ c h, roughness m c (fun f => h f + diffusion m kappa h f) ≤
      roughness m c h - dt * (m.edges.map (loss m kappa h)).sum := by
  obtain ⟨N, hN, he, hst⟩ := C136_whole_time m hm kappa hk
  have hNr : (0 : ℝ) < N := by exact_mod_cast hN
  have hdt : (0 : ℝ) < 1 / N := by positivity
  have hs : Stable' m kappa (1 / N) := by
    intro f hf
    have := hst f hf
    rwa [stable_links] at this
  refine ⟨1 / N, hdt, fun c h => ?_⟩
  have e1 : roughness m c (fun f => h f + diffusion m kappa h f) = roughness m c ((forward m kappa (1 / N))^[N] h) := by
    unfold roughness
    apply Finset.sum_congr rfl
    intro f hf
    simp only
    rw [he h f (Finset.mem_range.mp hf)]
  rw [e1]
  obtain ⟨k, rfl⟩ : ∃ k, N = k + 1 := ⟨N - 1, by omega⟩
  rw [Function.iterate_succ_apply]
  have h1 := forward_roughness_at m hm kappa hk _ hdt.le hs c h
  have h2 := iterate_inv (P := fun g => roughness m c g ≤ roughness m c (forward m kappa (1 / ((k + 1 : ℕ) : ℝ)) h))
    (step := forward m kappa (1 / ((k + 1 : ℕ) : ℝ)))
    (fun g hg => by
      have h3 := forward_roughness_at m hm kappa hk _ hdt.le hs c g
      have h4 := mul_nonneg hdt.le (losses_nonneg m hm kappa hk g)
      linarith) k _ (le_refl _)
  linarith

/-- C216: diffusion never makes a surface rougher, with respect to any level. -/
theorem C216_roughness (m : Mesh) (hm : m.Wf) (kappa : ℕ → ℝ) (hk : ∀ f < m.n, 0 ≤ kappa f) (c : ℝ) (h : ℕ → ℝ) :
    roughness m c (fun f => h f + diffusion m kappa h f) ≤ roughness m c h := by
  obtain ⟨dt, hdt, hr⟩ := roughness_loss m hm kappa hk
  have h1 := hr c h
  have h2 := mul_nonneg hdt.le (losses_nonneg m hm kappa hk h)
  linarith

theorem settled_of_loss (m : Mesh) (hm : m.Wf) (kappa : ℕ → ℝ) (hk : ∀ f < m.n, 0 ≤ kappa f) (h : ℕ → ℝ)
    (hz : (m.edges.map (loss m kappa h)).sum ≤ 0) : Settled m kappa h := by
  intro e he a ha b hb h1 h2 hp hl
  have hin : Inner m e := by unfold Inner; omega
  have hle : loss m kappa h e ≤ (m.edges.map (loss m kappa h)).sum := by
    apply List.single_le_sum
    · intro x hx
      obtain ⟨e', he', rfl⟩ := List.mem_map.mp hx
      exact loss_nonneg m hm kappa hk h e' he'
    · exact List.mem_map.mpr ⟨e, he, rfl⟩
  have hl0 : loss m kappa h e ≤ 0 := hle.trans hz
  have ea : e.f1.toNat = a := by omega
  have eb : e.f2.toNat = b := by omega
  unfold loss at hl0
  rw [if_pos hin, ea, eb] at hl0
  have pd := hm.dist e he
  have pc : 0 < conduct kappa e a b := by
    unfold conduct
    positivity
  have h3 : (h a - h b) ^ 2 = 0 := by
    have := sq_nonneg (h a - h b)
    by_contra hne
    have : 0 < (h a - h b) ^ 2 := lt_of_le_of_ne this (Ne.symm hne)
    have := mul_pos pc this
    linarith
  have := pow_eq_zero_iff (two_ne_zero) |>.mp h3
  linarith

theorem settled_rate (m : Mesh) (hm : m.Wf) (kappa : ℕ → ℝ) (hk : ∀ f < m.n, 0 ≤ kappa f) (h : ℕ → ℝ) (hs : Settled m kappa h) (f : ℕ) :
    rate m kappa h f = 0 := by
  rw [rate_links]
  have : ((links m kappa m.edges f).map fun x => x.1 * (h x.2 - h f)).sum = 0 := by
    apply List.sum_eq_zero
    intro y hy
    obtain ⟨x, hx, rfl⟩ := List.mem_map.mp hy
    obtain ⟨e, he, hx⟩ := List.mem_flatMap.mp hx
    obtain ⟨g, hg, rfl⟩ := List.mem_map.mp hx
    obtain ⟨lg, lf⟩ := across_mem hg
    simp only
    have k1 := hk f lf
    have k2 := hk g lg
    by_cases hp : 0 < kappa f + kappa g
    · by_cases hl : 0 < e.len
      · have heq : h g = h f := by
          unfold across at hg
          split_ifs at hg with hc h1 h2 h2 <;> simp at hg
          · rcases hg with rfl | rfl
            · exact (hs e he f lf _ lg h1 (by omega) hp hl).symm
            · exact (hs e he f lf _ lg h1 (by omega) hp hl).symm
          · exact (hs e he f lf g lg h1 (by omega) hp hl).symm
          · exact hs e he g lg f lf (by omega) h2 (by linarith) hl
        rw [heq]
        ring
      · have : e.len = 0 := le_antisymm (not_lt.mp hl) (hm.len e he)
        simp [conduct, this]
    · have : kappa f + kappa g = 0 := by linarith
      simp [conduct, this]
  rw [this, zero_div]

/-- Diffusion leaves a surface as it is exactly if no edge that material can flow across has different heights on its two sides. -/
theorem C216_unchanged (m : Mesh) (hm : m.Wf) (kappa : ℕ → ℝ) (hk : ∀ f < m.n, 0 ≤ kappa f) (h : ℕ → ℝ) :
    (∀ f < m.n, diffusion m kappa h f = 0) ↔ Settled m kappa h := by
  constructor
  · intro h0
    obtain ⟨dt, hdt, hr⟩ := roughness_loss m hm kappa hk
    have h1 := hr 0 h
    have e1 : roughness m 0 (fun f => h f + diffusion m kappa h f) = roughness m 0 h := by
      unfold roughness
      apply Finset.sum_congr rfl
      intro f hf
      simp only
      rw [h0 f (Finset.mem_range.mp hf), add_zero]
    rw [e1] at h1
    apply settled_of_loss m hm kappa hk
    by_contra hc
    have := mul_pos hdt (not_le.mp hc)
    linarith
  · intro hs f hf
    obtain ⟨N, hN, he, hst⟩ := C136_whole_time m hm kappa hk
    have h1 := iterate_inv (P := fun g : ℕ → ℝ => g = h) (step := forward m kappa (1 / N))
      (fun g hg => by
        subst hg
        funext x
        simp only [forward, settled_rate m hm kappa hk g hs x, mul_zero, add_zero]) N h rfl
    have h2 := he h f hf
    rw [h1] at h2
    linarith

/-- Otherwise the surface becomes smoother. -/
theorem C216_smoother (m : Mesh) (hm : m.Wf) (kappa : ℕ → ℝ) (hk : ∀ f < m.n, 0 ≤ kappa f) (c : ℝ) (h : ℕ → ℝ) (hs : ¬ Settled m kappa h) :
    roughness m c (fun f => h f + diffusion m kappa h f) < roughness m c h := by
  obtain ⟨dt, hdt, hr⟩ := roughness_loss m hm kappa hk
  have h1 := hr c h
  have h2 : 0 < (m.edges.map (loss m kappa h)).sum := by
    by_contra hc
    exact hs (settled_of_loss m hm kappa hk h (not_lt.mp hc))
  have := mul_pos hdt h2
  linarith

theorem forward_linear (m : Mesh) (kappa : ℕ → ℝ) (dt a b : ℝ) (h g : ℕ → ℝ) :
    forward m kappa dt (fun x => a * h x + b * g x) = fun f => a * forward m kappa dt h f + b * forward m kappa dt g f := by
  funext f
  unfold forward
  rw [rate_links, rate_links, rate_links]
  have : ((links m kappa m.edges f).map fun x => x.1 * (a * h x.2 + b * g x.2 - (a * h f + b * g f))).sum =
      a * ((links m kappa m.edges f).map fun x => x.1 * (h x.2 - h f)).sum +
        b * ((links m kappa m.edges f).map fun x => x.1 * (g x.2 - g f)).sum := by
    generalize links m kappa m.edges f = l
    induction l with
    | nil => simp
    | cons x l ih => simp only [List.map_cons, List.sum_cons, ih]; ring
  rw [this]
  ring

/-- Diffusion is linear: the landforms on a surface decay independently of each other. -/
theorem C216_linear (m : Mesh) (hm : m.Wf) (kappa : ℕ → ℝ) (hk : ∀ f < m.n, 0 ≤ kappa f) (a b : ℝ) (h g : ℕ → ℝ) :
    ∀ f < m.n, diffusion m kappa (fun x => a * h x + b * g x) f = a * diffusion m kappa h f + b * diffusion m kappa g f := by
  intro f hf
  obtain ⟨N, hN, he, -⟩ := C136_whole_time m hm kappa hk
  have h1 : ∀ k, (forward m kappa (1 / N))^[k] (fun x => a * h x + b * g x) =
      fun f => a * (forward m kappa (1 / N))^[k] h f + b * (forward m kappa (1 / N))^[k] g f := by
    intro k
    induction k with
    | zero => rfl
    | succ k ih => rw [Function.iterate_succ_apply', ih, forward_linear, Function.iterate_succ_apply', Function.iterate_succ_apply']
  have h2 := he (fun x => a * h x + b * g x) f hf
  rw [h1 N] at h2
  simp only [← he h f hf, ← he g f hf] at h2
  linarith

/-- Two surfaces that differ by at most `eps` differ by at most `eps` after diffusion. -/
theorem C216_errors (m : Mesh) (hm : m.Wf) (kappa : ℕ → ℝ) (hk : ∀ f < m.n, 0 ≤ kappa f) (eps : ℝ) (h g : ℕ → ℝ)
    (hd : ∀ f < m.n, |h f - g f| ≤ eps) :
    ∀ f < m.n, |(h f + diffusion m kappa h f) - (g f + diffusion m kappa g f)| ≤ eps := by
  intro f hf
  have h1 := C38_maximum_principle m hm kappa hk (fun x => 1 * h x + -1 * g x) (-eps) eps
    (fun x hx => by have := abs_le.mp (hd x hx); constructor <;> linarith [this.1, this.2]) f hf
  rw [C216_linear m hm kappa hk 1 (-1) h g f hf] at h1
  rw [abs_le]
  constructor <;> linarith [h1.1, h1.2]

/-- A surface that is nowhere above another one is nowhere above it after diffusion. -/
theorem C216_order (m : Mesh) (hm : m.Wf) (kappa : ℕ → ℝ) (hk : ∀ f < m.n, 0 ≤ kappa f) (h g : ℕ → ℝ) (hle : ∀ f < m.n, h f ≤ g f) :
    ∀ f < m.n, h f + diffusion m kappa h f ≤ g f + diffusion m kappa g f := by
  intro f hf
  have hb : ∀ x < m.n, (0 : ℝ) ≤ 1 * g x + -1 * h x ∧ 1 * g x + -1 * h x ≤ ∑ y ∈ Finset.range m.n, (g y - h y) := by
    intro x hx
    have h1 := hle x hx
    have h2 := Finset.single_le_sum (f := fun y => g y - h y) (s := Finset.range m.n)
      (fun y hy => by have := hle y (Finset.mem_range.mp hy); linarith) (Finset.mem_range.mpr hx)
    constructor <;> linarith
  have h1 := C38_maximum_principle m hm kappa hk (fun x => 1 * g x + -1 * h x) 0 _ hb f hf
  rw [C216_linear m hm kappa hk 1 (-1) g h f hf] at h1
  linarith [h1.1]

/-- Slope collapse never makes a surface rougher, and makes it smoother whenever it changes it. -/
theorem C216_collapse (m : Mesh) (hm : m.Wf) (crit c : ℝ) (h : ℕ → ℝ) :
    roughness m c (fun f => h f + slopeCollapse m crit h f) ≤ roughness m c h ∧
      ((∃ f < m.n, slopeCollapse m crit h f ≠ 0) → roughness m c (fun f => h f + slopeCollapse m crit h f) < roughness m c h) := by
  -- every round leaves the faces as they are or lowers the roughness
  have hround : ∀ g, roughness m c (round m crit g) < roughness m c g ∨ ∀ f < m.n, round m crit g f = g f := by
    intro g
    have hk : ∀ f < m.n, 0 ≤ collapseKappa m crit g f := fun f _ => collapseKappa_nonneg m crit g f
    by_cases hs : Settled m (collapseKappa m crit g) g
    · right
      intro f hf
      have := (C216_unchanged m hm _ hk g).mpr hs f hf
      simp [round, this]
    · left
      exact C216_smoother m hm _ hk c g hs
  have hall : ∀ k, roughness m c ((round m crit)^[k] h) < roughness m c h ∨ ∀ f < m.n, (round m crit)^[k] h f = h f := by
    intro k
    have hcongr : ∀ g : ℕ → ℝ, (∀ f < m.n, g f = h f) → roughness m c g = roughness m c h := by
      intro g hg
      unfold roughness
      apply Finset.sum_congr rfl
      intro f hf
      rw [hg f (Finset.mem_range.mp hf)]
    induction k with
    | zero => right; intro f _; rfl
    | succ k ih =>
      rw [Function.iterate_succ_apply']
      rcases hround ((round m crit)^[k] h) with h1 | h1
      · left
        rcases ih with h2 | h2
        · exact h1.trans h2
        · rwa [hcongr _ h2] at h1
      · rcases ih with h2 | h2
        · left
          have : roughness m c (round m crit ((round m crit)^[k] h)) = roughness m c ((round m crit)^[k] h) := by
            unfold roughness
            apply Finset.sum_congr rfl
            intro f hf
            rw [h1 f (Finset.mem_range.mp hf)]
          rwa [this]
        · right
          intro f hf
          rw [h1 f hf, h2 f hf]
  have hmain : roughness m c (fun f => h f + slopeCollapse m crit h f) < roughness m c h ∨
      ∀ f < m.n, slopeCollapse m crit h f = 0 := by
    by_cases hc : crit = 0
    · right
      intro f _
      rw [hc, C39_zero_fails]
    · obtain ⟨k, _, hk, _, _⟩ := C39_stops m hm crit hc h
      rcases hall k with h1 | h1
      · left
        rwa [hk]
      · right
        intro f hf
        have := congrFun hk f
        rw [h1 f hf] at this
        linarith
  rcases hmain with h1 | h1
  · exact ⟨h1.le, fun _ => h1⟩
  · refine ⟨le_of_eq ?_, fun ⟨f, hf, hne⟩ => absurd (h1 f hf) hne⟩
    unfold roughness
    apply Finset.sum_congr rfl
    intro f hf
    simp only
    rw [h1 f (Finset.mem_range.mp hf), add_zero]

/-- Two faces of different heights: not settled, so that they become smoother. -/
example : ¬ Settled twoFaces (fun _ => 1) (fun f => if f = 0 then 1 else 0) := by
  intro h
  have := h ⟨0, 1, 1, 1⟩ (by simp [twoFaces]) 0 (by simp [twoFaces]) 1 (by simp [twoFaces]) rfl rfl (by norm_num) (by norm_num)
  simp at this

/-- And a surface that is settled although it is not level: no material flows where the diffusivity is zero. -/
example : Settled twoFaces (fun _ => 0) (fun f => if f = 0 then 1 else 0) := by
  intro e _ a _ b _ _ _ hp
  norm_num at hp

end Verif.Diffusion
