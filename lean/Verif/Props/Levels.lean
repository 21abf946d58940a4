import Verif.Props.Smooth
import Mathlib.Logic.Relation
import Mathlib.Analysis.SpecificLimits.Basic

/-! Property C216, continued: repeated diffusion levels a connected surface to its mean height. -/

namespace Verif.Diffusion

/-- Two faces share an edge of positive length. -/
def Adjacent (m : Mesh) (a b : ℕ) : Prop :=
  a < m.n ∧ b < m.n ∧ ∃ e ∈ m.edges, 0 < e.len ∧ ((e.f1 = a ∧ e.f2 = b) ∨ (e.f1 = b ∧ e.f2 = a))

/-- Every face can be reached from every other one across edges. -/
def Connected (m : Mesh) : Prop := ∀ a < m.n, ∀ b < m.n, Relation.ReflTransGen (Adjacent m) a b

/-- The mean height. -/
noncomputable def mean (m : Mesh) (h : ℕ → ℝ) : ℝ := volume m h / ∑ f ∈ Finset.range m.n, m.area f

/-- The surface after diffusion. -/
noncomputable def diffused (m : Mesh) (kappa h : ℕ → ℝ) : ℕ → ℝ := fun f => h f + diffusion m kappa h f

theorem adjacent_link {m : Mesh} (hm : m.Wf) {kappa : ℕ → ℝ} (hk : ∀ f < m.n, 0 < kappa f) {a b : ℕ} (h : Adjacent m a b) :
    ∃ q, 0 < q ∧ (q, b) ∈ links m kappa m.edges a := by
  obtain ⟨ha, hb, e, he, hl, hor⟩ := h
  refine ⟨conduct kappa e a b, ?_, ?_⟩
  · have k1 := hk a ha
    have k2 := hk b hb
    have pd := hm.dist e he
    unfold conduct
    positivity
  · refine List.mem_flatMap.mpr ⟨e, he, List.mem_map.mpr ⟨b, ?_, rfl⟩⟩
    unfold across
    rw [if_pos (by omega)]
    rcases hor with ⟨h1, h2⟩ | ⟨h1, h2⟩
    · simp [h1, h2]
    · simp [h1, h2]

/-- A lower bound of the positive weights of a time step, not above one half. -/
def Floor (m : Mesh) (kappa : ℕ → ℝ) (dt d : ℝ) : Prop :=
  0 < d ∧ d ≤ 1 / 2 ∧ ∀ f < m.n, ∀ x ∈ links m kappa m.edges f, 0 < x.1 → d ≤ dt * x.1 / m.area f

theorem list_floor {α : Type} (l : List α) (w : α → ℝ) : ∃ d : ℝ, 0 < d ∧ d ≤ 1 / 2 ∧ ∀ x ∈ l, 0 < w x → d ≤ w x := by
  induction l with
  | nil => exact ⟨1 / 2, by norm_num, le_refl _, by simp⟩
  | cons a l ih =>
    obtain ⟨d, h1, h2, h3⟩ := ih
    by_cases ha : 0 < w a
    · refine ⟨min d (w a), lt_min h1 ha, (min_le_left _ _).trans h2, ?_⟩
      intro x hx hp
      rcases List.mem_cons.mp hx with rfl | hx
      · exact min_le_right _ _
      · exact (min_le_left _ _).trans (h3 x hx hp)
    · refine ⟨d, h1, h2, ?_⟩
      intro x hx hp
      rcases List.mem_cons.mp hx with rfl | hx
      · exact absurd hp ha
      · exact h3 x hx hp

theorem exists_floor (m : Mesh) (hm : m.Wf) (kappa : ℕ → ℝ) (dt : ℝ) (hdt : 0 < dt) : ∃ d, Floor m kappa dt d := by
  obtain ⟨d, h1, h2, h3⟩ := list_floor ((List.range m.n).flatMap fun f => (links m kappa m.edges f).map fun x => (f, x))
    (fun y => dt * y.2.1 / m.area y.1)
  refine ⟨d, h1, h2, ?_⟩
  intro f hf x hx hp
  have pa := hm.area f hf
  exact h3 (f, x) (List.mem_flatMap.mpr ⟨f, List.mem_range.mpr hf, List.mem_map.mpr ⟨x, hx, rfl⟩⟩) (by simp only; positivity)

/-- One link bounds a weighted sum of non-negative terms from below. -/
theorem links_lower {m : Mesh} (hm : m.Wf) {kappa : ℕ → ℝ} (hk : ∀ f < m.n, 0 ≤ kappa f) {h : ℕ → ℝ} {lo : ℝ} (hlo : ∀ f < m.n, lo ≤ h f)
    {f : ℕ} : (∀ x ∈ links m kappa m.edges f, x.1 * (h x.2 - lo) ≤ ((links m kappa m.edges f).map fun x => x.1 * (h x.2 - lo)).sum) ∧
      0 ≤ ((links m kappa m.edges f).map fun x => x.1 * (h x.2 - lo)).sum := by
  have hnn : ∀ y ∈ (links m kappa m.edges f).map fun x => x.1 * (h x.2 - lo), 0 ≤ y := by
    intro y hy
    obtain ⟨x, hx, rfl⟩ := List.mem_map.mp hy
    have h1 := links_nonneg m hm kappa hk m.edges (fun e he => he) f x hx
    have h2 : lo ≤ h x.2 := by
      obtain ⟨e, _, hx⟩ := List.mem_flatMap.mp hx
      obtain ⟨g, hg, rfl⟩ := List.mem_map.mp hx
      exact hlo g (across_mem hg).1
    exact mul_nonneg h1 (by linarith)
  exact ⟨fun x hx => List.single_le_sum hnn _ (List.mem_map.mpr ⟨x, hx, rfl⟩), List.sum_nonneg hnn⟩

theorem forward_split (m : Mesh) (kappa : ℕ → ℝ) (dt lo : ℝ) (h : ℕ → ℝ) (f : ℕ) :
    forward m kappa dt h f - lo = (1 - dt * ((links m kappa m.edges f).map fun x => x.1).sum / m.area f) * (h f - lo) +
      dt * ((links m kappa m.edges f).map fun x => x.1 * (h x.2 - lo)).sum / m.area f := by
  unfold forward
  rw [rate_links]
  have : ((links m kappa m.edges f).map fun x => x.1 * (h x.2 - h f)).sum =
      ((links m kappa m.edges f).map fun x => x.1 * (h x.2 - lo)).sum -
        ((links m kappa m.edges f).map fun x => x.1).sum * (h f - lo) := by
    generalize links m kappa m.edges f = l
    induction l with
    | nil => simp
    | cons x l ih => simp only [List.map_cons, List.sum_cons, ih]; ring
  rw [this]
  ring

theorem forward_lower {m : Mesh} (hm : m.Wf) {kappa : ℕ → ℝ} (hk : ∀ f < m.n, 0 < kappa f) {dt d : ℝ} (hdt : 0 < dt)
    (hs : Stable' m kappa dt) (hd : Floor m kappa dt d) {h : ℕ → ℝ} {lo : ℝ} (hlo : ∀ f < m.n, lo ≤ h f) {f : ℕ} (hf : f < m.n) :
    d * (h f - lo) ≤ forward m kappa dt h f - lo ∧
      ∀ g, Adjacent m f g → d * (h g - lo) ≤ forward m kappa dt h f - lo := by
  have pa := hm.area f hf
  have hst := hs f hf
  obtain ⟨h1, h2⟩ := links_lower hm (fun f hf => (hk f hf).le) hlo (f := f)
  have hhalf : 1 / 2 ≤ 1 - dt * ((links m kappa m.edges f).map fun x => x.1).sum / m.area f := by
    have : dt * ((links m kappa m.edges f).map fun x => x.1).sum / m.area f ≤ 1 / 2 := by
      rw [div_le_iff₀ pa]
      linarith
    linarith
  have hf0 := hlo f hf
  rw [forward_split m kappa dt lo h f]
  constructor
  · have h3 : 0 ≤ dt * ((links m kappa m.edges f).map fun x => x.1 * (h x.2 - lo)).sum / m.area f := by positivity
    have h4 := hd.2.1
    nlinarith
  · intro g hg
    obtain ⟨q, hq, hmem⟩ := adjacent_link hm hk hg
    have h3 := h1 _ hmem
    have h4 := hd.2.2 f hf _ hmem hq
    have h5 := hlo g hg.2.1
    simp only at h3 h4
    have h6 : dt * q / m.area f * (h g - lo) ≤
        dt * ((links m kappa m.edges f).map fun x => x.1 * (h x.2 - lo)).sum / m.area f := by
      rw [div_mul_eq_mul_div]
      apply div_le_div_of_nonneg_right _ pa.le
      nlinarith
    have h7 : d * (h g - lo) ≤ dt * q / m.area f * (h g - lo) := mul_le_mul_of_nonneg_right h4 (by linarith)
    have h8 : 0 ≤ (1 - dt * ((links m kappa m.edges f).map fun x => x.1).sum / m.area f) * (h f - lo) :=
      mul_nonneg (by linarith) (by linarith)
    linarith

theorem forward_ge {m : Mesh} (hm : m.Wf) {kappa : ℕ → ℝ} (hk : ∀ f < m.n, 0 < kappa f) {dt : ℝ} (hdt : 0 < dt)
    (hs : Stable' m kappa dt) {lo : ℝ} (k : ℕ) {h : ℕ → ℝ} (hlo : ∀ f < m.n, lo ≤ h f) : ∀ f < m.n, lo ≤ (forward m kappa dt)^[k] h f := by
  obtain ⟨d, hd⟩ := exists_floor m hm kappa dt hdt
  exact iterate_inv (P := fun g : ℕ → ℝ => ∀ f < m.n, lo ≤ g f) (step := forward m kappa dt)
    (fun g hg f hf => by
      have h1 := (forward_lower hm hk hdt hs hd hg hf).1
      have h2 := mul_nonneg hd.1.le (sub_nonneg.mpr (hg f hf))
      linarith) k h hlo

/-- After `j` time steps, a part of the height of face `a` has arrived at face `b`. -/
def Reach (m : Mesh) (kappa : ℕ → ℝ) (dt d : ℝ) (j a b : ℕ) : Prop :=
  ∀ (h : ℕ → ℝ) (lo : ℝ), (∀ f < m.n, lo ≤ h f) → d ^ j * (h a - lo) ≤ (forward m kappa dt)^[j] h b - lo

theorem reach_step {m : Mesh} (hm : m.Wf) {kappa : ℕ → ℝ} (hk : ∀ f < m.n, 0 < kappa f) {dt d : ℝ} (hdt : 0 < dt)
    (hs : Stable' m kappa dt) (hd : Floor m kappa dt d) {j a b c : ℕ} (hc : c < m.n) (hr : Reach m kappa dt d j a b)
    (hbc : b = c ∨ Adjacent m c b) : Reach m kappa dt d (j + 1) a c := by
  intro h lo hlo
  have h1 := hr h lo hlo
  have h2 := forward_ge hm hk hdt hs j hlo
  have h3 := forward_lower hm hk hdt hs hd h2 hc
  rw [Function.iterate_succ_apply']
  have h4 : d * ((forward m kappa dt)^[j] h b - lo) ≤ forward m kappa dt ((forward m kappa dt)^[j] h) c - lo := by
    rcases hbc with rfl | hbc
    · exact h3.1
    · exact h3.2 b hbc
  have h5 := mul_le_mul_of_nonneg_left h1 hd.1.le
  rw [pow_succ]
  linarith

theorem reach_later {m : Mesh} (hm : m.Wf) {kappa : ℕ → ℝ} (hk : ∀ f < m.n, 0 < kappa f) {dt d : ℝ} (hdt : 0 < dt)
    (hs : Stable' m kappa dt) (hd : Floor m kappa dt d) {j a b : ℕ} (hb : b < m.n) (hr : Reach m kappa dt d j a b) (i : ℕ) :
    Reach m kappa dt d (j + i) a b := by
  induction i with
  | zero => exact hr
  | succ i ih => exact reach_step hm hk hdt hs hd hb ih (Or.inl rfl)

theorem adjacent_symm {m : Mesh} {a b : ℕ} (h : Adjacent m a b) : Adjacent m b a := by
  obtain ⟨ha, hb, e, he, hl, hor⟩ := h
  exact ⟨hb, ha, e, he, hl, hor.symm⟩

/-- On a connected surface, everything reaches everywhere after enough steps. -/
theorem reach_all {m : Mesh} (hm : m.Wf) (hcon : Connected m) {kappa : ℕ → ℝ} (hk : ∀ f < m.n, 0 < kappa f) {dt d : ℝ} (hdt : 0 < dt)
    (hs : Stable' m kappa dt) (hd : Floor m kappa dt d) :
    ∃ K, ∀ j, K ≤ j → ∀ a < m.n, ∀ b < m.n, Reach m kappa dt d j a b := by
  have hone : ∀ a < m.n, ∀ b < m.n, ∃ j, Reach m kappa dt d j a b := by
    intro a ha b hb
    have := hcon a ha b hb
    induction this with
    | refl => exact ⟨0, fun h lo _ => by simp⟩
    | tail _ hbc ih =>
      obtain ⟨j, hj⟩ := ih hbc.1
      exact ⟨j + 1, reach_step hm hk hdt hs hd hb hj (Or.inr (adjacent_symm hbc))⟩
  have hrow : ∀ a < m.n, ∀ k ≤ m.n, ∃ K, ∀ j, K ≤ j → ∀ b < k, Reach m kappa dt d j a b := by
    intro a ha k
    induction k with
    | zero => exact fun _ => ⟨0, fun j _ b hb => absurd hb (by omega)⟩
    | succ k ih =>
      intro hk'
      obtain ⟨K, hK⟩ := ih (by omega)
      obtain ⟨i, hi⟩ := hone a ha k (by omega)
      refine ⟨max K i, fun j hj b hb => ?_⟩
      rcases Nat.lt_succ_iff_lt_or_eq.mp hb with h | rfl
      · exact hK j (le_trans (le_max_left _ _) hj) b h
      · obtain ⟨r, rfl⟩ := Nat.exists_eq_add_of_le (le_trans (le_max_right _ _) hj)
        exact reach_later hm hk hdt hs hd (by omega) hi r
  have htab : ∀ k ≤ m.n, ∃ K, ∀ j, K ≤ j → ∀ a < k, ∀ b < m.n, Reach m kappa dt d j a b := by
    intro k
    induction k with
    | zero => exact fun _ => ⟨0, fun j _ b hb => absurd hb (by omega)⟩
    | succ k ih =>
      intro hk'
      obtain ⟨K, hK⟩ := ih (by omega)
      obtain ⟨i, hi⟩ := hrow k (by omega) m.n (le_refl _)
      refine ⟨max K i, fun j hj a ha b hb => ?_⟩
      rcases Nat.lt_succ_iff_lt_or_eq.mp ha with h | rfl
      · exact hK j (le_trans (le_max_left _ _) hj) a h b hb
      · exact hi j (le_trans (le_max_right _ _) hj) b hb
  obtain ⟨K, hK⟩ := htab m.n (le_refl _)
  exact ⟨K, hK⟩

theorem forward_neg (m : Mesh) (kappa : ℕ → ℝ) (dt : ℝ) (k : ℕ) (h : ℕ → ℝ) :
    (forward m kappa dt)^[k] (fun x => -h x) = fun f => -(forward m kappa dt)^[k] h f := by
  induction k with
  | zero => rfl
  | succ k ih =>
    rw [Function.iterate_succ_apply', ih, Function.iterate_succ_apply']
    have := forward_linear m kappa dt (-1) 0 ((forward m kappa dt)^[k] h) (fun _ => 0)
    simpa using this

/-- The heights are between two levels. -/
def Within (m : Mesh) (lo hi : ℝ) (h : ℕ → ℝ) : Prop := ∀ f < m.n, lo ≤ h f ∧ h f ≤ hi

/-- After enough time steps the range of heights has shrunk. -/
theorem shrink {m : Mesh} {kappa : ℕ → ℝ} {dt d : ℝ} (hd : Floor m kappa dt d) {j : ℕ} (hn : 0 < m.n)
    (hr : ∀ a < m.n, ∀ b < m.n, Reach m kappa dt d j a b) {lo hi : ℝ} {h : ℕ → ℝ} (hw : Within m lo hi h) :
    ∃ lo' hi', Within m lo' hi' ((forward m kappa dt)^[j] h) ∧ hi' - lo' ≤ (1 - d ^ j / 2) * (hi - lo) := by
  have hp : 0 < d ^ j := pow_pos hd.1 j
  have h0 := hw 0 hn
  have hlow : ∀ b < m.n, d ^ j * (h 0 - lo) ≤ (forward m kappa dt)^[j] h b - lo :=
    fun b hb => hr 0 hn b hb h lo fun f hf => (hw f hf).1
  have hupp : ∀ b < m.n, d ^ j * (hi - h 0) ≤ hi - (forward m kappa dt)^[j] h b := by
    intro b hb
    have := hr 0 hn b hb (fun x => -h x) (-hi) fun f hf => by have := (hw f hf).2; linarith
    rw [forward_neg] at this
    linarith
  refine ⟨lo + d ^ j * (h 0 - lo), hi - d ^ j * (hi - h 0), ?_, ?_⟩
  · intro f hf
    have h1 := hlow f hf
    have h2 := hupp f hf
    constructor <;> linarith
  · have : 0 ≤ d ^ j * (hi - lo) := mul_nonneg hp.le (by linarith [h0.1, h0.2])
    linarith

theorem forward_congr (m : Mesh) (kappa : ℕ → ℝ) (dt : ℝ) (h g : ℕ → ℝ) (he : ∀ f < m.n, h f = g f) :
    ∀ f < m.n, forward m kappa dt h f = forward m kappa dt g f := by
  intro f hf
  unfold forward
  rw [rate_links, rate_links, he f hf]
  congr 4
  apply List.map_congr_left
  intro x hx
  obtain ⟨e, _, hx⟩ := List.mem_flatMap.mp hx
  obtain ⟨y, hy, rfl⟩ := List.mem_map.mp hx
  rw [he y (across_mem hy).1]

theorem iterate_congr (m : Mesh) (kappa : ℕ → ℝ) (dt : ℝ) (k : ℕ) (h g : ℕ → ℝ) (he : ∀ f < m.n, h f = g f) :
    ∀ f < m.n, (forward m kappa dt)^[k] h f = (forward m kappa dt)^[k] g f := by
  induction k generalizing h g with
  | zero => exact he
  | succ k ih => exact ih _ _ (forward_congr m kappa dt h g he)

theorem diffused_iterate (m : Mesh) (kappa : ℕ → ℝ) (N : ℕ)
    (he : ∀ h, ∀ f < m.n, h f + diffusion m kappa h f = (forward m kappa (1 / N))^[N] h f) (k : ℕ) (h : ℕ → ℝ) :
    ∀ f < m.n, (diffused m kappa)^[k] h f = (forward m kappa (1 / N))^[N * k] h f := by
  induction k with
  | zero => intro f _; rfl
  | succ k ih =>
    intro f hf
    rw [Function.iterate_succ_apply', Nat.mul_succ, Nat.add_comm, Function.iterate_add_apply]
    unfold diffused
    have := he ((diffused m kappa)^[k] h) f hf
    unfold diffused at this ih
    rw [this]
    exact iterate_congr m kappa _ N _ _ ih f hf

/-- The volume lies between those of the bounds. -/
theorem mean_within {m : Mesh} (hm : m.Wf) (hn : 0 < m.n) {lo hi : ℝ} {h : ℕ → ℝ} (hw : Within m lo hi h) : lo ≤ mean m h ∧ mean m h ≤ hi := by
  have pa : 0 < ∑ f ∈ Finset.range m.n, m.area f :=
    Finset.sum_pos (fun f hf => hm.area f (Finset.mem_range.mp hf)) ⟨0, Finset.mem_range.mpr hn⟩
  unfold mean volume
  constructor
  · rw [le_div_iff₀ pa, Finset.mul_sum]
    exact Finset.sum_le_sum fun f hf => mul_le_mul_of_nonneg_right (hw f (Finset.mem_range.mp hf)).1 (hm.area f (Finset.mem_range.mp hf)).le
  · rw [div_le_iff₀ pa, Finset.mul_sum]
    exact Finset.sum_le_sum fun f hf => mul_le_mul_of_nonneg_right (hw f (Finset.mem_range.mp hf)).2 (hm.area f (Finset.mem_range.mp hf)).le

/-- Diffusion, repeated often enough, brings every face of a connected surface as close to the mean height as one likes, and keeps it there. -/
theorem C216_levels (m : Mesh) (hm : m.Wf) (hcon : Connected m) (kappa : ℕ → ℝ) (hk : ∀ f < m.n, 0 < kappa f) (h : ℕ → ℝ) (eps : ℝ)
    (heps : 0 < eps) : ∃ K, ∀ k, K ≤ k → ∀ f < m.n, |(diffused m kappa)^[k] h f - mean m h| ≤ eps := by
  by_cases hn : m.n = 0
  · exact ⟨0, fun k _ f hf => absurd hf (by omega)⟩
  have hn : 0 < m.n := Nat.pos_of_ne_zero hn
  obtain ⟨N, hN, he, hst⟩ := C136_whole_time m hm kappa fun f hf => (hk f hf).le
  have hNr : (0 : ℝ) < N := by exact_mod_cast hN
  have hdt : (0 : ℝ) < 1 / N := by positivity
  have hs : Stable' m kappa (1 / N) := by
    intro f hf
    have := hst f hf
    rwa [stable_links] at this
  obtain ⟨d, hd⟩ := exists_floor m hm kappa _ hdt
  obtain ⟨K, hK⟩ := reach_all hm hcon hk hdt hs hd
  -- the range of heights shrinks by a fixed factor every `K` diffusions
  set r : ℝ := 1 - d ^ (N * K) / 2 with hr
  have hr0 : 0 ≤ r := by
    have h1 := pow_le_one₀ (n := N * K) hd.1.le (hd.2.1.trans (by norm_num))
    have h2 := pow_pos hd.1 (N * K)
    rw [hr]; linarith
  have hr1 : r < 1 := by
    have := pow_pos hd.1 (N * K)
    rw [hr]; linarith
  have hround : ∀ lo hi g, Within m lo hi g →
      ∃ lo' hi', Within m lo' hi' ((diffused m kappa)^[K] g) ∧ hi' - lo' ≤ r * (hi - lo) := by
    intro lo hi g hw
    obtain ⟨lo', hi', h1, h2⟩ := shrink hd hn (hK (N * K) (Nat.le_mul_of_pos_left K hN)) hw
    refine ⟨lo', hi', ?_, h2⟩
    intro f hf
    rw [diffused_iterate m kappa N he K g f hf]
    exact h1 f hf
  obtain ⟨w, hw⟩ : ∃ w, Within m (-w) w h := by
    refine ⟨∑ g ∈ Finset.range m.n, |h g|, fun f hf => ?_⟩
    have : |h f| ≤ ∑ g ∈ Finset.range m.n, |h g| :=
      Finset.single_le_sum (f := fun g => |h g|) (fun g _ => abs_nonneg _) (Finset.mem_range.mpr hf)
    exact abs_le.mp this
  have hmany : ∀ i, ∃ lo hi, Within m lo hi ((diffused m kappa)^[K * i] h) ∧ hi - lo ≤ r ^ i * (2 * w) := by
    intro i
    induction i with
    | zero => exact ⟨-w, w, hw, by simp; linarith⟩
    | succ i ih =>
      obtain ⟨lo, hi, h1, h2⟩ := ih
      obtain ⟨lo', hi', h3, h4⟩ := hround lo hi _ h1
      refine ⟨lo', hi', ?_, ?_⟩
      · rw [Nat.mul_succ, Nat.add_comm, Function.iterate_add_apply]
        exact h3
      · have := mul_le_mul_of_nonneg_left h2 hr0
        rw [pow_succ]
        linarith
  have hw0 : 0 ≤ w := by linarith [(hw 0 hn).1, (hw 0 hn).2]
  obtain ⟨i, hi⟩ : ∃ i, r ^ i * (2 * w) ≤ eps := by
    obtain ⟨i, hi⟩ := exists_pow_lt_of_lt_one (show (0 : ℝ) < eps / (2 * w + 1) by positivity) hr1
    refine ⟨i, ?_⟩
    have h1 : r ^ i * (2 * w + 1) ≤ eps := by
      have := hi.le
      rwa [le_div_iff₀ (by positivity)] at this
    have h2 := pow_nonneg hr0 i
    linarith
  obtain ⟨lo, hi', hwi, hle⟩ := hmany i
  refine ⟨K * i, fun k hk' f hf => ?_⟩
  obtain ⟨j, rfl⟩ := Nat.exists_eq_add_of_le hk'
  have hlater : Within m lo hi' ((diffused m kappa)^[K * i + j] h) := by
    rw [Nat.add_comm, Function.iterate_add_apply]
    exact iterate_inv (P := Within m lo hi') (step := diffused m kappa)
      (fun g hg => C38_maximum_principle m hm kappa (fun f hf => (hk f hf).le) g lo hi' hg) j _ hwi
  have hmean : mean m ((diffused m kappa)^[K * i + j] h) = mean m h := by
    unfold mean
    congr 1
    exact iterate_inv (P := fun g => volume m g = volume m h) (step := diffused m kappa)
      (fun g hg => (C37_volume m hm kappa g).trans hg) _ h rfl
  have h1 := mean_within hm hn hlater
  rw [hmean] at h1
  have h2 := hlater f hf
  rw [abs_le]
  constructor <;> linarith [h1.1, h1.2, h2.1, h2.2]

/-- The mesh of two faces is connected. -/
example : Connected twoFaces := by
  have hadj : Adjacent twoFaces 0 1 := ⟨by simp [twoFaces], by simp [twoFaces], ⟨0, 1, 1, 1⟩, by simp [twoFaces], by norm_num, Or.inl ⟨rfl, rfl⟩⟩
  intro a ha b hb
  simp only [twoFaces] at ha hb
  interval_cases a <;> interval_cases b
  · exact Relation.ReflTransGen.refl
  · exact Relation.ReflTransGen.single hadj
  · exact Relation.ReflTransGen.single (adjacent_symm hadj)
  · exact Relation.ReflTransGen.refl

end Verif.Diffusion
