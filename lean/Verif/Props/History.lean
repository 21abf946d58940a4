import Verif.Model.History
import Verif.Props.Emplace

/-! Property C211: the volume of the surface is the same after any history. -/

namespace Verif.History

open Verif.Diffusion Verif.Emplace

/-- The volume of the whole surface: elevation times area, summed over its faces. -/
noncomputable def volumeOf (w : Whole) (h : ℕ → ℝ) : ℝ := ∑ f ∈ Finset.range w.n, h f * w.area f

/-- A region of the surface: distinct faces of the surface with their areas, and a mesh with positive distances and no negative lengths.  At
least one face. -/
structure Piece.On (p : Piece) (w : Whole) : Prop where
  faces : ∀ j < p.mesh.n, p.faces j < w.n
  distinct : ∀ i < p.mesh.n, ∀ j < p.mesh.n, p.faces i = p.faces j → i = j
  area : ∀ j < p.mesh.n, p.mesh.area j = w.area (p.faces j)
  mesh : p.mesh.Wf
  some : 0 < p.mesh.n

theorem volumeOf_update (w : Whole) (h : ℕ → ℝ) (f : ℕ) (hf : f < w.n) (x : ℝ) :
    volumeOf w (Function.update h f x) = volumeOf w h + (x - h f) * w.area f := by
  unfold volumeOf
  rw [← Finset.add_sum_erase _ _ (Finset.mem_range.2 hf), ← Finset.add_sum_erase (Finset.range w.n) (fun f => h f * w.area f) (Finset.mem_range.2 hf)]
  have : ∑ i ∈ (Finset.range w.n).erase f, Function.update h f x i * w.area i = ∑ i ∈ (Finset.range w.n).erase f, h i * w.area i := by
    apply Finset.sum_congr rfl
    intro i hi
    rw [Function.update_of_ne (Finset.ne_of_mem_erase hi)]
  rw [this]
  simp only [Function.update_self]
  ring

theorem scatter_volume {p : Piece} {w : Whole} (hp : p.On w) (h g : ℕ → ℝ) :
    volumeOf w (scatter p h g) = volumeOf w h + (volume p.mesh g - volume p.mesh (gather p h)) := by
  have key : ∀ k ≤ p.mesh.n,
      (∀ f, (∀ j < k, p.faces j ≠ f) → (List.range k).foldl (fun h' j => Function.update h' (p.faces j) (g j)) h f = h f) ∧
      volumeOf w ((List.range k).foldl (fun h' j => Function.update h' (p.faces j) (g j)) h) =
        volumeOf w h + (∑ j ∈ Finset.range k, g j * p.mesh.area j - ∑ j ∈ Finset.range k, h (p.faces j) * p.mesh.area j) := by
    intro k
    induction k with
    | zero => intro _; exact ⟨fun _ _ => rfl, by simp⟩
    | succ k ih =>
      intro hk
      obtain ⟨i1, i2⟩ := ih (by omega)
      simp only [List.range_succ, List.foldl_append, List.foldl_cons, List.foldl_nil]
      refine ⟨?_, ?_⟩
      · intro f hf
        rw [Function.update_of_ne (hf k (by omega)).symm]
        exact i1 f fun j hj => hf j (by omega)
      · rw [volumeOf_update w _ _ (hp.faces k (by omega)), i2, i1 (p.faces k) ?_, Finset.sum_range_succ, Finset.sum_range_succ, hp.area k (by omega)]
        · ring
        · intro j hj e
          have := hp.distinct j (by omega) k (by omega) e
          omega
  exact (key p.mesh.n le_rfl).2

theorem scatter_outside {p : Piece} (h g : ℕ → ℝ) (f : ℕ) (hf : ∀ j < p.mesh.n, p.faces j ≠ f) : scatter p h g f = h f := by
  unfold scatter
  have key : ∀ k ≤ p.mesh.n, (List.range k).foldl (fun h' j => Function.update h' (p.faces j) (g j)) h f = h f := by
    intro k
    induction k with
    | zero => intro _; rfl
    | succ k ih =>
      intro hk
      simp only [List.range_succ, List.foldl_append, List.foldl_cons, List.foldl_nil]
      rw [Function.update_of_ne (hf k (by omega)).symm]
      exact ih (by omega)
  exact key _ le_rfl

/-- What a history leaves on the surface has this volume, whether it comes to its end or is ended by an exception. -/
def Keeps (w : Whole) (v : ℝ) : Outcome → Prop
  | .ok h => volumeOf w h = v
  | .raised h => volumeOf w h = v
  | .notFinite => False

theorem act_volume (vs : ℝ) (h : ℕ → ℝ) (e : Event) (w : Whole) (he : e.piece.On w) :
    (e.act vs h).HasVolume e.piece.mesh (volume e.piece.mesh (gather e.piece h)) := by
  cases e with
  | crater p c crit change t deg => exact C45_volume p.mesh he.mesh vs c crit _ _ _ _
  | diffuse p k => exact applyDiffusion_volume p.mesh he.mesh vs _ _
  | collapse p crit => exact (C39_volume_and_bounds p.mesh he.mesh crit _).1
  | noise p v =>
    have hpos : 0 < ∑ f ∈ Finset.range p.mesh.n, p.mesh.area f :=
      Finset.sum_pos (fun f hf => he.mesh.area f (Finset.mem_range.1 hf)) ⟨0, Finset.mem_range.2 he.some⟩
    simp only [Event.act, Event.piece, Outcome.HasVolume, volume, add_mul, sub_mul, Finset.sum_add_distrib, Finset.sum_sub_distrib, ← Finset.mul_sum, meanNoise,
      computeVolume]
    rw [div_mul_cancel₀ _ hpos.ne']
    ring

/-- When the ejecta of a crater has some volume, or nothing was excavated, the surface stays finite. -/
def Deposits (h : ℕ → ℝ) : Event → Prop
  | .crater p _ _ change t _ => volume p.mesh (change h) ≠ 0 → volume p.mesh (fun f => max (t h f) 0) ≠ 0
  | _ => True

theorem andThen_finite {o : Outcome} {g : (ℕ → ℝ) → Outcome} (h1 : o ≠ .notFinite) (h2 : ∀ h, g h ≠ .notFinite) : o.andThen g ≠ .notFinite := by
  cases o with
  | ok h => exact h2 h
  | raised h => simp [Outcome.andThen]
  | notFinite => exact absurd rfl h1

theorem applyDiffusion_finite (m : Mesh) (vs : ℝ) (k h : ℕ → ℝ) : applyDiffusion m vs k h ≠ .notFinite := by
  unfold applyDiffusion
  split_ifs <;> simp

theorem act_finite (vs : ℝ) (h : ℕ → ℝ) (e : Event) (he : Deposits h e) : e.act vs h ≠ .notFinite := by
  cases e with
  | crater p c crit change t deg =>
    simp only [Event.act, formCrater, formEjecta]
    by_cases h1 : computeVolume p.mesh (change h) = 0
    · rw [if_pos h1]; simp
    · rw [if_neg h1, if_neg (show ¬ computeVolume p.mesh (fun g => max (t h g) 0) = 0 from he h1)]
      exact andThen_finite (applyDiffusion_finite _ _ _ _) fun _ => applyDiffusion_finite _ _ _ _
  | diffuse p k => exact applyDiffusion_finite _ _ _ _
  | collapse p crit => simp [Event.act]
  | noise p v => simp [Event.act]

/-- After any history of craters, ejecta, diffusion, collapse of slopes and noise, on any regions of a surface and in any order, the volume of the
surface is the one it had, also if an exception ends the history.  Missing: craters whose ejecta has no volume, see `C211_no_ejecta_fails`. -/
theorem C211_volume_partial (w : Whole) (vs : ℝ) (es : List Event) (hes : ∀ e ∈ es, e.piece.On w) (hd : ∀ e ∈ es, ∀ h, Deposits h e) (h : ℕ → ℝ) :
    Keeps w (volumeOf w h) (run vs es h) := by
  induction es generalizing h with
  | nil => rfl
  | cons e es ih =>
    have he := hes e (by simp)
    have hv := act_volume vs h e w he
    have hf := act_finite vs h e (hd e (by simp) h)
    simp only [run, Event.apply]
    rcases ha : e.act vs h with g | g | _
    · rw [ha] at hv
      simp only [Outcome.andThen]
      have := ih (fun e' he' => hes e' (by simp [he'])) (fun e' he' => hd e' (by simp [he'])) (scatter e.piece h g)
      rwa [scatter_volume he, show volume e.piece.mesh g = _ from hv, sub_self, add_zero] at this
    · rw [ha] at hv
      simp only [Outcome.andThen, Keeps]
      rw [scatter_volume he, show volume e.piece.mesh g = _ from hv, sub_self, add_zero]
    · exact absurd ha hf

/-- Faces that belong to no region of a history keep their elevations. -/
theorem C211_elsewhere (vs : ℝ) (es : List Event) (f : ℕ) (hf : ∀ e ∈ es, ∀ j < e.piece.mesh.n, e.piece.faces j ≠ f) (h h' : ℕ → ℝ)
    (hr : run vs es h = .ok h' ∨ run vs es h = .raised h') : h' f = h f := by
  induction es generalizing h with
  | nil =>
    rcases hr with hr | hr
    · simp only [run, Outcome.ok.injEq] at hr; rw [hr]
    · simp [run] at hr
  | cons e es ih =>
    simp only [run, Event.apply] at hr
    rcases ha : e.act vs h with g | g | _
    · simp only [ha, Outcome.andThen] at hr
      rw [ih (fun e' he' => hf e' (by simp [he'])) _ hr, scatter_outside _ _ _ (hf e (by simp))]
    · simp only [ha, Outcome.andThen, reduceCtorEq, Outcome.raised.injEq, false_or] at hr
      rw [← hr, scatter_outside _ _ _ (hf e (by simp))]
    · simp [ha, Outcome.andThen] at hr

/-- A crater that excavates something but whose ejecta region gets no ejecta makes the surface not finite: the factor that would conserve the volume
is a division by zero. -/
theorem C211_no_ejecta_fails (w : Whole) (vs crit : ℝ) (p : Piece) (change t deg : (ℕ → ℝ) → ℕ → ℝ) (c : Bool) (es : List Event) (h : ℕ → ℝ)
    (h1 : volume p.mesh (change h) ≠ 0) (h2 : ∀ f < p.mesh.n, t h f ≤ 0) :
    ¬ Keeps w (volumeOf w h) (run vs (.crater p c crit change t deg :: es) h) := by
  have e2 : computeVolume p.mesh (fun g => max (t h g) 0) = 0 := by
    apply Finset.sum_eq_zero
    intro f hf
    simp only [max_eq_right (h2 f (Finset.mem_range.1 hf)), zero_mul]
  have e1 : ¬ computeVolume p.mesh (change h) = 0 := h1
  simp only [run, Event.apply, Event.act, formCrater, formEjecta, if_neg e1, if_pos e2, Outcome.andThen, Keeps, not_false_eq_true]

/-- A surface of three faces, and the region of its last two. -/
noncomputable def three : Whole := ⟨3, fun f => if f = 0 then 5 else twoFaces.area (f - 1)⟩

noncomputable def lastTwo : Piece := ⟨twoFaces, fun j => j + 1⟩

theorem lastTwo_on : lastTwo.On three := by
  refine ⟨?_, ?_, ?_, ⟨by simp [lastTwo, twoFaces], by simp [lastTwo, twoFaces], by simp [lastTwo, twoFaces]⟩, by simp [lastTwo, twoFaces]⟩
  · simp only [lastTwo, twoFaces, three]; omega
  · simp only [lastTwo]; omega
  · intro j _; simp [lastTwo, three]

/-- Two craters on it, with noise in between. -/
example : ∃ es : List Event, es.length = 3 ∧ (∀ e ∈ es, e.piece.On three) ∧ ∀ e ∈ es, ∀ h, Deposits h e := by
  refine ⟨[.crater lastTwo true 1 (fun h f => if f = 0 then -3 - h 1 else 0) (fun _ f => if f = 0 then -1 else 2) (fun _ _ => 1),
    .noise lastTwo fun _ f => f, .crater lastTwo false 1 (fun _ f => if f = 0 then -3 else 0) (fun _ f => if f = 0 then -1 else 2) (fun _ _ => 1)], rfl, ?_, ?_⟩
  · intro e he
    simp only [List.mem_cons, List.not_mem_nil, or_false] at he
    rcases he with rfl | rfl | rfl <;> exact lastTwo_on
  · intro e he h
    simp only [List.mem_cons, List.not_mem_nil, or_false] at he
    rcases he with rfl | rfl | rfl
    · intro _; simp [volume, lastTwo, twoFaces, Finset.sum_range_succ]
    · trivial
    · intro _; simp [volume, lastTwo, twoFaces, Finset.sum_range_succ]

end Verif.History
