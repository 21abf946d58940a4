import Verif.Model.Measure
import Verif.Props.Degradation
import Mathlib.Tactic.Linarith
import Mathlib.Tactic.NormNum
import Mathlib.Tactic.FieldSimp
import Mathlib.Tactic.Ring
import Mathlib.Algebra.Order.BigOperators.Group.List

namespace Verif.Measure

/-! ### Specification -/

/-- `m` is the mean of the elevations of the faces of the list, of which there is at least one. -/
def IsMean (fs : List (ℝ × ℝ)) (m : ℝ) : Prop := fs ≠ [] ∧ m * fs.length = (fs.map (·.1)).sum

/-- The faces with their elevations and distances when nothing is missing. -/
def complete (z : ℕ → ℝ) (d : ℕ → ℝ) (ids : ℕ → List ℕ) (faces : List ℕ) : List Face :=
  faces.map fun f => ⟨ids f, some (z f), d f⟩

/-- Elevation and distance of the faces that carry the crater and lie at a distance for which `p` holds. -/
noncomputable def part (z d : ℕ → ℝ) (ids : ℕ → List ℕ) (faces : List ℕ) (id : ℕ) (p : ℝ → Prop) : List (ℝ × ℝ) :=
  open Classical in
  (faces.filter fun f => decide (id ∈ ids f ∧ p (d f))).map fun f => (z f, d f)

theorem average_complete (z d : ℕ → ℝ) (ids : ℕ → List ℕ) (faces : List ℕ) (id : ℕ) (p : ℝ → Prop) :
    average p (keptElev id (complete z d ids faces)) (keptDist id (complete z d ids faces)) =
      if (part z d ids faces id p).length = 0 then none
      else some (((part z d ids faces id p).map (·.1)).sum / (part z d ids faces id p).length) := by
  classical
  have key : (((keptElev id (complete z d ids faces)).zip (keptDist id (complete z d ids faces))).filter
      fun x => decide (p x.2)) = part z d ids faces id p := by
    unfold keptElev keptDist complete part
    induction faces with
    | nil => simp
    | cons f fs ih =>
      by_cases h : id ∈ ids f <;> by_cases hp : p (d f) <;>
        simp_all [tagged]
  unfold average
  simp only [key, List.length_map]

theorem average_isMean (z d : ℕ → ℝ) (ids : ℕ → List ℕ) (faces : List ℕ) (id : ℕ) (p : ℝ → Prop) (m : ℝ) :
    average p (keptElev id (complete z d ids faces)) (keptDist id (complete z d ids faces)) = some m ↔
      IsMean (part z d ids faces id p) m := by
  rw [average_complete]
  unfold IsMean
  split_ifs with h
  · simp [List.length_eq_zero_iff.mp h]
  · have h' : (part z d ids faces id p) ≠ [] := fun e => h (by rw [e]; rfl)
    have hl : ((part z d ids faces id p).length : ℝ) ≠ 0 := by exact_mod_cast h
    simp only [Option.some.injEq, ne_eq, h', not_false_eq_true, true_and]
    rw [div_eq_iff hl]
    exact eq_comm

/-- The floor is the mean elevation of the faces that carry the crater and lie within a fifth of its radius; the rim is
that of the faces that carry it and lie between 0.95 and 1.2 radii. -/
theorem C111_mean_partial (z d : ℕ → ℝ) (ids : ℕ → List ℕ) (faces : List ℕ) (id : ℕ) (r m : ℝ) :
    (floorDepth id r (complete z d ids faces) = some m ↔ IsMean (part z d ids faces id fun x => x ≤ 0.2 * r) m) ∧
    (rimHeight id r (complete z d ids faces) = some m ↔
      IsMean (part z d ids faces id fun x => 0.95 * r ≤ x ∧ x ≤ 1.2 * r) m) :=
  ⟨average_isMean .., average_isMean ..⟩

theorem IsMean.bounds {fs : List (ℝ × ℝ)} {m lo hi : ℝ} (h : IsMean fs m) (hb : ∀ x ∈ fs, lo ≤ x.1 ∧ x.1 ≤ hi) :
    lo ≤ m ∧ m ≤ hi := by
  obtain ⟨hne, hm⟩ := h
  have hl : (0 : ℝ) < fs.length := by exact_mod_cast List.length_pos_iff.mpr hne
  have h1 : fs.length • lo ≤ (fs.map (·.1)).sum := by
    have := List.card_nsmul_le_sum (fs.map (·.1)) lo (by simpa using fun a b hab => (hb (a, b) hab).1)
    simpa using this
  have h2 : (fs.map (·.1)).sum ≤ fs.length • hi := by
    have := List.sum_le_card_nsmul (fs.map (·.1)) hi (by simpa using fun a b hab => (hb (a, b) hab).2)
    simpa using this
  rw [nsmul_eq_mul] at h1 h2
  rw [← hm] at h1 h2
  constructor <;> nlinarith

theorem part_shift (z d : ℕ → ℝ) (ids : ℕ → List ℕ) (faces : List ℕ) (id : ℕ) (p : ℝ → Prop) (k h : ℝ) :
    part (fun f => k * z f + h) d ids faces id p = (part z d ids faces id p).map fun x => (k * x.1 + h, x.2) := by
  simp [part, Function.comp_def]

theorem IsMean.shift {fs : List (ℝ × ℝ)} {m : ℝ} (hm : IsMean fs m) (k h : ℝ) :
    IsMean (fs.map fun x => (k * x.1 + h, x.2)) (k * m + h) := by
  refine ⟨by simpa using hm.1, ?_⟩
  have e : ∀ l : List (ℝ × ℝ), ((l.map fun x => (k * x.1 + h, x.2)).map (·.1)).sum
      = k * (l.map (·.1)).sum + h * l.length := by
    intro l
    induction l with
    | nil => simp
    | cons a l ih => simp only [List.map_cons, List.sum_cons, List.length_cons] at *; rw [ih]; push_cast; ring
  rw [e, ← hm.2, List.length_map]
  ring

/-- Raising the whole region does not change the measured depth, and stretching its relief stretches the depth by the same
factor. -/
theorem C111_relative_partial (z d : ℕ → ℝ) (ids : ℕ → List ℕ) (faces : List ℕ) (id : ℕ) (r k h a b : ℝ)
    (hf : floorDepth id r (complete z d ids faces) = some a) (hr : rimHeight id r (complete z d ids faces) = some b) :
    depthToDiameter id r (complete z d ids faces) = (b - a) / (2 * r) ∧
    depthToDiameter id r (complete (fun f => k * z f + h) d ids faces) =
      k * depthToDiameter id r (complete z d ids faces) := by
  have hf' : floorDepth id r (complete (fun f => k * z f + h) d ids faces) = some (k * a + h) := by
    rw [(C111_mean_partial _ _ _ _ _ _ _).1] at hf ⊢
    rw [part_shift]
    exact hf.shift k h
  have hr' : rimHeight id r (complete (fun f => k * z f + h) d ids faces) = some (k * b + h) := by
    rw [(C111_mean_partial _ _ _ _ _ _ _).2] at hr ⊢
    rw [part_shift]
    exact hr.shift k h
  unfold depthToDiameter
  rw [hf, hr, hf', hr']
  simp only [Option.getD_some]
  refine ⟨trivial, ?_⟩
  ring

/-- A missing elevation shifts the elevations against the distances: if the first face of the crater has none, its floor and its rim are measured as if
every other face were at the distance of the face before it. -/
theorem C111_missing_fails (z d : ℕ → ℝ) (id n : ℕ) (r d0 : ℝ) :
    let fs := ⟨[id], none, d0⟩ :: complete z d (fun _ => [id]) (List.range n)
    let shifted := complete z (fun f => if f = 0 then d0 else d (f - 1)) (fun _ => [id]) (List.range n)
    floorDepth id r fs = floorDepth id r shifted ∧ rimHeight id r fs = rimHeight id r shifted := by
  intro fs shifted
  have e1 : keptElev id fs = (List.range n).map z := by
    simp only [fs, keptElev, complete, tagged]
    rw [List.filterMap_cons]
    simp [List.filterMap_map]
  have e2 : keptElev id shifted = (List.range n).map z := by
    simp [shifted, keptElev, complete, tagged, List.filterMap_map]
  have e3 : keptDist id fs = d0 :: (List.range n).map d := by
    simp only [fs, keptDist, complete, tagged]
    rw [List.filterMap_cons]
    simp [List.filterMap_map]
  have e4 : keptDist id shifted = (List.range n).map fun f => if f = 0 then d0 else d (f - 1) := by
    simp [shifted, keptDist, complete, tagged, List.filterMap_map]
  have hz : ((List.range n).map z).zip (d0 :: (List.range n).map d) =
      ((List.range n).map z).zip ((List.range n).map fun f => if f = 0 then d0 else d (f - 1)) := by
    refine List.ext_getElem (by simp) fun i h1 h2 => ?_
    rw [List.getElem_zip, List.getElem_zip]
    rcases i with _ | i <;> simp
  unfold floorDepth rimHeight average
  rw [e1, e2, e3, e4, hz]
  exact ⟨rfl, rfl⟩

/-- Three faces of crater 1, radius 10: the centre, whose elevation is missing, a floor face at -5 and a rim face at 7.  The rim face is averaged into the
floor, and the rim is not found although it is there. -/
example : floorDepth 1 10 [⟨[1], none, 1⟩, ⟨[1], some (-5), 1.5⟩, ⟨[1], some 7, 10⟩] = some 1 ∧
    rimHeight 1 10 [⟨[1], none, 1⟩, ⟨[1], some (-5), 1.5⟩, ⟨[1], some 7, 10⟩] = none := by
  classical
  have e1 : keptElev 1 [⟨[1], none, 1⟩, ⟨[1], some (-5), 1.5⟩, ⟨[1], some 7, 10⟩] = [-5, 7] := by simp [keptElev, tagged]
  have e2 : keptDist 1 [⟨[1], none, 1⟩, ⟨[1], some (-5), 1.5⟩, ⟨[1], some 7, 10⟩] = [1, 1.5, 10] := by simp [keptDist, tagged]
  constructor
  · unfold floorDepth average
    rw [e1, e2]
    have h1 : (1 : ℝ) ≤ 0.2 * 10 := by norm_num
    have h2 : (1.5 : ℝ) ≤ 0.2 * 10 := by norm_num
    simp [h1, h2]
    norm_num
  · unfold rimHeight average
    rw [e1, e2]
    have h1 : ¬ ((0.95 : ℝ) * 10 ≤ 1) := by norm_num
    have h2 : ¬ ((0.95 : ℝ) * 10 ≤ 1.5) := by norm_num
    simp [h1, h2]

example : floorDepth 1 10 (complete (fun f => if f = 0 then -5 else 7) (fun f => if f = 0 then 1 else 10)
    (fun _ => [1]) [0, 1]) = some (-5) := by
  rw [(C111_mean_partial _ _ _ _ _ _ _).1]
  have h1 : (1 : ℝ) ≤ 0.2 * 10 := by norm_num
  have h2 : ¬ ((10 : ℝ) ≤ 0.2 * 10) := by norm_num
  have : part (fun f => if f = 0 then -5 else 7) (fun f => if f = 0 then 1 else 10) (fun _ => [1]) [0, 1] 1
      (fun x => x ≤ 0.2 * 10) = [((-5 : ℝ), (1 : ℝ))] := by
    simp [part, h1, h2]
  rw [this]
  exact ⟨by simp, by simp⟩

/-! ### Craters that have lost their floor or their rim -/

/-- No face carries the crater at a distance for which `p` holds. -/
def Lost (d : ℕ → ℝ) (ids : ℕ → List ℕ) (faces : List ℕ) (id : ℕ) (p : ℝ → Prop) : Prop :=
  ∀ f ∈ faces, id ∈ ids f → ¬ p (d f)

theorem average_lost {z d : ℕ → ℝ} {ids : ℕ → List ℕ} {faces : List ℕ} {id : ℕ} {p : ℝ → Prop}
    (h : Lost d ids faces id p) :
    average p (keptElev id (complete z d ids faces)) (keptDist id (complete z d ids faces)) = none := by
  rw [average_complete, if_pos]
  rw [List.length_eq_zero_iff]
  simp only [part, List.map_eq_nil_iff, List.filter_eq_nil_iff, decide_eq_true_eq, not_and]
  exact h

theorem floatMax_pos : 0 < floatMax := by
  unfold floatMax
  refine mul_pos ?_ (by positivity)
  norm_num

theorem average_bounds {z d : ℕ → ℝ} {ids : ℕ → List ℕ} {faces : List ℕ} {id : ℕ} {p : ℝ → Prop} {m M : ℝ}
    (hM : ∀ f ∈ faces, |z f| ≤ M)
    (h : average p (keptElev id (complete z d ids faces)) (keptDist id (complete z d ids faces)) = some m) : |m| ≤ M := by
  rw [average_isMean] at h
  rw [abs_le]
  refine h.bounds ?_
  intro x hx
  simp only [part, List.mem_map, List.mem_filter] at hx
  obtain ⟨f, ⟨hf, _⟩, rfl⟩ := hx
  exact abs_le.mp (hM f hf)

theorem ratio_lost (z d : ℕ → ℝ) (ids : ℕ → List ℕ) (faces : List ℕ) (id : ℕ) (r : ℝ) (hr : 0 < r)
    (hz : ∀ f ∈ faces, |z f| ≤ floatMax)
    (h : Lost d ids faces id (fun x => x ≤ 0.2 * r) ∨ Lost d ids faces id (fun x => 0.95 * r ≤ x ∧ x ≤ 1.2 * r)) :
    depthToDiameter id r (complete z d ids faces) ≤ 0 := by
  have hM := floatMax_pos
  unfold depthToDiameter
  apply div_nonpos_of_nonpos_of_nonneg _ (by linarith)
  have hf : floorDepth id r (complete z d ids faces) ≠ none →
      -floatMax ≤ (floorDepth id r (complete z d ids faces)).getD floatMax := by
    cases e : floorDepth id r (complete z d ids faces) with
    | none => simp
    | some m => exact fun _ => (abs_le.mp (average_bounds hz e)).1
  have hr' : rimHeight id r (complete z d ids faces) ≠ none →
      (rimHeight id r (complete z d ids faces)).getD (-floatMax) ≤ floatMax := by
    cases e : rimHeight id r (complete z d ids faces) with
    | none => simp
    | some m => exact fun _ => (abs_le.mp (average_bounds hz e)).2
  rcases h with h | h
  · have e : floorDepth id r (complete z d ids faces) = none := average_lost h
    by_cases e2 : rimHeight id r (complete z d ids faces) = none
    · rw [e, e2]; simp only [Option.getD_none]; linarith
    · have := hr' e2
      rw [e]; simp only [Option.getD_none]; linarith
  · have e : rimHeight id r (complete z d ids faces) = none := average_lost h
    by_cases e2 : floorDepth id r (complete z d ids faces) = none
    · rw [e, e2]; simp only [Option.getD_none]; linarith
    · have := hf e2
      rw [e]; simp only [Option.getD_none]; linarith

/-- A crater of at least a metre across of which no face is left near the centre, or none along the rim, is not visible,
so that the tally takes it out of the count. -/
theorem C112_lost (z d : ℕ → ℝ) (ids : ℕ → List ℕ) (faces : List ℕ) (id : ℕ) (r depth0 : ℝ) (hr : 1 ≤ 2 * r)
    (h0 : 0 < depth0) (hz : ∀ f ∈ faces, |z f| ≤ floatMax)
    (h : (∀ f ∈ faces, id ∈ ids f → 0.2 * r < d f) ∨
      (∀ f ∈ faces, id ∈ ids f → d f < 0.95 * r ∨ 1.2 * r < d f)) :
    ¬ Degradation.Visible 0.30 r (some (depthToDiameter id r (complete z d ids faces) / depth0)) := by
  have hneg : depthToDiameter id r (complete z d ids faces) ≤ 0 := by
    refine ratio_lost z d ids faces id r (by linarith) hz ?_
    refine h.imp (fun h f hf hi => not_le.mpr (h f hf hi)) (fun h f hf hi hp => ?_)
    rcases h f hf hi with h1 | h1
    · exact absurd hp.1 (not_le.mpr h1)
    · exact absurd hp.2 (not_le.mpr h1)
  intro hv
  obtain ⟨h1, h2, _⟩ := Degradation.C28_threshold r (depthToDiameter id r (complete z d ids faces) / depth0) hr
  have h3 := h1.mp hv
  have h4 : depthToDiameter id r (complete z d ids faces) / depth0 ≤ 0 := div_nonpos_of_nonpos_of_nonneg hneg h0.le
  linarith

/-- A crater is judged by what is left of it: with floor and rim in place it is visible exactly when its depth, relative to
the depth it formed with, is above a threshold between 1/64 and 1. -/
theorem C112_present (z d : ℕ → ℝ) (ids : ℕ → List ℕ) (faces : List ℕ) (id : ℕ) (r depth0 a b : ℝ) (hr : 1 ≤ 2 * r)
    (h0 : 0 < depth0)
    (hf : IsMean (part z d ids faces id fun x => x ≤ 0.2 * r) a)
    (hb : IsMean (part z d ids faces id fun x => 0.95 * r ≤ x ∧ x ≤ 1.2 * r) b) :
    (b - a < 1 / 64 * (depth0 * (2 * r)) →
      ¬ Degradation.Visible 0.30 r (some (depthToDiameter id r (complete z d ids faces) / depth0))) ∧
    (depth0 * (2 * r) ≤ b - a →
      Degradation.Visible 0.30 r (some (depthToDiameter id r (complete z d ids faces) / depth0))) := by
  have e : depthToDiameter id r (complete z d ids faces) = (b - a) / (2 * r) := by
    unfold depthToDiameter
    rw [(C111_mean_partial z d ids faces id r a).1.mpr hf, (C111_mean_partial z d ids faces id r b).2.mpr hb]
    rfl
  obtain ⟨h1, h2, h3⟩ := Degradation.C28_threshold r (depthToDiameter id r (complete z d ids faces) / depth0) hr
  rw [e] at h1 ⊢
  have hr0 : 0 < 2 * r := by linarith
  rw [h1, div_div, mul_comm (2 * r) depth0]
  have hD : 0 < depth0 * (2 * r) := mul_pos h0 hr0
  constructor
  · intro h hlt
    have : (b - a) / (depth0 * (2 * r)) < 1 / 64 := by rw [div_lt_iff₀ hD]; exact h
    linarith
  · intro h
    have : 1 ≤ (b - a) / (depth0 * (2 * r)) := by rw [le_div_iff₀ hD]; linarith
    linarith

example : Lost (fun _ => 10) (fun _ => [1]) [0] 1 (fun x => x ≤ 0.2 * 10) ∧ (1 : ℝ) ≤ 2 * 10 := by
  constructor
  · intro f _ _
    norm_num
  · norm_num

end Verif.Measure
