import Verif.Model.MeshRounding
import Mathlib.Analysis.SpecialFunctions.Trigonometric.Bounds
import Mathlib.Data.List.Dedup
import Mathlib.Tactic.Positivity
import Mathlib.Tactic.Linarith

/-!
C230: rounding the coordinates of the points of a mesh.
-/

namespace Verif.MeshRounding

open Classical

/-- The square of the distance of two points. -/
def distSq (p q : ℝ × ℝ × ℝ) : ℝ := (p.1 - q.1) ^ 2 + (p.2.1 - q.2.1) ^ 2 + (p.2.2 - q.2.2) ^ 2

/-- The last decimal kept is at most one pixel. -/
theorem decimals_le (pix radius : ℝ) (hp : 0 < pix) (hr : 0 < radius) : (10 : ℝ) ^ (-decimals pix radius) ≤ pix / radius := by
  have h0 : 0 < pix / radius := by positivity
  have h1 : -decimals pix radius ≤ ⌊Real.logb 10 (pix / radius)⌋ := by unfold decimals; omega
  calc (10 : ℝ) ^ (-decimals pix radius) ≤ 10 ^ ⌊Real.logb 10 (pix / radius)⌋ := zpow_le_zpow_right₀ (by norm_num) h1
    _ = (10 : ℝ) ^ ((⌊Real.logb 10 (pix / radius)⌋ : ℤ) : ℝ) := (Real.rpow_intCast _ _).symm
    _ ≤ (10 : ℝ) ^ (Real.logb 10 (pix / radius)) := Real.rpow_le_rpow_of_exponent_le (by norm_num) (Int.floor_le _)
    _ = pix / radius := Real.rpow_logb (by norm_num) (by norm_num) h0

theorem roundTo_near (rnd : ℝ → ℤ) (hr : ∀ x, |(rnd x : ℝ) - x| ≤ 1 / 2) (d : ℤ) (x : ℝ) : |roundTo rnd d x - x| ≤ 10 ^ (-d) / 2 := by
  unfold roundTo
  have hd : (0 : ℝ) < 10 ^ d := by positivity
  have e : (rnd (x * 10 ^ d) : ℝ) / 10 ^ d - x = (rnd (x * 10 ^ d) - x * 10 ^ d) / 10 ^ d := by field_simp
  rw [e, abs_div, abs_of_pos hd, zpow_neg, div_le_iff₀ hd]
  have := hr (x * 10 ^ d)
  field_simp
  linarith

/-- Every point of the mesh comes from a point that was made, each made point is represented, none occurs twice, and no coordinate is moved by more than half the last
decimal, so that a point is moved by less than nine tenths of a pixel. -/
theorem C230_moved (rnd : ℝ → ℤ) (hrnd : ∀ x, |(rnd x : ℝ) - x| ≤ 1 / 2) (pix radius : ℝ) (hp : 0 < pix) (hr : 0 < radius) (ps : List (ℝ × ℝ × ℝ)) :
    (meshPoints rnd pix radius ps).Nodup ∧
    (∀ q ∈ meshPoints rnd pix radius ps, ∃ p ∈ ps, radius ^ 2 * distSq p q < (9 / 10 * pix) ^ 2) ∧
    (∀ p ∈ ps, ∃ q ∈ meshPoints rnd pix radius ps, radius ^ 2 * distSq p q < (9 / 10 * pix) ^ 2) := by
  have key : ∀ p : ℝ × ℝ × ℝ, radius ^ 2 * distSq p (roundPoint rnd (decimals pix radius) p) < (9 / 10 * pix) ^ 2 := by
    intro p
    have hd := decimals_le pix radius hp hr
    have hd0 : (0 : ℝ) < 10 ^ (-decimals pix radius) := by positivity
    have one : ∀ x, (x - roundTo rnd (decimals pix radius) x) ^ 2 ≤ (pix / radius) ^ 2 / 4 := by
      intro x
      have h := roundTo_near rnd hrnd (decimals pix radius) x
      rw [← sq_abs, abs_sub_comm]
      have h2 : |roundTo rnd (decimals pix radius) x - x| ≤ pix / radius / 2 := by linarith
      calc |roundTo rnd (decimals pix radius) x - x| ^ 2 ≤ (pix / radius / 2) ^ 2 := by gcongr
        _ = _ := by ring
    have h3 : distSq p (roundPoint rnd (decimals pix radius) p) ≤ 3 * ((pix / radius) ^ 2 / 4) := by
      unfold distSq roundPoint
      linarith [one p.1, one p.2.1, one p.2.2]
    calc radius ^ 2 * distSq p (roundPoint rnd (decimals pix radius) p) ≤ radius ^ 2 * (3 * ((pix / radius) ^ 2 / 4)) := by gcongr
      _ = 3 / 4 * pix ^ 2 := by field_simp
      _ < _ := by nlinarith [sq_pos_of_pos hp]
  refine ⟨List.nodup_dedup _, ?_, ?_⟩
  · intro q hq
    rw [meshPoints, List.mem_dedup, List.mem_map] at hq
    obtain ⟨p, hp', rfl⟩ := hq
    exact ⟨p, hp', key p⟩
  · intro p hp'
    exact ⟨_, List.mem_dedup.2 (List.mem_map_of_mem hp'), key p⟩

/-- Points that are all more than `√3` of the last decimal apart from each other all stay, as different points.
What is missing: points that are closer; the last decimal may be as large as a pixel. -/
theorem C230_kept_partial (rnd : ℝ → ℤ) (hrnd : ∀ x, |(rnd x : ℝ) - x| ≤ 1 / 2) (pix radius : ℝ) (ps : List (ℝ × ℝ × ℝ))
    (hps : ps.Pairwise fun p q => 3 * ((10 : ℝ) ^ (-decimals pix radius)) ^ 2 < distSq p q) :
    (meshPoints rnd pix radius ps).length = ps.length := by
  unfold meshPoints
  have h : (ps.map (roundPoint rnd (decimals pix radius))).Nodup := by
    rw [List.Nodup, List.pairwise_map]
    refine hps.imp ?_
    intro p q hpq heq
    have hu0 : (0 : ℝ) < 10 ^ (-decimals pix radius) := by positivity
    generalize decimals pix radius = d at *
    have one : ∀ x y, roundTo rnd d x = roundTo rnd d y → (x - y) ^ 2 ≤ ((10 : ℝ) ^ (-d)) ^ 2 := by
      intro x y hxy
      have h1 := abs_le.1 (roundTo_near rnd hrnd d x)
      have h2 := abs_le.1 (roundTo_near rnd hrnd d y)
      rw [hxy] at h1
      exact sq_le_sq' (by linarith [h1.1, h2.2]) (by linarith [h1.2, h2.1])
    have e1 := one p.1 q.1 (congrArg Prod.fst heq)
    have e2 := one p.2.1 q.2.1 (congrArg (fun x => x.2.1) heq)
    have e3 := one p.2.2 q.2.2 (congrArg (fun x => x.2.2) heq)
    unfold distSq at hpq
    linarith
  rw [List.dedup_eq_self.2 h, List.length_map]

example : ([((0 : ℝ), (0 : ℝ), (1 : ℝ)), (0, 0, -1)] : List (ℝ × ℝ × ℝ)).Pairwise fun p q => 3 * ((10 : ℝ) ^ (-decimals 1 1)) ^ 2 < distSq p q := by
  have h : decimals 1 1 = 6 := by simp [decimals]
  rw [h]
  simp [distSq]
  norm_num

theorem decimals_example : decimals (3 / 2) 1000000 = 6 := by
  have h : ⌊Real.logb 10 ((3 / 2 : ℝ) / 1000000)⌋ = -6 := by
    rw [Int.floor_eq_iff]
    constructor
    · rw [Real.le_logb_iff_rpow_le (by norm_num) (by norm_num), Real.rpow_intCast]
      norm_num
    · have e : ((-6 : ℤ) : ℝ) + 1 = ((-5 : ℤ) : ℝ) := by norm_num
      rw [e, Real.logb_lt_iff_lt_rpow (by norm_num) (by norm_num), Real.rpow_intCast]
      norm_num
  unfold decimals
  rw [h]; rfl

theorem nearest {rnd : ℝ → ℤ} (hrnd : ∀ x, |(rnd x : ℝ) - x| ≤ 1 / 2) {x : ℝ} {n : ℤ} (h : |(n : ℝ) - x| < 1 / 2) : rnd x = n := by
  have h1 := abs_le.1 (hrnd x)
  have h2 := abs_lt.1 h
  have h3 : (rnd x : ℝ) - n < 1 := by linarith
  have h4 : (n : ℝ) - rnd x < 1 := by linarith
  have h5 : rnd x - n < 1 := by exact_mod_cast h3
  have h6 : n - rnd x < 1 := by exact_mod_cast h4
  omega

/-- Points one pixel apart do not stay one pixel apart: on a body of 1000 km radius with pixels of 1.5 m, the points that were made 1.5 m and 3 m north of the centre are
moved to 1 m and 3 m, two thirds and four thirds of a pixel from their neighbours. -/
theorem C230_spacing_fails (rnd : ℝ → ℤ) (hrnd : ∀ x, |(rnd x : ℝ) - x| ≤ 1 / 2) :
    let place := fun j : ℕ => Verif.Rings.interiorPoint (0, j * ((3 / 2 : ℝ) / 1000000))
    let moved := fun j : ℕ => roundPoint rnd (decimals (3 / 2) 1000000) (place j)
    1000000 * ((moved 1).2.1 - (moved 0).2.1) = 1 ∧ 1000000 * ((moved 2).2.1 - (moved 1).2.1) = 2 := by
  intro place moved
  have sin_near : ∀ x : ℝ, 0 < x → x ≤ 1 → x - x ^ 3 / 6 < Real.sin x ∧ Real.sin x < x := fun x h0 _ => ⟨Real.sin_gt_sub_cube h0, Real.sin_lt h0⟩
  have val : ∀ (j : ℕ) (n : ℤ), |(n : ℝ) - Real.sin (j * ((3 / 2 : ℝ) / 1000000)) * 1000000| < 1 / 2 → (moved j).2.1 = n / 1000000 := by
    intro j n h
    simp only [moved, place, roundPoint, roundTo, decimals_example, Verif.Rings.interiorPoint]
    have e : (10 : ℝ) ^ (6 : ℤ) = 1000000 := by norm_num
    rw [e, nearest hrnd h]
  have v0 := val 0 0 (by simp)
  have v1 := val 1 1 (by
    have h := sin_near ((1 : ℕ) * ((3 / 2 : ℝ) / 1000000)) (by norm_num) (by norm_num)
    rw [abs_lt]
    have h1 := h.1
    have h2 := h.2
    push_cast at h1 h2 ⊢
    norm_num at h1 h2 ⊢
    constructor <;> linarith)
  have v2 := val 2 3 (by
    have h := sin_near ((2 : ℕ) * ((3 / 2 : ℝ) / 1000000)) (by norm_num) (by norm_num)
    rw [abs_lt]
    have h1 := h.1
    have h2 := h.2
    push_cast at h1 h2 ⊢
    norm_num at h1 h2 ⊢
    constructor <;> linarith)
  rw [v0, v1, v2]
  norm_num

end Verif.MeshRounding
