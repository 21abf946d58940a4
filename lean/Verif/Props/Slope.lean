import Verif.Model.Diffusion
import Mathlib.Analysis.SpecialFunctions.Complex.Arg
import Mathlib.RingTheory.RootsOfUnity.Complex
import Mathlib.Tactic.Linarith
import Mathlib.Tactic.LinearCombination
import Mathlib.Tactic.Positivity
import Mathlib.Tactic.Ring
import Mathlib.Tactic.FieldSimp

/-!
C117: the slope of an inclined plane, as computed for slope collapse and for `compute_slope`.
-/

namespace Verif.Slope

open Verif.Diffusion

/-- Around face `f` the surface is a plane with the gradient `(gx, gy)` (east, north): the rise to each neighbour is
its distance times the component of the gradient along its bearing. -/
def IsPlane (m : Mesh) (h : ℕ → ℝ) (f : ℕ) (gx gy : ℝ) : Prop :=
  ∀ x ∈ neighbors m f, h x.1 - h f = x.2.1 * (gx * Real.sin (m.bearing f x.1) + gy * Real.cos (m.bearing f x.1))

/-- The directions of the neighbours have no preferred axis. -/
def Isotropic (m : Mesh) (f : ℕ) : Prop :=
  ((neighbors m f).map fun x => x.2.2 * Real.sin (m.bearing f x.1) ^ 2).sum =
    ((neighbors m f).map fun x => x.2.2 * Real.cos (m.bearing f x.1) ^ 2).sum ∧
  ((neighbors m f).map fun x => x.2.2 * (Real.sin (m.bearing f x.1) * Real.cos (m.bearing f x.1))).sum = 0

/-! ### Sums over the neighbours -/

theorem neighbors_pos (m : Mesh) (f : ℕ) (x : ℕ × ℝ × ℝ) (hx : x ∈ neighbors m f) : 0 < x.2.1 ∧ 0 < x.2.2 := by
  unfold neighbors at hx
  rw [List.mem_filterMap] at hx
  obtain ⟨id, _, h⟩ := hx
  split_ifs at h
  split at h
  · simp at h
  · split at h
    · simp at h
    · split_ifs at h with h1 h2 h3
      · push Not at h1
        simp only [Option.some.injEq] at h
        subst h
        exact h1
      · push Not at h1
        simp only [Option.some.injEq] at h
        subst h
        exact h1

/-- Weighted second moments of the directions. -/
noncomputable def momSS (m : Mesh) (f : ℕ) : ℝ :=
  ((neighbors m f).map fun x => x.2.2 * Real.sin (m.bearing f x.1) ^ 2).sum
noncomputable def momCC (m : Mesh) (f : ℕ) : ℝ :=
  ((neighbors m f).map fun x => x.2.2 * Real.cos (m.bearing f x.1) ^ 2).sum
noncomputable def momSC (m : Mesh) (f : ℕ) : ℝ :=
  ((neighbors m f).map fun x => x.2.2 * (Real.sin (m.bearing f x.1) * Real.cos (m.bearing f x.1))).sum
noncomputable def weight (m : Mesh) (f : ℕ) : ℝ := ((neighbors m f).map fun x => x.2.2).sum

theorem sum_lin (l : List (ℕ × ℝ × ℝ)) (a b : ℕ × ℝ × ℝ → ℝ) (p q : ℝ) :
    (l.map fun x => p * a x + q * b x).sum = p * (l.map a).sum + q * (l.map b).sum := by
  induction l with
  | nil => simp
  | cons y l ih => simp only [List.map_cons, List.sum_cons, ih]; ring

theorem sum_nonneg' (l : List (ℕ × ℝ × ℝ)) (a : ℕ × ℝ × ℝ → ℝ) (h : ∀ x ∈ l, 0 ≤ a x) : 0 ≤ (l.map a).sum := by
  induction l with
  | nil => simp
  | cons y l ih =>
    simp only [List.map_cons, List.sum_cons]
    have := ih fun x hx => h x (by simp [hx])
    have := h y (by simp)
    linarith

theorem mom_add (m : Mesh) (f : ℕ) : momSS m f + momCC m f = weight m f := by
  unfold momSS momCC weight
  have := sum_lin (neighbors m f) (fun x => x.2.2 * Real.sin (m.bearing f x.1) ^ 2)
    (fun x => x.2.2 * Real.cos (m.bearing f x.1) ^ 2) 1 1
  rw [one_mul, one_mul] at this
  rw [← this]
  congr 1
  apply List.map_congr_left
  intro x _
  have := Real.sin_sq_add_cos_sq (m.bearing f x.1)
  linear_combination x.2.2 * this

theorem weight_pos (m : Mesh) (f : ℕ) (hn : 2 ≤ (neighbors m f).length) : 0 < weight m f := by
  unfold weight
  have hp := fun x hx => (neighbors_pos m f x hx).2
  generalize neighbors m f = l at hn hp
  cases l with
  | nil => simp at hn
  | cons y l =>
    simp only [List.map_cons, List.sum_cons]
    have := sum_nonneg' l (fun x => x.2.2) fun x hx => (hp x (by simp [hx])).le
    have := hp y (by simp)
    linarith

/-- Cauchy-Schwarz for the moments. -/
theorem mom_det (l : List (ℕ × ℝ × ℝ)) (w s c : ℕ × ℝ × ℝ → ℝ) (hw : ∀ x ∈ l, 0 ≤ w x) :
    (l.map fun x => w x * (s x * c x)).sum ^ 2 ≤
      (l.map fun x => w x * s x ^ 2).sum * (l.map fun x => w x * c x ^ 2).sum := by
  have key : ∀ p q : ℝ, 0 ≤ p ^ 2 * (l.map fun x => w x * s x ^ 2).sum +
      2 * p * q * (l.map fun x => w x * (s x * c x)).sum + q ^ 2 * (l.map fun x => w x * c x ^ 2).sum := by
    intro p q
    have h1 : 0 ≤ (l.map fun x => w x * (p * s x + q * c x) ^ 2).sum := by
      apply sum_nonneg'
      intro x hx
      exact mul_nonneg (hw x hx) (sq_nonneg _)
    have h2 : (l.map fun x => w x * (p * s x + q * c x) ^ 2).sum =
        p ^ 2 * (l.map fun x => w x * s x ^ 2).sum +
        2 * p * q * (l.map fun x => w x * (s x * c x)).sum + q ^ 2 * (l.map fun x => w x * c x ^ 2).sum := by
      clear h1 hw
      induction l with
      | nil => simp
      | cons y l ih => simp only [List.map_cons, List.sum_cons, ih]; ring
    linarith
  generalize (l.map fun x => w x * s x ^ 2).sum = A at *
  generalize (l.map fun x => w x * (s x * c x)).sum = B at *
  generalize (l.map fun x => w x * c x ^ 2).sum = C at *
  by_contra hlt
  push Not at hlt
  have hA : 0 ≤ A := by have := key 1 0; linarith
  have hC : 0 ≤ C := by have := key 0 1; linarith
  rcases hA.eq_or_lt with hA0 | hA0
  · have h1 := key (-(C + 1)) (B)
    rw [← hA0] at h1 hlt
    have hB : 0 < B ^ 2 := by linarith
    nlinarith
  · have h1 := key (-B) A
    nlinarith

/-- For a plane the computed slope is the gradient multiplied by the matrix of moments. -/
theorem slopeSq_plane (m : Mesh) (h : ℕ → ℝ) (f : ℕ) (gx gy : ℝ) (hp : IsPlane m h f gx gy)
    (hn : 2 ≤ (neighbors m f).length) :
    slopeSq m h f = ((gx * momSS m f + gy * momSC m f) / weight m f) ^ 2 +
      ((gx * momSC m f + gy * momCC m f) / weight m f) ^ 2 := by
  have hw := weight_pos m f hn
  have hz : ((neighbors m f).map fun x => (h x.1 - h f) * x.2.2 / x.2.1 * Real.sin (m.bearing f x.1)).sum =
      gx * momSS m f + gy * momSC m f := by
    unfold momSS momSC
    rw [← sum_lin]
    congr 1
    apply List.map_congr_left
    intro x hx
    have h1 := (neighbors_pos m f x hx).1
    rw [hp x hx]
    field_simp
  have hm : ((neighbors m f).map fun x => (h x.1 - h f) * x.2.2 / x.2.1 * Real.cos (m.bearing f x.1)).sum =
      gx * momSC m f + gy * momCC m f := by
    unfold momCC momSC
    rw [← sum_lin]
    congr 1
    apply List.map_congr_left
    intro x hx
    have h1 := (neighbors_pos m f x hx).1
    rw [hp x hx]
    field_simp
  unfold slopeSq
  simp only [hz, hm]
  rw [if_neg (by omega)]
  have hw' : ((neighbors m f).map fun x => x.2.2).sum = weight m f := rfl
  rw [hw', if_pos hw]
  ring

/-! ### C117 -/

/-- The computed slope of a plane is never larger than its slope. -/
theorem C117_slope_partial (m : Mesh) (h : ℕ → ℝ) (f : ℕ) (gx gy : ℝ) (hp : IsPlane m h f gx gy) :
    slopeSq m h f ≤ gx ^ 2 + gy ^ 2 := by
  by_cases hn : 2 ≤ (neighbors m f).length
  · rw [slopeSq_plane m h f gx gy hp hn]
    have hw := weight_pos m f hn
    have hadd := mom_add m f
    have hdet : momSC m f ^ 2 ≤ momSS m f * momCC m f :=
      mom_det (neighbors m f) (fun x => x.2.2) (fun x => Real.sin (m.bearing f x.1))
        (fun x => Real.cos (m.bearing f x.1)) fun x hx => (neighbors_pos m f x hx).2.le
    have hA : 0 ≤ momSS m f := sum_nonneg' _ _ fun x hx => mul_nonneg (neighbors_pos m f x hx).2.le (sq_nonneg _)
    have hC : 0 ≤ momCC m f := sum_nonneg' _ _ fun x hx => mul_nonneg (neighbors_pos m f x hx).2.le (sq_nonneg _)
    generalize momSS m f = A at *
    generalize momSC m f = B at *
    generalize momCC m f = C at *
    rw [← hadd] at hw ⊢
    rw [div_pow, div_pow, ← add_div, div_le_iff₀ (by positivity)]
    -- |M g|² ≤ (tr M)² |g|²
    have h1 : (gx * A + gy * B) ^ 2 + (gx * B + gy * C) ^ 2 ≤ (A + C) * (gx ^ 2 * A + 2 * gx * gy * B + gy ^ 2 * C) := by
      nlinarith [mul_nonneg (sub_nonneg.mpr hdet) (sq_nonneg gx), mul_nonneg (sub_nonneg.mpr hdet) (sq_nonneg gy)]
    have h2 : gx ^ 2 * A + 2 * gx * gy * B + gy ^ 2 * C ≤ (gx ^ 2 + gy ^ 2) * (A + C) := by
      -- the complementary form is nonnegative
      have : 0 ≤ gy ^ 2 * A - 2 * gx * gy * B + gx ^ 2 * C := by
        rcases hA.eq_or_lt with hA0 | hA0
        · have : B = 0 := by
            rw [← hA0, zero_mul] at hdet
            exact pow_eq_zero_iff (two_ne_zero) |>.mp (le_antisymm hdet (sq_nonneg _))
          rw [this]
          nlinarith [mul_nonneg hA (sq_nonneg gy), mul_nonneg hC (sq_nonneg gx)]
        · have : 0 ≤ A * (gy ^ 2 * A - 2 * gx * gy * B + gx ^ 2 * C) := by
            nlinarith [sq_nonneg (gy * A - gx * B), mul_nonneg (sub_nonneg.mpr hdet) (sq_nonneg gx)]
          exact nonneg_of_mul_nonneg_right this hA0
      nlinarith
    nlinarith [mul_le_mul_of_nonneg_left h2 hw.le]
  · have : slopeSq m h f = 0 := by
      unfold slopeSq
      simp only
      rw [if_pos (by omega)]
    rw [this]
    positivity

/-- If the directions of the neighbours have no preferred axis, the computed slope of a plane is exactly half its slope. -/
theorem C117_isotropic_fails (m : Mesh) (h : ℕ → ℝ) (f : ℕ) (gx gy : ℝ) (hp : IsPlane m h f gx gy)
    (hn : 2 ≤ (neighbors m f).length) (hi : Isotropic m f) :
    Real.sqrt (slopeSq m h f) = Real.sqrt (gx ^ 2 + gy ^ 2) / 2 := by
  rw [slopeSq_plane m h f gx gy hp hn]
  have hw := weight_pos m f hn
  have hadd := mom_add m f
  obtain ⟨h1, h2⟩ := hi
  have h1' : momSS m f = momCC m f := h1
  have h2' : momSC m f = 0 := h2
  have h3 : momSS m f = weight m f / 2 := by linarith
  rw [h2', ← h1', h3]
  have : ((gx * (weight m f / 2) + gy * 0) / weight m f) ^ 2 + ((gx * 0 + gy * (weight m f / 2)) / weight m f) ^ 2 =
      (gx ^ 2 + gy ^ 2) / 2 ^ 2 := by
    field_simp
    ring
  rw [this, Real.sqrt_div (by positivity), Real.sqrt_sq (by norm_num)]

/-- On no mesh whatever are all slopes right: around every face with at least two neighbours there is a direction in which
the plane of slope 1 has a computed slope of at most 1/2. -/
theorem C117_every_mesh_fails (m : Mesh) (f : ℕ) (hn : 2 ≤ (neighbors m f).length) :
    ∃ gx gy : ℝ, gx ^ 2 + gy ^ 2 = 1 ∧ ∀ h, IsPlane m h f gx gy → Real.sqrt (slopeSq m h f) ≤ 1 / 2 := by
  have hw := weight_pos m f hn
  have hadd := mom_add m f
  have hdet : momSC m f ^ 2 ≤ momSS m f * momCC m f :=
    mom_det (neighbors m f) (fun x => x.2.2) (fun x => Real.sin (m.bearing f x.1))
      (fun x => Real.cos (m.bearing f x.1)) fun x hx => (neighbors_pos m f x hx).2.le
  -- components of the anisotropy
  set D := (momSS m f - momCC m f) / 2 with hD
  set B := momSC m f with hB
  set z : ℂ := ⟨D, B⟩ with hz
  set r := ‖z‖ with hr
  set φ := Complex.arg z / 2 with hφ
  have hDr : D = r * Real.cos (2 * φ) := by
    have := Complex.norm_mul_cos_arg z
    rw [hφ, mul_div_cancel₀ _ (two_ne_zero)]
    exact this.symm
  have hBr : B = r * Real.sin (2 * φ) := by
    have := Complex.norm_mul_sin_arg z
    rw [hφ, mul_div_cancel₀ _ (two_ne_zero)]
    exact this.symm
  have hrr : r ^ 2 = D ^ 2 + B ^ 2 := by
    have := Complex.sq_norm z
    rw [Complex.normSq_apply] at this
    rw [this]; ring
  have hr0 : 0 ≤ r := norm_nonneg _
  have hr1 : r ≤ weight m f / 2 := by
    apply le_of_sq_le_sq _ (by linarith)
    rw [hrr]
    have : D ^ 2 = (weight m f / 2) ^ 2 - momSS m f * momCC m f := by rw [hD, ← hadd]; ring
    linarith
  refine ⟨-Real.sin φ, Real.cos φ, by rw [neg_sq]; exact Real.sin_sq_add_cos_sq φ, fun h hp => ?_⟩
  rw [slopeSq_plane m h f _ _ hp hn]
  have hS : momSS m f = weight m f / 2 + D := by rw [hD, ← hadd]; ring
  have hC : momCC m f = weight m f / 2 - D := by rw [hD, ← hadd]; ring
  rw [hS, hC, ← hB, hDr, hBr, Real.cos_two_mul, Real.sin_two_mul]
  have hsc := Real.sin_sq_add_cos_sq φ
  generalize Real.sin φ = s at *
  generalize Real.cos φ = c at *
  have e1 : -s * (weight m f / 2 + r * (2 * c ^ 2 - 1)) + c * (r * (2 * s * c)) = -s * (weight m f / 2 - r) := by
    ring
  have e2 : -s * (r * (2 * s * c)) + c * (weight m f / 2 - r * (2 * c ^ 2 - 1)) = c * (weight m f / 2 - r) := by
    have : s ^ 2 = 1 - c ^ 2 := by linarith
    linear_combination (-2 * r * c) * this
  rw [e1, e2]
  have e3 : (-s * (weight m f / 2 - r) / weight m f) ^ 2 + (c * (weight m f / 2 - r) / weight m f) ^ 2 =
      ((weight m f / 2 - r) / weight m f) ^ 2 := by
    field_simp
    linear_combination (weight m f - 2 * r) ^ 2 * hsc
  rw [e3, Real.sqrt_sq (by apply div_nonneg <;> linarith)]
  rw [div_le_iff₀ hw]
  linarith

/-- Hence slope collapse does not act on planes up to twice the critical slope. -/
theorem C117_collapse_fails (m : Mesh) (crit : ℝ) (hc : 0 ≤ crit) (h : ℕ → ℝ) (f : ℕ) (gx gy : ℝ)
    (hp : IsPlane m h f gx gy) (hn : 2 ≤ (neighbors m f).length) (hi : Isotropic m f)
    (hs : Real.sqrt (gx ^ 2 + gy ^ 2) ≤ 2 * crit) : collapseKappa m crit h f = 0 := by
  unfold collapseKappa
  rw [if_neg]
  have h1 := C117_isotropic_fails m h f gx gy hp hn hi
  have h2 : Real.sqrt (slopeSq m h f) ≤ crit := by rw [h1]; linarith
  rw [Real.sqrt_le_left hc] at h2
  nlinarith

/-! ### The case of a regular polygon -/

/-- A face (number 0) with `n` equal edges and neighbours at equal distance and equal angles. -/
noncomputable def star (n : ℕ) (d l θ : ℝ) : Mesh where
  n := n + 1
  edges := (List.range n).map fun (k : ℕ) => ⟨0, (k : ℤ) + 1, d, l⟩
  area := fun _ => 1
  faceEdges := fun f => if f = 0 then (List.range n).map (fun (k : ℕ) => (k : ℤ)) else [(f : ℤ) - 1]
  bearing := fun _ g => θ + 2 * Real.pi * ((g : ℝ) - 1) / n

theorem star_neighbors (n : ℕ) (d l θ : ℝ) (hd : 0 < d) (hl : 0 < l) :
    neighbors (star n d l θ) 0 = (List.range n).map fun k => (k + 1, d, l) := by
  unfold neighbors star
  simp only [if_true]
  rw [List.filterMap_map, show ((List.range n).map fun k => (k + 1, d, l)) = (List.range n).filterMap (some ∘ fun k => (k + 1, d, l))
    from (congrFun List.filterMap_eq_map' _).symm]
  apply List.filterMap_congr
  intro k hk
  rw [List.mem_range] at hk
  have h1 : ¬ ((k : ℤ) < 0) := by omega
  have h2 : ((List.range n).map fun (k : ℕ) => (⟨0, (k : ℤ) + 1, d, l⟩ : Edge))[k]? = some ⟨0, (k : ℤ) + 1, d, l⟩ := by
    simp [hk]
  have h3 : edgeFaces (n + 1) ⟨0, (k : ℤ) + 1, d, l⟩ = some (0, k + 1) := by
    unfold edgeFaces
    dsimp only
    rw [if_pos ⟨le_refl _, by positivity, by positivity, by push_cast; omega⟩]
    simp
  have h4 : ¬ (d ≤ 0 ∨ l ≤ 0) := by push Not; exact ⟨hd, hl⟩
  simp only [Function.comp, h1, if_false, Int.toNat_natCast, h2, h3, h4]
  simp

theorem root_sum (n : ℕ) (hn : 3 ≤ n) (θ : ℝ) :
    ((List.range n).map fun (k : ℕ) => Complex.exp (((2 * (θ + 2 * Real.pi * k / n) : ℝ) : ℂ) * Complex.I)).sum = 0 := by
  have hn0 : (n : ℂ) ≠ 0 := by exact_mod_cast (by omega : n ≠ 0)
  set ζ := Complex.exp (2 * Real.pi * Complex.I / n) with hζ
  have hprim : IsPrimitiveRoot ζ n := Complex.isPrimitiveRoot_exp n (by omega)
  have hne : ζ ^ 2 ≠ 1 := by
    intro h
    have := hprim.dvd_of_pow_eq_one 2 h
    have := Nat.le_of_dvd (by norm_num) this
    omega
  have hterm : ∀ k : ℕ, Complex.exp (((2 * (θ + 2 * Real.pi * k / n) : ℝ) : ℂ) * Complex.I) =
      Complex.exp (2 * θ * Complex.I) * (ζ ^ 2) ^ k := by
    intro k
    rw [hζ, ← Complex.exp_nat_mul, ← Complex.exp_nat_mul, ← Complex.exp_add]
    congr 1
    push_cast
    field_simp
  simp only [hterm]
  rw [List.sum_map_mul_left]
  have hgeo : ∀ j : ℕ, (ζ ^ 2 - 1) * ((List.range j).map fun k => (ζ ^ 2) ^ k).sum = (ζ ^ 2) ^ j - 1 := by
    intro j
    induction j with
    | zero => simp
    | succ j ih =>
      rw [List.range_succ, List.map_append, List.sum_append, mul_add, ih]
      simp only [List.map_cons, List.map_nil, List.sum_cons, List.sum_nil, add_zero]
      ring
  have h1 := hgeo n
  rw [← pow_mul, mul_comm 2 n, pow_mul, hprim.pow_eq_one, one_pow, sub_self] at h1
  have h2 := (mul_eq_zero.mp h1).resolve_left (sub_ne_zero.mpr hne)
  exact mul_eq_zero_of_right _ h2

theorem re_list_sum (l : List ℂ) : l.sum.re = (l.map Complex.re).sum := by
  induction l with
  | nil => simp
  | cons a l ih => simp [ih]

theorem im_list_sum (l : List ℂ) : l.sum.im = (l.map Complex.im).sum := by
  induction l with
  | nil => simp
  | cons a l ih => simp [ih]

theorem star_isotropic (n : ℕ) (hn : 3 ≤ n) (d l θ : ℝ) (hd : 0 < d) (hl : 0 < l) : Isotropic (star n d l θ) 0 := by
  have h := root_sum n hn θ
  have hre := congrArg Complex.re h
  have him := congrArg Complex.im h
  rw [re_list_sum, List.map_map] at hre
  rw [im_list_sum, List.map_map] at him
  simp only [Function.comp_def, Complex.exp_ofReal_mul_I_re, Complex.exp_ofReal_mul_I_im, Complex.zero_re,
    Complex.zero_im] at hre him
  unfold Isotropic
  rw [star_neighbors n d l θ hd hl]
  simp only [List.map_map, Function.comp_def]
  have hb : ∀ k : ℕ, (star n d l θ).bearing 0 (k + 1) = θ + 2 * Real.pi * k / n := by
    intro k
    simp [star]
  simp only [hb]
  constructor
  · rw [← sub_eq_zero]
    have : ∀ L : List ℕ, (L.map fun k : ℕ => l * Real.sin (θ + 2 * Real.pi * k / n) ^ 2).sum -
        (L.map fun k : ℕ => l * Real.cos (θ + 2 * Real.pi * k / n) ^ 2).sum =
        -l * (L.map fun k : ℕ => Real.cos (2 * (θ + 2 * Real.pi * k / n))).sum := by
      intro L
      induction L with
      | nil => simp
      | cons a L ih =>
        simp only [List.map_cons, List.sum_cons]
        rw [Real.cos_two_mul, Real.sin_sq]
        linear_combination ih
    rw [this, hre, mul_zero]
  · have : ∀ L : List ℕ, (L.map fun k : ℕ => l * (Real.sin (θ + 2 * Real.pi * k / n) *
        Real.cos (θ + 2 * Real.pi * k / n))).sum =
        l / 2 * (L.map fun k : ℕ => Real.sin (2 * (θ + 2 * Real.pi * k / n))).sum := by
      intro L
      induction L with
      | nil => simp
      | cons a L ih =>
        simp only [List.map_cons, List.sum_cons]
        rw [Real.sin_two_mul]
        linear_combination ih
    rw [this, him, mul_zero]

/-- On a face that is a regular polygon of any number of sides, in particular a hexagon, the computed slope of every plane
is half its slope. -/
theorem C117_polygon_fails (n : ℕ) (hn : 3 ≤ n) (d l θ : ℝ) (hd : 0 < d) (hl : 0 < l) (gx gy : ℝ) :
    ∃ h, IsPlane (star n d l θ) h 0 gx gy ∧
      Real.sqrt (slopeSq (star n d l θ) h 0) = Real.sqrt (gx ^ 2 + gy ^ 2) / 2 := by
  refine ⟨fun g => if g = 0 then 0 else d * (gx * Real.sin ((star n d l θ).bearing 0 g) +
    gy * Real.cos ((star n d l θ).bearing 0 g)), ?_, ?_⟩
  all_goals
    have hp : IsPlane (star n d l θ) (fun g => if g = 0 then 0 else d * (gx * Real.sin ((star n d l θ).bearing 0 g) +
        gy * Real.cos ((star n d l θ).bearing 0 g))) 0 gx gy := by
      intro x hx
      rw [star_neighbors n d l θ hd hl, List.mem_map] at hx
      obtain ⟨k, _, rfl⟩ := hx
      simp
  · exact hp
  · apply C117_isotropic_fails _ _ _ _ _ hp
    · rw [star_neighbors n d l θ hd hl]; simp; omega
    · exact star_isotropic n hn d l θ hd hl

/-- A slope of 1 (45°) on a hexagonal mesh survives a critical slope of 0.7 (35°). -/
example : ∃ h, IsPlane (star 6 1 1 0) h 0 1 0 ∧ collapseKappa (star 6 1 1 0) 0.7 h 0 = 0 := by
  obtain ⟨h, hp, _⟩ := C117_polygon_fails 6 (by norm_num) 1 1 0 one_pos one_pos 1 0
  refine ⟨h, hp, C117_collapse_fails _ _ (by norm_num) _ _ 1 0 hp ?_
    (star_isotropic 6 (by norm_num) 1 1 0 one_pos one_pos) ?_⟩
  · rw [star_neighbors 6 1 1 0 one_pos one_pos]; simp
  · norm_num

end Verif.Slope
