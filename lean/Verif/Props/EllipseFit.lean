import Verif.Model.EllipseFit
import Verif.Props.Fit
import Mathlib.Analysis.Matrix.Order
import Mathlib.Analysis.Complex.Polynomial.Basic
import Mathlib.LinearAlgebra.Matrix.ToLinearEquiv
import Mathlib.Tactic.Linarith
import Mathlib.Tactic.LinearCombination

/-! Properties C147, C148, C149, C150: ellipse fits. -/

namespace Verif.Fit

open Real Matrix

/-! ### The eigenvalue routine -/

/-- What is asked of the eigenvalue routine: every column is an eigenvector with some eigenvalue, a real one if the eigenvalue
is real, and every eigenvalue of the matrix has a column. -/
def Eigen (M : Matrix (Fin 3) (Fin 3) ℝ) (v : Fin 3 → Fin 3 → ℂ) : Prop :=
  ∃ lam : Fin 3 → ℂ,
    (∀ k, v k ≠ 0 ∧ (M.map fun x => (x : ℂ)) *ᵥ v k = lam k • v k ∧ ((lam k).im = 0 → ∀ i, (v k i).im = 0)) ∧
    ∀ mu x, x ≠ 0 → (M.map fun x => (x : ℂ)) *ᵥ x = mu • x → ∃ k, lam k = mu

/-! ### Quadratic forms -/

/-- Four times the determinant of the quadratic part: positive for ellipses. -/
def con (q : Fin 3 → ℝ) : ℝ := 4 * q 0 * q 2 - q 1 * q 1

/-- The form whose square is `con`. -/
def con2 (q r : Fin 3 → ℝ) : ℝ := 2 * q 0 * r 2 + 2 * q 2 * r 0 - q 1 * r 1

theorem con2_self (q : Fin 3 → ℝ) : con2 q q = con q := by unfold con2 con; ring

theorem constraint_form (q r : Fin 3 → ℝ) : q ⬝ᵥ (constraint *ᵥ r) = con2 q r := by
  simp [constraint, con2, dotProduct, mulVec, Fin.sum_univ_three, Matrix.cons_val_two, Matrix.vecHead, Matrix.vecTail]
  ring

theorem constraint_det : constraint.det = 4 := by
  simp [constraint, Matrix.det_fin_three]
  norm_num

/-- The complement of an ellipse has no ellipse. -/
theorem con_orthogonal {q r : Fin 3 → ℝ} (hq : 0 < con q) (h : con2 q r = 0) : con r ≤ 0 := by
  by_contra hr
  push Not at hr
  unfold con at hq hr
  unfold con2 at h
  have h1 : 0 < 4 * q 0 * q 2 := by nlinarith [mul_self_nonneg (q 1)]
  have h2 : 0 < 4 * r 0 * r 2 := by nlinarith [mul_self_nonneg (r 1)]
  have h3 : (q 1 * q 1) * (r 1 * r 1) < (4 * q 0 * q 2) * (4 * r 0 * r 2) :=
    mul_lt_mul'' (by linarith) (by linarith) (mul_self_nonneg _) (mul_self_nonneg _)
  have h4 : (q 1 * r 1) * (q 1 * r 1) = 4 * (q 0 * r 2 + q 2 * r 0) ^ 2 := by
    rw [show q 1 * r 1 = 2 * q 0 * r 2 + 2 * q 2 * r 0 by linarith]; ring
  nlinarith [sq_nonneg (q 0 * r 2 - q 2 * r 0)]

/-! ### Eigenvectors of the reduced matrix -/

theorem mulVec_re (S : Matrix (Fin 3) (Fin 3) ℝ) (v : Fin 3 → ℂ) (i : Fin 3) :
    ((S.map (fun x => (x : ℂ)) *ᵥ v) i).re = (S *ᵥ fun j => (v j).re) i := by
  simp [mulVec, dotProduct]

theorem mulVec_im (S : Matrix (Fin 3) (Fin 3) ℝ) (v : Fin 3 → ℂ) (i : Fin 3) :
    ((S.map (fun x => (x : ℂ)) *ᵥ v) i).im = (S *ᵥ fun j => (v j).im) i := by
  simp [mulVec, dotProduct]

theorem constraint_unit : IsUnit constraint.det := by rw [constraint_det]; exact isUnit_iff_ne_zero.mpr (by norm_num)

theorem from_eigen {S : Matrix (Fin 3) (Fin 3) ℝ} {v : Fin 3 → ℂ} {mu : ℂ}
    (h : ((constraint⁻¹ * S).map fun x => (x : ℂ)) *ᵥ v = mu • v) :
    (S *ᵥ fun j => (v j).re) = constraint *ᵥ (fun j => mu.re * (v j).re - mu.im * (v j).im) ∧
    (S *ᵥ fun j => (v j).im) = constraint *ᵥ (fun j => mu.re * (v j).im + mu.im * (v j).re) := by
  have hr : ((constraint⁻¹ * S) *ᵥ fun j => (v j).re) = fun j => mu.re * (v j).re - mu.im * (v j).im := by
    funext i
    rw [← mulVec_re, h]
    simp
  have hi : ((constraint⁻¹ * S) *ᵥ fun j => (v j).im) = fun j => mu.re * (v j).im + mu.im * (v j).re := by
    funext i
    rw [← mulVec_im, h]
    simp
  constructor
  · rw [← hr, mulVec_mulVec, Matrix.mul_nonsing_inv_cancel_left _ _ constraint_unit]
  · rw [← hi, mulVec_mulVec, Matrix.mul_nonsing_inv_cancel_left _ _ constraint_unit]

/-- A matrix that is symmetric and has no negative squares. -/
structure Psd (S : Matrix (Fin 3) (Fin 3) ℝ) : Prop where
  symm : ∀ x y, x ⬝ᵥ (S *ᵥ y) = y ⬝ᵥ (S *ᵥ x)
  nonneg : ∀ x, 0 ≤ x ⬝ᵥ (S *ᵥ x)

theorem Psd.kernel {S : Matrix (Fin 3) (Fin 3) ℝ} (h : Psd S) {x : Fin 3 → ℝ} (hx : x ⬝ᵥ (S *ᵥ x) = 0) : S *ᵥ x = 0 := by
  set y := S *ᵥ x with hy
  have h0 : y ⬝ᵥ y = 0 := by
    by_contra hne
    have hpos : 0 < y ⬝ᵥ y := lt_of_le_of_ne (by
      rw [dotProduct]; exact Finset.sum_nonneg fun i _ => mul_self_nonneg _) (Ne.symm hne)
    have key : ∀ t : ℝ, 0 ≤ 2 * t * (y ⬝ᵥ y) + t ^ 2 * (y ⬝ᵥ (S *ᵥ y)) := by
      intro t
      have := h.nonneg (x + t • y)
      rw [mulVec_add, mulVec_smul, dotProduct_add, add_dotProduct, add_dotProduct, hx, ← hy, dotProduct_smul, dotProduct_smul,
        smul_dotProduct, smul_dotProduct, h.symm x y, ← hy] at this
      simp only [smul_eq_mul] at this
      nlinarith
    have hn := h.nonneg y
    rcases hn.eq_or_lt with h1 | h1
    · have := key (-1); rw [← h1] at this; linarith
    · have := key (-(y ⬝ᵥ y) / (y ⬝ᵥ (S *ᵥ y)))
      have e : 2 * (-(y ⬝ᵥ y) / (y ⬝ᵥ (S *ᵥ y))) * (y ⬝ᵥ y) + (-(y ⬝ᵥ y) / (y ⬝ᵥ (S *ᵥ y))) ^ 2 * (y ⬝ᵥ (S *ᵥ y)) =
          -((y ⬝ᵥ y) ^ 2 / (y ⬝ᵥ (S *ᵥ y))) := by field_simp; ring
      rw [e] at this
      have : 0 < (y ⬝ᵥ y) ^ 2 / (y ⬝ᵥ (S *ᵥ y)) := by positivity
      linarith
  exact dotProduct_self_eq_zero.mp h0

theorem re_im_zero {v : Fin 3 → ℂ} (h1 : (fun j => (v j).re) = 0) (h2 : (fun j => (v j).im) = 0) : v = 0 := by
  funext i
  exact Complex.ext (congrFun h1 i) (congrFun h2 i)

theorem constraint_zero {x : Fin 3 → ℝ} (h : constraint *ᵥ x = 0) : x = 0 := by
  have := congrArg (constraint⁻¹ *ᵥ ·) h
  simpa [mulVec_mulVec, Matrix.nonsing_inv_mul _ constraint_unit] using this

/-- The eigenvalues of the reduced matrix are real. -/
theorem eigen_real {S : Matrix (Fin 3) (Fin 3) ℝ} (hS : Psd S) {v : Fin 3 → ℂ} {mu : ℂ} (hv : v ≠ 0)
    (h : ((constraint⁻¹ * S).map fun x => (x : ℂ)) *ᵥ v = mu • v) : mu.im = 0 := by
  obtain ⟨hu, hw⟩ := from_eigen h
  set u : Fin 3 → ℝ := fun j => (v j).re with hu'
  set w : Fin 3 → ℝ := fun j => (v j).im with hw'
  by_contra hne
  have c1 : constraint *ᵥ (fun j => mu.re * (v j).re - mu.im * (v j).im) = mu.re • (constraint *ᵥ u) - mu.im • (constraint *ᵥ w) := by
    rw [← mulVec_smul, ← mulVec_smul, ← mulVec_sub]; rfl
  have c2 : constraint *ᵥ (fun j => mu.re * (v j).im + mu.im * (v j).re) = mu.re • (constraint *ᵥ w) + mu.im • (constraint *ᵥ u) := by
    rw [← mulVec_smul, ← mulVec_smul, ← mulVec_add]; rfl
  rw [c1] at hu
  rw [c2] at hw
  have e1 : u ⬝ᵥ (S *ᵥ w) = mu.re * con2 u w + mu.im * con2 u u := by
    rw [hw, dotProduct_add, dotProduct_smul, dotProduct_smul, constraint_form, constraint_form]; rfl
  have e2 : w ⬝ᵥ (S *ᵥ u) = mu.re * con2 w u - mu.im * con2 w w := by
    rw [hu, dotProduct_sub, dotProduct_smul, dotProduct_smul, constraint_form, constraint_form]; rfl
  have e3 : u ⬝ᵥ (S *ᵥ u) = mu.re * con2 u u - mu.im * con2 u w := by
    rw [hu, dotProduct_sub, dotProduct_smul, dotProduct_smul, constraint_form, constraint_form]; rfl
  have e4 : w ⬝ᵥ (S *ᵥ w) = mu.re * con2 w w + mu.im * con2 w u := by
    rw [hw, dotProduct_add, dotProduct_smul, dotProduct_smul, constraint_form, constraint_form]; rfl
  have sy : con2 u w = con2 w u := by unfold con2; ring
  have hs := hS.symm u w
  rw [e1, e2, sy] at hs
  have hz : con2 u u + con2 w w = 0 := by
    have : mu.im * (con2 u u + con2 w w) = 0 := by linarith
    exact (mul_eq_zero.mp this).resolve_left hne
  have hsum : u ⬝ᵥ (S *ᵥ u) + w ⬝ᵥ (S *ᵥ w) = 0 := by
    rw [e3, e4, sy]; linear_combination mu.re * hz
  have hu0 := hS.kernel (by linarith [hS.nonneg u, hS.nonneg w] : u ⬝ᵥ (S *ᵥ u) = 0)
  have hw0 := hS.kernel (by linarith [hS.nonneg u, hS.nonneg w] : w ⬝ᵥ (S *ᵥ w) = 0)
  rw [hu] at hu0
  rw [hw] at hw0
  have z1 : mu.re • u - mu.im • w = 0 := constraint_zero (by rw [mulVec_sub, mulVec_smul, mulVec_smul]; exact hu0)
  have z2 : mu.re • w + mu.im • u = 0 := constraint_zero (by rw [mulVec_add, mulVec_smul, mulVec_smul]; exact hw0)
  have hn : 0 < mu.re ^ 2 + mu.im ^ 2 := by positivity
  apply hv
  apply re_im_zero
  · funext j
    have a1 := congrFun z1 j
    have a2 := congrFun z2 j
    simp only [Pi.sub_apply, Pi.add_apply, Pi.smul_apply, Pi.zero_apply, smul_eq_mul] at a1 a2
    have : (mu.re ^ 2 + mu.im ^ 2) * u j = 0 := by linear_combination mu.re * a1 + mu.im * a2
    exact (mul_eq_zero.mp this).resolve_left hn.ne'
  · funext j
    have a1 := congrFun z1 j
    have a2 := congrFun z2 j
    simp only [Pi.sub_apply, Pi.add_apply, Pi.smul_apply, Pi.zero_apply, smul_eq_mul] at a1 a2
    have : (mu.re ^ 2 + mu.im ^ 2) * w j = 0 := by linear_combination -mu.im * a1 + mu.re * a2
    exact (mul_eq_zero.mp this).resolve_left hn.ne'

theorem eigen_part {S : Matrix (Fin 3) (Fin 3) ℝ} (hS : Psd S) {v : Fin 3 → ℂ} {mu : ℂ} (hv : v ≠ 0)
    (h : ((constraint⁻¹ * S).map fun x => (x : ℂ)) *ᵥ v = mu • v) :
    (S *ᵥ fun j => (v j).re) = mu.re • (constraint *ᵥ fun j => (v j).re) := by
  have him := eigen_real hS hv h
  rw [(from_eigen h).1, ← mulVec_smul, him]
  congr 1
  funext j
  simp

theorem chooseColumn_some {v : Fin 3 → Fin 3 → ℂ} {q : Fin 3 → ℝ} (h : chooseColumn v = some q) :
    0 < con q ∧ ∃ k, q = fun i => (v k i).re := by
  unfold chooseColumn at h
  rw [Option.map_eq_some_iff] at h
  obtain ⟨k, hk, rfl⟩ := h
  have := List.find?_some hk
  refine ⟨by simpa [con] using this, k, rfl⟩

theorem chooseColumn_exists {v : Fin 3 → Fin 3 → ℂ} (k : Fin 3) (h : 0 < con fun i => (v k i).re) :
    ∃ q, chooseColumn v = some q := by
  unfold chooseColumn
  rcases hf : (List.finRange 3).find? fun k => decide (0 < 4 * (v k 0).re * (v k 2).re - (v k 1).re * (v k 1).re) with _ | k'
  · rw [List.find?_eq_none] at hf
    have := hf k (List.mem_finRange k)
    simp [con] at this h
    linarith
  · exact ⟨_, rfl⟩

/-- The chosen column has the least square among those with the same constraint. -/
theorem chosen_least {S : Matrix (Fin 3) (Fin 3) ℝ} (hS : Psd S) {u : Fin 3 → ℝ} {mu : ℝ} (hu : 0 < con u)
    (h : S *ᵥ u = mu • (constraint *ᵥ u)) (q : Fin 3 → ℝ) (hq : con q = con u) :
    u ⬝ᵥ (S *ᵥ u) ≤ q ⬝ᵥ (S *ᵥ q) := by
  have e0 : u ⬝ᵥ (S *ᵥ u) = mu * con u := by
    rw [h, dotProduct_smul, constraint_form, con2_self]; rfl
  have hmu : 0 ≤ mu := by
    have := hS.nonneg u
    rw [e0] at this
    exact nonneg_of_mul_nonneg_left this hu
  set s : ℝ := con2 u q / con u with hs
  set r : Fin 3 → ℝ := q - s • u with hr
  have hq' : q = s • u + r := by rw [hr]; abel
  have ho : con2 u r = 0 := by
    have : con2 u r = con2 u q - s * con u := by
      rw [hr]; unfold con2 con; simp only [Pi.sub_apply, Pi.smul_apply, smul_eq_mul]; ring
    rw [this, hs, div_mul_cancel₀ _ hu.ne', sub_self]
  have hcr := con_orthogonal hu ho
  have e1 : con q = s ^ 2 * con u + con r := by
    have : con q = s ^ 2 * con u + 2 * s * con2 u r + con r := by
      rw [hq']; unfold con2 con; simp only [Pi.add_apply, Pi.smul_apply, smul_eq_mul]; ring
    rw [this, ho]; ring
  have e2 : q ⬝ᵥ (S *ᵥ q) = s ^ 2 * (mu * con u) + r ⬝ᵥ (S *ᵥ r) := by
    have hru : r ⬝ᵥ (S *ᵥ u) = 0 := by
      rw [h, dotProduct_smul, constraint_form, show con2 r u = con2 u r by unfold con2; ring, ho, smul_zero]
    rw [hq', mulVec_add, mulVec_smul, dotProduct_add, add_dotProduct, add_dotProduct, dotProduct_smul, dotProduct_smul,
      smul_dotProduct, smul_dotProduct, hS.symm u r, hru, e0]
    simp only [smul_eq_mul]
    ring
  rw [e0, e2]
  have : 1 ≤ s ^ 2 := by
    rw [hq] at e1
    by_contra hlt
    push Not at hlt
    nlinarith
  nlinarith [hS.nonneg r, mul_nonneg hmu hu.le]

/-! ### The reduced matrix -/

section reduced

variable {m n : ℕ}

theorem form_scatter (ps : List Pt) (U : Pt → Fin m → ℝ) (V : Pt → Fin n → ℝ) (x : Fin m → ℝ) (y : Fin n → ℝ) :
    x ⬝ᵥ (scatter ps U V *ᵥ y) = (ps.map fun p => p.weight * (U p ⬝ᵥ x) * (V p ⬝ᵥ y)).sum := by
  induction ps with
  | nil =>
    have : scatter [] U V = 0 := by funext i j; simp [scatter]
    rw [this]; simp
  | cons p ps ih =>
    have hw : 0 ≤ p.weight := weight_nonneg p
    have e : scatter (p :: ps) U V = (p.weight • vecMulVec (U p) (V p)) + scatter ps U V := by
      funext i j
      simp only [scatter, List.map_cons, List.sum_cons, Matrix.add_apply, Matrix.smul_apply, vecMulVec_apply, smul_eq_mul]
      rw [show √p.weight * U p i * (√p.weight * V p j) = (√p.weight * √p.weight) * (U p i * V p j) by ring,
        Real.mul_self_sqrt hw]
    rw [e, add_mulVec, dotProduct_add, ih, List.map_cons, List.sum_cons, smul_mulVec, vecMulVec_mulVec]
    congr 1
    rw [dotProduct_smul]
    have : x ⬝ᵥ (MulOpposite.op (V p ⬝ᵥ y) • U p) = (U p ⬝ᵥ x) * (V p ⬝ᵥ y) := by
      simp only [dotProduct, Pi.smul_apply, MulOpposite.smul_eq_mul_unop, MulOpposite.unop_op, Finset.sum_mul]
      apply Finset.sum_congr rfl
      intro i _
      ring
    rw [this, smul_eq_mul, mul_assoc]

theorem scatter_transpose (ps : List Pt) (U : Pt → Fin m → ℝ) (V : Pt → Fin n → ℝ) : (scatter ps U V)ᵀ = scatter ps V U := by
  funext i j
  simp only [scatter, transpose_apply]
  congr 1
  apply List.map_congr_left
  intro p _
  ring

/-- The weighted sum of products of residuals. -/
noncomputable def prod (ps : List Pt) (F : Pt → Fin 3 → ℝ) (L : Pt → Fin m → ℝ) (q : Fin 3 → ℝ) (l : Fin m → ℝ) (q' : Fin 3 → ℝ)
    (l' : Fin m → ℝ) : ℝ := (ps.map fun p => p.weight * (F p ⬝ᵥ q + L p ⬝ᵥ l) * (F p ⬝ᵥ q' + L p ⬝ᵥ l')).sum

theorem prod_eq (ps : List Pt) (F : Pt → Fin 3 → ℝ) (L : Pt → Fin m → ℝ) (q : Fin 3 → ℝ) (l : Fin m → ℝ) (q' : Fin 3 → ℝ)
    (l' : Fin m → ℝ) : prod ps F L q l q' l' =
      q' ⬝ᵥ (scatter ps F F *ᵥ q) + q' ⬝ᵥ (scatter ps F L *ᵥ l) + l' ⬝ᵥ (scatter ps L F *ᵥ q) + l' ⬝ᵥ (scatter ps L L *ᵥ l) := by
  rw [form_scatter, form_scatter, form_scatter, form_scatter, ← List.sum_map_add, ← List.sum_map_add, ← List.sum_map_add]
  unfold prod
  congr 1
  apply List.map_congr_left
  intro p _
  ring

/-- `T` solves the equations for the eliminated coefficients. -/
def Solves (ps : List Pt) (F : Pt → Fin 3 → ℝ) (L : Pt → Fin m → ℝ) (T : Matrix (Fin m) (Fin 3) ℝ) : Prop :=
  ∀ q, scatter ps L F *ᵥ q + scatter ps L L *ᵥ (T *ᵥ q) = 0

theorem reduced_form {ps : List Pt} {F : Pt → Fin 3 → ℝ} {L : Pt → Fin m → ℝ} {T : Matrix (Fin m) (Fin 3) ℝ}
    (h : Solves ps F L T) (q q' : Fin 3 → ℝ) (l' : Fin m → ℝ) :
    q' ⬝ᵥ ((scatter ps F F + scatter ps F L * T) *ᵥ q) = prod ps F L q (T *ᵥ q) q' l' := by
  rw [prod_eq, add_mulVec, dotProduct_add, ← mulVec_mulVec, add_assoc, add_assoc, ← dotProduct_add l', h q, dotProduct_zero, add_zero]

theorem reduced_psd {ps : List Pt} {F : Pt → Fin 3 → ℝ} {L : Pt → Fin m → ℝ} {T : Matrix (Fin m) (Fin 3) ℝ}
    (h : Solves ps F L T) : Psd (scatter ps F F + scatter ps F L * T) where
  symm x y := by
    rw [reduced_form h y x (T *ᵥ x), reduced_form h x y (T *ᵥ y)]
    unfold prod
    congr 1
    apply List.map_congr_left
    intro p _
    ring
  nonneg x := by
    rw [reduced_form h x x (T *ᵥ x)]
    apply List.sum_nonneg
    intro a ha
    obtain ⟨p, _, rfl⟩ := List.mem_map.mp ha
    have := weight_nonneg p
    rw [mul_assoc]
    exact mul_nonneg this (mul_self_nonneg _)

/-- The weighted sum of squares of the residuals. -/
noncomputable def err (ps : List Pt) (F : Pt → Fin 3 → ℝ) (L : Pt → Fin m → ℝ) (q : Fin 3 → ℝ) (l : Fin m → ℝ) : ℝ :=
  (ps.map fun p => p.weight * (F p ⬝ᵥ q + L p ⬝ᵥ l) ^ 2).sum

theorem err_eq (ps : List Pt) (F : Pt → Fin 3 → ℝ) (L : Pt → Fin m → ℝ) (q : Fin 3 → ℝ) (l : Fin m → ℝ) :
    err ps F L q l = prod ps F L q l q l := by
  unfold err prod
  congr 1
  apply List.map_congr_left
  intro p _
  ring

theorem err_reduced {ps : List Pt} {F : Pt → Fin 3 → ℝ} {L : Pt → Fin m → ℝ} {T : Matrix (Fin m) (Fin 3) ℝ}
    (h : Solves ps F L T) (q : Fin 3 → ℝ) (l : Fin m → ℝ) :
    q ⬝ᵥ ((scatter ps F F + scatter ps F L * T) *ᵥ q) ≤ err ps F L q l := by
  have e : err ps F L q l = q ⬝ᵥ ((scatter ps F F + scatter ps F L * T) *ᵥ q) +
      (ps.map fun p => p.weight * (L p ⬝ᵥ (l - T *ᵥ q)) ^ 2).sum := by
    have e1 := reduced_form h q q (T *ᵥ q)
    have e2 := reduced_form h q q l
    have : err ps F L q l = prod ps F L q (T *ᵥ q) q l + prod ps F L q (T *ᵥ q) q l - prod ps F L q (T *ᵥ q) q (T *ᵥ q) +
        (ps.map fun p => p.weight * (L p ⬝ᵥ (l - T *ᵥ q)) ^ 2).sum := by
      rw [eq_comm, ← sub_eq_zero]
      unfold err prod
      clear e1 e2 h
      induction ps with
      | nil => simp
      | cons p ps ih =>
        simp only [List.map_cons, List.sum_cons, dotProduct_sub] at ih ⊢
        linear_combination ih
    rw [this, ← e1, ← e2]; ring
  rw [e]
  have : 0 ≤ (ps.map fun p => p.weight * (L p ⬝ᵥ (l - T *ᵥ q)) ^ 2).sum := by
    apply List.sum_nonneg
    intro a ha
    obtain ⟨p, _, rfl⟩ := List.mem_map.mp ha
    have := weight_nonneg p
    positivity
  linarith

theorem sum_zero_of {ps : List Pt} {f : Pt → ℝ} (h0 : ∀ p ∈ ps, 0 ≤ f p) (h : (ps.map f).sum = 0) : ∀ p ∈ ps, f p = 0 := by
  induction ps with
  | nil => simp
  | cons p ps ih =>
    rw [List.map_cons, List.sum_cons] at h
    have h1 := h0 p (by simp)
    have h2 : 0 ≤ (ps.map f).sum := by
      apply List.sum_nonneg
      intro a ha
      obtain ⟨p', hp', rfl⟩ := List.mem_map.mp ha
      exact h0 p' (by simp [hp'])
    intro p' hp'
    rcases List.mem_cons.mp hp' with rfl | hp'
    · linarith
    · exact ih (fun p hp => h0 p (by simp [hp])) (by linarith) p' hp'

/-- The kernel of the reduced matrix: the curves through all points that count. -/
theorem reduced_kernel {ps : List Pt} {F : Pt → Fin 3 → ℝ} {L : Pt → Fin m → ℝ} {T : Matrix (Fin m) (Fin 3) ℝ}
    (h : Solves ps F L T) (q : Fin 3 → ℝ) :
    (scatter ps F F + scatter ps F L * T) *ᵥ q = 0 ↔ ∀ p ∈ ps, 0 < p.weight → F p ⬝ᵥ q + L p ⬝ᵥ (T *ᵥ q) = 0 := by
  constructor
  · intro h0 p hp hw
    have e := reduced_form h q q (T *ᵥ q)
    rw [h0, dotProduct_zero, ← err_eq] at e
    have := sum_zero_of (fun p _ => mul_nonneg (weight_nonneg p) (sq_nonneg _)) e.symm p hp
    simpa [hw.ne'] using this
  · intro h0
    apply (reduced_psd h).kernel
    rw [reduced_form h q q (T *ᵥ q)]
    unfold prod
    apply List.sum_eq_zero
    intro a ha
    obtain ⟨p, hp, rfl⟩ := List.mem_map.mp ha
    rcases (weight_nonneg p).eq_or_lt with hw | hw
    · rw [← hw]; ring
    · simp only [h0 p hp hw, mul_zero]

/-- A curve through all points that count is found by eliminating its other coefficients, if these are unique. -/
theorem through_solves {ps : List Pt} {F : Pt → Fin 3 → ℝ} {L : Pt → Fin m → ℝ} {T : Matrix (Fin m) (Fin 3) ℝ}
    (h : Solves ps F L T) (hu : ∀ l, scatter ps L L *ᵥ l = 0 → l = 0) {q : Fin 3 → ℝ} {l : Fin m → ℝ}
    (ht : ∀ p ∈ ps, 0 < p.weight → F p ⬝ᵥ q + L p ⬝ᵥ l = 0) : l = T *ᵥ q := by
  have e : scatter ps L F *ᵥ q + scatter ps L L *ᵥ l = 0 := by
    have : ∀ l', l' ⬝ᵥ (scatter ps L F *ᵥ q + scatter ps L L *ᵥ l) = 0 := by
      intro l'
      rw [dotProduct_add, form_scatter, form_scatter, ← List.sum_map_add]
      apply List.sum_eq_zero
      intro a ha
      obtain ⟨p, hp, rfl⟩ := List.mem_map.mp ha
      rcases (weight_nonneg p).eq_or_lt with hw | hw
      · rw [← hw]; ring
      · linear_combination p.weight * (L p ⬝ᵥ l') * ht p hp hw
    exact dotProduct_self_eq_zero.mp (this _)
  have := hu (l - T *ᵥ q) (by
    rw [mulVec_sub]
    have h' := h q
    rw [← e] at h'
    have := add_left_cancel h'
    rw [this, sub_self])
  exact sub_eq_zero.mp this

end reduced

/-! ### An ellipse among the eigenvectors -/

theorem psd2 {a b c : ℝ} (h : ∀ s t : ℝ, 0 ≤ a * s ^ 2 + 2 * b * s * t + c * t ^ 2) : 0 ≤ a * c - b * b := by
  have ha : 0 ≤ a := by simpa using h 1 0
  have hc : 0 ≤ c := by simpa using h 0 1
  rcases ha.eq_or_lt with h0 | h0
  · rcases hc.eq_or_lt with h1 | h1
    · have := h 1 (-b)
      rw [← h0, ← h1] at this
      rw [← h0, ← h1]
      nlinarith
    · have := h c (-b)
      by_contra hlt
      push Not at hlt
      nlinarith [mul_pos h1 (neg_pos.mpr hlt)]
  · have := h b (-a)
    by_contra hlt
    push Not at hlt
    nlinarith [mul_pos h0 (neg_pos.mpr hlt)]

theorem Psd.entry {S : Matrix (Fin 3) (Fin 3) ℝ} (h : Psd S) (i j : Fin 3) : S i j = S j i := by
  have := h.symm (Pi.single i 1) (Pi.single j 1)
  simpa using this

theorem Psd.posSemidef {S : Matrix (Fin 3) (Fin 3) ℝ} (h : Psd S) : S.PosSemidef :=
  PosSemidef.of_dotProduct_mulVec_nonneg (by funext i j; simpa using h.entry j i) fun x => by simpa using h.nonneg x

theorem Psd.minor {S : Matrix (Fin 3) (Fin 3) ℝ} (h : Psd S) (i j : Fin 3) : 0 ≤ S i i * S j j - S i j * S i j := by
  apply psd2
  intro s t
  have := h.nonneg (s • Pi.single i 1 + t • Pi.single j 1)
  rw [mulVec_add, mulVec_smul, mulVec_smul, dotProduct_add, add_dotProduct, add_dotProduct, smul_dotProduct, smul_dotProduct,
    smul_dotProduct, smul_dotProduct, dotProduct_smul, dotProduct_smul, dotProduct_smul, dotProduct_smul] at this
  simp only [mulVec_single_one, single_one_dotProduct, smul_eq_mul, Matrix.col_apply, h.entry j i] at this
  linarith

theorem pos_root {f : ℝ → ℝ} (hc : Continuous f) (h0 : 0 < f 0) {R : ℝ} (hR0 : 0 < R) (hR : f R < 0) : ∃ x, 0 < x ∧ f x = 0 := by
  have := intermediate_value_Icc' hR0.le hc.continuousOn
  obtain ⟨x, ⟨hx0, _⟩, hx⟩ := this ⟨hR.le, h0.le⟩
  refine ⟨x, lt_of_le_of_ne hx0 ?_, hx⟩
  rintro rfl
  linarith

theorem cubic_root {d e1 e2 : ℝ} (h : 0 < d ∨ d = 0 ∧ e1 < 0) :
    ∃ x, 0 < x ∧ d - e1 * x + e2 * x ^ 2 - 4 * x ^ 3 = 0 := by
  rcases h with h | ⟨rfl, h⟩
  · refine pos_root (f := fun x => d - e1 * x + e2 * x ^ 2 - 4 * x ^ 3) (by fun_prop) (by simpa) (R := 1 + d + |e1| + |e2|)
      (by positivity) ?_
    set R := 1 + d + |e1| + |e2| with hR
    have h1 := neg_abs_le e1
    have h2 := le_abs_self e2
    have a1 := abs_nonneg e1
    have a2 := abs_nonneg e2
    have hR1 : 1 ≤ R := by rw [hR]; linarith
    have hR2 : R ≤ R ^ 2 := by nlinarith
    have : -e1 * R ≤ |e1| * R ^ 2 := by
      calc -e1 * R ≤ |e1| * R := mul_le_mul_of_nonneg_right (by linarith) (by linarith)
        _ ≤ _ := mul_le_mul_of_nonneg_left hR2 a1
    have : e2 * R ^ 2 ≤ |e2| * R ^ 2 := mul_le_mul_of_nonneg_right h2 (by positivity)
    have : d ≤ d * R ^ 2 := by nlinarith
    have : (d + |e1| + |e2|) * R ^ 2 ≤ R * R ^ 2 := mul_le_mul_of_nonneg_right (by rw [hR]; linarith) (by positivity)
    show d - e1 * R + e2 * R ^ 2 - 4 * R ^ 3 < 0
    nlinarith [pow_pos (by linarith : 0 < R) 3]
  · obtain ⟨x, hx, h0⟩ := pos_root (f := fun x => -e1 + e2 * x - 4 * x ^ 2) (by fun_prop) (by simpa) (R := 1 - e1 + |e2|)
      (by have := abs_nonneg e2; linarith) (by
        set R := 1 - e1 + |e2| with hR
        have h2 := le_abs_self e2
        have a2 := abs_nonneg e2
        have hR1 : 1 ≤ R := by rw [hR]; linarith
        have : e2 * R ≤ |e2| * R := mul_le_mul_of_nonneg_right h2 (by linarith)
        have : (-e1 + |e2|) * R ≤ R * R := mul_le_mul_of_nonneg_right (by rw [hR]; linarith) (by linarith)
        have : -e1 ≤ -e1 * R := by nlinarith
        show -e1 + e2 * R - 4 * R ^ 2 < 0
        nlinarith)
    exact ⟨x, hx, by linear_combination x * h0⟩

theorem pencil_det {S : Matrix (Fin 3) (Fin 3) ℝ} (h : Psd S) (x : ℝ) :
    (S - x • constraint).det = S.det - (4 * S.adjugate 0 2 - S.adjugate 1 1) * x +
      (4 * S 0 2 - 4 * S 1 1) * x ^ 2 - 4 * x ^ 3 := by
  rw [Matrix.adjugate_fin_three]
  simp [constraint, Matrix.det_fin_three, Matrix.sub_apply, h.entry 1 0, h.entry 2 0, h.entry 2 1]
  ring

/-- The adjugate of a matrix whose kernel is a line. -/
theorem adjugate_line {S : Matrix (Fin 3) (Fin 3) ℝ} (h : Psd S) {q : Fin 3 → ℝ} (hq : q ≠ 0) (hd : S.det = 0)
    (hl : ∀ r, S *ᵥ r = 0 → ∃ k : ℝ, r = k • q) : ∃ κ : ℝ, 0 < κ ∧ ∀ i j, S.adjugate i j = κ * q i * q j := by
  obtain ⟨i0, hi0⟩ : ∃ i, q i ≠ 0 := by
    by_contra hc
    push Not at hc
    exact hq (funext hc)
  have hcol : ∀ j, ∃ k : ℝ, (fun i => S.adjugate i j) = k • q := by
    intro j
    apply hl
    have := Matrix.mul_adjugate S
    rw [hd, zero_smul] at this
    funext i
    exact congrFun (congrFun this i) j
  choose k hk using hcol
  have hk' : ∀ i j, S.adjugate i j = k j * q i := fun i j => congrFun (hk j) i
  have hsym : ∀ i j, S.adjugate i j = S.adjugate j i := by
    have : S.IsSymm := by funext i j; exact h.entry j i
    intro i j
    have := this.adjugate
    exact congrFun (congrFun this j) i
  set κ := k i0 / q i0 with hκ
  have hkj : ∀ j, k j = κ * q j := by
    intro j
    have := hsym i0 j
    rw [hk', hk'] at this
    rw [hκ]
    field_simp
    exact this
  have hadj : ∀ i j, S.adjugate i j = κ * q i * q j := fun i j => by rw [hk', hkj]; ring
  refine ⟨κ, ?_, hadj⟩
  have hdiag : ∀ i, 0 ≤ S.adjugate i i := by
    intro i
    rw [Matrix.adjugate_fin_three]
    have a := h.minor 1 2
    have b := h.minor 0 2
    have c := h.minor 0 1
    fin_cases i
    · simp [h.entry 2 1]; linarith
    · simp [h.entry 2 0]; linarith
    · simp [h.entry 1 0]; linarith
  have hκ0 : 0 ≤ κ := by
    have := hdiag i0
    rw [hadj, mul_assoc] at this
    exact nonneg_of_mul_nonneg_left this (mul_self_pos.mpr hi0)
  refine lt_of_le_of_ne hκ0 fun h0 => ?_
  have hz : S.adjugate = 0 := by funext i j; rw [hadj, ← h0]; simp
  rw [Matrix.adjugate_fin_three] at hz
  have m : ∀ i j, !![S 1 1 * S 2 2 - S 1 2 * S 2 1, -(S 0 1 * S 2 2) + S 0 2 * S 2 1, S 0 1 * S 1 2 - S 0 2 * S 1 1;
      -(S 1 0 * S 2 2) + S 1 2 * S 2 0, S 0 0 * S 2 2 - S 0 2 * S 2 0, -(S 0 0 * S 1 2) + S 0 2 * S 1 0;
      S 1 0 * S 2 1 - S 1 1 * S 2 0, -(S 0 0 * S 2 1) + S 0 1 * S 2 0, S 0 0 * S 1 1 - S 0 1 * S 1 0] i j = 0 := by
    intro i j; exact congrFun (congrFun hz i) j
  have m00 := m 0 0; have m01 := m 0 1; have m02 := m 0 2
  have m10 := m 1 0; have m11 := m 1 1; have m12 := m 1 2
  have m20 := m 2 0; have m21 := m 2 1; have m22 := m 2 2
  simp at m00 m01 m02 m10 m11 m12 m20 m21 m22
  clear m hz
  by_cases hS : ∀ k a, S k a = 0
  · have : S = 0 := by funext i j; exact hS i j
    have key : ∀ r, ∃ k : ℝ, r = k • q := fun r => hl r (by rw [this, zero_mulVec])
    obtain ⟨x, hx⟩ := key ![1, 0, 0]
    obtain ⟨y, hy⟩ := key ![0, 1, 0]
    have x0 := congrFun hx 0; have x1 := congrFun hx 1
    have y0 := congrFun hy 0; have y1 := congrFun hy 1
    simp at x0 x1 y0 y1
    rcases y0 with h | h
    · rw [h] at y1; simp at y1
    · rw [h] at x0; simp at x0
  · push Not at hS
    obtain ⟨k, a, hka⟩ := hS
    have e10 := h.entry 1 0; have e20 := h.entry 2 0; have e21 := h.entry 2 1
    have indep : ∀ b c : Fin 3, a ≠ b → a ≠ c → b ≠ c →
        (S *ᵥ (S k a • Pi.single b 1 - S k b • Pi.single a 1) = 0) →
        (S *ᵥ (S k a • Pi.single c 1 - S k c • Pi.single a 1) = 0) → False := by
      intro b c hab hac hbc z1 z2
      obtain ⟨x, hx⟩ := hl _ z1
      obtain ⟨y, hy⟩ := hl _ z2
      have xb := congrFun hx b; have yb := congrFun hy b; have yc := congrFun hy c
      simp [hab.symm, hac.symm, hbc] at xb yb yc
      rcases yb with h | h
      · rw [h] at yc; simp [hka] at yc
      · rw [h] at xb; simp [hka] at xb
    have zero : ∀ b, a ≠ b → S *ᵥ (S k a • Pi.single b 1 - S k b • Pi.single a 1) = 0 := by
      intro b hab
      rw [mulVec_sub, mulVec_smul, mulVec_smul]
      funext i
      simp only [mulVec_single_one, Pi.sub_apply, Pi.smul_apply, Matrix.col_apply, smul_eq_mul, Pi.zero_apply]
      fin_cases k <;> fin_cases a <;> fin_cases b <;> fin_cases i <;> simp at hab ⊢ <;> simp only [e10, e20, e21] at * <;> linarith
    fin_cases a
    · exact indep 1 2 (by decide) (by decide) (by decide) (zero 1 (by decide)) (zero 2 (by decide))
    · exact indep 0 2 (by decide) (by decide) (by decide) (zero 0 (by decide)) (zero 2 (by decide))
    · exact indep 0 1 (by decide) (by decide) (by decide) (zero 0 (by decide)) (zero 1 (by decide))

/-- If the kernel is at most a line, and none on the border between ellipses and hyperbolas, some eigenvector is an ellipse,
and so is every eigenvector with the same eigenvalue. -/
theorem ellipse_exists {S : Matrix (Fin 3) (Fin 3) ℝ} (h : Psd S)
    (h1 : ∀ q r, q ≠ 0 → S *ᵥ q = 0 → S *ᵥ r = 0 → ∃ k : ℝ, r = k • q) (h2 : ∀ q, q ≠ 0 → S *ᵥ q = 0 → con q ≠ 0) :
    ∃ (x : ℝ) (u : Fin 3 → ℝ), u ≠ 0 ∧ S *ᵥ u = x • (constraint *ᵥ u) ∧
      ∀ w, w ≠ 0 → S *ᵥ w = x • (constraint *ᵥ w) → 0 < con w := by
  have root : (0 < S.det ∨ S.det = 0 ∧ 4 * S.adjugate 0 2 - S.adjugate 1 1 < 0) → ∃ (x : ℝ) (u : Fin 3 → ℝ),
      u ≠ 0 ∧ S *ᵥ u = x • (constraint *ᵥ u) ∧ ∀ w, w ≠ 0 → S *ᵥ w = x • (constraint *ᵥ w) → 0 < con w := by
    intro hr
    obtain ⟨x, hx, h0⟩ := cubic_root (e2 := 4 * S 0 2 - 4 * S 1 1) hr
    rw [← pencil_det h] at h0
    obtain ⟨u, hu, hu0⟩ := Matrix.exists_mulVec_eq_zero_iff.mpr h0
    rw [sub_mulVec, smul_mulVec, sub_eq_zero] at hu0
    refine ⟨x, u, hu, hu0, ?_⟩
    intro w hw hw0
    have e : w ⬝ᵥ (S *ᵥ w) = x * con w := by rw [hw0, dotProduct_smul, constraint_form, con2_self]; rfl
    have hn := h.nonneg w
    rcases hn.eq_or_lt with hz | hz
    · exfalso
      have := h.kernel hz.symm
      rw [hw0] at this
      exact hw (constraint_zero ((smul_eq_zero.mp this).resolve_left hx.ne'))
    · rw [e] at hz
      exact (pos_iff_pos_of_mul_pos hz).mp hx
  by_cases hd : S.det = 0
  · obtain ⟨q, hq, hq0⟩ := Matrix.exists_mulVec_eq_zero_iff.mpr hd
    rcases lt_or_gt_of_ne (h2 q hq hq0) with hc | hc
    · obtain ⟨κ, hκ, hadj⟩ := adjugate_line h hq hd fun r hr => h1 q r hq hq0 hr
      apply root
      refine .inr ⟨hd, ?_⟩
      rw [hadj, hadj]
      unfold con at hc
      nlinarith
    · refine ⟨0, q, hq, by rw [hq0, zero_smul], ?_⟩
      intro w hw hw0
      rw [zero_smul] at hw0
      obtain ⟨k, rfl⟩ := h1 q w hq hq0 hw0
      have hk : k ≠ 0 := by rintro rfl; simp at hw
      have : con (k • q) = k ^ 2 * con q := by unfold con; simp only [Pi.smul_apply, smul_eq_mul]; ring
      rw [this]
      positivity
  · exact root (.inl (lt_of_le_of_ne h.posSemidef.det_nonneg (Ne.symm hd)))

/-- The routine then offers an ellipse. -/
theorem column_exists {S : Matrix (Fin 3) (Fin 3) ℝ} (h : Psd S) {v : Fin 3 → Fin 3 → ℂ} (hv : Eigen (constraint⁻¹ * S) v)
    (h1 : ∀ q r, q ≠ 0 → S *ᵥ q = 0 → S *ᵥ r = 0 → ∃ k : ℝ, r = k • q) (h2 : ∀ q, q ≠ 0 → S *ᵥ q = 0 → con q ≠ 0) :
    ∃ q, chooseColumn v = some q := by
  obtain ⟨x, u, hu, hu0, hall⟩ := ellipse_exists h h1 h2
  obtain ⟨lam, hcol, hev⟩ := hv
  obtain ⟨k, hk⟩ := hev (x : ℂ) (fun i => (u i : ℂ)) (by
    intro h0
    apply hu
    funext i
    have := congrFun h0 i
    simpa using this) (by
    have e : (constraint⁻¹ * S) *ᵥ u = x • u := by
      rw [← mulVec_mulVec, hu0, mulVec_smul, mulVec_mulVec, Matrix.nonsing_inv_mul _ constraint_unit, one_mulVec]
    funext i
    apply Complex.ext
    · rw [mulVec_re]
      simp only [Complex.ofReal_re]
      rw [show (fun j => u j) = u from rfl, e]
      simp
    · rw [mulVec_im]
      simp [mulVec, dotProduct])
  obtain ⟨hne, heq, hreal⟩ := hcol k
  have him := hreal (by rw [hk]; simp)
  apply chooseColumn_exists k
  apply hall
  · intro h0
    exact hne (re_im_zero h0 (funext him))
  · have := eigen_part h hne heq
    rwa [hk] at this

/-- Such a routine exists. -/
theorem eigen_exists (M : Matrix (Fin 3) (Fin 3) ℝ) : ∃ v, Eigen M v := by
  set N : Matrix (Fin 3) (Fin 3) ℂ := M.map fun x => (x : ℂ) with hN
  have hdeg : N.charpoly.roots.card = 3 := by
    have h1 : N.charpoly.natDegree = 3 := by simp
    exact ((IsAlgClosed.splits N.charpoly).natDegree_eq_card_roots).symm.trans h1
  have hne : N.charpoly ≠ 0 := (Matrix.charpoly_monic N).ne_zero
  have root_iff : ∀ mu : ℂ, mu ∈ N.charpoly.roots ↔ (Matrix.scalar (Fin 3) mu - N).det = 0 := by
    intro mu
    rw [Polynomial.mem_roots hne, Polynomial.IsRoot.def, Matrix.eval_charpoly]
  have sub : ∀ (mu : ℂ) (x : Fin 3 → ℂ), (Matrix.scalar (Fin 3) mu - N) *ᵥ x = 0 ↔ N *ᵥ x = mu • x := by
    intro mu x
    rw [sub_mulVec, sub_eq_zero]
    have : Matrix.scalar (Fin 3) mu *ᵥ x = mu • x := by
      rw [Matrix.scalar_apply]
      funext i
      simp [mulVec_diagonal]
    rw [this, eq_comm]
  have hlen : N.charpoly.roots.toList.length = 3 := by rw [Multiset.length_toList, hdeg]
  let lam : Fin 3 → ℂ := fun k => N.charpoly.roots.toList[k.1]'(by rw [hlen]; exact k.2)
  have hlam : ∀ k, lam k ∈ N.charpoly.roots := fun k => Multiset.mem_toList.mp (List.getElem_mem _)
  have hvec : ∀ k, ∃ x : Fin 3 → ℂ, x ≠ 0 ∧ N *ᵥ x = lam k • x ∧ ((lam k).im = 0 → ∀ i, (x i).im = 0) := by
    intro k
    have hk := (root_iff _).mp (hlam k)
    by_cases him : (lam k).im = 0
    · have hre : lam k = ((lam k).re : ℂ) := Complex.ext rfl (by simp [him])
      have hd : (Matrix.scalar (Fin 3) (lam k).re - M).det = 0 := by
        have e : (Matrix.scalar (Fin 3) (lam k) - N) = (Matrix.scalar (Fin 3) (lam k).re - M).map (Complex.ofRealHom) := by
          funext i j
          conv_lhs => rw [hre]
          by_cases hij : i = j
          · subst hij; simp [hN]
          · simp [hN, hij]
        rw [e, ← RingHom.mapMatrix_apply, ← RingHom.map_det] at hk
        simpa using hk
      obtain ⟨u, hu, hu0⟩ := Matrix.exists_mulVec_eq_zero_iff.mpr hd
      refine ⟨fun i => (u i : ℂ), ?_, ?_, fun _ i => by simp⟩
      · intro h0
        apply hu
        funext i
        have := congrFun h0 i
        simpa using this
      · have e : M *ᵥ u = (lam k).re • u := by
          rw [sub_mulVec, sub_eq_zero] at hu0
          rw [← hu0, Matrix.scalar_apply]
          funext i
          simp [mulVec_diagonal]
        funext i
        apply Complex.ext
        · rw [hN, mulVec_re]
          simp only [Complex.ofReal_re]
          rw [show (fun j => u j) = u from rfl, e]
          simp
        · rw [hN, mulVec_im]
          simp [mulVec, dotProduct, him]
    · obtain ⟨x, hx, hx0⟩ := Matrix.exists_mulVec_eq_zero_iff.mpr hk
      exact ⟨x, hx, (sub _ _).mp hx0, fun h => absurd h him⟩
  choose v hv using hvec
  refine ⟨v, lam, hv, ?_⟩
  intro mu x hx h
  have : mu ∈ N.charpoly.roots := (root_iff mu).mpr (Matrix.exists_mulVec_eq_zero_iff.mp ⟨x, hx, (sub _ _).mpr h⟩)
  obtain ⟨n, hn, e⟩ := List.mem_iff_getElem.mp (Multiset.mem_toList.mpr this)
  exact ⟨⟨n, by rw [← hlen]; exact hn⟩, e⟩

/-! ### C147: free center -/

/-- A conic with coefficients of x², xy, y², x, y and 1. -/
def conicV (k : Fin 6 → ℝ) (x y : ℝ) : ℝ := k 0 * x ^ 2 + k 1 * x * y + k 2 * y ^ 2 + k 3 * x + k 4 * y + k 5

/-- Positive for ellipses, negative for hyperbolas, zero for parabolas. -/
def kind (k : Fin 6 → ℝ) : ℝ := 4 * k 0 * k 2 - k 1 ^ 2

/-- A point counts if its weight is a positive number. -/
def Counts (p : Pt) : Prop := ∃ w, p.w = some w ∧ 0 < w

/-- The curve goes through all points that count. -/
def Through (ps : List Pt) (k : Fin 6 → ℝ) : Prop := ∀ p ∈ ps, Counts p → conicV k p.x p.y = 0

/-- The weighted sum of squares that the fit makes small. -/
noncomputable def algError (ps : List Pt) (k : Fin 6 → ℝ) : ℝ := (ps.map fun p => p.weight * conicV k p.x p.y ^ 2).sum

/-- All points that count lie on one line. -/
def OnLine (ps : List Pt) : Prop := ∃ u v c : ℝ, (u ≠ 0 ∨ v ≠ 0) ∧ ∀ p ∈ ps, Counts p → u * p.x + v * p.y + c = 0

/-- At most one conic goes through all points that count. -/
def Determined (ps : List Pt) : Prop := ∀ k k', k ≠ 0 → Through ps k → Through ps k' → ∃ t : ℝ, k' = t • k

/-- An eigenvalue routine that works. -/
def Works (eig : EigRoutine) : Prop := ∀ M, ∃ v, eig M = some v ∧ Eigen M v

theorem works_exists : ∃ eig, Works eig := by
  choose f hf using eigen_exists
  exact ⟨fun M => some (f M), fun M => ⟨f M, rfl, hf M⟩⟩

theorem counts_iff (p : Pt) : 0 < p.weight ↔ Counts p := by
  unfold Pt.weight Counts
  rcases p.w with _ | w
  · simp
  · by_cases h : 0 < w <;> simp [h]

theorem residual_free (p : Pt) (q l : Fin 3 → ℝ) :
    p.quadratic ⬝ᵥ q + p.linear ⬝ᵥ l = conicV ![q 0, q 1, q 2, l 0, l 1, l 2] p.x p.y := by
  simp only [Pt.quadratic, Pt.linear, dotProduct, Fin.sum_univ_three, conicV]
  simp
  ring

theorem det_iff_line (ps : List Pt) : (scatter ps Pt.linear Pt.linear).det = 0 ↔ OnLine ps := by
  have lin : ∀ (p : Pt) (l : Fin 3 → ℝ), p.linear ⬝ᵥ l = l 0 * p.x + l 1 * p.y + l 2 := by
    intro p l
    simp only [Pt.linear, dotProduct, Fin.sum_univ_three]
    simp
    ring
  rw [← Matrix.exists_mulVec_eq_zero_iff]
  constructor
  · rintro ⟨l, hl, h0⟩
    have e := form_scatter ps Pt.linear Pt.linear l l
    rw [h0, dotProduct_zero] at e
    have hz := sum_zero_of (f := fun p => p.weight * (p.linear ⬝ᵥ l) * (p.linear ⬝ᵥ l))
      (fun p _ => by have := weight_nonneg p; rw [mul_assoc]; exact mul_nonneg this (mul_self_nonneg _)) e.symm
    have hz' : ∀ p ∈ ps, Counts p → l 0 * p.x + l 1 * p.y + l 2 = 0 := by
      intro p hp hc
      have hw := (counts_iff p).mpr hc
      have := hz p hp
      rw [mul_assoc] at this
      have := mul_self_eq_zero.mp ((mul_eq_zero.mp this).resolve_left hw.ne')
      rwa [lin] at this
    by_cases h : l 0 = 0 ∧ l 1 = 0
    · have h2 : l 2 ≠ 0 := by
        intro h2
        apply hl
        funext i
        fin_cases i
        · exact h.1
        · exact h.2
        · exact h2
      refine ⟨1, 0, 0, by simp, fun p hp hc => ?_⟩
      have := hz' p hp hc
      rw [h.1, h.2] at this
      exact absurd (by linarith) h2
    · refine ⟨l 0, l 1, l 2, ?_, hz'⟩
      by_contra hc
      push Not at hc
      exact h hc
  · rintro ⟨u, v, c, huv, h⟩
    refine ⟨![u, v, c], ?_, ?_⟩
    · intro h0
      have a := congrFun h0 0
      have b := congrFun h0 1
      simp at a b
      tauto
    · have : ∀ y, y ⬝ᵥ (scatter ps Pt.linear Pt.linear *ᵥ ![u, v, c]) = 0 := by
        intro y
        rw [form_scatter]
        apply List.sum_eq_zero
        intro a ha
        obtain ⟨p, hp, rfl⟩ := List.mem_map.mp ha
        rcases (weight_nonneg p).eq_or_lt with hw | hw
        · rw [← hw]; ring
        · rw [lin p ![u, v, c]]
          simp [h p hp ((counts_iff p).mp hw)]
      exact dotProduct_self_eq_zero.mp (this _)

theorem free_solves {ps : List Pt} (h : (scatter ps Pt.linear Pt.linear).det ≠ 0) : Solves ps Pt.quadratic Pt.linear (freeT ps) := by
  intro q
  unfold freeT
  rw [scatter_transpose, neg_mulVec, mulVec_neg, mulVec_mulVec, ← Matrix.mul_assoc,
    Matrix.mul_nonsing_inv _ (isUnit_iff_ne_zero.mpr h), Matrix.one_mul, add_neg_cancel]

theorem algError_eq (ps : List Pt) (q l : Fin 3 → ℝ) :
    algError ps ![q 0, q 1, q 2, l 0, l 1, l 2] = err ps Pt.quadratic Pt.linear q l := by
  unfold algError err
  congr 1
  apply List.map_congr_left
  intro p _
  rw [residual_free]

/-- A conic that is never on the other side vanishes at most at one point. -/
theorem zero_unique {k : Fin 6 → ℝ} (hk : 0 < kind k) (h : ∀ x y, 0 ≤ k 0 * conicV k x y) {x y x' y' : ℝ}
    (h1 : conicV k x y = 0) (h2 : conicV k x' y' = 0) : x = x' ∧ y = y' := by
  unfold kind at hk
  have hm := h ((x + x') / 2) ((y + y') / 2)
  have e : conicV k ((x + x') / 2) ((y + y') / 2) =
      -(k 0 * (x - x') ^ 2 + k 1 * (x - x') * (y - y') + k 2 * (y - y') ^ 2) / 4 := by
    unfold conicV at *
    linear_combination h1 / 2 + h2 / 2
  rw [e] at hm
  have e2 : 4 * (k 0 * (k 0 * (x - x') ^ 2 + k 1 * (x - x') * (y - y') + k 2 * (y - y') ^ 2)) =
      (2 * k 0 * (x - x') + k 1 * (y - y')) ^ 2 + (4 * k 0 * k 2 - k 1 ^ 2) * (y - y') ^ 2 := by ring
  have hle : (2 * k 0 * (x - x') + k 1 * (y - y')) ^ 2 + (4 * k 0 * k 2 - k 1 ^ 2) * (y - y') ^ 2 ≤ 0 := by
    rw [← e2]; linarith
  have n1 := sq_nonneg (2 * k 0 * (x - x') + k 1 * (y - y'))
  have n2 : 0 ≤ (4 * k 0 * k 2 - k 1 ^ 2) * (y - y') ^ 2 := mul_nonneg hk.le (sq_nonneg _)
  have hy : y - y' = 0 := by
    have : (4 * k 0 * k 2 - k 1 ^ 2) * (y - y') ^ 2 = 0 := le_antisymm (by linarith) n2
    exact pow_eq_zero_iff (two_ne_zero) |>.mp ((mul_eq_zero.mp this).resolve_left hk.ne')
  have hx : 2 * k 0 * (x - x') = 0 := by
    have : (2 * k 0 * (x - x') + k 1 * (y - y')) ^ 2 = 0 := le_antisymm (by linarith) n1
    have := pow_eq_zero_iff (two_ne_zero) |>.mp this
    rw [hy, mul_zero, add_zero] at this
    exact this
  have hk0 : k 0 ≠ 0 := by rintro h0; rw [h0] at hk; nlinarith [sq_nonneg (k 1)]
  have : x - x' = 0 := (mul_eq_zero.mp hx).resolve_left (by simpa using hk0)
  exact ⟨by linarith, by linarith⟩

/-- From coefficients to the report. -/
theorem report_ok {ps : List Pt} {k : Fin 6 → ℝ} (hk : 0 < kind k) (hi : ∃ x y, k 0 * conicV k x y < 0) :
    ∃ r, report ps (k 0) (k 1) (k 2) (k 3) (k 4) (k 5) = .ok r ∧ 0 < r.bp ∧ r.bp ≤ r.ap ∧
      ∃ θ, ∀ x y, conicV k x y = 0 ↔ form r.x0 r.y0 r.ap r.bp θ x y = 1 := by
  have hE : IsEllipse (k 0) (k 1) (k 2) (k 3) (k 4) (k 5) := ⟨by unfold kind at hk; linarith, hi⟩
  obtain ⟨e, he, h1, h2, θ, h3⟩ := C54_shape_partial _ _ _ _ _ _ hE
  exact ⟨⟨e.x0, e.y0, e.ap, e.bp, reportedOrientation e.orientation, weightedRms ps (k 2) (k 3) (k 4) e⟩,
    by unfold report; rw [he], h1, h2, θ, h3⟩

/-- The sum of the residuals is zero. -/
theorem mean_zero {m : ℕ} {ps : List Pt} {F : Pt → Fin 3 → ℝ} {L : Pt → Fin m → ℝ} {T : Matrix (Fin m) (Fin 3) ℝ}
    (h : Solves ps F L T) (o : Fin m → ℝ) (ho : ∀ p, L p ⬝ᵥ o = 1) (q : Fin 3 → ℝ) :
    (ps.map fun p => p.weight * (F p ⬝ᵥ q + L p ⬝ᵥ (T *ᵥ q))).sum = 0 := by
  have := congrArg (o ⬝ᵥ ·) (h q)
  simp only [dotProduct_add, dotProduct_zero, form_scatter, ← List.sum_map_add] at this
  rw [← this]
  congr 1
  apply List.map_congr_left
  intro p _
  rw [ho]; ring

theorem chosen_free {eig : EigRoutine} (he : Works eig) {ps : List Pt} (hl : ¬ OnLine ps) {v : Fin 3 → Fin 3 → ℂ} {q : Fin 3 → ℝ}
    (hv : eig (freeM ps) = some v) (hq : chooseColumn v = some q) :
    0 < con q ∧ (∃ x y, q 0 * conicV ![q 0, q 1, q 2, (freeT ps *ᵥ q) 0, (freeT ps *ᵥ q) 1, (freeT ps *ᵥ q) 2] x y < 0) ∧
    ∃ mu : ℝ, (scatter ps Pt.quadratic Pt.quadratic + scatter ps Pt.quadratic Pt.linear * freeT ps) *ᵥ q = mu • (constraint *ᵥ q) := by
  have hd : (scatter ps Pt.linear Pt.linear).det ≠ 0 := fun h => hl ((det_iff_line ps).mp h)
  have hs := free_solves hd
  obtain ⟨hc, k, rfl⟩ := chooseColumn_some hq
  obtain ⟨v', hv', lam, hcol, _⟩ := he (freeM ps)
  rw [hv] at hv'
  cases hv'
  obtain ⟨hne, heq, _⟩ := hcol k
  refine ⟨hc, ?_, (lam k).re, eigen_part (reduced_psd hs) hne heq⟩
  set q : Fin 3 → ℝ := fun i => (v k i).re with hqd
  set l := freeT ps *ᵥ q with hld
  set K : Fin 6 → ℝ := ![q 0, q 1, q 2, l 0, l 1, l 2] with hK
  by_contra hno
  push Not at hno
  have hno' : ∀ x y, 0 ≤ K 0 * conicV K x y := hno
  have hkind : 0 < kind K := by
    have : kind K = con q := by rw [hK]; unfold kind con; simp; ring
    rw [this]; exact hc
  have hm := mean_zero hs ![0, 0, 1] (fun p => by simp [Pt.linear, dotProduct, Fin.sum_univ_three]) q
  simp only [residual_free] at hm
  have hm' : (ps.map fun p => p.weight * (K 0 * conicV K p.x p.y)).sum = 0 := by
    have : (ps.map fun p => p.weight * (K 0 * conicV K p.x p.y)) = ps.map fun p => K 0 * (p.weight * conicV K p.x p.y) := by
      apply List.map_congr_left; intro p _; ring
    rw [this, List.sum_map_mul_left, hm, mul_zero]
  have hz := sum_zero_of (fun p _ => mul_nonneg (weight_nonneg p) (hno' _ _)) hm'
  have hK0 : K 0 ≠ 0 := by
    intro h0; unfold kind at hkind; rw [h0] at hkind; nlinarith [sq_nonneg (K 1)]
  have hz' : ∀ p ∈ ps, Counts p → conicV K p.x p.y = 0 := by
    intro p hp hcp
    have := hz p hp
    have := (mul_eq_zero.mp this).resolve_left ((counts_iff p).mpr hcp).ne'
    exact (mul_eq_zero.mp this).resolve_left hK0
  apply hl
  by_cases hex : ∃ p ∈ ps, Counts p
  · obtain ⟨p0, hp0, hc0⟩ := hex
    refine ⟨1, 0, -p0.x, by simp, fun p hp hcp => ?_⟩
    have := (zero_unique hkind hno' (hz' p hp hcp) (hz' p0 hp0 hc0)).1
    rw [this]; ring
  · push Not at hex
    exact ⟨1, 0, 0, by simp, fun p hp hcp => absurd hcp (hex p hp)⟩

/-- What the fit returns is the ellipse with the least weighted sum of squares among all conics with the same value of
4ac - b²: center and semi-axes describe that curve. -/
theorem C147_least (eig : EigRoutine) (he : Works eig) (ps : List Pt) (r : EllipseFit) (h : fitEllipse eig ps = .ok r) :
    0 < r.bp ∧ r.bp ≤ r.ap ∧ ∃ k : Fin 6 → ℝ, 0 < kind k ∧
      (∃ θ, ∀ x y, conicV k x y = 0 ↔ form r.x0 r.y0 r.ap r.bp θ x y = 1) ∧
      ∀ k', kind k' = kind k → algError ps k ≤ algError ps k' := by
  unfold fitEllipse at h
  split_ifs at h with hd
  have hl : ¬ OnLine ps := fun h => hd ((det_iff_line ps).mpr h)
  rcases hv : eig (freeM ps) with _ | v
  · simp [hv] at h
  rcases hq : chooseColumn v with _ | q
  · simp [hv, hq] at h
  simp only [hv, hq] at h
  obtain ⟨hc, hi, mu, hmu⟩ := chosen_free he hl hv hq
  set l := freeT ps *ᵥ q with hld
  set K : Fin 6 → ℝ := ![q 0, q 1, q 2, l 0, l 1, l 2] with hK
  have hkind : kind K = con q := by rw [hK]; unfold kind con; simp; ring
  obtain ⟨r', hr', h1, h2, h3⟩ := report_ok (ps := ps) (k := K) (by rw [hkind]; exact hc) hi
  have hrr : r' = r := by
    have : Out.ok r' = Out.ok r := by rw [← hr', ← h]; rfl
    injection this
  subst hrr
  refine ⟨h1, h2, K, by rw [hkind]; exact hc, h3, ?_⟩
  intro k' hk'
  have hs := free_solves hd
  set q' : Fin 3 → ℝ := ![k' 0, k' 1, k' 2] with hq'
  set l' : Fin 3 → ℝ := ![k' 3, k' 4, k' 5] with hl'
  have ek' : k' = ![q' 0, q' 1, q' 2, l' 0, l' 1, l' 2] := by
    funext i
    fin_cases i <;> rfl
  have hc' : con q' = con q := by
    rw [← hkind, ← hk', hq']
    unfold con kind
    simp
    ring
  rw [hK, ek', algError_eq, algError_eq, hld, err_eq, ← reduced_form hs]
  exact (chosen_least (reduced_psd hs) hc hmu q' hc').trans (err_reduced hs q' l')

/-- The fit reports an error exactly if all points that count lie on one line. -/
theorem C147_error (eig : EigRoutine) (he : Works eig) (ps : List Pt) : fitEllipse eig ps = .err ↔ OnLine ps := by
  unfold fitEllipse
  rw [← det_iff_line]
  split_ifs with hd
  · simp [hd]
  · obtain ⟨v, hv, _⟩ := he (freeM ps)
    simp only [hv, hd, iff_false]
    rcases chooseColumn v with _ | q
    · simp
    · simp only [report]
      split <;> simp

theorem through_kernel {ps : List Pt} (hd : (scatter ps Pt.linear Pt.linear).det ≠ 0) (q : Fin 3 → ℝ) :
    (scatter ps Pt.quadratic Pt.quadratic + scatter ps Pt.quadratic Pt.linear * freeT ps) *ᵥ q = 0 ↔
      Through ps ![q 0, q 1, q 2, (freeT ps *ᵥ q) 0, (freeT ps *ᵥ q) 1, (freeT ps *ᵥ q) 2] := by
  rw [reduced_kernel (free_solves hd)]
  unfold Through
  simp only [residual_free, counts_iff]

theorem kernel_of_through {ps : List Pt} (hd : (scatter ps Pt.linear Pt.linear).det ≠ 0) {k : Fin 6 → ℝ} (h : Through ps k) :
    (scatter ps Pt.quadratic Pt.quadratic + scatter ps Pt.quadratic Pt.linear * freeT ps) *ᵥ ![k 0, k 1, k 2] = 0 ∧
      freeT ps *ᵥ ![k 0, k 1, k 2] = ![k 3, k 4, k 5] := by
  have hk : k = ![(![k 0, k 1, k 2] : Fin 3 → ℝ) 0, (![k 0, k 1, k 2] : Fin 3 → ℝ) 1, (![k 0, k 1, k 2] : Fin 3 → ℝ) 2,
      (![k 3, k 4, k 5] : Fin 3 → ℝ) 0, (![k 3, k 4, k 5] : Fin 3 → ℝ) 1, (![k 3, k 4, k 5] : Fin 3 → ℝ) 2] := by
    funext i; fin_cases i <;> rfl
  have e := through_solves (free_solves hd) (l := ![k 3, k 4, k 5]) (q := ![k 0, k 1, k 2]) (by
    intro l hl
    by_contra hne
    exact hd (Matrix.exists_mulVec_eq_zero_iff.mp ⟨l, hne, hl⟩)) (by
    intro p hp hw
    rw [residual_free, ← hk]
    exact h p hp ((counts_iff p).mp hw))
  refine ⟨?_, e.symm⟩
  rw [through_kernel hd, ← e, ← hk]
  exact h

/-- The fit succeeds if the points determine a curve, and no parabola and no pair of parallel lines goes through all of
them. -/
theorem C147_succeeds (eig : EigRoutine) (he : Works eig) (ps : List Pt) (h1 : Determined ps)
    (h2 : ∀ k, k ≠ 0 → Through ps k → kind k ≠ 0) : ∃ r, fitEllipse eig ps = .ok r := by
  have hl : ¬ OnLine ps := by
    rintro ⟨u, v, c, huv, h⟩
    refine h2 ![0, 0, 0, u, v, c] ?_ ?_ ?_
    · intro h0
      have a := congrFun h0 3
      have b := congrFun h0 4
      simp at a b
      tauto
    · intro p hp hc
      have := h p hp hc
      unfold conicV
      simp
      linarith
    · unfold kind; simp
  have hd : (scatter ps Pt.linear Pt.linear).det ≠ 0 := fun h => hl ((det_iff_line ps).mp h)
  obtain ⟨v, hv, hE⟩ := he (freeM ps)
  have hne : ∀ q : Fin 3 → ℝ, q ≠ 0 → (![q 0, q 1, q 2, (freeT ps *ᵥ q) 0, (freeT ps *ᵥ q) 1, (freeT ps *ᵥ q) 2] : Fin 6 → ℝ) ≠ 0 := by
    intro q hq h0
    apply hq
    funext i
    fin_cases i
    · exact congrFun h0 0
    · exact congrFun h0 1
    · exact congrFun h0 2
  obtain ⟨q, hq⟩ := column_exists (reduced_psd (free_solves hd)) hE (by
    intro q r hq hq0 hr0
    obtain ⟨t, ht⟩ := h1 _ _ (hne q hq) ((through_kernel hd q).mp hq0) ((through_kernel hd r).mp hr0)
    refine ⟨t, ?_⟩
    funext i
    fin_cases i
    · exact congrFun ht 0
    · exact congrFun ht 1
    · exact congrFun ht 2) (by
    intro q hq hq0
    have := h2 _ (hne q hq) ((through_kernel hd q).mp hq0)
    unfold kind at this
    unfold con
    simpa [pow_two] using this)
  obtain ⟨hc, hi, _⟩ := chosen_free he hl hv hq
  obtain ⟨r, hr, _⟩ := report_ok (ps := ps) (k := ![q 0, q 1, q 2, (freeT ps *ᵥ q) 0, (freeT ps *ᵥ q) 1, (freeT ps *ᵥ q) 2])
    (by unfold kind con at *; simp; nlinarith) hi
  refine ⟨r, ?_⟩
  unfold fitEllipse
  rw [if_neg hd]
  simp only [hv, hq]
  exact hr

/-- If the points lie on an ellipse and determine it, the fit returns that ellipse. -/
theorem C147_exact (eig : EigRoutine) (he : Works eig) (ps : List Pt) (h1 : Determined ps) (k : Fin 6 → ℝ) (hk : 0 < kind k)
    (hT : Through ps k) : ∃ r, fitEllipse eig ps = .ok r ∧ 0 < r.bp ∧ r.bp ≤ r.ap ∧
      ∃ θ, ∀ x y, conicV k x y = 0 ↔ form r.x0 r.y0 r.ap r.bp θ x y = 1 := by
  have hk0 : k ≠ 0 := by rintro rfl; simp [kind] at hk
  obtain ⟨r, hr⟩ := C147_succeeds eig he ps h1 (by
    intro k' hk' hT'
    obtain ⟨t, ht⟩ := h1 k k' hk0 hT hT'
    have ht0 : t ≠ 0 := by rintro rfl; simp at ht; exact hk' ht
    have : kind k' = t ^ 2 * kind k := by rw [ht]; unfold kind; simp only [Pi.smul_apply, smul_eq_mul]; ring
    rw [this]
    positivity)
  obtain ⟨b1, b2, K, hK, ⟨θ, hθ⟩, hmin⟩ := C147_least eig he ps r hr
  refine ⟨r, hr, b1, b2, θ, ?_⟩
  have herr : algError ps K = 0 := by
    apply le_antisymm
    · set s := √(kind K / kind k) with hs
      have hs2 : s ^ 2 = kind K / kind k := Real.sq_sqrt (div_nonneg hK.le hk.le)
      have := hmin (s • k) (by
        have : kind (s • k) = s ^ 2 * kind k := by unfold kind; simp only [Pi.smul_apply, smul_eq_mul]; ring
        rw [this, hs2, div_mul_cancel₀ _ hk.ne'])
      refine this.trans (le_of_eq ?_)
      apply List.sum_eq_zero
      intro a ha
      obtain ⟨p, hp, rfl⟩ := List.mem_map.mp ha
      have hc : conicV (s • k) p.x p.y = s * conicV k p.x p.y := by
        unfold conicV; simp only [Pi.smul_apply, smul_eq_mul]; ring
      rcases (weight_nonneg p).eq_or_lt with hw | hw
      · rw [← hw]; ring
      · rw [hc, hT p hp ((counts_iff p).mp hw)]; ring
    · apply List.sum_nonneg
      intro a ha
      obtain ⟨p, _, rfl⟩ := List.mem_map.mp ha
      exact mul_nonneg (weight_nonneg p) (sq_nonneg _)
  have hTK : Through ps K := by
    intro p hp hc
    have := sum_zero_of (fun p _ => mul_nonneg (weight_nonneg p) (sq_nonneg _)) herr p hp
    exact pow_eq_zero_iff two_ne_zero |>.mp ((mul_eq_zero.mp this).resolve_left ((counts_iff p).mpr hc).ne')
  obtain ⟨t, ht⟩ := h1 k K hk0 hT hTK
  have ht0 : t ≠ 0 := by
    rintro rfl
    simp at ht
    rw [ht] at hK
    simp [kind] at hK
  intro x y
  rw [← hθ]
  have : conicV K x y = t * conicV k x y := by
    rw [ht]; unfold conicV; simp only [Pi.smul_apply, smul_eq_mul]; ring
  rw [this]
  simp [ht0]

/-- If the points lie on a parabola and determine it, the fit breaks down. -/
theorem C147_parabola (eig : EigRoutine) (he : Works eig) (ps : List Pt) (h1 : Determined ps) (k : Fin 6 → ℝ)
    (hk : kind k = 0) (hq : k 0 ≠ 0 ∨ k 1 ≠ 0 ∨ k 2 ≠ 0) (hT : Through ps k) : fitEllipse eig ps = .panic := by
  have hk0 : k ≠ 0 := by rintro rfl; simp at hq
  have hl : ¬ OnLine ps := by
    rintro ⟨u, v, c, huv, h⟩
    obtain ⟨t, ht⟩ := h1 k ![0, 0, 0, u, v, c] hk0 hT (by
      intro p hp hc
      have := h p hp hc
      unfold conicV
      simp
      linarith)
    have a0 := congrFun ht 0
    have a1 := congrFun ht 1
    have a2 := congrFun ht 2
    have a3 := congrFun ht 3
    have a4 := congrFun ht 4
    simp at a0 a1 a2 a3 a4
    have : t = 0 := by tauto
    rw [this] at a3 a4
    simp at a3 a4
    tauto
  have hd : (scatter ps Pt.linear Pt.linear).det ≠ 0 := fun h => hl ((det_iff_line ps).mp h)
  obtain ⟨v, hv, hE⟩ := he (freeM ps)
  unfold fitEllipse
  rw [if_neg hd]
  simp only [hv]
  rcases hc : chooseColumn v with _ | q
  · rfl
  · exfalso
    obtain ⟨hcon, _, mu, hmu⟩ := chosen_free he hl hv hc
    obtain ⟨z1, z2⟩ := kernel_of_through hd hT
    set κ : Fin 3 → ℝ := ![k 0, k 1, k 2] with hκ
    have hκc : con κ = 0 := by rw [← hk, hκ]; unfold con kind; simp; ring
    have hS := reduced_psd (free_solves hd)
    have e := hS.symm κ q
    rw [z1, hmu, dotProduct_zero, dotProduct_smul, constraint_form, smul_eq_mul] at e
    have hc2 : con2 κ q ≠ 0 := by
      intro h0
      rw [show con2 κ q = con2 q κ by unfold con2; ring] at h0
      -- the complement of an ellipse has no parabola either
      have h3 : 4 * (q 0 * κ 2 - q 2 * κ 0) ^ 2 + (con q) * (κ 1 * κ 1) = 0 := by
        unfold con con2 at *
        linear_combination (2 * q 0 * κ 2 + 2 * q 2 * κ 0 + q 1 * κ 1) * h0 - 4 * q 0 * q 2 * hκc
      have n1 := sq_nonneg (q 0 * κ 2 - q 2 * κ 0)
      have n2 := mul_nonneg hcon.le (mul_self_nonneg (κ 1))
      have k1 : κ 1 = 0 := by
        have : con q * (κ 1 * κ 1) = 0 := by linarith
        exact mul_self_eq_zero.mp ((mul_eq_zero.mp this).resolve_left hcon.ne')
      have k02 : q 0 * κ 2 - q 2 * κ 0 = 0 := by
        have : (q 0 * κ 2 - q 2 * κ 0) ^ 2 = 0 := by linarith
        exact pow_eq_zero_iff two_ne_zero |>.mp this
      have s0 : q 0 * κ 2 + q 2 * κ 0 = 0 := by
        unfold con2 at h0; rw [k1] at h0; linarith
      have q0 : q 0 ≠ 0 := by intro h; unfold con at hcon; rw [h] at hcon; nlinarith [mul_self_nonneg (q 1)]
      have q2 : q 2 ≠ 0 := by intro h; unfold con at hcon; rw [h] at hcon; nlinarith [mul_self_nonneg (q 1)]
      have k2 : κ 2 = 0 := by
        have : q 0 * κ 2 = 0 := by linarith
        exact (mul_eq_zero.mp this).resolve_left q0
      have k0 : κ 0 = 0 := by
        have : q 2 * κ 0 = 0 := by linarith
        exact (mul_eq_zero.mp this).resolve_left q2
      simp [hκ] at k0 k1 k2
      tauto
    have hmu0 : mu = 0 := (mul_eq_zero.mp e).resolve_right hc2
    rw [hmu0, zero_smul] at hmu
    obtain ⟨t, ht⟩ := h1 _ _ hk0 hT ((through_kernel hd q).mp hmu)
    have : con q = t ^ 2 * kind k := by
      have a0 := congrFun ht 0
      have a1 := congrFun ht 1
      have a2 := congrFun ht 2
      simp at a0 a1 a2
      unfold con kind
      rw [a0, a1, a2]; ring
    rw [this, hk] at hcon
    simp at hcon

/-- Five points of the unit circle. -/
noncomputable def circle5 : List Pt := [⟨1, 0, some 1⟩, ⟨0, 1, some 2⟩, ⟨-1, 0, some 1⟩, ⟨0, -1, some 3⟩, ⟨3 / 5, 4 / 5, some 1⟩]

/-- Five points of the unit circle and two that do not count. -/
noncomputable def circlePoints : List Pt := circle5 ++ [⟨7, 7, some 0⟩, ⟨8, 7, none⟩]

theorem circle_through {ps : List Pt} (hs : circle5 ⊆ ps) (k : Fin 6 → ℝ) (h : Through ps k) : k = ![k 0, 0, k 0, 0, 0, -k 0] := by
  have c : ∀ x y w : ℝ, 0 < w → (⟨x, y, some w⟩ : Pt) ∈ circle5 → conicV k x y = 0 := fun x y w hw hm => h _ (hs hm) ⟨w, rfl, hw⟩
  have a1 := c 1 0 1 (by norm_num) (by simp [circle5])
  have a2 := c 0 1 2 (by norm_num) (by simp [circle5])
  have a3 := c (-1) 0 1 (by norm_num) (by simp [circle5])
  have a4 := c 0 (-1) 3 (by norm_num) (by simp [circle5])
  have a5 := c (3 / 5) (4 / 5) 1 (by norm_num) (by simp [circle5])
  unfold conicV at a1 a2 a3 a4 a5
  funext i
  fin_cases i <;> simp <;> linarith

theorem circle_determined {ps : List Pt} (hs : circle5 ⊆ ps) : Determined ps := by
  intro k k' hk h h'
  have e := circle_through hs k h
  have e' := circle_through hs k' h'
  have h0 : k 0 ≠ 0 := by
    intro h0
    apply hk
    rw [e, h0]
    funext i
    fin_cases i <;> simp
  refine ⟨k' 0 / k 0, ?_⟩
  rw [e', e]
  funext i
  fin_cases i <;> simp <;> field_simp

theorem circle_on : Through circlePoints ![1, 0, 1, 0, 0, -1] := by
  intro p hp hc
  simp only [circlePoints, circle5, List.mem_cons, List.not_mem_nil, or_false, List.cons_append, List.nil_append] at hp
  obtain ⟨w, hw, h0⟩ := hc
  rcases hp with rfl | rfl | rfl | rfl | rfl | rfl | rfl <;> simp [conicV] at hw ⊢ <;> first | (norm_num; done) | linarith

theorem circle_sub : circle5 ⊆ circlePoints := fun _ h => List.mem_append_left _ h

example : ∃ eig r, Works eig ∧ fitEllipse eig circlePoints = .ok r ∧ ∃ θ, ∀ x y, x ^ 2 + y ^ 2 = 1 ↔ form r.x0 r.y0 r.ap r.bp θ x y = 1 := by
  obtain ⟨eig, he⟩ := works_exists
  obtain ⟨r, hr, _, _, θ, hθ⟩ := C147_exact eig he circlePoints (circle_determined circle_sub) _ (by unfold kind; simp) circle_on
  refine ⟨eig, r, he, hr, θ, fun x y => ?_⟩
  rw [← hθ]
  unfold conicV
  simp
  constructor <;> intro h <;> linarith

/-- Points of a parabola. -/
def parabolaPoints : List Pt := [⟨0, 0, some 1⟩, ⟨1, 1, some 1⟩, ⟨-1, 1, some 1⟩, ⟨2, 4, some 1⟩, ⟨-2, 4, some 1⟩]

theorem parabola_through (k : Fin 6 → ℝ) (h : Through parabolaPoints k) : k = ![k 0, 0, 0, 0, -k 0, 0] := by
  have c : ∀ x y w : ℝ, 0 < w → (⟨x, y, some w⟩ : Pt) ∈ parabolaPoints → conicV k x y = 0 := fun x y w hw hm => h _ hm ⟨w, rfl, hw⟩
  have a1 := c 0 0 1 (by norm_num) (by simp [parabolaPoints])
  have a2 := c 1 1 1 (by norm_num) (by simp [parabolaPoints])
  have a3 := c (-1) 1 1 (by norm_num) (by simp [parabolaPoints])
  have a4 := c 2 4 1 (by norm_num) (by simp [parabolaPoints])
  have a5 := c (-2) 4 1 (by norm_num) (by simp [parabolaPoints])
  unfold conicV at a1 a2 a3 a4 a5
  funext i
  fin_cases i <;> simp <;> linarith

example : ∃ eig, Works eig ∧ fitEllipse eig parabolaPoints = .panic := by
  obtain ⟨eig, he⟩ := works_exists
  refine ⟨eig, he, C147_parabola eig he _ ?_ ![1, 0, 0, 0, -1, 0] (by simp [kind]) (by simp) ?_⟩
  · intro k k' hk h h'
    have e := parabola_through k h
    have e' := parabola_through k' h'
    have h0 : k 0 ≠ 0 := by
      intro h0
      apply hk
      rw [e, h0]
      funext i
      fin_cases i <;> simp
    refine ⟨k' 0 / k 0, ?_⟩
    rw [e', e]
    funext i
    fin_cases i <;> simp <;> field_simp
  · intro p hp _
    simp only [parabolaPoints, List.mem_cons, List.not_mem_nil, or_false] at hp
    rcases hp with rfl | rfl | rfl | rfl | rfl <;> simp [conicV] <;> norm_num

/-! ### C148: fixed center -/

/-- A conic around a given center, with coefficients of dx², dx dy, dy² and 1. -/
def around (x0 y0 : ℝ) (k : Fin 4 → ℝ) (x y : ℝ) : ℝ :=
  k 0 * (x - x0) ^ 2 + k 1 * (x - x0) * (y - y0) + k 2 * (y - y0) ^ 2 + k 3

/-- Positive for ellipses, negative for hyperbolas, zero for pairs of parallel lines. -/
def kind4 (k : Fin 4 → ℝ) : ℝ := 4 * k 0 * k 2 - k 1 ^ 2

/-- The curve goes through all points that count. -/
def ThroughAround (ps : List Pt) (x0 y0 : ℝ) (k : Fin 4 → ℝ) : Prop := ∀ p ∈ ps, Counts p → around x0 y0 k p.x p.y = 0

/-- At most one conic around the center goes through all points that count. -/
def DeterminedAround (ps : List Pt) (x0 y0 : ℝ) : Prop :=
  ∀ k k', k ≠ 0 → ThroughAround ps x0 y0 k → ThroughAround ps x0 y0 k' → ∃ t : ℝ, k' = t • k

/-- The weighted sum of squares that the fit makes small. -/
noncomputable def algErrorAround (ps : List Pt) (x0 y0 : ℝ) (k : Fin 4 → ℝ) : ℝ :=
  (ps.map fun p => p.weight * around x0 y0 k p.x p.y ^ 2).sum

/-- The constant of the conic in centered form. -/
def shift (x0 y0 : ℝ) (q : Fin 3 → ℝ) (g : ℝ) : ℝ := g - (q 0 * x0 ^ 2 + q 1 * x0 * y0 + q 2 * y0 ^ 2)

theorem residual_fixed (x0 y0 : ℝ) (p : Pt) (q : Fin 3 → ℝ) (l : Fin 1 → ℝ) :
    p.centered x0 y0 ⬝ᵥ q + p.const ⬝ᵥ l = around x0 y0 ![q 0, q 1, q 2, shift x0 y0 q (l 0)] p.x p.y := by
  simp only [Pt.centered, Pt.const, dotProduct, Fin.sum_univ_three, around, shift]
  simp
  ring

theorem s3_zero_iff (ps : List Pt) : fixedS3 ps = 0 ↔ ∀ p ∈ ps, ¬ Counts p := by
  have e : fixedS3 ps = (ps.map fun p => p.weight).sum := by
    unfold fixedS3 scatter
    congr 1
    apply List.map_congr_left
    intro p _
    simp [Pt.const, Real.mul_self_sqrt (weight_nonneg p)]
  rw [e]
  constructor
  · intro h p hp hc
    have := sum_zero_of (f := fun p => p.weight) (fun p _ => weight_nonneg p) h p hp
    exact ((counts_iff p).mpr hc).ne' this
  · intro h
    apply List.sum_eq_zero
    intro a ha
    obtain ⟨p, hp, rfl⟩ := List.mem_map.mp ha
    rcases (weight_nonneg p).eq_or_lt with hw | hw
    · exact hw.symm
    · exact absurd ((counts_iff p).mp hw) (h p hp)

theorem scatter_const (ps : List Pt) (l : Fin 1 → ℝ) : (scatter ps Pt.const Pt.const *ᵥ l) 0 = fixedS3 ps * l 0 := by
  simp [mulVec, dotProduct, fixedS3]

theorem fixed_solves {ps : List Pt} {x0 y0 : ℝ} (h : fixedS3 ps ≠ 0) :
    Solves ps (Pt.centered x0 y0) Pt.const (fixedT ps x0 y0) := by
  intro q
  funext i
  have hi : i = 0 := Subsingleton.elim _ _
  subst hi
  rw [Pi.add_apply, scatter_const]
  have : (fixedT ps x0 y0 *ᵥ q) 0 = -(1 / fixedS3 ps) * (scatter ps Pt.const (Pt.centered x0 y0) *ᵥ q) 0 := by
    unfold fixedT
    rw [scatter_transpose]
    simp only [mulVec, dotProduct, Matrix.map_apply, Finset.mul_sum, mul_assoc]
  rw [this]
  simp only [Pi.zero_apply]
  field_simp
  ring

theorem fixedT_g (ps : List Pt) (x0 y0 : ℝ) (q : Fin 3 → ℝ) :
    -(1 / fixedS3 ps) * ((scatter ps (Pt.centered x0 y0) Pt.const)ᵀ *ᵥ q) 0 = (fixedT ps x0 y0 *ᵥ q) 0 := by
  unfold fixedT
  simp only [mulVec, dotProduct, Matrix.map_apply, Finset.mul_sum, mul_assoc]

theorem algErrorAround_eq (ps : List Pt) (x0 y0 : ℝ) (q : Fin 3 → ℝ) (l : Fin 1 → ℝ) :
    algErrorAround ps x0 y0 ![q 0, q 1, q 2, shift x0 y0 q (l 0)] = err ps (Pt.centered x0 y0) Pt.const q l := by
  unfold algErrorAround err
  congr 1
  apply List.map_congr_left
  intro p _
  rw [residual_fixed]

theorem params_center {x0 y0 : ℝ} {a b c g : ℝ} (h : 0 < 4 * a * c - b * b) {e : Ellipse}
    (he : ellipseParams a b c (-2 * a * x0 - b * y0) (-b * x0 - 2 * c * y0) g = some e) : e.x0 = x0 ∧ e.y0 = y0 := by
  unfold ellipseParams at he
  dsimp only at he
  have hden : b / 2 * (b / 2) - a * c ≠ 0 := by
    intro h0; linarith
  rw [if_neg (by linarith)] at he
  have hx : (c * ((-2 * a * x0 - b * y0) / 2) - b / 2 * ((-b * x0 - 2 * c * y0) / 2)) / (b / 2 * (b / 2) - a * c) = x0 := by
    rw [div_eq_iff hden]; ring
  have hy : (a * ((-b * x0 - 2 * c * y0) / 2) - b / 2 * ((-2 * a * x0 - b * y0) / 2)) / (b / 2 * (b / 2) - a * c) = y0 := by
    rw [div_eq_iff hden]; ring
  split_ifs at he <;> (injection he with he; subst he; exact ⟨hx, hy⟩)

theorem report_around {ps : List Pt} {x0 y0 : ℝ} {q : Fin 3 → ℝ} {g : ℝ} (hk : 0 < con q)
    (hi : ∃ x y, q 0 * around x0 y0 ![q 0, q 1, q 2, shift x0 y0 q g] x y < 0) :
    ∃ r, report ps (q 0) (q 1) (q 2) (-2 * q 0 * x0 - q 1 * y0) (-q 1 * x0 - 2 * q 2 * y0) g = .ok r ∧
      0 < r.bp ∧ r.bp ≤ r.ap ∧
      ∃ θ, ∀ x y, around x0 y0 ![q 0, q 1, q 2, shift x0 y0 q g] x y = 0 ↔ form x0 y0 r.ap r.bp θ x y = 1 := by
  have ec : ∀ x y, around x0 y0 ![q 0, q 1, q 2, shift x0 y0 q g] x y =
      conic (q 0) (q 1) (q 2) (-2 * q 0 * x0 - q 1 * y0) (-q 1 * x0 - 2 * q 2 * y0) g x y := by
    intro x y
    unfold around conic shift
    simp
    ring
  unfold con at hk
  obtain ⟨e, he, h1, h2, θ, h3⟩ := C54_shape_partial (q 0) (q 1) (q 2) (-2 * q 0 * x0 - q 1 * y0) (-q 1 * x0 - 2 * q 2 * y0) g
    ⟨by linarith, by obtain ⟨x, y, h⟩ := hi; exact ⟨x, y, by rw [← ec]; exact h⟩⟩
  obtain ⟨cx, cy⟩ := params_center hk he
  refine ⟨⟨e.x0, e.y0, e.ap, e.bp, reportedOrientation e.orientation, weightedRms ps (q 2) (-2 * q 0 * x0 - q 1 * y0) (-q 1 * x0 - 2 * q 2 * y0) e⟩,
    by unfold report; rw [he], h1, h2, θ, ?_⟩
  intro x y
  rw [ec, h3 x y, cx, cy]

theorem chosen_fixed {eig : EigRoutine} (he : Works eig) {ps : List Pt} {x0 y0 : ℝ} (hd : fixedS3 ps ≠ 0)
    {v : Fin 3 → Fin 3 → ℂ} {q : Fin 3 → ℝ} (hv : eig (fixedM ps x0 y0) = some v) (hq : chooseColumn v = some q) :
    0 < con q ∧ ((∃ p ∈ ps, Counts p ∧ (p.x ≠ x0 ∨ p.y ≠ y0)) →
      ∃ x y, q 0 * around x0 y0 ![q 0, q 1, q 2, shift x0 y0 q ((fixedT ps x0 y0 *ᵥ q) 0)] x y < 0) ∧
    ∃ mu : ℝ, (scatter ps (Pt.centered x0 y0) (Pt.centered x0 y0) + scatter ps (Pt.centered x0 y0) Pt.const * fixedT ps x0 y0) *ᵥ q
      = mu • (constraint *ᵥ q) := by
  have hs := fixed_solves (x0 := x0) (y0 := y0) hd
  obtain ⟨hc, k, rfl⟩ := chooseColumn_some hq
  obtain ⟨v', hv', lam, hcol, _⟩ := he (fixedM ps x0 y0)
  rw [hv] at hv'
  cases hv'
  obtain ⟨hne, heq, _⟩ := hcol k
  refine ⟨hc, ?_, (lam k).re, eigen_part (reduced_psd hs) hne heq⟩
  rintro ⟨p0, hp0, hc0, hoff⟩
  set q : Fin 3 → ℝ := fun i => (v k i).re with hqd
  set l := fixedT ps x0 y0 *ᵥ q with hld
  set K : Fin 4 → ℝ := ![q 0, q 1, q 2, shift x0 y0 q (l 0)] with hK
  by_contra hno
  push Not at hno
  have hm := mean_zero hs ![1] (fun p => by simp [Pt.const, dotProduct]) q
  simp only [residual_fixed] at hm
  have hm' : (ps.map fun p => p.weight * (q 0 * around x0 y0 K p.x p.y)).sum = 0 := by
    have : (ps.map fun p => p.weight * (q 0 * around x0 y0 K p.x p.y)) = ps.map fun p => q 0 * (p.weight * around x0 y0 K p.x p.y) := by
      apply List.map_congr_left; intro p _; ring
    rw [this, List.sum_map_mul_left, hm, mul_zero]
  have hz := sum_zero_of (fun p _ => mul_nonneg (weight_nonneg p) (hno _ _)) hm'
  have h0 : q 0 ≠ 0 := by
    intro h0; unfold con at hc; rw [h0] at hc; nlinarith [mul_self_nonneg (q 1)]
  have z0 : around x0 y0 K p0.x p0.y = 0 := by
    have := hz p0 hp0
    have := (mul_eq_zero.mp this).resolve_left ((counts_iff p0).mpr hc0).ne'
    exact (mul_eq_zero.mp this).resolve_left h0
  have hcen := hno x0 y0
  have e1 : around x0 y0 K x0 y0 = K 3 := by unfold around; ring
  have e2 : around x0 y0 K p0.x p0.y = q 0 * (p0.x - x0) ^ 2 + q 1 * (p0.x - x0) * (p0.y - y0) + q 2 * (p0.y - y0) ^ 2 + K 3 := rfl
  have hcen' : 0 ≤ q 0 * K 3 := by rw [← e1]; exact hcen
  rw [e2] at z0
  set dx := p0.x - x0 with hdx
  set dy := p0.y - y0 with hdy
  have e3 : 4 * (q 0 * (q 0 * dx ^ 2 + q 1 * dx * dy + q 2 * dy ^ 2)) = (2 * q 0 * dx + q 1 * dy) ^ 2 + con q * dy ^ 2 := by
    unfold con; ring
  have e4 : 4 * (q 0 * (q 0 * dx ^ 2 + q 1 * dx * dy + q 2 * dy ^ 2)) = -4 * (q 0 * K 3) := by linear_combination 4 * q 0 * z0
  have n1 := sq_nonneg (2 * q 0 * dx + q 1 * dy)
  have n2 := mul_nonneg hc.le (sq_nonneg dy)
  have d2 : dy = 0 := by
    have : con q * dy ^ 2 = 0 := by linarith
    exact pow_eq_zero_iff two_ne_zero |>.mp ((mul_eq_zero.mp this).resolve_left hc.ne')
  have d1 : dx = 0 := by
    have : (2 * q 0 * dx + q 1 * dy) ^ 2 = 0 := by linarith
    have := pow_eq_zero_iff two_ne_zero |>.mp this
    rw [d2, mul_zero, add_zero] at this
    exact (mul_eq_zero.mp this).resolve_left (by simpa using h0)
  rcases hoff with h | h
  · exact h (by linarith)
  · exact h (by linarith)

/-- What the fit with a fixed center returns are the semi-axes of the ellipse around that center with the least weighted sum of
squares among all conics around it with the same value of 4ac - b², unless all points that count lie at the center. -/
theorem C148_least (eig : EigRoutine) (he : Works eig) (ps : List Pt) (x0 y0 : ℝ) (r : EllipseFit)
    (h : fitEllipseFixed eig ps x0 y0 = .ok r) (hp : ∃ p ∈ ps, Counts p ∧ (p.x ≠ x0 ∨ p.y ≠ y0)) :
    0 < r.bp ∧ r.bp ≤ r.ap ∧ ∃ k : Fin 4 → ℝ, 0 < kind4 k ∧
      (∃ θ, ∀ x y, around x0 y0 k x y = 0 ↔ form x0 y0 r.ap r.bp θ x y = 1) ∧
      ∀ k', kind4 k' = kind4 k → algErrorAround ps x0 y0 k ≤ algErrorAround ps x0 y0 k' := by
  unfold fitEllipseFixed at h
  split_ifs at h with hd
  rcases hv : eig (fixedM ps x0 y0) with _ | v
  · simp [hv] at h
  rcases hq : chooseColumn v with _ | q
  · simp [hv, hq] at h
  simp only [hv, hq] at h
  obtain ⟨hc, hi, mu, hmu⟩ := chosen_fixed he hd hv hq
  rw [fixedT_g] at h
  set l := fixedT ps x0 y0 *ᵥ q with hld
  set K : Fin 4 → ℝ := ![q 0, q 1, q 2, shift x0 y0 q (l 0)] with hK
  have hkind : kind4 K = con q := by rw [hK]; unfold kind4 con; simp; ring
  obtain ⟨r', hr', h1, h2, h3⟩ := report_around (ps := ps) hc (hi hp)
  have hrr : r' = r := by
    have : Out.ok r' = Out.ok r := by rw [← hr', ← h]
    injection this
  subst hrr
  refine ⟨h1, h2, K, by rw [hkind]; exact hc, h3, ?_⟩
  intro k' hk'
  have hs := fixed_solves (x0 := x0) (y0 := y0) hd
  set q' : Fin 3 → ℝ := ![k' 0, k' 1, k' 2] with hq'
  set l' : Fin 1 → ℝ := ![k' 3 + (k' 0 * x0 ^ 2 + k' 1 * x0 * y0 + k' 2 * y0 ^ 2)] with hl'
  have ek' : k' = ![q' 0, q' 1, q' 2, shift x0 y0 q' (l' 0)] := by
    funext i
    fin_cases i
    · rfl
    · rfl
    · rfl
    · simp [shift, hq', hl']
  have hc' : con q' = con q := by
    rw [← hkind, ← hk', hq']
    unfold con kind4
    simp
    ring
  rw [hK, ek', algErrorAround_eq, algErrorAround_eq, hld, err_eq, ← reduced_form hs]
  exact (chosen_least (reduced_psd hs) hc hmu q' hc').trans (err_reduced hs q' l')

/-- The fit with a fixed center reports an error exactly if no point counts. -/
theorem C148_error (eig : EigRoutine) (he : Works eig) (ps : List Pt) (x0 y0 : ℝ) :
    fitEllipseFixed eig ps x0 y0 = .err ↔ ∀ p ∈ ps, ¬ Counts p := by
  unfold fitEllipseFixed
  rw [← s3_zero_iff]
  split_ifs with hd
  · simp [hd]
  · obtain ⟨v, hv, _⟩ := he (fixedM ps x0 y0)
    simp only [hv, hd, iff_false]
    rcases chooseColumn v with _ | q
    · simp
    · simp only [report]
      split <;> simp

theorem throughAround_kernel {ps : List Pt} {x0 y0 : ℝ} (hd : fixedS3 ps ≠ 0) (q : Fin 3 → ℝ) :
    (scatter ps (Pt.centered x0 y0) (Pt.centered x0 y0) + scatter ps (Pt.centered x0 y0) Pt.const * fixedT ps x0 y0) *ᵥ q = 0 ↔
      ThroughAround ps x0 y0 ![q 0, q 1, q 2, shift x0 y0 q ((fixedT ps x0 y0 *ᵥ q) 0)] := by
  rw [reduced_kernel (fixed_solves hd)]
  unfold ThroughAround
  simp only [residual_fixed, counts_iff]

/-- The fit with a fixed center succeeds if the points determine a curve around the center, and no pair of parallel lines
around it goes through all of them. -/
theorem C148_succeeds (eig : EigRoutine) (he : Works eig) (ps : List Pt) (x0 y0 : ℝ) (h1 : DeterminedAround ps x0 y0)
    (h2 : ∀ k, k ≠ 0 → ThroughAround ps x0 y0 k → kind4 k ≠ 0) : ∃ r, fitEllipseFixed eig ps x0 y0 = .ok r := by
  have hd : fixedS3 ps ≠ 0 := by
    intro h0
    have := (s3_zero_iff ps).mp h0
    refine h2 ![0, 0, 0, 1] (fun h => by simpa using congrFun h 3) (fun p hp hc => absurd hc (this p hp)) (by simp [kind4])
  obtain ⟨v, hv, hE⟩ := he (fixedM ps x0 y0)
  have hne : ∀ q : Fin 3 → ℝ, q ≠ 0 → (![q 0, q 1, q 2, shift x0 y0 q ((fixedT ps x0 y0 *ᵥ q) 0)] : Fin 4 → ℝ) ≠ 0 := by
    intro q hq h0
    apply hq
    funext i
    fin_cases i
    · exact congrFun h0 0
    · exact congrFun h0 1
    · exact congrFun h0 2
  obtain ⟨q, hq⟩ := column_exists (reduced_psd (fixed_solves (x0 := x0) (y0 := y0) hd)) hE (by
    intro q r hq hq0 hr0
    obtain ⟨t, ht⟩ := h1 _ _ (hne q hq) ((throughAround_kernel hd q).mp hq0) ((throughAround_kernel hd r).mp hr0)
    refine ⟨t, ?_⟩
    funext i
    fin_cases i
    · exact congrFun ht 0
    · exact congrFun ht 1
    · exact congrFun ht 2) (by
    intro q hq hq0
    have := h2 _ (hne q hq) ((throughAround_kernel hd q).mp hq0)
    unfold kind4 at this
    unfold con
    simpa [pow_two] using this)
  have hex : ∃ p ∈ ps, Counts p ∧ (p.x ≠ x0 ∨ p.y ≠ y0) := by
    by_contra hno
    push Not at hno
    refine h2 ![1, 0, 0, 0] (fun h => by simpa using congrFun h 0) (fun p hp hc => ?_) (by simp [kind4])
    have := hno p hp hc
    unfold around
    rw [this.1]
    simp
  obtain ⟨hc, hi, _⟩ := chosen_fixed he hd hv hq
  obtain ⟨r, hr, _⟩ := report_around (ps := ps) hc (hi hex)
  refine ⟨r, ?_⟩
  unfold fitEllipseFixed
  rw [if_neg hd]
  simp only [hv, hq]
  rw [fixedT_g]
  exact hr

/-- If the points lie on an ellipse around the center and determine it, the fit with that center returns its semi-axes. -/
theorem C148_exact (eig : EigRoutine) (he : Works eig) (ps : List Pt) (x0 y0 : ℝ) (h1 : DeterminedAround ps x0 y0)
    (k : Fin 4 → ℝ) (hk : 0 < kind4 k) (hT : ThroughAround ps x0 y0 k) :
    ∃ r, fitEllipseFixed eig ps x0 y0 = .ok r ∧ 0 < r.bp ∧ r.bp ≤ r.ap ∧
      ∃ θ, ∀ x y, around x0 y0 k x y = 0 ↔ form x0 y0 r.ap r.bp θ x y = 1 := by
  have hk0 : k ≠ 0 := by rintro rfl; simp [kind4] at hk
  have h2 : ∀ k', k' ≠ 0 → ThroughAround ps x0 y0 k' → kind4 k' ≠ 0 := by
    intro k' hk' hT'
    obtain ⟨t, ht⟩ := h1 k k' hk0 hT hT'
    have ht0 : t ≠ 0 := by rintro rfl; simp at ht; exact hk' ht
    have : kind4 k' = t ^ 2 * kind4 k := by rw [ht]; unfold kind4; simp only [Pi.smul_apply, smul_eq_mul]; ring
    rw [this]
    positivity
  have hex : ∃ p ∈ ps, Counts p ∧ (p.x ≠ x0 ∨ p.y ≠ y0) := by
    by_contra hno
    push Not at hno
    refine h2 ![1, 0, 0, 0] (fun h => by simpa using congrFun h 0) (fun p hp hc => ?_) (by simp [kind4])
    have := hno p hp hc
    unfold around
    rw [this.1]
    simp
  obtain ⟨r, hr⟩ := C148_succeeds eig he ps x0 y0 h1 h2
  obtain ⟨b1, b2, K, hK, ⟨θ, hθ⟩, hmin⟩ := C148_least eig he ps x0 y0 r hr hex
  refine ⟨r, hr, b1, b2, θ, ?_⟩
  have herr : algErrorAround ps x0 y0 K = 0 := by
    apply le_antisymm
    · set s := √(kind4 K / kind4 k) with hs
      have hs2 : s ^ 2 = kind4 K / kind4 k := Real.sq_sqrt (div_nonneg hK.le hk.le)
      have := hmin (s • k) (by
        have : kind4 (s • k) = s ^ 2 * kind4 k := by unfold kind4; simp only [Pi.smul_apply, smul_eq_mul]; ring
        rw [this, hs2, div_mul_cancel₀ _ hk.ne'])
      refine this.trans (le_of_eq ?_)
      apply List.sum_eq_zero
      intro a ha
      obtain ⟨p, hp, rfl⟩ := List.mem_map.mp ha
      have hc : around x0 y0 (s • k) p.x p.y = s * around x0 y0 k p.x p.y := by
        unfold around; simp only [Pi.smul_apply, smul_eq_mul]; ring
      rcases (weight_nonneg p).eq_or_lt with hw | hw
      · rw [← hw]; ring
      · rw [hc, hT p hp ((counts_iff p).mp hw)]; ring
    · apply List.sum_nonneg
      intro a ha
      obtain ⟨p, _, rfl⟩ := List.mem_map.mp ha
      exact mul_nonneg (weight_nonneg p) (sq_nonneg _)
  have hTK : ThroughAround ps x0 y0 K := by
    intro p hp hc
    have := sum_zero_of (fun p _ => mul_nonneg (weight_nonneg p) (sq_nonneg _)) herr p hp
    exact pow_eq_zero_iff two_ne_zero |>.mp ((mul_eq_zero.mp this).resolve_left ((counts_iff p).mpr hc).ne')
  obtain ⟨t, ht⟩ := h1 k K hk0 hT hTK
  have ht0 : t ≠ 0 := by
    rintro rfl
    simp at ht
    rw [ht] at hK
    simp [kind4] at hK
  intro x y
  rw [← hθ]
  have : around x0 y0 K x y = t * around x0 y0 k x y := by
    rw [ht]; unfold around; simp only [Pi.smul_apply, smul_eq_mul]; ring
  rw [this]
  simp [ht0]

/-- Three points of the ellipse x²/4 + y² = 1 moved to the center (5, 6). -/
example : ∃ eig r, Works eig ∧ fitEllipseFixed eig [⟨7, 6, some 1⟩, ⟨5, 7, some 2⟩, ⟨31 / 5, 34 / 5, some 1⟩] 5 6 = .ok r ∧
    ∃ θ, ∀ x y, (x - 5) ^ 2 / 4 + (y - 6) ^ 2 = 1 ↔ form 5 6 r.ap r.bp θ x y = 1 := by
  obtain ⟨eig, he⟩ := works_exists
  have hthrough : ∀ k, ThroughAround [⟨7, 6, some 1⟩, ⟨5, 7, some 2⟩, ⟨31 / 5, 34 / 5, some 1⟩] 5 6 k → k = ![k 0, 0, 4 * k 0, -4 * k 0] := by
    intro k h
    have a1 := h ⟨7, 6, some 1⟩ (by simp) ⟨1, rfl, by norm_num⟩
    have a2 := h ⟨5, 7, some 2⟩ (by simp) ⟨2, rfl, by norm_num⟩
    have a3 := h ⟨31 / 5, 34 / 5, some 1⟩ (by simp) ⟨1, rfl, by norm_num⟩
    unfold around at a1 a2 a3
    simp only at a1 a2 a3
    funext i
    fin_cases i <;> simp <;> linarith
  obtain ⟨r, hr, _, _, θ, hθ⟩ := C148_exact eig he [⟨7, 6, some 1⟩, ⟨5, 7, some 2⟩, ⟨31 / 5, 34 / 5, some 1⟩] 5 6 (by
    intro k k' hk h h'
    have e := hthrough k h
    have e' := hthrough k' h'
    have h0 : k 0 ≠ 0 := by
      intro h0
      apply hk
      rw [e, h0]
      funext i
      fin_cases i <;> simp
    refine ⟨k' 0 / k 0, ?_⟩
    rw [e', e]
    funext i
    fin_cases i <;> simp <;> field_simp) ![1, 0, 4, -4] (by unfold kind4; simp) (by
    intro p hp _
    simp only [List.mem_cons, List.not_mem_nil, or_false] at hp
    rcases hp with rfl | rfl | rfl <;> simp [around] <;> norm_num)
  refine ⟨eig, r, he, hr, θ, fun x y => ?_⟩
  rw [← hθ]
  unfold around
  simp
  constructor <;> intro h <;> linarith

/-! ### C149: the reported error -/

theorem scatter_filter {m n : ℕ} (ps : List Pt) (U : Pt → Fin m → ℝ) (V : Pt → Fin n → ℝ) (f : Pt → Bool)
    (hf : ∀ p ∈ ps, f p = false → p.w = some 0) : scatter (ps.filter f) U V = scatter ps U V := by
  funext i j
  unfold scatter
  induction ps with
  | nil => rfl
  | cons p ps ih =>
    have ih := ih fun p hp => hf p (by simp [hp])
    by_cases h : f p = true
    · rw [List.filter_cons_of_pos h, List.map_cons, List.sum_cons, ih, List.map_cons, List.sum_cons]
    · rw [List.filter_cons_of_neg h, ih, List.map_cons, List.sum_cons]
      have : p.weight = 0 := by unfold Pt.weight; rw [hf p (by simp) (by simpa using h)]; simp
      rw [this]
      simp

theorem rms_filter (ps : List Pt) (f : Pt → Bool) (hf : ∀ p ∈ ps, f p = false → p.w = some 0) (c d e : ℝ) (r : Ellipse) :
    weightedRms (ps.filter f) c d e r = weightedRms ps c d e r := by
  have h1 : ∀ g : Pt → ℝ, ((ps.filter f).map fun p => g p * p.w.getD 0).sum = (ps.map fun p => g p * p.w.getD 0).sum := by
    intro g
    induction ps with
    | nil => rfl
    | cons p ps ih =>
      have ih := ih fun p hp => hf p (by simp [hp])
      by_cases h : f p = true
      · rw [List.filter_cons_of_pos h, List.map_cons, List.sum_cons, ih, List.map_cons, List.sum_cons]
      · rw [List.filter_cons_of_neg h, ih, List.map_cons, List.sum_cons, hf p (by simp) (by simpa using h)]
        simp
  have h2 : ((ps.filter f).map fun p => p.w.getD 0).sum = (ps.map fun p => p.w.getD 0).sum := by
    have := h1 fun _ => 1
    simpa using this
  have h3 : ((ps.filter f).all fun p => p.w.isSome) = ps.all fun p => p.w.isSome := by
    rw [Bool.eq_iff_iff, List.all_eq_true, List.all_eq_true]
    constructor
    · intro h p hp
      by_cases hfp : f p = true
      · exact h p (List.mem_filter.mpr ⟨hp, hfp⟩)
      · rw [hf p hp (by simpa using hfp)]; rfl
    · intro h p hp
      exact h p (List.mem_filter.mp hp).1
  unfold weightedRms
  rw [h1, h2, h3]

/-- Leaving out points of weight zero changes nothing, neither the ellipse nor the error. -/
theorem C149_zero_partial (eig : EigRoutine) (ps : List Pt) (f : Pt → Bool) (hf : ∀ p ∈ ps, f p = false → p.w = some 0) (x0 y0 : ℝ) :
    fitEllipse eig (ps.filter f) = fitEllipse eig ps ∧ fitEllipseFixed eig (ps.filter f) x0 y0 = fitEllipseFixed eig ps x0 y0 := by
  constructor
  · unfold fitEllipse freeM freeT report
    simp only [scatter_filter ps _ _ f hf, rms_filter ps f hf]
  · unfold fitEllipseFixed fixedM fixedT fixedS3 report
    simp only [scatter_filter ps _ _ f hf, rms_filter ps f hf]

example : ∀ p ∈ circlePoints, decide (p.w ≠ some 0) = false → p.w = some 0 := by
  intro p _ h
  simpa using h

/-- What the fit makes of points of the unit circle. -/
theorem circle_report (eig : EigRoutine) (he : Works eig) (ps : List Pt) (hs : circle5 ⊆ ps) (ho : Through ps ![1, 0, 1, 0, 0, -1]) :
    ∃ (t φ : ℝ), fitEllipse eig ps =
      .ok ⟨0, 0, 1, 1, reportedOrientation φ, weightedRms ps t 0 0 ⟨0, 0, 1, 1, φ⟩⟩ := by
  have hdet := circle_determined hs
  have hk1 : (![1, 0, 1, 0, 0, -1] : Fin 6 → ℝ) ≠ 0 := fun h => by simpa using congrFun h 0
  obtain ⟨r, hr, _⟩ := C147_exact eig he ps hdet _ (by unfold kind; simp) ho
  have hr' := hr
  unfold fitEllipse at hr
  split_ifs at hr with hd
  have hl : ¬ OnLine ps := fun h => hd ((det_iff_line ps).mpr h)
  rcases hv : eig (freeM ps) with _ | v
  · simp [hv] at hr
  rcases hq : chooseColumn v with _ | q
  · simp [hv, hq] at hr
  simp only [hv, hq] at hr
  obtain ⟨hc, hi, mu, hmu⟩ := chosen_free he hl hv hq
  -- the curve is the circle
  obtain ⟨z1, z2⟩ := kernel_of_through hd ho
  have hS := reduced_psd (free_solves hd)
  have hmu0 : mu = 0 := by
    have e := hS.symm (![1, 0, 1] : Fin 3 → ℝ) q
    rw [show (![(![1, 0, 1, 0, 0, -1] : Fin 6 → ℝ) 0, (![1, 0, 1, 0, 0, -1] : Fin 6 → ℝ) 1, (![1, 0, 1, 0, 0, -1] : Fin 6 → ℝ) 2] : Fin 3 → ℝ)
      = ![1, 0, 1] by funext i; fin_cases i <;> rfl] at z1
    rw [z1, hmu, dotProduct_zero, dotProduct_smul, constraint_form, smul_eq_mul] at e
    rcases mul_eq_zero.mp e with h | h
    · exact h
    · have := con_orthogonal (q := ![1, 0, 1]) (by unfold con; simp) h
      linarith
  rw [hmu0, zero_smul] at hmu
  have hT := (through_kernel hd q).mp hmu
  have e := circle_through hs _ hT
  have a1 := congrFun e 1
  have a2 := congrFun e 2
  have a3 := congrFun e 3
  have a4 := congrFun e 4
  have a5 := congrFun e 5
  simp at a1 a2 a3 a4 a5
  set t := q 0 with ht
  have ht0 : t ≠ 0 := by
    intro h0; unfold con at hc; rw [← ht, h0, a1] at hc; simp at hc
  have e1 : √((t - t) ^ 2 + 4 * (0 / 2) * (0 / 2) : ℝ) = 0 := by simp
  have n3 : 2 * (t * (0 / 2) * (0 / 2) + t * (0 / 2) * (0 / 2) + -t * (0 / 2) * (0 / 2) - 2 * (0 / 2) * (0 / 2) * (0 / 2) - t * t * -t) =
      2 * t ^ 3 := by ring
  have hA : √(2 * t ^ 3 / ((0 / 2 * (0 / 2) - t * t) * (0 - (t + t)))) = 1 := by
    rw [show (0 / 2 * (0 / 2) - t * t) * (0 - (t + t)) = 2 * t ^ 3 by ring, div_self (by positivity), Real.sqrt_one]
  have hB : √(2 * t ^ 3 / ((0 / 2 * (0 / 2) - t * t) * (-0 - (t + t)))) = 1 := by
    rw [show (0 / 2 * (0 / 2) - t * t) * (-0 - (t + t)) = 2 * t ^ 3 by ring, div_self (by positivity), Real.sqrt_one]
  refine ⟨t, ?_⟩
  rw [a1, a2, a3, a4, a5] at hr
  have hp : ∃ φ, ellipseParams t 0 t 0 0 (-t) = some ⟨0, 0, 1, 1, φ⟩ := by
    unfold ellipseParams
    dsimp only
    rw [if_neg (by nlinarith [mul_self_nonneg t]), e1, n3, hA, hB, if_pos (le_refl _)]
    simp
  obtain ⟨φ, hφ⟩ := hp
  refine ⟨φ, ?_⟩
  rw [hr', ← hr]
  unfold report
  rw [hφ]

/-- Points that lie exactly on the fitted circle are given an error above zero: the distance of a point is computed from
the radius of the ellipse in its direction and does not depend on the distance of the point. -/
theorem C149_rms_fails (eig : EigRoutine) (he : Works eig) :
    ∃ r e, fitEllipse eig circle5 = .ok r ∧ (∀ p ∈ circle5, form r.x0 r.y0 r.ap r.bp 0 p.x p.y = 1) ∧ r.wrms = some e ∧ 0 < e := by
  obtain ⟨t, φ, h⟩ := circle_report eig he circle5 (fun _ h => h) (fun p hp hc => circle_on p (circle_sub hp) hc)
  refine ⟨_, √((circle5.map fun p => geometricDistance t 0 0 ⟨0, 0, 1, 1, φ⟩ p.x p.y ^ 2 * p.w.getD 0).sum /
    (circle5.map fun p => p.w.getD 0).sum), h, ?_, ?_, ?_⟩
  · intro p hp
    simp only [circle5, List.mem_cons, List.not_mem_nil, or_false] at hp
    rcases hp with rfl | rfl | rfl | rfl | rfl <;> simp [form] <;> norm_num
  · simp only [weightedRms]
    rw [if_pos (by simp [circle5])]
  · apply Real.sqrt_pos.mpr
    apply div_pos
    · have h0 : 0 < geometricDistance t 0 0 ⟨0, 0, 1, 1, φ⟩ 1 0 := by
        unfold geometricDistance
        simp only
        have : √((1 * cos (atan2 (0 - 0) (1 - 0) - φ)) ^ 2 + (1 * sin (atan2 (0 - 0) (1 - 0) - φ)) ^ 2) = 1 := by
          rw [one_mul, one_mul, add_comm, sin_sq_add_cos_sq, Real.sqrt_one]
        rw [this]
        apply div_pos (by norm_num)
        apply Real.sqrt_pos.mpr
        norm_num
      simp only [circle5, List.map_cons, List.map_nil, List.sum_cons, List.sum_nil, Option.getD_some]
      have := sq_nonneg (geometricDistance t 0 0 ⟨0, 0, 1, 1, φ⟩ 0 1)
      have := sq_nonneg (geometricDistance t 0 0 ⟨0, 0, 1, 1, φ⟩ (-1) 0)
      have := sq_nonneg (geometricDistance t 0 0 ⟨0, 0, 1, 1, φ⟩ 0 (-1))
      have := sq_nonneg (geometricDistance t 0 0 ⟨0, 0, 1, 1, φ⟩ (3 / 5) (4 / 5))
      have := pow_pos h0 2
      linarith
    · simp only [circle5, List.map_cons, List.map_nil, List.sum_cons, List.sum_nil, Option.getD_some]
      norm_num

/-- One weight that is no number makes the error no number, although the point has no part in the ellipse. -/
theorem C149_nan_fails (eig : EigRoutine) (he : Works eig) :
    ∃ r, fitEllipse eig circlePoints = .ok r ∧ r.ap = 1 ∧ r.bp = 1 ∧ r.wrms = none := by
  obtain ⟨t, φ, h⟩ := circle_report eig he circlePoints circle_sub circle_on
  refine ⟨_, h, rfl, rfl, ?_⟩
  simp [weightedRms, circlePoints]

/-! ### C150: what is fitted -/

/-- A center that is not fitted is left as it is; without an ellipse the axes are equal and the orientation is zero. -/
theorem C150_flags (eig : EigRoutine) (fitCenter wantEllipse : Bool) (ps : List Pt) (x0 y0 : ℝ) (r : RimFit)
    (h : fitOneRim eig fitCenter wantEllipse ps x0 y0 = .ok r) :
    (fitCenter = false → r.x0 = x0 ∧ r.y0 = y0) ∧ (wantEllipse = false → r.a = r.b ∧ r.o = 0) := by
  cases fitCenter <;> cases wantEllipse <;> simp only [fitOneRim, if_true, if_false, Bool.false_eq_true] at h
  · split at h
    · cases h
    · injection h with h
      subst h
      simp
  · split at h
    · cases h
    · cases h
    · injection h with h
      subst h
      simp
  · split at h
    · cases h
    · injection h with h
      subst h
      simp
  · simp

/-- The coefficients of a conic around a center. -/
def expand (x0 y0 : ℝ) (k : Fin 4 → ℝ) : Fin 6 → ℝ :=
  ![k 0, k 1, k 2, -2 * k 0 * x0 - k 1 * y0, -k 1 * x0 - 2 * k 2 * y0, k 3 + (k 0 * x0 ^ 2 + k 1 * x0 * y0 + k 2 * y0 ^ 2)]

theorem expand_eq (x0 y0 : ℝ) (k : Fin 4 → ℝ) (x y : ℝ) : conicV (expand x0 y0 k) x y = around x0 y0 k x y := by
  unfold conicV around expand
  simp
  ring

theorem determined_around {ps : List Pt} (h : Determined ps) (x0 y0 : ℝ) : DeterminedAround ps x0 y0 := by
  intro k k' hk hT hT'
  obtain ⟨t, ht⟩ := h (expand x0 y0 k) (expand x0 y0 k') (by
    intro h0
    apply hk
    have a0 := congrFun h0 0
    have a1 := congrFun h0 1
    have a2 := congrFun h0 2
    have a5 := congrFun h0 5
    simp [expand] at a0 a1 a2 a5
    rw [a0, a1, a2] at a5
    funext i
    fin_cases i
    · exact a0
    · exact a1
    · exact a2
    · simpa using a5) (fun p hp hc => by rw [expand_eq]; exact hT p hp hc) (fun p hp hc => by rw [expand_eq]; exact hT' p hp hc)
  refine ⟨t, ?_⟩
  have a0 := congrFun ht 0
  have a1 := congrFun ht 1
  have a2 := congrFun ht 2
  have a5 := congrFun ht 5
  simp [expand] at a0 a1 a2 a5
  rw [a0, a1, a2] at a5
  funext i
  fin_cases i
  · exact a0
  · exact a1
  · exact a2
  · show k' 3 = t * k 3
    linarith

/-- Whatever is asked to be fitted, points of a circle give that circle, if they determine it, no score is negative, and the
center is either fitted or given rightly. -/
theorem C150_circle (eig : EigRoutine) (he : Works eig) (fitCenter wantEllipse : Bool) (ps : List Pt) (X Y R x0 y0 : ℝ) (hR : 0 < R)
    (hn : ∀ p ∈ ps, ∀ w, p.w = some w → 0 ≤ w) (hdet : Determined ps)
    (hon : ∀ p ∈ ps, Counts p → (p.x - X) ^ 2 + (p.y - Y) ^ 2 = R ^ 2) (hc : fitCenter = true ∨ x0 = X ∧ y0 = Y) :
    ∃ r, fitOneRim eig fitCenter wantEllipse ps x0 y0 = .ok r ∧
      ∃ θ, ∀ x y, (x - X) ^ 2 + (y - Y) ^ 2 = R ^ 2 ↔ form r.x0 r.y0 r.a r.b θ x y = 1 := by
  have hform : ∀ x y, (x - X) ^ 2 + (y - Y) ^ 2 = R ^ 2 ↔ form X Y R R 0 x y = 1 := by
    intro x y
    unfold form
    simp only [cos_zero, sin_zero, mul_one, mul_zero, add_zero, sub_zero]
    rw [div_pow, div_pow, ← add_div, div_eq_one_iff_eq (by positivity)]
  have hexp : ∀ x y, around X Y ![1, 0, 1, -R ^ 2] x y = 0 ↔ (x - X) ^ 2 + (y - Y) ^ 2 = R ^ 2 := by
    intro x y
    unfold around
    simp
    constructor <;> intro h <;> linarith
  have hT : ThroughAround ps X Y ![1, 0, 1, -R ^ 2] := fun p hp hcp => (hexp _ _).mpr (hon p hp hcp)
  have hT6 : Through ps (expand X Y ![1, 0, 1, -R ^ 2]) := fun p hp hcp => by rw [expand_eq]; exact hT p hp hcp
  have hne : expand X Y ![1, 0, 1, -R ^ 2] ≠ 0 := fun h => by simpa [expand] using congrFun h 0
  have hline : ∀ l m n : ℝ, (∀ p ∈ ps, Counts p → l * p.x + m * p.y + n = 0) → l = 0 ∧ m = 0 ∧ n = 0 := by
    intro l m n h
    obtain ⟨t, ht⟩ := hdet _ ![0, 0, 0, l, m, n] hne hT6 (fun p hp hcp => by
      unfold conicV
      simp
      exact h p hp hcp)
    have a0 := congrFun ht 0
    have a3 := congrFun ht 3
    have a4 := congrFun ht 4
    have a5 := congrFun ht 5
    simp [expand] at a0 a3 a4 a5
    rw [← a0] at a3 a4 a5
    simp at a3 a4 a5
    exact ⟨a3, a4, a5⟩
  have hsome : ∃ p ∈ ps, Counts p := by
    by_contra hno
    push Not at hno
    have := (hline 1 0 0 fun p hp hcp => absurd hcp (hno p hp)).1
    norm_num at this
  cases fitCenter
  · obtain ⟨rfl, rfl⟩ : x0 = X ∧ y0 = Y := by simpa using hc
    cases wantEllipse
    · rcases hf : fitFixed ps x0 y0 with _ | ⟨r, w⟩
      · obtain ⟨p, hp, hcp⟩ := hsome
        exact absurd ((C55_fixed ps x0 y0).1.mp hf p hp) ((counts_iff p).mpr hcp).ne'
      · have hmin := ((C55_fixed ps x0 y0).2 r w hf).1
        have h0 : objective ps x0 y0 R = 0 := by
          unfold objective
          apply List.sum_eq_zero
          intro a ha
          obtain ⟨p, hp, rfl⟩ := List.mem_map.mp ha
          rcases (weight_nonneg p).eq_or_lt with hw | hw
          · rw [← hw]; ring
          · have : p.dist x0 y0 = R := by
              unfold Pt.dist
              rw [← pow_two, ← pow_two, hon p hp ((counts_iff p).mp hw), Real.sqrt_sq hR.le]
            rw [this]; ring
        have h1 : 0 ≤ objective ps x0 y0 r := by
          unfold objective
          apply List.sum_nonneg
          intro a ha
          obtain ⟨p, hp, rfl⟩ := List.mem_map.mp ha
          have := weight_nonneg p
          positivity
        have hrR : r = R := by
          by_contra hneq
          have := hmin R (Ne.symm hneq)
          linarith
        refine ⟨⟨x0, y0, r, r, 0⟩, ?_, 0, ?_⟩
        · unfold fitOneRim
          simp [hf]
        · rw [hrR]; exact hform
    · obtain ⟨r, hr, _, _, θ, hθ⟩ := C148_exact eig he ps x0 y0 (determined_around hdet x0 y0) ![1, 0, 1, -R ^ 2]
        (by unfold kind4; simp) hT
      refine ⟨⟨x0, y0, r.ap, r.bp, r.orientation⟩, ?_, θ, ?_⟩
      · unfold fitOneRim
        simp [hr]
      · intro x y
        rw [← hexp, hθ]
  · cases wantEllipse
    · rcases hf : fitCircle ps with _ | o
      · exfalso
        rcases C55_free_error ps hf with hz | ⟨l, m, n, hlmn, hl⟩
        · obtain ⟨p, hp, hcp⟩ := hsome
          obtain ⟨w, hw, hpos⟩ := hcp
          have := sum_zero_of (f := fun p => p.w.getD 0) (fun p hp => by
            rcases hpw : p.w with _ | w'
            · simp
            · simpa using hn p hp w' hpw) hz.2 p hp
          simp [hw] at this
          linarith
        · obtain ⟨a, b, c⟩ := hline l m n fun p hp hcp => hl p hp ((counts_iff p).mpr hcp).ne'
          simp [a, b, c] at hlmn
      · have := C55_free_exact ps X Y R hR.le (fun p hp hw => hon p hp ((counts_iff p).mp
          (lt_of_le_of_ne (weight_nonneg p) (Ne.symm hw)))) o hf
        subst this
        refine ⟨⟨X, Y, R, R, 0⟩, ?_, 0, hform⟩
        unfold fitOneRim
        simp [hf]
    · obtain ⟨r, hr, _, _, θ, hθ⟩ := C147_exact eig he ps hdet (expand X Y ![1, 0, 1, -R ^ 2]) (by unfold kind expand; simp) hT6
      refine ⟨⟨r.x0, r.y0, r.ap, r.bp, r.orientation⟩, ?_, θ, ?_⟩
      · unfold fitOneRim
        simp [hr]
      · intro x y
        rw [← hexp, ← expand_eq, hθ]

/-- Points of the unit circle, in all four ways. -/
example (c e : Bool) : ∃ eig r, Works eig ∧ fitOneRim eig c e circlePoints 0 0 = .ok r ∧
    ∃ θ, ∀ x y, (x - 0) ^ 2 + (y - 0) ^ 2 = 1 ^ 2 ↔ form r.x0 r.y0 r.a r.b θ x y = 1 := by
  obtain ⟨eig, he⟩ := works_exists
  obtain ⟨r, hr⟩ := C150_circle eig he c e circlePoints 0 0 1 0 0 (by norm_num) (by
    intro p hp w hw
    simp only [circlePoints, circle5, List.mem_cons, List.not_mem_nil, or_false, List.cons_append, List.nil_append] at hp
    rcases hp with rfl | rfl | rfl | rfl | rfl | rfl | rfl <;> simp at hw <;> rw [← hw] <;> norm_num)
    (circle_determined circle_sub) (by
    intro p hp hc
    have := circle_on p hp hc
    unfold conicV at this
    simp at this
    linarith) (.inr ⟨rfl, rfl⟩)
  exact ⟨eig, r, he, hr⟩

end Verif.Fit
