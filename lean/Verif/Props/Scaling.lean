import Verif.Model.Scaling
import Mathlib.Analysis.SpecialFunctions.Log.Deriv
import Mathlib.Analysis.Complex.ExponentialBounds
import Mathlib.Analysis.SpecialFunctions.Pow.Continuity
import Mathlib.MeasureTheory.Measure.Lebesgue.Basic

/-! Properties C29-C31, C93: size scaling laws, morphology classes, material parameters. -/

namespace Verif.Scaling

open MeasureTheory

/-- What every scaling model satisfies: positive factors and an exponent between 0 and 1. -/
structure Laws.Ok (l : Laws) : Prop where
  s : 0 < l.s
  c : 0 < l.c
  t : 0 < l.t
  tn : 0 < l.tn
  e0 : 0 < l.e
  e1 : l.e < 1

/-- What the root finder promises: the value it returns is a root inside the bracket. -/
def RootSound (root : (ℝ → ℝ) → ℝ × ℝ → Option ℝ) : Prop :=
  ∀ f lo hi x, root f (lo, hi) = some x → lo ≤ x ∧ x ≤ hi ∧ f x = 0

/-- And it finds one whenever a continuous function changes sign on the bracket. -/
def RootComplete (root : (ℝ → ℝ) → ℝ × ℝ → Option ℝ) : Prop :=
  ∀ f lo hi, lo ≤ hi → ContinuousOn f (Set.Icc lo hi) → f lo ≤ 0 → 0 ≤ f hi → (root f (lo, hi)).isSome

/-- The complex law as a single power. -/
theorem f2tComplex_eq (l : Laws) (h : l.Ok) {d : ℝ} (hd : 0 < d) :
    f2tComplex l d = l.t ^ l.e / (l.s * l.c) * d ^ (1 - l.e) := by
  unfold f2tComplex
  rw [Real.div_rpow hd.le h.t.le, Real.rpow_neg hd.le, Real.rpow_neg h.t.le, Real.rpow_sub hd,
    Real.rpow_one]
  have h1 : d ^ l.e ≠ 0 := (Real.rpow_pos_of_pos hd _).ne'
  have h2 : l.t ^ l.e ≠ 0 := (Real.rpow_pos_of_pos h.t _).ne'
  have h3 : l.s * l.c ≠ 0 := mul_ne_zero h.s.ne' h.c.ne'
  field_simp

/-! ### C29 -/

/-- Both laws from final to transient diameter are strictly increasing and give positive diameters. -/
theorem C29_final_monotone (l : Laws) (h : l.Ok) (d d' : ℝ) (hd : 0 < d) (hlt : d < d') :
    (0 < f2tSimple l d ∧ f2tSimple l d < f2tSimple l d') ∧
    (0 < f2tComplex l d ∧ f2tComplex l d < f2tComplex l d') := by
  refine ⟨⟨div_pos hd h.s, ?_⟩, ?_, ?_⟩
  · unfold f2tSimple
    exact div_lt_div_of_pos_right hlt h.s
  · rw [f2tComplex_eq l h hd]
    have := Real.rpow_pos_of_pos h.t l.e
    have := Real.rpow_pos_of_pos hd (1 - l.e)
    have := mul_pos h.s h.c
    positivity
  · rw [f2tComplex_eq l h hd, f2tComplex_eq l h (hd.trans hlt)]
    apply mul_lt_mul_of_pos_left
    · exact Real.rpow_lt_rpow hd.le hlt (by linarith [h.e1])
    · exact div_pos (Real.rpow_pos_of_pos h.t _) (mul_pos h.s h.c)

theorem f2tComplex_inj (l : Laws) (h : l.Ok) {d d' : ℝ} (hd : 0 < d) (hd' : 0 < d')
    (e : f2tComplex l d = f2tComplex l d') : d = d' := by
  rcases lt_trichotomy d d' with hl | hl | hl
  · have := (C29_final_monotone l h d d' hd hl).2.2; linarith
  · exact hl
  · have := (C29_final_monotone l h d' d hd' hl).2.2; linarith

/-- The class returned by `transient_to_final` says which law was inverted. -/
theorem t2f_cases (l : Laws) (h : l.Ok) (root) (hroot : RootSound root) (dt u0 u1 p : ℝ) (pick : Bool)
    (d : ℝ) (m : Morph) (hres : transientToFinal l root dt u0 u1 p pick = some (d, m)) :
    0 < dt ∧ ((m = .simple ∧ d = dt * l.s) ∨ (m ≠ .simple ∧ 0 < d ∧ f2tComplex l d = dt)) := by
  unfold transientToFinal at hres
  by_cases hdt : dt ≤ 0
  · rw [if_pos hdt] at hres; cases hres
  rw [if_neg hdt] at hres
  push Not at hdt
  refine ⟨hdt, ?_⟩
  rcases hr : root (fun x => f2tComplex l x - dt) (bracket l dt) with _ | dc
  · rw [hr] at hres; simp at hres
  rw [hr] at hres
  simp only at hres
  obtain ⟨hlo, _, hz⟩ := hroot _ _ _ _ hr
  have hdc : 0 < dc := lt_of_lt_of_le (by have := mul_pos hdt h.s; linarith) hlo
  have hcx : f2tComplex l dc = dt := by linarith
  rcases hm0 : morphType l (dt * l.s) u0 with _ | m0 <;> rcases hm1 : morphType l dc u1 with _ | m1 <;>
    rw [hm0, hm1] at hres <;> simp only [reduceCtorEq] at hres
  by_cases a1 : m0 = m1
  · rw [if_pos a1] at hres
    by_cases a2 : m0 = .simple
    · rw [if_pos a2] at hres
      simp only [Option.some.injEq, Prod.mk.injEq] at hres
      exact Or.inl ⟨hres.2 ▸ a2, hres.1.symm⟩
    · rw [if_neg a2] at hres
      simp only [Option.some.injEq, Prod.mk.injEq] at hres
      obtain ⟨rfl, rfl⟩ := hres
      exact Or.inr ⟨a2, hdc, hcx⟩
  · rw [if_neg a1] at hres
    by_cases a2 : m0 = .simple ∨ m1 = .simple
    · rw [if_pos a2] at hres
      by_cases a3 : (if l.mc then p else 0.5) < |dc - l.t| / |dt * l.s - dc|
      · rw [if_pos a3] at hres
        simp only [Option.some.injEq, Prod.mk.injEq] at hres
        exact Or.inl ⟨hres.2.symm, hres.1.symm⟩
      · rw [if_neg a3] at hres
        simp only [Option.some.injEq, Prod.mk.injEq] at hres
        obtain ⟨rfl, rfl⟩ := hres
        refine Or.inr ⟨?_, hdc, hcx⟩
        split_ifs with a4
        · intro h1; exact a1 (a4.trans h1.symm)
        · exact a4
    · rw [if_neg a2] at hres
      push Not at a2
      simp only [Option.some.injEq, Prod.mk.injEq] at hres
      obtain ⟨rfl, rfl⟩ := hres
      refine Or.inr ⟨?_, hdc, hcx⟩
      split_ifs
      · exact a2.1
      · exact a2.2
      · decide

/-- Converting a final diameter to a transient one and back gives the starting diameter whenever the
class drawn on the way back is on the same side (simple or not). -/
theorem C29_round_trip (l : Laws) (h : l.Ok) (root) (hroot : RootSound root) (d u : ℝ)
    (m0 : Option Morph) (dt : ℝ) (m : Morph) (hf : finalToTransient l d m0 u = some (dt, m))
    (u0 u1 p : ℝ) (pick : Bool) (d' : ℝ) (m' : Morph)
    (hb : transientToFinal l root dt u0 u1 p pick = some (d', m'))
    (hsame : m' = .simple ↔ m = .simple) : d' = d := by
  unfold finalToTransient at hf
  split_ifs at hf with hd
  push Not at hd
  have key : (m = .simple ∧ dt = f2tSimple l d) ∨ (m ≠ .simple ∧ dt = f2tComplex l d) := by
    generalize m0.or (morphType l d u) = x at hf
    rcases x with _ | x
    · simp at hf
    · rcases x <;> simp only [Option.some.injEq, Prod.mk.injEq] at hf <;> obtain ⟨rfl, rfl⟩ := hf
      · exact Or.inl ⟨rfl, rfl⟩
      · exact Or.inr ⟨by decide, rfl⟩
      · exact Or.inr ⟨by decide, rfl⟩
  obtain ⟨_, h2⟩ := t2f_cases l h root hroot dt u0 u1 p pick d' m' hb
  rcases key with ⟨hm, rfl⟩ | ⟨hm, rfl⟩ <;> rcases h2 with ⟨hm', e⟩ | ⟨hm', hpos, e⟩
  · rw [e, f2tSimple, div_mul_cancel₀ _ h.s.ne']
  · exact absurd (hsame.mpr hm) hm'
  · exact absurd (hsame.mp hm') hm
  · exact f2tComplex_inj l h hpos hd e

/-- The bracket used for the inverse contains a sign change exactly when the transient diameter, in
units of the transition diameter, is inside the stated range. -/
theorem C29_bracket (l : Laws) (h : l.Ok) (dt : ℝ) (hdt : 0 < dt) :
    (f2tComplex l (bracket l dt).1 - dt ≤ 0 ↔ (0.1 / l.c) ^ (1 / l.e) ≤ 0.1 * (dt * l.s) / l.t) ∧
    (0 ≤ f2tComplex l (bracket l dt).2 - dt ↔ 10 * (dt * l.s) / l.t ≤ (10 / l.c) ^ (1 / l.e)) := by
  have hds := mul_pos hdt h.s
  have gen : ∀ k : ℝ, 0 < k → f2tComplex l (k * (dt * l.s)) = dt * ((k / l.c) / (k * (dt * l.s) / l.t) ^ l.e) := by
    intro k hk
    unfold f2tComplex
    have hq : 0 < k * (dt * l.s) / l.t := div_pos (mul_pos hk hds) h.t
    rw [Real.rpow_neg hq.le]
    have := (Real.rpow_pos_of_pos hq l.e).ne'
    have := h.s.ne'
    have := h.c.ne'
    field_simp
  have cmp : ∀ k : ℝ, 0 < k → ((k / l.c) / (k * (dt * l.s) / l.t) ^ l.e ≤ 1 ↔
      (k / l.c) ^ (1 / l.e) ≤ k * (dt * l.s) / l.t) := by
    intro k hk
    have hq : 0 < k * (dt * l.s) / l.t := div_pos (mul_pos hk hds) h.t
    rw [div_le_one (Real.rpow_pos_of_pos hq _)]
    have hk' : 0 ≤ k / l.c := (div_pos hk h.c).le
    rw [one_div]
    exact (Real.rpow_inv_le_iff_of_pos hk' hq.le h.e0).symm
  have cmp' : ∀ k : ℝ, 0 < k → (1 ≤ (k / l.c) / (k * (dt * l.s) / l.t) ^ l.e ↔
      k * (dt * l.s) / l.t ≤ (k / l.c) ^ (1 / l.e)) := by
    intro k hk
    have hq : 0 < k * (dt * l.s) / l.t := div_pos (mul_pos hk hds) h.t
    rw [one_le_div (Real.rpow_pos_of_pos hq _)]
    have hk' : 0 ≤ k / l.c := (div_pos hk h.c).le
    rw [one_div]
    exact (Real.le_rpow_inv_iff_of_pos hq.le hk' h.e0).symm
  constructor
  · rw [← cmp 0.1 (by norm_num)]
    simp only [bracket]
    rw [gen 0.1 (by norm_num), sub_nonpos]
    constructor
    · intro hx; exact le_of_mul_le_mul_left (by linarith) hdt
    · intro hx; nlinarith
  · rw [← cmp' 10 (by norm_num)]
    simp only [bracket]
    rw [gen 10 (by norm_num), sub_nonneg]
    constructor
    · intro hx; exact le_of_mul_le_mul_left (by linarith) hdt
    · intro hx; nlinarith

theorem f2tComplex_continuousOn (l : Laws) (h : l.Ok) {lo hi : ℝ} (hlo : 0 < lo) :
    ContinuousOn (f2tComplex l) (Set.Icc lo hi) := by
  intro x hx
  have hx0 : 0 < x := lt_of_lt_of_le hlo hx.1
  apply ContinuousAt.continuousWithinAt
  unfold f2tComplex
  apply ContinuousAt.mul
  · exact (continuous_id.div_const _).continuousAt
  · apply ContinuousAt.rpow_const
    · exact (continuous_id.div_const _).continuousAt
    · exact Or.inl (div_pos hx0 h.t).ne'

theorem morphType_isSome (l : Laws) {d : ℝ} (hd : 0 < d) (u : ℝ) : (morphType l d u).isSome := by
  unfold morphType
  rw [if_neg (not_le.mpr hd)]
  split_ifs <;> rfl

/-- Inside that range the conversion back to a final diameter succeeds for every random draw. -/
theorem C29_back_succeeds (l : Laws) (h : l.Ok) (root) (hroot : RootSound root)
    (hcomp : RootComplete root) (dt u0 u1 p : ℝ) (pick : Bool) (hdt : 0 < dt)
    (hlo : (0.1 / l.c) ^ (1 / l.e) ≤ 0.1 * (dt * l.s) / l.t)
    (hhi : 10 * (dt * l.s) / l.t ≤ (10 / l.c) ^ (1 / l.e)) :
    (transientToFinal l root dt u0 u1 p pick).isSome := by
  have hds := mul_pos hdt h.s
  have hb := C29_bracket l h dt hdt
  have hsome := hcomp (fun x => f2tComplex l x - dt) (0.1 * (dt * l.s)) (10 * (dt * l.s))
    (by linarith) ((f2tComplex_continuousOn l h (by positivity)).sub continuousOn_const)
    (hb.1.mpr hlo) (hb.2.mpr hhi)
  obtain ⟨dc, hr⟩ := Option.isSome_iff_exists.mp hsome
  have hdc : 0 < dc := lt_of_lt_of_le (by positivity) (hroot _ _ _ _ hr).1
  obtain ⟨m0, hm0⟩ := Option.isSome_iff_exists.mp (morphType_isSome l hds u0)
  obtain ⟨m1, hm1⟩ := Option.isSome_iff_exists.mp (morphType_isSome l hdc u1)
  unfold transientToFinal
  rw [if_neg (not_le.mpr hdt)]
  simp only [bracket]
  rw [hr]
  simp only [hm0, hm1]
  split_ifs <;> rfl

theorem range_wide (l : Laws) (h : l.Ok) (hs1 : 1 ≤ l.s) (hs2 : l.s ≤ 1.3) (hc : l.c = 1.02)
    (he : l.e ≤ 1 / 12) (dt : ℝ) (h1 : 1e-10 ≤ dt / l.t) (h2 : dt / l.t ≤ 1e10) :
    (0.1 / l.c) ^ (1 / l.e) ≤ 0.1 * (dt * l.s) / l.t ∧
    10 * (dt * l.s) / l.t ≤ (10 / l.c) ^ (1 / l.e) := by
  have he0 := h.e0
  have hexp : 12 ≤ 1 / l.e := by
    rw [le_div_iff₀ he0]; linarith
  have e1 : 0.1 * (dt * l.s) / l.t = 0.1 * l.s * (dt / l.t) := by ring
  have e2 : 10 * (dt * l.s) / l.t = 10 * l.s * (dt / l.t) := by ring
  rw [e1, e2, hc]
  constructor
  · calc (0.1 / 1.02 : ℝ) ^ (1 / l.e) ≤ (0.1 / 1.02 : ℝ) ^ (12 : ℝ) :=
          Real.rpow_le_rpow_of_exponent_ge (by norm_num) (by norm_num) hexp
      _ = (0.1 / 1.02 : ℝ) ^ (12 : ℕ) := by rw [← Real.rpow_natCast]; norm_num
      _ ≤ 0.1 * 1 * 1e-10 := by norm_num
      _ ≤ 0.1 * l.s * (dt / l.t) := by
          apply mul_le_mul _ h1 (by norm_num) (by positivity)
          linarith
  · calc 10 * l.s * (dt / l.t) ≤ 10 * 1.3 * 1e10 := by
          apply mul_le_mul _ h2 _ (by norm_num)
          · linarith
          · linarith
      _ ≤ (10 / 1.02 : ℝ) ^ (12 : ℕ) := by norm_num
      _ = (10 / 1.02 : ℝ) ^ (12 : ℝ) := by rw [← Real.rpow_natCast]; norm_num
      _ ≤ (10 / 1.02 : ℝ) ^ (1 / l.e) :=
          Real.rpow_le_rpow_of_exponent_le (by norm_num) hexp

/-- The range is wide: for the exponents of the random model the conversion back to a final diameter succeeds for all transient
diameters from 10⁻¹⁰ to 10¹⁰ transition diameters, and every random draw. -/
theorem C29_range (l : Laws) (h : l.Ok) (hs1 : 1 ≤ l.s) (hs2 : l.s ≤ 1.3) (hc : l.c = 1.02)
    (he : l.e ≤ 1 / 12) (root) (hroot : RootSound root) (hcomp : RootComplete root) (dt u0 u1 p : ℝ) (pick : Bool)
    (h1 : 1e-10 ≤ dt / l.t) (h2 : dt / l.t ≤ 1e10) : (transientToFinal l root dt u0 u1 p pick).isSome := by
  have hdt : 0 < dt := by
    have h0 : 0 < dt / l.t := lt_of_lt_of_le (by norm_num) h1
    have := mul_pos h0 h.t
    rwa [div_mul_cancel₀ _ h.t.ne'] at this
  have hr := range_wide l h hs1 hs2 hc he dt h1 h2
  exact C29_back_succeeds l h root hroot hcomp dt u0 u1 p pick hdt hr.1 hr.2

/-- Physically sensible impact parameters. -/
structure Impact.Ok (i : Impact) : Prop where
  rhoP : 0 < i.rhoP
  v : 0 < i.v
  g : 0 < i.g
  rhoT : 0 < i.rhoT
  k1 : 0 < i.k1
  mu : 0 < i.mu
  ybar : 0 ≤ i.ybar

/-- A cube root of a cubic times a decreasing power grows with the size: `r³ (a r + b)^c` with
`-3 < c ≤ 0`. -/
theorem grow (a b c r r' : ℝ) (ha : 0 < a) (hb : 0 ≤ b) (hc : -3 < c) (hc0 : c ≤ 0) (hr : 0 < r)
    (hlt : r < r') : r ^ 3 * (a * r + b) ^ c < r' ^ 3 * (a * r' + b) ^ c := by
  have hr' : 0 < r' := hr.trans hlt
  have hx : 0 < a * r + b := by positivity
  have hx' : 0 < a * r' + b := by positivity
  set q := r' / r with hq
  have hq1 : 1 < q := by rw [hq, one_lt_div hr]; exact hlt
  have hle : a * r' + b ≤ q * (a * r + b) := by
    have e : q * (a * r + b) = a * r' + q * b := by rw [hq]; field_simp
    rw [e]
    nlinarith
  have h1 : (q * (a * r + b)) ^ c ≤ (a * r' + b) ^ c := Real.rpow_le_rpow_of_nonpos hx' hle hc0
  have h2 : (q * (a * r + b)) ^ c = q ^ c * (a * r + b) ^ c := Real.mul_rpow (by linarith) hx.le
  have h3 : 1 < q ^ 3 * q ^ c := by
    rw [← Real.rpow_natCast, ← Real.rpow_add (by linarith)]
    apply Real.one_lt_rpow hq1
    push_cast
    linarith
  have hp : 0 < r ^ 3 * (a * r + b) ^ c := mul_pos (pow_pos hr 3) (Real.rpow_pos_of_pos hx _)
  have e3 : r' ^ 3 = q ^ 3 * r ^ 3 := by rw [hq]; field_simp
  calc r ^ 3 * (a * r + b) ^ c < (q ^ 3 * q ^ c) * (r ^ 3 * (a * r + b) ^ c) := by
        exact lt_mul_of_one_lt_left hp h3
    _ = r' ^ 3 * (q * (a * r + b)) ^ c := by rw [h2, e3]; ring
    _ ≤ r' ^ 3 * (a * r' + b) ^ c := by
        apply mul_le_mul_of_nonneg_left h1 (by positivity)

/-- The transient diameter before the final comparison. -/
noncomputable def rawTransient (i : Impact) (d : ℝ) : ℝ :=
  (3 * (i.k1 * (i.g * (d / 2) / i.v ^ 2 * (i.rhoT / i.rhoP) ^ (-1.0 / 3.0 : ℝ) +
    (i.ybar / (i.rhoT * i.v ^ 2)) ^ (1 + 0.5 * i.mu)) ^ ((-3 * i.mu) / (2 + i.mu)) *
    ((4.0 / 3.0) * Real.pi * (d / 2) ^ 3 * i.rhoP / i.rhoT)) / Real.pi) ^ (1.0 / 3.0 : ℝ) * 2

theorem projToTransient_eq (i : Impact) (d : ℝ) : projToTransient i d = max d (rawTransient i d) := by
  have : projToTransient i d = if rawTransient i d < d then d else rawTransient i d := rfl
  rw [this]
  split_ifs with h
  · exact (max_eq_left h.le).symm
  · exact (max_eq_right (not_lt.mp h)).symm

/-- A larger projectile makes a strictly larger transient crater, and never one smaller than itself. -/
theorem C29_projectile_monotone (i : Impact) (h : i.Ok) (d d' : ℝ) (hd : 0 < d) (hlt : d < d') :
    projToTransient i d < projToTransient i d' ∧ d ≤ projToTransient i d := by
  refine ⟨?_, by rw [projToTransient_eq]; exact le_max_left _ _⟩
  rw [projToTransient_eq, projToTransient_eq]
  apply max_lt_max hlt
  unfold rawTransient
  apply mul_lt_mul_of_pos_right _ zero_lt_two
  set a := i.g / i.v ^ 2 * (i.rhoT / i.rhoP) ^ (-1.0 / 3.0 : ℝ) with ha
  set b := (i.ybar / (i.rhoT * i.v ^ 2)) ^ (1 + 0.5 * i.mu) with hb
  set c := (-3 * i.mu) / (2 + i.mu) with hc
  have hmu := h.mu
  have ha0 : 0 < a := by
    have := Real.rpow_pos_of_pos (div_pos h.rhoT h.rhoP) (-1.0 / 3.0)
    have := h.g
    have := h.v
    positivity
  have hb0 : 0 ≤ b := by
    apply Real.rpow_nonneg
    have := h.ybar
    have := h.rhoT
    positivity
  have hc1 : -3 < c := by
    rw [hc, lt_div_iff₀ (by linarith)]
    linarith
  have hc2 : c ≤ 0 := by
    rw [hc]
    apply div_nonpos_of_nonpos_of_nonneg <;> linarith
  have e : ∀ x : ℝ, i.g * (x / 2) / i.v ^ 2 * (i.rhoT / i.rhoP) ^ (-1.0 / 3.0 : ℝ) + b =
      a * (x / 2) + b := by
    intro x; rw [ha]; ring
  rw [e d, e d']
  have hg := grow a b c (d / 2) (d' / 2) ha0 hb0 hc1 hc2 (by linarith) (by linarith)
  obtain ⟨q, hq⟩ : ∃ q : ℝ, q = 4.0 / 3.0 := ⟨_, rfl⟩
  have hq0 : 0 < q := by rw [hq]; norm_num
  rw [← hq]
  set K := 3 * i.k1 * q * Real.pi * i.rhoP / i.rhoT / Real.pi with hK
  have hK0 : 0 < K := by
    have := h.k1
    have := h.rhoP
    have := h.rhoT
    have := Real.pi_pos
    rw [hK]
    positivity
  have e2 : ∀ x : ℝ, 3 * (i.k1 * (a * (x / 2) + b) ^ c *
      (q * Real.pi * (x / 2) ^ 3 * i.rhoP / i.rhoT)) / Real.pi =
      K * ((x / 2) ^ 3 * (a * (x / 2) + b) ^ c) := by
    intro x; rw [hK]; ring
  rw [e2 d, e2 d']
  apply Real.rpow_lt_rpow _ _ (by norm_num)
  · have : 0 < a * (d / 2) + b := by positivity
    have := Real.rpow_pos_of_pos this c
    positivity
  · exact mul_lt_mul_of_pos_left hg hK0

/-- The projectile estimated from a transient diameter is the one that makes it: converting back and
forth returns the starting projectile. -/
theorem C29_projectile_round_trip (i : Impact) (h : i.Ok) (root) (hroot : RootSound root) (d : ℝ)
    (hd : 0 < d) (d' : ℝ) (hres : transientToProj i root (projToTransient i d) = some d') : d' = d := by
  have hpos : 0 < projToTransient i d := lt_of_lt_of_le hd
    (C29_projectile_monotone i h d (d + 1) hd (by linarith)).2
  unfold transientToProj at hres
  rw [if_neg (not_le.mpr hpos)] at hres
  obtain ⟨hlo, _, hz⟩ := hroot _ _ _ _ hres
  have hd' : 0 < d' := lt_of_lt_of_le (by positivity) hlo
  have hz : projToTransient i d' = projToTransient i d := by linarith
  rcases lt_trichotomy d' d with hl | hl | hl
  · have := (C29_projectile_monotone i h d' d hd' hl).1; linarith
  · exact hl
  · have := (C29_projectile_monotone i h d d' hd hl).1; linarith

theorem projToTransient_continuousOn (i : Impact) (h : i.Ok) {lo hi : ℝ} (hlo : 0 < lo) :
    ContinuousOn (projToTransient i) (Set.Icc lo hi) := by
  have e : projToTransient i = fun d => max d (rawTransient i d) := funext (projToTransient_eq i)
  rw [e]
  apply ContinuousOn.sup continuousOn_id
  intro x hx
  have hx0 : 0 < x := lt_of_lt_of_le hlo hx.1
  apply ContinuousAt.continuousWithinAt
  unfold rawTransient
  have hA : 0 < i.g * (x / 2) / i.v ^ 2 * (i.rhoT / i.rhoP) ^ (-1.0 / 3.0 : ℝ) := by
    have := Real.rpow_pos_of_pos (div_pos h.rhoT h.rhoP) (-1.0 / 3.0)
    have := h.g
    have := h.v
    positivity
  have hB : 0 ≤ (i.ybar / (i.rhoT * i.v ^ 2)) ^ (1 + 0.5 * i.mu) := by
    apply Real.rpow_nonneg
    have := h.ybar
    have := h.rhoT
    positivity
  apply ContinuousAt.mul _ continuousAt_const
  apply ContinuousAt.rpow_const
  · apply ContinuousAt.div_const
    apply ContinuousAt.mul continuousAt_const
    apply ContinuousAt.mul
    · apply ContinuousAt.mul continuousAt_const
      apply ContinuousAt.rpow_const
      · fun_prop
      · exact Or.inl (by linarith)
    · fun_prop
  · exact Or.inr (by norm_num)

/-- The estimate succeeds for the crater of every projectile that makes a crater less than 10⁵ times its
own size, and only for those. -/
theorem C29_projectile_back_iff (i : Impact) (h : i.Ok) (root) (hroot : RootSound root)
    (hcomp : RootComplete root) (d : ℝ) (hd : 0 < d) :
    transientToProj i root (projToTransient i d) = some d ↔ projToTransient i d ≤ 1e5 * d := by
  have hmono := fun a b (ha : 0 < a) (hab : a < b) => (C29_projectile_monotone i h a b ha hab).1
  have hge := fun a (ha : 0 < a) => (C29_projectile_monotone i h a (a + 1) ha (by linarith)).2
  set dt := projToTransient i d with hdt
  have hpos : 0 < dt := lt_of_lt_of_le hd (hge d hd)
  constructor
  · intro hres
    unfold transientToProj at hres
    rw [if_neg (not_le.mpr hpos)] at hres
    have := (hroot _ _ _ _ hres).1
    norm_num at this ⊢
    linarith
  · intro hle
    have hlo : projToTransient i (1e-5 * dt) - dt ≤ 0 := by
      rcases eq_or_lt_of_le (show 1e-5 * dt ≤ d by norm_num at hle ⊢; linarith) with e | e
      · rw [e]; linarith
      · have := hmono _ _ (by positivity) e; linarith
    have hhi : 0 ≤ projToTransient i (1.2 * dt) - dt := by
      have := hge (1.2 * dt) (by positivity); norm_num at this ⊢; linarith
    have hs := hcomp (fun x => projToTransient i x - dt) (1e-5 * dt) (1.2 * dt)
      (by norm_num; linarith) ((projToTransient_continuousOn i h (by positivity)).sub continuousOn_const)
      hlo hhi
    obtain ⟨d', hd'⟩ := Option.isSome_iff_exists.mp hs
    have hres : transientToProj i root dt = some d' := by
      unfold transientToProj
      rw [if_neg (not_le.mpr hpos)]
      exact hd'
    rw [hres, C29_projectile_round_trip i h root hroot d hd d' hres]

/-- A root finder with both promises exists. -/
example : ∃ root, RootSound root ∧ RootComplete root := by
  classical
  refine ⟨fun f b => if h : ∃ x, b.1 ≤ x ∧ x ≤ b.2 ∧ f x = 0 then some h.choose else none, ?_, ?_⟩
  · intro f lo hi x hx
    simp only at hx
    split_ifs at hx with he
    cases hx
    exact he.choose_spec
  · intro f lo hi hle hc h1 h2
    obtain ⟨x, hx, hz⟩ := intermediate_value_Icc hle hc ⟨h1, h2⟩
    have he : ∃ x, lo ≤ x ∧ x ≤ hi ∧ f x = 0 := ⟨x, hx.1, hx.2, hz⟩
    simp only [dif_pos he, Option.isSome_some]

/-- The factors of the deterministic silicate Moon-like model. -/
noncomputable def sampleLaws : Laws := ⟨1 / 0.84, 1.02, 15000, 15000, 0.079, false⟩

example : sampleLaws.Ok := by
  constructor <;> norm_num [sampleLaws]

example : (⟨2250, 15000, 1.62, 2250, 0.2, 0.55, 7.6e6⟩ : Impact).Ok := by
  constructor <;> norm_num

/-! ### C30 -/

/-- Craters below half the nominal transition diameter are simple, above twice it complex; below it
simple or transitional, above it complex or transitional. -/
theorem C30_classes (l : Laws) (h : l.Ok) (d u : ℝ) (hd : 0 < d) :
    ∃ m, morphType l d u = some m ∧
      (d < l.tn / 2 → m = .simple) ∧ (2 * l.tn < d → m = .complex) ∧
      (d < l.tn → m ≠ .complex) ∧ (l.tn ≤ d → m ≠ .simple) ∧
      (l.tn / 2 ≤ d → d ≤ 2 * l.tn → l.mc = false → m = .transitional) := by
  have htn := h.tn
  unfold morphType
  rw [if_neg (not_le.mpr hd)]
  by_cases h1 : d < 0.5 * l.tn
  · rw [if_pos h1]
    exact ⟨_, rfl, fun _ => rfl, fun h => by linarith, fun _ => by decide, fun h => by linarith,
      fun h => by linarith⟩
  rw [if_neg h1]
  by_cases h2 : d > 2 * l.tn
  · rw [if_pos h2]
    exact ⟨_, rfl, fun h => by linarith, fun _ => rfl, fun h => by linarith, fun _ => by decide,
      fun _ h => by linarith⟩
  rw [if_neg h2]
  cases hmc : l.mc
  · refine ⟨.transitional, by simp, fun h => by linarith, fun h => by linarith, fun _ => by decide,
      fun _ => by decide, fun _ _ _ => rfl⟩
  · by_cases h3 : d < l.tn
    · refine ⟨choice .simple .transitional (prob l d) u, by simp [h3], fun h => by linarith,
        fun h => by linarith, fun _ => ?_, fun h => by linarith, fun _ _ h => by cases h⟩
      unfold choice; split_ifs <;> decide
    · refine ⟨choice .complex .transitional (prob l d) u, by simp [h3], fun h => by linarith,
        fun h => by linarith, fun h => absurd h h3, fun _ => ?_, fun _ _ h => by cases h⟩
      unfold choice; split_ifs <;> decide

/-- The probabilities of the random classes are between 0 and 1, reach 1 at the ends of the transition
range and 0 at the nominal diameter, so the class changes without a jump. -/
theorem C30_probability (l : Laws) (h : l.Ok) (d : ℝ) (h1 : l.tn / 2 ≤ d) (h2 : d ≤ 2 * l.tn) :
    (0 ≤ prob l d ∧ prob l d ≤ 1) ∧ (prob l d = 1 ↔ d = l.tn / 2 ∨ d = 2 * l.tn) ∧
    (prob l d = 0 ↔ d = l.tn) := by
  have htn := h.tn
  unfold prob
  split_ifs with hd
  · have e : l.tn - 0.5 * l.tn = l.tn / 2 := by ring
    rw [e]
    refine ⟨⟨by apply div_nonneg <;> linarith, by rw [div_le_one (by linarith)]; linarith⟩, ?_, ?_⟩
    · rw [div_eq_one_iff_eq (by linarith)]
      constructor
      · intro h; left; linarith
      · rintro (h | h) <;> linarith
    · rw [div_eq_zero_iff]
      constructor
      · rintro (h | h) <;> linarith
      · intro h; linarith
  · have e : 2 * l.tn - l.tn = l.tn := by ring
    rw [e]
    push Not at hd
    refine ⟨⟨by apply div_nonneg <;> linarith, by rw [div_le_one (by linarith)]; linarith⟩, ?_, ?_⟩
    · rw [div_eq_one_iff_eq (by linarith)]
      constructor
      · intro h; right; linarith
      · rintro (h | h) <;> linarith
    · rw [div_eq_zero_iff]
      constructor
      · rintro (h | h) <;> linarith
      · intro h; left; linarith

example : sampleLaws.tn / 2 ≤ 10000 ∧ (10000 : ℝ) ≤ 2 * sampleLaws.tn := by
  constructor <;> norm_num [sampleLaws]

/-- The law of the random classes: for a uniform draw, a crater of the lower half of the transition range
is simple with the probability that falls linearly from one at half the nominal diameter to zero at the
nominal one; in the upper half it is complex with the probability that rises linearly from zero to one at
twice the nominal diameter; otherwise it is transitional. -/
theorem C30_law (l : Laws) (h : l.Ok) (hmc : l.mc = true) (d : ℝ) (h1 : l.tn / 2 ≤ d) (h2 : d ≤ 2 * l.tn) :
    (d < l.tn →
      volume {u ∈ Set.Ico (0 : ℝ) 1 | morphType l d u = some .simple} = ENNReal.ofReal (2 - 2 * d / l.tn) ∧
      volume {u ∈ Set.Ico (0 : ℝ) 1 | morphType l d u = some .transitional} =
        ENNReal.ofReal (2 * d / l.tn - 1)) ∧
    (l.tn ≤ d →
      volume {u ∈ Set.Ico (0 : ℝ) 1 | morphType l d u = some .complex} = ENNReal.ofReal (d / l.tn - 1) ∧
      volume {u ∈ Set.Ico (0 : ℝ) 1 | morphType l d u = some .transitional} =
        ENNReal.ofReal (2 - d / l.tn)) := by
  have htn := h.tn
  have hset : ∀ p : ℝ, 0 ≤ p → p ≤ 1 → {u ∈ Set.Ico (0 : ℝ) 1 | u < p} = Set.Ico 0 p ∧
      {u ∈ Set.Ico (0 : ℝ) 1 | ¬ u < p} = Set.Ico p 1 := by
    intro p h0 h1
    constructor
    · ext u; simp only [Set.mem_ofPred_eq, Set.mem_Ico]
      exact ⟨fun h => ⟨h.1.1, h.2⟩, fun h => ⟨⟨h.1, lt_of_lt_of_le h.2 h1⟩, h.2⟩⟩
    · ext u; simp only [Set.mem_ofPred_eq, Set.mem_Ico, not_lt]
      exact ⟨fun h => ⟨h.2, h.1.2⟩, fun h => ⟨⟨le_trans h0 h.1, h.2⟩, h.1⟩⟩
  constructor
  · intro hd
    have e : ∀ u, morphType l d u = some (choice .simple .transitional (prob l d) u) := by
      intro u
      unfold morphType
      rw [if_neg (by linarith), if_neg (by linarith), if_neg (by linarith), if_pos hmc, if_pos hd]
    have hp : prob l d = 2 - 2 * d / l.tn := by
      unfold prob; rw [if_pos hd]; field_simp; ring
    have hp0 : 0 ≤ 2 - 2 * d / l.tn := by
      rw [sub_nonneg, div_le_iff₀ htn]; linarith
    have hp1 : 2 - 2 * d / l.tn ≤ 1 := by
      have : 1 ≤ 2 * d / l.tn := by rw [le_div_iff₀ htn]; linarith
      linarith
    obtain ⟨ha, hb⟩ := hset _ hp0 hp1
    have c1 : ∀ u, morphType l d u = some .simple ↔ u < 2 - 2 * d / l.tn := by
      intro u; rw [e, hp]; unfold choice; split_ifs with hu <;> simp [hu]
    have c2 : ∀ u, morphType l d u = some .transitional ↔ ¬ u < 2 - 2 * d / l.tn := by
      intro u; rw [e, hp]; unfold choice; split_ifs with hu <;> simp [hu]
    simp only [c1, c2]
    rw [ha, hb, Real.volume_Ico, Real.volume_Ico]
    exact ⟨by congr 1; ring, by congr 1; ring⟩
  · intro hd
    have e : ∀ u, morphType l d u = some (choice .complex .transitional (prob l d) u) := by
      intro u
      unfold morphType
      rw [if_neg (by linarith), if_neg (by linarith), if_neg (by linarith), if_pos hmc,
        if_neg (not_lt.mpr hd)]
    have hp : prob l d = d / l.tn - 1 := by
      unfold prob; rw [if_neg (not_lt.mpr hd)]; field_simp; ring
    have hp0 : 0 ≤ d / l.tn - 1 := by
      rw [sub_nonneg, le_div_iff₀ htn]; linarith
    have hp1 : d / l.tn - 1 ≤ 1 := by
      have : d / l.tn ≤ 2 := by rw [div_le_iff₀ htn]; linarith
      linarith
    obtain ⟨ha, hb⟩ := hset _ hp0 hp1
    have c1 : ∀ u, morphType l d u = some .complex ↔ u < d / l.tn - 1 := by
      intro u; rw [e, hp]; unfold choice; split_ifs with hu <;> simp [hu]
    have c2 : ∀ u, morphType l d u = some .transitional ↔ ¬ u < d / l.tn - 1 := by
      intro u; rw [e, hp]; unfold choice; split_ifs with hu <;> simp [hu]
    simp only [c1, c2]
    rw [ha, hb, Real.volume_Ico, Real.volume_Ico]
    exact ⟨by congr 1; ring, by congr 1; ring⟩

example : (⟨1 / 0.84, 1.02, 15000, 15000, 0.079, true⟩ : Laws).Ok ∧
    (15000 : ℝ) / 2 ≤ 10000 ∧ (10000 : ℝ) ≤ 2 * 15000 := by
  refine ⟨?_, by norm_num, by norm_num⟩
  constructor <;> norm_num

/-! ### C93 -/

/-- Without random factors (s > 1, c ≥ 1, nominal transition, and the exponents of the code), the
transient crater is smaller than the final one for every diameter, with the class of that diameter. -/
theorem C93_smaller_partial (l : Laws) (h : l.Ok) (hs : 1.1 ≤ l.s) (hc : 1.02 ≤ l.c) (he : l.e ≤ 0.16)
    (hT : l.t ≤ l.tn) (d u : ℝ) (m0 : Option Morph) (hm0 : m0 = none ∨ m0 = some .simple) (dt : ℝ)
    (m : Morph) (hf : finalToTransient l d m0 u = some (dt, m)) : dt < d := by
  unfold finalToTransient at hf
  split_ifs at hf with hd
  push Not at hd
  have hsimple : f2tSimple l d < d := by
    unfold f2tSimple
    rw [div_lt_iff₀ h.s]
    nlinarith
  have hcomplex : l.tn / 2 ≤ d → f2tComplex l d < d := by
    intro hge
    unfold f2tComplex
    have hq : 0 < d / l.t := div_pos hd h.t
    have hq2 : 1 / 2 ≤ d / l.t := by
      rw [le_div_iff₀ h.t]; linarith
    have hpow : (d / l.t) ^ (-l.e) ≤ (1 / 2 : ℝ) ^ (-l.e) :=
      Real.rpow_le_rpow_of_nonpos (by norm_num) hq2 (by linarith [h.e0])
    have h2 : (1 / 2 : ℝ) ^ (-l.e) = 2 ^ l.e := by
      rw [one_div, Real.inv_rpow (by norm_num), Real.rpow_neg (by norm_num), inv_inv]
    have h3 : (2 : ℝ) ^ l.e ≤ 2 ^ (0.16 : ℝ) := Real.rpow_le_rpow_of_exponent_le (by norm_num) he
    have h4 : (2 : ℝ) ^ (0.16 : ℝ) < 1.122 := by
      have hl : (2 : ℝ) ^ (0.16 : ℝ) < 1.1218 := by
        have h5 : ((2 : ℝ) ^ (0.16 : ℝ)) ^ (25 : ℕ) < (1.1218 : ℝ) ^ (25 : ℕ) := by
          rw [← Real.rpow_natCast, ← Real.rpow_mul (by norm_num)]
          norm_num
        exact lt_of_pow_lt_pow_left₀ 25 (by norm_num) h5
      linarith
    have h5 : (d / l.t) ^ (-l.e) < 1.122 := by
      calc _ ≤ _ := hpow
        _ = _ := h2
        _ ≤ _ := h3
        _ < _ := h4
    have hsc : 1.122 ≤ l.s * l.c := by nlinarith
    have hscp : 0 < l.s * l.c := by linarith
    calc d / (l.s * l.c) * (d / l.t) ^ (-l.e) < d / (l.s * l.c) * 1.122 :=
          mul_lt_mul_of_pos_left h5 (div_pos hd hscp)
      _ ≤ d := by
          rw [div_mul_eq_mul_div, div_le_iff₀ hscp]
          nlinarith
  rcases hm0 with rfl | rfl
  · rw [Option.none_or] at hf
    rcases hmt : morphType l d u with _ | mm
    · rw [hmt] at hf; simp at hf
    · rw [hmt] at hf
      have hge : mm ≠ .simple → l.tn / 2 ≤ d := by
        intro hne
        by_contra hlt
        push Not at hlt
        obtain ⟨m', e, h1, _⟩ := C30_classes l h d u hd
        rw [hmt] at e
        cases e
        exact hne (h1 hlt)
      rcases mm <;> simp only [Option.some.injEq, Prod.mk.injEq] at hf <;> obtain ⟨rfl, rfl⟩ := hf
      · exact hsimple
      · exact hcomplex (hge (by decide))
      · exact hcomplex (hge (by decide))
  · simp only [Option.some_or, Option.some.injEq, Prod.mk.injEq] at hf
    obtain ⟨rfl, rfl⟩ := hf
    exact hsimple

example : 1.1 ≤ sampleLaws.s ∧ 1.02 ≤ sampleLaws.c ∧ sampleLaws.e ≤ 0.16 ∧ sampleLaws.t ≤ sampleLaws.tn := by
  refine ⟨?_, ?_, ?_, ?_⟩ <;> norm_num [sampleLaws]

/-- With the class simple the transient crater is smaller if the enlargement exceeds one; with any other requested class it is
smaller exactly for final diameters above a limit, which lies below the transition diameter. -/
theorem C93_iff (l : Laws) (h : l.Ok) (hs : 1 < l.s) (hc : 1 ≤ l.c) (d u : ℝ) (hd : 0 < d) (m : Morph) :
    ∃ dt, finalToTransient l d (some m) u = some (dt, m) ∧
      (dt < d ↔ m = .simple ∨ l.t * (l.s * l.c) ^ (-(1 / l.e)) < d) ∧ l.t * (l.s * l.c) ^ (-(1 / l.e)) < l.t := by
  have hsc : 1 < l.s * l.c := by nlinarith
  have hlim : l.t * (l.s * l.c) ^ (-(1 / l.e)) < l.t := by
    have : (l.s * l.c) ^ (-(1 / l.e)) < 1 :=
      Real.rpow_lt_one_of_one_lt_of_neg hsc (by have := one_div_pos.mpr h.e0; linarith)
    have := mul_lt_mul_of_pos_left this h.t
    linarith
  have key : f2tComplex l d < d ↔ l.t * (l.s * l.c) ^ (-(1 / l.e)) < d := by
    unfold f2tComplex
    have hq : 0 < d / l.t := div_pos hd h.t
    have e1 : d / (l.s * l.c) * (d / l.t) ^ (-l.e) < d ↔ (d / l.t) ^ (-l.e) < l.s * l.c := by
      rw [div_mul_eq_mul_div, div_lt_iff₀ (by linarith)]
      exact mul_lt_mul_iff_right₀ hd
    have e2 : l.t * (l.s * l.c) ^ (-(1 / l.e)) < d ↔ (l.s * l.c) ^ (-(1 / l.e)) < d / l.t := by
      rw [lt_div_iff₀ h.t, mul_comm]
    rw [e1, e2, Real.rpow_neg hq.le, Real.rpow_neg (by linarith), inv_lt_comm₀ (Real.rpow_pos_of_pos hq _) (by linarith),
      inv_lt_comm₀ (Real.rpow_pos_of_pos (by linarith) _) hq]
    have e3 : (d / l.t)⁻¹ < (l.s * l.c) ^ (1 / l.e) ↔ ((d / l.t)⁻¹) ^ l.e < l.s * l.c := by
      rw [← Real.rpow_lt_rpow_iff (by positivity) (by positivity) h.e0, ← Real.rpow_mul (by linarith),
        one_div_mul_cancel h.e0.ne', Real.rpow_one]
    rw [e3, Real.inv_rpow hq.le, inv_lt_comm₀ (Real.rpow_pos_of_pos hq _) (by linarith)]
  cases m with
  | simple =>
    refine ⟨f2tSimple l d, by unfold finalToTransient; rw [if_neg (by linarith)]; rfl, ?_, hlim⟩
    simp only [true_or, iff_true]
    unfold f2tSimple
    rw [div_lt_iff₀ (by linarith)]
    nlinarith
  | transitional =>
    refine ⟨f2tComplex l d, by unfold finalToTransient; rw [if_neg (by linarith)]; rfl, ?_, hlim⟩
    simpa using key
  | complex =>
    refine ⟨f2tComplex l d, by unfold finalToTransient; rw [if_neg (by linarith)]; rfl, ?_, hlim⟩
    simpa using key

example : sampleLaws.Ok ∧ 1 < sampleLaws.s ∧ 1 ≤ sampleLaws.c := by
  refine ⟨⟨?_, ?_, ?_, ?_, ?_, ?_⟩, ?_, ?_⟩ <;> norm_num [sampleLaws]

/-- With an explicit class that does not belong to the size, the transient crater can come out larger
than the final one: a crater of one thousandth of the transition diameter called complex. -/
theorem C93_forced_class_fails : ∃ dt, finalToTransient ⟨1 / 0.84, 1.02, 15000, 15000, 0.079, false⟩ 15
    (some .complex) 0 = some (dt, .complex) ∧ 15 < dt := by
  have h0 : finalToTransient ⟨1 / 0.84, 1.02, 15000, 15000, 0.079, false⟩ 15 (some .complex) 0 =
      some (f2tComplex ⟨1 / 0.84, 1.02, 15000, 15000, 0.079, false⟩ 15, .complex) := by
    unfold finalToTransient
    rw [if_neg (by norm_num)]
    rfl
  refine ⟨_, h0, ?_⟩
  unfold f2tComplex
  simp only
  have h1 : ((15 : ℝ) / 15000) ^ (-0.079 : ℝ) = 1000 ^ (0.079 : ℝ) := by
    rw [show ((15 : ℝ) / 15000) = (1000 : ℝ)⁻¹ by norm_num, Real.inv_rpow (by norm_num),
      Real.rpow_neg (by norm_num), inv_inv]
  rw [h1]
  have h2 : (1.3 : ℝ) < 1000 ^ (0.079 : ℝ) := by
    have h4 : (1000 : ℝ) ^ (3 / 40 : ℝ) ≤ 1000 ^ (0.079 : ℝ) :=
      Real.rpow_le_rpow_of_exponent_le (by norm_num) (by norm_num)
    have h5 : (1.3 : ℝ) ^ (40 : ℕ) < ((1000 : ℝ) ^ (3 / 40 : ℝ)) ^ (40 : ℕ) := by
      have e : ((1000 : ℝ) ^ (3 / 40 : ℝ)) ^ (40 : ℕ) = 1000 ^ (3 : ℕ) := by
        rw [← Real.rpow_natCast, ← Real.rpow_mul (by norm_num), ← Real.rpow_natCast]
        norm_num
      rw [e]
      norm_num
    exact lt_of_lt_of_le (lt_of_pow_lt_pow_left₀ 40 (by positivity) h5) h4
  generalize (1000 : ℝ) ^ (0.079 : ℝ) = x at h2
  norm_num at h2 ⊢
  linarith

/-! ### C31 -/

/-- The value used for a constant: the explicit one, else the one of the catalogue entry. -/
def wanted (explicit : Option ℝ) (fromCat : Option ℝ) : Option ℝ :=
  match explicit with
  | some v => some v
  | none => fromCat

theorem checked_some {v w : ℝ} (h : checked v = some w) : w = v ∧ 0 ≤ v := by
  unfold checked at h
  split_ifs at h with hv
  cases h
  exact ⟨rfl, not_lt.mp hv⟩

theorem checkedDensity_some {v w : ℝ} (h : checkedDensity v = some w) : w = v ∧ 0 < v := by
  unfold checkedDensity at h
  split_ifs at h with hv
  cases h
  exact ⟨rfl, not_le.mp hv⟩

theorem setMaterial_spec {title cat name p q} (h : setMaterial title cat name p = some q) :
    q.material = some (title name) ∧
    (∀ m, cat (title name) = some m → q.k1 = some m.k1 ∧ q.mu = some m.mu ∧ q.ybar = some m.ybar ∧
      q.density = some m.density) ∧
    (cat (title name) = none → q.k1 = p.k1 ∧ q.mu = p.mu ∧ q.ybar = p.ybar ∧ q.density = p.density) := by
  unfold setMaterial at h
  rcases hc : cat (title name) with _ | m
  · rw [hc] at h
    simp only [Option.some.injEq] at h
    subst h
    simp
  · rw [hc] at h
    simp only at h
    rcases h1 : checked m.k1 with _ | k <;> rcases h2 : checked m.mu with _ | u <;>
      rcases h3 : checked m.ybar with _ | y <;> rcases h4 : checkedDensity m.density with _ | d <;>
      rw [h1, h2, h3, h4] at h <;> simp only [reduceCtorEq, Option.some.injEq] at h
    subst h
    have e1 := (checked_some h1).1
    have e2 := (checked_some h2).1
    have e3 := (checked_some h3).1
    have e4 := (checkedDensity_some h4).1
    refine ⟨rfl, ?_, by simp⟩
    intro m' hm'
    cases hm'
    simp [e1, e2, e3, e4]

theorem setOpt_spec {v old w} (h : setOpt v old = some (some w)) : some w = wanted v old := by
  unfold setOpt at h
  rcases v with _ | v
  · simpa [wanted] using h.symm
  · simp only [Option.map_eq_some_iff, Option.some.injEq] at h
    obtain ⟨a, ha, rfl⟩ := h
    simp [wanted, (checked_some ha).1]

/-- A scaling model that was built uses the explicit `K1`, `mu`, `Ybar` and density where given, and the
catalogue entry of its material for the others. -/
theorem C31_explicit (title : String → String) (htitle : ∀ s, title (title s) = title s)
    (cat : String → Option Mat) (tm : Option String) (td : Option ℝ) (a : Args) (p : Params)
    (h : init title cat tm td a = some p) :
    ∃ name, (a.material = some name ∨ (a.material = none ∧ tm = some name)) ∧
      p.material = some (title name) ∧
      p.k1 = wanted a.k1 ((cat (title name)).map (·.k1)) ∧
      p.mu = wanted a.mu ((cat (title name)).map (·.mu)) ∧
      p.ybar = wanted a.ybar ((cat (title name)).map (·.ybar)) ∧
      p.density = wanted a.density (wanted ((cat (title name)).map (·.density)) td) ∧
      p.k1.isSome ∧ p.mu.isSome ∧ p.ybar.isSome ∧ p.density.isSome := by
  unfold init at h
  rcases hn : a.material.or tm with _ | name
  · rw [hn] at h; simp at h
  rw [hn] at h
  simp only at h
  refine ⟨name, ?_, ?_⟩
  · rcases hm : a.material with _ | m
    · rw [hm, Option.none_or] at hn; exact Or.inr ⟨rfl, hn⟩
    · rw [hm, Option.some_or] at hn; exact Or.inl hn
  rcases h0 : setMaterial title cat name ⟨none, none, none, none, td⟩ with _ | p0
  · rw [h0] at h; simp at h
  rw [h0] at h
  simp only at h
  rcases h1 : setMaterial title cat (title name) p0 with _ | p1
  · rw [h1] at h; simp at h
  rw [h1] at h
  simp only at h
  obtain ⟨-, s2, s3⟩ := setMaterial_spec h0
  obtain ⟨t1, t2, t3⟩ := setMaterial_spec h1
  rw [htitle] at t1 t2 t3
  have hk : p1.k1 = (cat (title name)).map (·.k1) ∧ p1.mu = (cat (title name)).map (·.mu) ∧
      p1.ybar = (cat (title name)).map (·.ybar) ∧
      p1.density = wanted ((cat (title name)).map (·.density)) td := by
    rcases hc : cat (title name) with _ | m
    · obtain ⟨a1, a2, a3, a4⟩ := t3 hc
      obtain ⟨b1, b2, b3, b4⟩ := s3 hc
      simp [a1, a2, a3, a4, b1, b2, b3, b4, wanted]
    · obtain ⟨a1, a2, a3, a4⟩ := t2 m hc
      simp [a1, a2, a3, a4, wanted]
  obtain ⟨k1, k2, k3, k4⟩ := hk
  rcases e1 : setOpt a.k1 p1.k1 with _ | _ | k <;> rcases e2 : setOpt a.mu p1.mu with _ | _ | u <;>
    rcases e3 : setOpt a.ybar p1.ybar with _ | _ | y <;> rw [e1, e2, e3] at h <;>
    simp only [reduceCtorEq] at h
  have f1 := setOpt_spec e1
  have f2 := setOpt_spec e2
  have f3 := setOpt_spec e3
  rw [k1] at f1
  rw [k2] at f2
  rw [k3] at f3
  rcases hd : a.density with _ | d
  · rw [hd] at h
    simp only at h
    rcases hpd : p1.density with _ | d1
    · rw [hpd] at h
      simp only [t1, Option.bind_some] at h
      rcases hc : cat (title name) with _ | m
      · rw [hc] at h; simp at h
      · rw [hpd, hc] at k4
        simp [wanted] at k4
    · rw [hpd] at h k4
      simp only [Option.some.injEq] at h
      subst h
      refine ⟨t1, f1, f2, f3, ?_, rfl, rfl, rfl, rfl⟩
      simp only [k4]
      rfl
  · rw [hd] at h
    simp only [Option.map_eq_some_iff] at h
    obtain ⟨d', hd', rfl⟩ := h
    refine ⟨t1, f1, f2, f3, ?_, rfl, rfl, rfl, rfl⟩
    rw [(checkedDensity_some hd').1]
    rfl

/-- The catalogue entry used in the examples. -/
noncomputable def softRock : String → Option Mat := fun n =>
  if n = "Soft Rock" then some ⟨0.2, 0.55, 7.6e6, 2250⟩ else none

/-- A density set on the target is overwritten when a scaling model is built for it, unless the density
is repeated there: for every material of the catalogue the density comes out as the catalogue's, whatever it was. -/
theorem C31_target_density_fails (title : String → String) (htitle : ∀ s, title (title s) = title s)
    (cat : String → Option Mat) (name : String) (m : Mat) (d : Option ℝ) (a : Args) (p : Params)
    (hm : a.material = none) (hd : a.density = none) (hcat : cat (title name) = some m)
    (h : init title cat (some name) d a = some p) : p.density = some m.density := by
  obtain ⟨n, hn, _, _, _, _, hp, _⟩ := C31_explicit title htitle cat (some name) d a p h
  rcases hn with hn | ⟨_, hn⟩
  · rw [hm] at hn; cases hn
  · cases hn
    rw [hp, hd, hcat]
    simp [wanted]

/-- A target of 3000 kg/m³ made of soft rock comes out with 2250. -/
example : ∃ p, init id softRock (some "Soft Rock") (some 3000)
    ⟨none, none, none, none, none⟩ = some p ∧ p.density = some 2250 := by
  refine ⟨⟨some "Soft Rock", some 0.2, some 0.55, some 7.6e6, some 2250⟩, ?_, rfl⟩
  norm_num [init, setMaterial, softRock, checked, checkedDensity, setOpt]

/-- The target's own density survives only when its material is not in the catalogue. -/
theorem C31_target_density_partial (title : String → String) (htitle : ∀ s, title (title s) = title s)
    (cat : String → Option Mat) (name : String) (d : ℝ) (a : Args) (p : Params)
    (hm : a.material = none) (hd : a.density = none) (hcat : cat (title name) = none)
    (h : init title cat (some name) (some d) a = some p) : p.density = some d := by
  obtain ⟨n, hn, _, _, _, _, hp, _⟩ := C31_explicit title htitle cat (some name) (some d) a p h
  rcases hn with hn | ⟨_, hn⟩
  · rw [hm] at hn; cases hn
  · cases hn
    rw [hp, hd, hcat]
    rfl

/-- A target without a material makes it impossible to build a scaling model, even with all four
parameters given. -/
theorem C31_no_material_fails (title : String → String) (cat : String → Option Mat) (td : Option ℝ)
    (k1 mu ybar density : ℝ) :
    init title cat none td ⟨none, some k1, some mu, some ybar, some density⟩ = none := rfl

example : softRock "Custom" = none ∧ (init id softRock (some "Custom") (some 3000)
    ⟨none, some 0.3, some 0.4, some 0, none⟩).isSome := by
  refine ⟨by simp [softRock], ?_⟩
  have hc : softRock "Custom" = none := by simp [softRock]
  norm_num [init, setMaterial, hc, checked, setOpt]

end Verif.Scaling
