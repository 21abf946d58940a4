import Verif.Model.Rings
import Mathlib.Analysis.Calculus.Deriv.MeanValue
import Mathlib.Analysis.SpecialFunctions.Trigonometric.Deriv
import Mathlib.Analysis.Convex.SpecificFunctions.Deriv
import Mathlib.Analysis.Real.Sqrt
import Mathlib.Analysis.Real.Pi.Bounds
import Mathlib.Tactic.Linarith
import Mathlib.Tactic.FieldSimp
import Mathlib.Tactic.Ring

/-!
# C146: the points of a mesh with a local region
-/

namespace Verif.Rings

open Classical

/-! ### The grid in the local region -/

theorem arange_grid (k : ℕ) (d : ℝ) (hd : 0 < d) (x : ℝ) :
    x ∈ arange (-(k * d)) (k * d + d) d ↔ ∃ i : ℤ, x = i * d ∧ |i| ≤ k := by
  have hlen : ⌈((k * d + d) - (-(k * d))) / d⌉₊ = 2 * k + 1 := by
    have : ((k * d + d) - (-(k * d))) / d = ((2 * k + 1 : ℕ) : ℝ) := by
      push_cast
      field_simp
      ring
    rw [this, Nat.ceil_natCast]
  unfold arange
  rw [hlen, List.mem_map]
  constructor
  · rintro ⟨j, hj, rfl⟩
    rw [List.mem_range] at hj
    refine ⟨(j : ℤ) - k, ?_, ?_⟩
    · push_cast
      ring
    · rw [abs_le]
      constructor <;> omega
  · rintro ⟨i, rfl, hi⟩
    rw [abs_le] at hi
    refine ⟨(i + k).toNat, ?_, ?_⟩
    · rw [List.mem_range]; omega
    · have : (((i + k).toNat : ℕ) : ℝ) = (i : ℝ) + k := by
        have h : (((i + k).toNat : ℕ) : ℤ) = i + k := Int.toNat_of_nonneg (by omega)
        exact_mod_cast h
      rw [this]
      ring

theorem arange_nodup (a b d : ℝ) (hd : 0 < d) : (arange a b d).Nodup := by
  unfold arange
  apply List.Nodup.map _ List.nodup_range
  intro i j h
  have h' : (i : ℝ) * d = (j : ℝ) * d := by
    have : a + (i : ℝ) * d = a + (j : ℝ) * d := h
    linarith
  exact_mod_cast mul_right_cancel₀ hd.ne' h'

theorem flatMap_pairs_nodup (l : List ℝ) (h : l.Nodup) :
    (l.flatMap fun b => l.map fun a => ((a, b) : ℝ × ℝ)).Nodup := by
  rw [List.nodup_flatMap]
  constructor
  · intro b _
    exact h.map fun x y hxy => (Prod.ext_iff.1 hxy).1
  · apply h.imp
    intro b c hbc
    rw [Function.onFun, List.disjoint_left]
    rintro ⟨x, y⟩ h1 h2
    simp only [List.mem_map, Prod.mk.injEq] at h1 h2
    obtain ⟨_, _, _, rfl⟩ := h1
    obtain ⟨_, _, _, rfl⟩ := h2
    exact hbc rfl

/-- One annulus: the grid points with index distance from `k - 1` up to but not including `k`. -/
theorem interior_mem (radius pix : ℝ) (hR : 0 < radius) (hp : 0 < pix) (k : ℕ)
    (hk : (k : ℝ) * pix + pix ≤ Real.pi * radius) (p : ℝ × ℝ) :
    p ∈ (interior radius pix (k * (pix / radius))).1 ↔
      ∃ i j : ℤ, p = (i * (pix / radius), j * (pix / radius)) ∧ 1 ≤ k ∧
        ((k : ℤ) - 1) ^ 2 ≤ i ^ 2 + j ^ 2 ∧ i ^ 2 + j ^ 2 < (k : ℤ) ^ 2 := by
  have hd : 0 < pix / radius := div_pos hp hR
  have harc : radius * (k * (pix / radius)) = k * pix := by field_simp
  unfold interior
  dsimp only
  rw [harc]
  by_cases h1 : (k : ℝ) * pix < pix
  · rw [if_pos h1]
    have hk0 : k = 0 := by
      by_contra hne
      have : (1 : ℝ) ≤ k := by exact_mod_cast Nat.one_le_iff_ne_zero.2 hne
      nlinarith
    simp only [List.not_mem_nil, false_iff]
    rintro ⟨i, j, _, h, _⟩
    omega
  · rw [if_neg h1, if_neg (by linarith)]
    have hk1 : 1 ≤ k := by
      by_contra hne
      have : k = 0 := by omega
      subst this
      apply h1
      simpa using hp
    have hext : (k : ℝ) * pix / radius = k * (pix / radius) := by ring
    have hkp : (k : ℝ) * pix / pix = k := by field_simp
    rw [hext, hkp, List.mem_filter, decide_eq_true_eq, List.mem_flatMap]
    have hint : ∀ i : ℤ, (i : ℝ) * (pix / radius) / (pix / radius) = i := by
      intro i
      field_simp
    constructor
    · rintro ⟨⟨lat, hlat, hp'⟩, hm⟩
      rw [List.mem_map] at hp'
      obtain ⟨lon, hlon, rfl⟩ := hp'
      rw [arange_grid k _ hd] at hlat hlon
      obtain ⟨j, rfl, -⟩ := hlat
      obtain ⟨i, rfl, -⟩ := hlon
      dsimp only at hm
      rw [hint, hint] at hm
      refine ⟨i, j, rfl, hk1, ?_, ?_⟩
      · exact_mod_cast hm.1
      · exact_mod_cast hm.2
    · rintro ⟨i, j, rfl, -, h2, h3⟩
      refine ⟨⟨j * (pix / radius), ?_, ?_⟩, ?_⟩
      · rw [arange_grid k _ hd]
        refine ⟨j, rfl, ?_⟩
        apply abs_le_of_sq_le_sq _ (by omega)
        nlinarith [sq_nonneg i]
      · rw [List.mem_map]
        refine ⟨i * (pix / radius), ?_, rfl⟩
        rw [arange_grid k _ hd]
        refine ⟨i, rfl, ?_⟩
        apply abs_le_of_sq_le_sq _ (by omega)
        nlinarith [sq_nonneg j]
      · dsimp only
        rw [hint, hint]
        constructor
        · exact_mod_cast h2
        · exact_mod_cast h3

theorem interior_nodup (radius pix t : ℝ) (hR : 0 < radius) (hp : 0 < pix) :
    (interior radius pix t).1.Nodup := by
  unfold interior
  dsimp only
  split_ifs
  · exact List.nodup_nil
  · exact List.nodup_nil
  · apply List.Nodup.filter
    exact flatMap_pairs_nodup _ (arange_nodup _ _ _ (div_pos hp hR))

theorem interior_next (radius pix : ℝ) (hR : 0 < radius) (k : ℕ)
    (hk : (k : ℝ) * pix + pix ≤ Real.pi * radius) :
    (interior radius pix (k * (pix / radius))).2 = ((k + 1 : ℕ) : ℝ) * (pix / radius) := by
  have harc : radius * (k * (pix / radius)) = k * pix := by field_simp
  unfold interior
  dsimp only
  rw [harc]
  push_cast
  split_ifs with h1 h2
  · ring
  · exact absurd h2 (by linarith)
  · ring

/-- The grid indices of a point. -/
def IsGrid (radius pix : ℝ) (p : ℝ × ℝ) (i j : ℤ) : Prop :=
  p = (i * (pix / radius), j * (pix / radius))

theorem IsGrid.unique {radius pix : ℝ} (hd : 0 < pix / radius) {p : ℝ × ℝ} {i j i' j' : ℤ}
    (h : IsGrid radius pix p i j) (h' : IsGrid radius pix p i' j') : i = i' ∧ j = j' := by
  unfold IsGrid at h h'
  rw [h] at h'
  have h1 := congrArg Prod.fst h'
  have h2 := congrArg Prod.snd h'
  simp only at h1 h2
  constructor
  · exact_mod_cast mul_right_cancel₀ hd.ne' h1
  · exact_mod_cast mul_right_cancel₀ hd.ne' h2

theorem interior_run (radius pix localRadius : ℝ) (hR : 0 < radius) (hp : 0 < pix)
    (hs : localRadius + pix ≤ Real.pi * radius) (K : ℕ) (hK : (K : ℝ) * pix ≤ localRadius)
    (hK' : localRadius < (K + 1) * pix) (n k : ℕ) (hn : k + n = K + 1) (ps : List (ℝ × ℝ)) (e : ℝ)
    (h : Runs (fun t => t ≤ localRadius / radius) (interior radius pix) (k * (pix / radius)) ps e) :
    e = ((K + 1 : ℕ) : ℝ) * (pix / radius) ∧ ps.Nodup ∧
      ∀ p, p ∈ ps ↔ ∃ i j : ℤ, IsGrid radius pix p i j ∧ ∃ l : ℕ, k ≤ l ∧ l ≤ K ∧ 1 ≤ l ∧
        ((l : ℤ) - 1) ^ 2 ≤ i ^ 2 + j ^ 2 ∧ i ^ 2 + j ^ 2 < (l : ℤ) ^ 2 := by
  have hd : 0 < pix / radius := div_pos hp hR
  have hcond : ∀ m : ℕ, (m : ℝ) * (pix / radius) ≤ localRadius / radius ↔ m ≤ K := by
    intro m
    rw [← mul_div_assoc, div_le_div_iff_of_pos_right hR]
    constructor
    · intro hm
      by_contra hc
      have : (K : ℝ) + 1 ≤ m := by exact_mod_cast not_le.1 hc
      nlinarith
    · intro hm
      have : (m : ℝ) ≤ K := by exact_mod_cast hm
      nlinarith
  induction n generalizing k ps with
  | zero =>
    have hk : k = K + 1 := by omega
    subst hk
    have hnot : ¬ ((K + 1 : ℕ) : ℝ) * (pix / radius) ≤ localRadius / radius := by
      rw [hcond]; omega
    cases h with
    | stop _ _ =>
      refine ⟨rfl, List.nodup_nil, fun p => ?_⟩
      simp only [List.not_mem_nil, false_iff]
      rintro ⟨i, j, _, l, h1, h2, _⟩
      omega
    | step _ hc _ _ _ => exact absurd hc hnot
  | succ n ih =>
    have hk : k ≤ K := by omega
    have hyes : (k : ℝ) * (pix / radius) ≤ localRadius / radius := (hcond k).2 hk
    have hkp : (k : ℝ) * pix + pix ≤ Real.pi * radius := by
      have : (k : ℝ) ≤ K := by exact_mod_cast hk
      nlinarith
    cases h with
    | stop _ hc => exact absurd hyes hc
    | step _ _ qs _ r =>
      rw [interior_next radius pix hR k hkp] at r
      obtain ⟨he, hnd, hmem⟩ := ih (k + 1) (by omega) qs r
      refine ⟨he, ?_, ?_⟩
      · apply List.Nodup.append (interior_nodup _ _ _ hR hp) hnd
        rw [List.disjoint_left]
        intro p h1 h2
        rw [interior_mem radius pix hR hp k hkp] at h1
        rw [hmem] at h2
        obtain ⟨i, j, e1, _, _, e2⟩ := h1
        obtain ⟨i', j', e3, l, e4, e5, e6, e7, e8⟩ := h2
        obtain ⟨rfl, rfl⟩ := IsGrid.unique hd e1 e3
        have : (k : ℤ) ≤ (l : ℤ) - 1 := by omega
        have h0 : (0 : ℤ) ≤ k := Int.natCast_nonneg k
        nlinarith
      · intro p
        rw [List.mem_append, interior_mem radius pix hR hp k hkp, hmem]
        constructor
        · rintro (⟨i, j, e1, e2, e3, e4⟩ | ⟨i, j, e1, l, e2, e3, e4⟩)
          · exact ⟨i, j, e1, k, le_refl k, hk, e2, e3, e4⟩
          · exact ⟨i, j, e1, l, by omega, e3, e4⟩
        · rintro ⟨i, j, e1, l, e2, e3, e4, e5, e6⟩
          rcases Nat.eq_or_lt_of_le e2 with rfl | hlt
          · exact Or.inl ⟨i, j, e1, e4, e5, e6⟩
          · exact Or.inr ⟨i, j, e1, l, hlt, e3, e4, e5, e6⟩

/-- Every index pair below `K` is in exactly one of the annuli. -/
theorem annulus_cover (K : ℕ) (m : ℤ) (hm : 0 ≤ m) :
    (∃ l : ℕ, 0 ≤ l ∧ l ≤ K ∧ 1 ≤ l ∧ ((l : ℤ) - 1) ^ 2 ≤ m ∧ m < (l : ℤ) ^ 2) ↔ m < (K : ℤ) ^ 2 := by
  constructor
  · rintro ⟨l, _, h1, h2, _, h3⟩
    have : (l : ℤ) ≤ K := by exact_mod_cast h1
    have h0 : (0 : ℤ) ≤ l := Int.natCast_nonneg l
    nlinarith
  · intro h
    induction K with
    | zero => simp at h; omega
    | succ K ih =>
      by_cases hK : m < (K : ℤ) ^ 2
      · obtain ⟨l, h1, h2, h3⟩ := ih hK
        exact ⟨l, h1, by omega, h3⟩
      · refine ⟨K + 1, by omega, le_refl _, by omega, ?_, h⟩
        push_cast
        have := not_lt.1 hK
        simpa using this

/-- C146 (local region): the points in the local region form a complete square grid: they are exactly the
points whose longitude and latitude from the centre are whole numbers of pixels and whose distance on the
grid is below the local radius rounded down to whole pixels, each taken once; the rings begin one pixel
beyond. -/
theorem C146_grid (radius pix localRadius : ℝ) (hR : 0 < radius) (hp : 0 < pix) (hl : 0 ≤ localRadius)
    (hs : localRadius + pix ≤ Real.pi * radius) (ps : List (ℝ × ℝ)) (e : ℝ)
    (h : InteriorLoop radius pix localRadius ps e) :
    ps.Nodup ∧
    (∀ p, p ∈ ps ↔ ∃ i j : ℤ, radius * p.1 = i * pix ∧ radius * p.2 = j * pix ∧
      i ^ 2 + j ^ 2 < (⌊localRadius / pix⌋₊ : ℤ) ^ 2) ∧
    radius * e = (⌊localRadius / pix⌋₊ + 1) * pix := by
  have hdiv : 0 ≤ localRadius / pix := div_nonneg hl hp.le
  have hK : (⌊localRadius / pix⌋₊ : ℝ) * pix ≤ localRadius := by
    have := Nat.floor_le hdiv
    rwa [le_div_iff₀ hp] at this
  have hK' : localRadius < (⌊localRadius / pix⌋₊ + 1) * pix := by
    have := Nat.lt_floor_add_one (localRadius / pix)
    rwa [div_lt_iff₀ hp] at this
  have h' : Runs (fun t => t ≤ localRadius / radius) (interior radius pix) (((0 : ℕ) : ℝ) * (pix / radius)) ps e := by
    have : ((0 : ℕ) : ℝ) * (pix / radius) = 0 := by simp
    rw [this]
    exact h
  obtain ⟨he, hnd, hmem⟩ := interior_run radius pix localRadius hR hp hs _ hK hK' _ 0 (Nat.zero_add _) ps e h'
  refine ⟨hnd, ?_, ?_⟩
  · intro p
    rw [hmem]
    constructor
    · rintro ⟨i, j, hg, l, hl1⟩
      refine ⟨i, j, ?_, ?_, ?_⟩
      · rw [hg]; dsimp only; field_simp
      · rw [hg]; dsimp only; field_simp
      · exact (annulus_cover _ _ (by positivity)).1 ⟨l, hl1⟩
    · rintro ⟨i, j, h1, h2, h3⟩
      obtain ⟨l, hl1⟩ := (annulus_cover _ _ (by positivity)).2 h3
      refine ⟨i, j, ?_, l, hl1⟩
      unfold IsGrid
      ext
      · dsimp only
        rw [← mul_div_assoc, ← h1]
        field_simp
      · dsimp only
        rw [← mul_div_assoc, ← h2]
        field_simp
  · rw [he]
    push_cast
    field_simp

/-- The loop over the local region ends. -/
theorem C146_grid_ends (radius pix localRadius : ℝ) (hR : 0 < radius) (hp : 0 < pix)
    (hs : localRadius + pix ≤ Real.pi * radius) :
    ∃ ps e, InteriorLoop radius pix localRadius ps e := by
  have hd : 0 < pix / radius := div_pos hp hR
  have key : ∀ n k : ℕ, localRadius < ((k : ℝ) + n) * pix →
      ∃ ps e, Runs (fun t => t ≤ localRadius / radius) (interior radius pix) (k * (pix / radius)) ps e := by
    intro n
    induction n with
    | zero =>
      intro k hk
      refine ⟨[], _, Runs.stop _ ?_⟩
      rw [← mul_div_assoc, div_le_div_iff_of_pos_right hR]
      simp only [Nat.cast_zero, add_zero] at hk
      linarith
    | succ n ih =>
      intro k hk
      by_cases hc : (k : ℝ) * (pix / radius) ≤ localRadius / radius
      · have hkl : (k : ℝ) * pix ≤ localRadius := by
          rwa [← mul_div_assoc, div_le_div_iff_of_pos_right hR] at hc
        obtain ⟨ps, e, h⟩ := ih (k + 1) (by push_cast at hk ⊢; linarith)
        refine ⟨_, e, Runs.step (cond := fun t => t ≤ localRadius / radius) ((k : ℝ) * (pix / radius)) hc ps e ?_⟩
        rw [interior_next radius pix hR k (by linarith)]
        exact h
      · exact ⟨[], _, Runs.stop _ hc⟩
  obtain ⟨n, hn⟩ := exists_nat_gt (localRadius / pix)
  rw [div_lt_iff₀ hp] at hn
  obtain ⟨ps, e, h⟩ := key n 0 (by simpa using hn)
  refine ⟨ps, e, ?_⟩
  unfold InteriorLoop
  have : ((0 : ℕ) : ℝ) * (pix / radius) = 0 := by simp
  rwa [this] at h

/-! ### Distances of grid points -/

/-- The slope of the sine from the origin falls. -/
theorem sin_slope (a b : ℝ) (ha : 0 < a) (hab : a ≤ b) (hb : b ≤ Real.pi) : Real.sin b * a ≤ Real.sin a * b := by
  rcases eq_or_lt_of_le hab with rfl | hlt
  · exact le_refl _
  have hc := strictConcaveOn_sin_Icc.concaveOn
  -- a = (a/b) b + (1 - a/b) 0
  have hb0 : 0 < b := ha.trans hlt
  have hbm : b ∈ Set.Icc 0 Real.pi := ⟨hb0.le, hb⟩
  have h0m : (0 : ℝ) ∈ Set.Icc 0 Real.pi := ⟨le_refl _, Real.pi_pos.le⟩
  have hw1 : 0 ≤ a / b := by positivity
  have hw2 : 0 ≤ 1 - a / b := by rw [sub_nonneg, div_le_one hb0]; exact hab
  have h := hc.2 hbm h0m hw1 hw2 (by ring)
  simp only [smul_eq_mul, Real.sin_zero, mul_zero, add_zero] at h
  rw [div_mul_cancel₀ a hb0.ne'] at h
  have := mul_le_mul_of_nonneg_right h hb0.le
  calc Real.sin b * a = a / b * Real.sin b * b := by field_simp
    _ ≤ Real.sin a * b := this

/-- A parabola that touches the cosine at `r` stays below it. -/
theorem cos_parabola (r s : ℝ) (hr : 0 < r) (hrp : r ≤ Real.pi) (hs : 0 ≤ s) (hsp : s ≤ Real.pi) :
    Real.cos r - Real.sin r / (2 * r) * (s ^ 2 - r ^ 2) ≤ Real.cos s := by
  set g : ℝ → ℝ := fun x => Real.cos x + Real.sin r / (2 * r) * x ^ 2 with hg
  have hderiv : ∀ x, HasDerivAt g (-Real.sin x + Real.sin r / (2 * r) * (2 * x)) x := by
    intro x
    have h1 := Real.hasDerivAt_cos x
    have h2 := ((hasDerivAt_pow 2 x).const_mul (Real.sin r / (2 * r)))
    have h3 := h1.add h2
    have e : -Real.sin x + Real.sin r / (2 * r) * (2 * x) =
        -Real.sin x + Real.sin r / (2 * r) * (((2 : ℕ) : ℝ) * x ^ (2 - 1)) := by norm_num
    rw [e]
    exact h3
  have hcont : Continuous g := by
    rw [hg]
    fun_prop
  have key : g r ≤ g s := by
    rcases le_total s r with hsr | hsr
    · -- antitone on [0, r]
      have : AntitoneOn g (Set.Icc 0 r) := by
        apply antitoneOn_of_deriv_nonpos (convex_Icc 0 r) hcont.continuousOn
        · intro x _
          exact (hderiv x).differentiableAt.differentiableWithinAt
        · intro x hx
          rw [interior_Icc] at hx
          rw [(hderiv x).deriv]
          have h := sin_slope x r hx.1 hx.2.le hrp
          have : Real.sin r / (2 * r) * (2 * x) = Real.sin r * x / r := by field_simp
          rw [this]
          have h2 : Real.sin r * x / r ≤ Real.sin x := by
            rw [div_le_iff₀ hr]; exact h
          linarith
      exact this ⟨hs, hsr⟩ ⟨hr.le, le_refl _⟩ hsr
    · have : MonotoneOn g (Set.Icc r Real.pi) := by
        apply monotoneOn_of_deriv_nonneg (convex_Icc r Real.pi) hcont.continuousOn
        · intro x _
          exact (hderiv x).differentiableAt.differentiableWithinAt
        · intro x hx
          rw [interior_Icc] at hx
          rw [(hderiv x).deriv]
          have h := sin_slope r x hr hx.1.le hx.2.le
          have : Real.sin r / (2 * r) * (2 * x) = Real.sin r * x / r := by field_simp
          rw [this]
          have h2 : Real.sin x ≤ Real.sin r * x / r := by
            rw [le_div_iff₀ hr]; exact h
          linarith
      exact this ⟨le_refl _, hrp⟩ ⟨hsr, hsp⟩ hsr
  simp only [hg] at key
  have : Real.sin r / (2 * r) * (s ^ 2 - r ^ 2) = Real.sin r / (2 * r) * s ^ 2 - Real.sin r / (2 * r) * r ^ 2 := by ring
  linarith

/-- On a sphere the distance of a point is at most its distance on the flat grid. -/
theorem cos_le (a b : ℝ) (h : 2 * (a ^ 2 + b ^ 2) ≤ Real.pi ^ 2) :
    Real.cos (Real.sqrt (a ^ 2 + b ^ 2)) ≤ Real.cos b * Real.cos a := by
  have hpi := Real.pi_pos
  have h0 : 0 ≤ a ^ 2 + b ^ 2 := by positivity
  rcases eq_or_lt_of_le h0 with h1 | h1
  · have ha : a = 0 := by nlinarith [sq_nonneg a, sq_nonneg b]
    have hb : b = 0 := by nlinarith [sq_nonneg a, sq_nonneg b]
    simp [ha, hb]
  set r := Real.sqrt (a ^ 2 + b ^ 2) with hr
  have hr0 : 0 < r := Real.sqrt_pos.2 h1
  have hrs : r ^ 2 = a ^ 2 + b ^ 2 := Real.sq_sqrt h0
  have hrp : r ≤ Real.pi := by
    by_contra hc
    nlinarith [not_le.1 hc]
  have bound : ∀ x : ℝ, x ^ 2 ≤ Real.pi ^ 2 → |x| ≤ Real.pi := fun x hx => abs_le_of_sq_le_sq hx hpi.le
  have hu := cos_parabola r |a + b| hr0 hrp (abs_nonneg _) (bound _ (by nlinarith [sq_nonneg (a - b)]))
  have hv := cos_parabola r |a - b| hr0 hrp (abs_nonneg _) (bound _ (by nlinarith [sq_nonneg (a + b)]))
  rw [Real.cos_abs, sq_abs] at hu hv
  have e1 : Real.cos (a + b) + Real.cos (a - b) = 2 * (Real.cos b * Real.cos a) := by
    rw [Real.cos_add, Real.cos_sub]; ring
  have e2 : Real.sin r / (2 * r) * ((a + b) ^ 2 - r ^ 2) + Real.sin r / (2 * r) * ((a - b) ^ 2 - r ^ 2) = 0 := by
    rw [hrs]; ring
  linarith

/-- C146 (inside): for a local region up to an angle of 127 degrees, every grid point lies on the unit sphere and
inside the region: its great circle distance from the centre (the z axis) is at most its distance on the grid,
which is below the local radius. -/
theorem C146_inside (radius pix localRadius : ℝ) (hR : 0 < radius) (hp : 0 < pix) (hl : 0 ≤ localRadius)
    (hs : localRadius + pix ≤ Real.pi * radius) (hw : 2 * localRadius ^ 2 ≤ (Real.pi * radius) ^ 2)
    (ps : List (ℝ × ℝ)) (e : ℝ) (h : InteriorLoop radius pix localRadius ps e) (p : ℝ × ℝ) (hm : p ∈ ps) :
    (interiorPoint p).1 ^ 2 + (interiorPoint p).2.1 ^ 2 + (interiorPoint p).2.2 ^ 2 = 1 ∧
    radius * Real.arccos (interiorPoint p).2.2 ≤ radius * Real.sqrt (p.1 ^ 2 + p.2 ^ 2) ∧
    radius * Real.sqrt (p.1 ^ 2 + p.2 ^ 2) < localRadius := by
  obtain ⟨-, hmem, -⟩ := C146_grid radius pix localRadius hR hp hl hs ps e h
  obtain ⟨i, j, hi, hj, hij⟩ := (hmem p).1 hm
  have hdiv : 0 ≤ localRadius / pix := div_nonneg hl hp.le
  have hK : (⌊localRadius / pix⌋₊ : ℝ) * pix ≤ localRadius := by
    have := Nat.floor_le hdiv
    rwa [le_div_iff₀ hp] at this
  have hijR : (i : ℝ) ^ 2 + (j : ℝ) ^ 2 < (⌊localRadius / pix⌋₊ : ℝ) ^ 2 := by exact_mod_cast hij
  have hn : (0 : ℝ) ≤ (⌊localRadius / pix⌋₊ : ℝ) := Nat.cast_nonneg _
  have hsq : (radius * p.1) ^ 2 + (radius * p.2) ^ 2 < localRadius ^ 2 := by
    rw [hi, hj]
    have h1 : ((⌊localRadius / pix⌋₊ : ℝ) * pix) ^ 2 ≤ localRadius ^ 2 :=
      pow_le_pow_left₀ (mul_nonneg hn hp.le) hK 2
    have h2 : 0 < pix ^ 2 := by positivity
    nlinarith
  have hsq' : radius ^ 2 * (p.1 ^ 2 + p.2 ^ 2) < localRadius ^ 2 := by nlinarith
  have hR2 : 0 < radius ^ 2 := by positivity
  have hhalf : 2 * (p.1 ^ 2 + p.2 ^ 2) ≤ Real.pi ^ 2 := by
    have : radius ^ 2 * (2 * (p.1 ^ 2 + p.2 ^ 2)) ≤ radius ^ 2 * Real.pi ^ 2 := by nlinarith
    exact le_of_mul_le_mul_left this hR2
  have hs0 := Real.sqrt_nonneg (p.1 ^ 2 + p.2 ^ 2)
  have hss : Real.sqrt (p.1 ^ 2 + p.2 ^ 2) ^ 2 = p.1 ^ 2 + p.2 ^ 2 := Real.sq_sqrt (by positivity)
  refine ⟨?_, ?_, ?_⟩
  · simp only [interiorPoint]
    have h1 := Real.sin_sq_add_cos_sq p.1
    have h2 := Real.sin_sq_add_cos_sq p.2
    calc (Real.cos p.2 * Real.sin p.1) ^ 2 + Real.sin p.2 ^ 2 + (Real.cos p.2 * Real.cos p.1) ^ 2
        = Real.cos p.2 ^ 2 * (Real.sin p.1 ^ 2 + Real.cos p.1 ^ 2) + Real.sin p.2 ^ 2 := by ring
      _ = 1 := by rw [h1]; linarith
  · apply mul_le_mul_of_nonneg_left _ hR.le
    have hle : Real.sqrt (p.1 ^ 2 + p.2 ^ 2) ≤ Real.pi := by
      by_contra hc
      have hpi := Real.pi_pos
      nlinarith [not_le.1 hc, sq_nonneg p.1, sq_nonneg p.2]
    have := Real.arccos_le_arccos (cos_le p.1 p.2 hhalf)
    rw [Real.arccos_cos hs0 hle] at this
    exact this
  · by_contra hc
    have hc' := not_lt.1 hc
    have : localRadius ^ 2 ≤ (radius * Real.sqrt (p.1 ^ 2 + p.2 ^ 2)) ^ 2 := pow_le_pow_left₀ hl hc' 2
    rw [mul_pow, hss] at this
    linarith

/-- Grid points less than a quarter of the way around are different points of the sphere. -/
theorem interiorPoint_inj (p q : ℝ × ℝ) (hp : 4 * (p.1 ^ 2 + p.2 ^ 2) < Real.pi ^ 2)
    (hq : 4 * (q.1 ^ 2 + q.2 ^ 2) < Real.pi ^ 2) (h : interiorPoint p = interiorPoint q) : p = q := by
  have hpi := Real.pi_pos
  simp only [interiorPoint, Prod.mk.injEq] at h
  obtain ⟨h1, h2, h3⟩ := h
  have lt_half : ∀ x y : ℝ, 4 * (x ^ 2 + y ^ 2) < Real.pi ^ 2 → -(Real.pi / 2) < x ∧ x < Real.pi / 2 := by
    intro x y hxy
    constructor
    · by_contra hc
      nlinarith [not_lt.1 hc, sq_nonneg y]
    · by_contra hc
      nlinarith [not_lt.1 hc, sq_nonneg y]
  have ap1 := lt_half p.1 p.2 hp
  have ap2 := lt_half p.2 p.1 (by linarith)
  have aq1 := lt_half q.1 q.2 hq
  have aq2 := lt_half q.2 q.1 (by linarith)
  have e2 : p.2 = q.2 := Real.injOn_sin ⟨ap2.1.le, ap2.2.le⟩ ⟨aq2.1.le, aq2.2.le⟩ h2
  have hc : Real.cos q.2 ≠ 0 := (Real.cos_pos_of_mem_Ioo aq2).ne'
  rw [e2] at h1
  have e1 : p.1 = q.1 := Real.injOn_sin ⟨ap1.1.le, ap1.2.le⟩ ⟨aq1.1.le, aq1.2.le⟩ (mul_left_cancel₀ hc h1)
  exact Prod.ext e1 e2

/-- C146 (distinct): for a local region up to a hemisphere the points of the local region are different points of
the sphere. -/
theorem C146_distinct (radius pix localRadius : ℝ) (hR : 0 < radius) (hp : 0 < pix) (hl : 0 ≤ localRadius)
    (hs : localRadius + pix ≤ Real.pi * radius) (hw : 2 * localRadius ≤ Real.pi * radius)
    (ps : List (ℝ × ℝ)) (e : ℝ) (h : InteriorLoop radius pix localRadius ps e) :
    (ps.map interiorPoint).Nodup := by
  have hpi := Real.pi_pos
  have hw' : 2 * localRadius ^ 2 ≤ (Real.pi * radius) ^ 2 := by nlinarith
  have hsmall : ∀ p ∈ ps, 4 * (p.1 ^ 2 + p.2 ^ 2) < Real.pi ^ 2 := by
    intro p hm
    obtain ⟨-, -, h3⟩ := C146_inside radius pix localRadius hR hp hl hs hw' ps e h p hm
    have hs0 := Real.sqrt_nonneg (p.1 ^ 2 + p.2 ^ 2)
    have hss : Real.sqrt (p.1 ^ 2 + p.2 ^ 2) ^ 2 = p.1 ^ 2 + p.2 ^ 2 := Real.sq_sqrt (by positivity)
    have h4 : radius * (2 * Real.sqrt (p.1 ^ 2 + p.2 ^ 2)) < radius * Real.pi := by nlinarith
    have h5 := lt_of_mul_lt_mul_left h4 hR.le
    nlinarith
  apply List.Nodup.map_on _ (C146_grid radius pix localRadius hR hp hl hs ps e h).1
  intro p hpm q hqm hpq
  exact interiorPoint_inj p q (hsmall p hpm) (hsmall q hqm) hpq

/-- Beyond the hemisphere, which the setter of the local radius allows, the grid runs over itself: two different grid
points are the same point of the sphere. -/
theorem wide_region_overlaps : ∃ (ps : List (ℝ × ℝ)) (e : ℝ) (p q : ℝ × ℝ),
    InteriorLoop 1 (Real.pi / 8) (6 * (Real.pi / 8)) ps e ∧ p ∈ ps ∧ q ∈ ps ∧ p ≠ q ∧
      interiorPoint p = interiorPoint q := by
  have hpi := Real.pi_pos
  have hs : 6 * (Real.pi / 8) + Real.pi / 8 ≤ Real.pi * 1 := by linarith
  obtain ⟨ps, e, h⟩ := C146_grid_ends 1 (Real.pi / 8) (6 * (Real.pi / 8)) one_pos (by positivity) hs
  obtain ⟨-, hm, -⟩ := C146_grid 1 (Real.pi / 8) (6 * (Real.pi / 8)) one_pos (by positivity) (by positivity) hs ps e h
  have hf : ⌊6 * (Real.pi / 8) / (Real.pi / 8)⌋₊ = 6 := by
    rw [mul_div_assoc, div_self (by positivity)]
    norm_num
  rw [hf] at hm
  refine ⟨ps, e, (3 * (Real.pi / 8), 5 * (Real.pi / 8)), (3 * (Real.pi / 8) - Real.pi, Real.pi - 5 * (Real.pi / 8)), h,
    (hm _).2 ⟨3, 5, by push_cast; ring, by push_cast; ring, by norm_num⟩,
    (hm _).2 ⟨-5, 3, by push_cast; ring, by push_cast; ring, by norm_num⟩, ?_, ?_⟩
  · intro hc
    have := congrArg Prod.fst hc
    simp only at this
    linarith
  · simp only [interiorPoint, Real.cos_pi_sub, Real.sin_pi_sub, Real.sin_sub_pi, Real.cos_sub_pi]
    ext <;> simp

/-! ### The rings -/

/-- The angles of the rings: each follows the one before at the face size there, and the loop stops as soon as
less than one face size is left to the antipode. -/
inductive Angles (radius : ℝ) (size : ℝ → ℝ) : ℝ → List ℝ → Prop
  | last (t : ℝ) (h : Real.pi * radius - radius * t < size (radius * t) ∨ Real.pi ≤ t) : Angles radius size t []
  | next (t : ℝ) (h : t < Real.pi) (h' : size (radius * t) ≤ Real.pi * radius - radius * t) (l : List ℝ)
      (r : Angles radius size (t + size (radius * t) / radius) l) : Angles radius size t (t :: l)

/-- C146 (rings): the points of the superdomain are complete rings at angles that begin at the given angle and
follow each other at the face size. -/
theorem C146_rings (rnd : ℝ → ℤ) (radius : ℝ) (size : ℝ → ℝ) (start : ℝ)
    (ps : List (ℝ × ℝ × ℝ)) (e : ℝ) (h : ExteriorLoop rnd radius size start ps e) :
    ∃ angles, Angles radius size start angles ∧ ps = angles.flatMap (ring rnd radius size) := by
  unfold ExteriorLoop at h
  induction h with
  | stop t h => exact ⟨[], Angles.last t (Or.inr (not_lt.1 h)), rfl⟩
  | step t h qs e r ih =>
    unfold exterior
    obtain ⟨l, hl, hq⟩ := ih
    by_cases hc : Real.pi * radius - radius * t < size (radius * t)
    · refine ⟨[], Angles.last t (Or.inl hc), ?_⟩
      rw [if_pos hc]
      unfold exterior at r
      rw [if_pos hc] at r
      cases r with
      | stop => rfl
      | step _ hpi => exact absurd hpi (lt_irrefl _)
    · refine ⟨t :: l, Angles.next t h (not_lt.1 hc) l ?_, ?_⟩
      · unfold exterior at hl
        rw [if_neg hc] at hl
        exact hl
      · rw [if_neg hc, hq]
        rfl

/-- C146 (ends): the loop over the rings ends when the face sizes have a positive lower bound. -/
theorem C146_rings_end (rnd : ℝ → ℤ) (radius : ℝ) (size : ℝ → ℝ) (hR : 0 < radius) (m : ℝ) (hm : 0 < m)
    (hsize : ∀ r, m ≤ size r) (start : ℝ) : ∃ ps e, ExteriorLoop rnd radius size start ps e := by
  have hd : 0 < m / radius := div_pos hm hR
  have key : ∀ (n : ℕ) (t : ℝ), Real.pi ≤ t + n * (m / radius) →
      ∃ ps e, Runs (fun t => t < Real.pi) (exterior rnd radius size) t ps e := by
    intro n
    induction n with
    | zero =>
      intro t ht
      exact ⟨[], t, Runs.stop t (by simpa using ht)⟩
    | succ n ih =>
      intro t ht
      by_cases h : t < Real.pi
      · by_cases hc : Real.pi * radius - radius * t < size (radius * t)
        · refine ⟨_, Real.pi, Runs.step t h [] Real.pi ?_⟩
          unfold exterior
          rw [if_pos hc]
          exact Runs.stop _ (lt_irrefl _)
        · have h1 : m / radius ≤ size (radius * t) / radius := div_le_div_of_nonneg_right (hsize _) hR.le
          obtain ⟨ps, e, r⟩ := ih (t + size (radius * t) / radius) (by push_cast at ht; linarith)
          refine ⟨_, e, Runs.step t h ps e ?_⟩
          unfold exterior
          rw [if_neg hc]
          exact r
      · exact ⟨[], t, Runs.stop t h⟩
  obtain ⟨n, hn⟩ := exists_nat_gt ((Real.pi - start) / (m / radius))
  rw [div_lt_iff₀ hd] at hn
  exact key n start (by linarith)

/-- Facts about the angles of the rings. -/
theorem angles_bounds (radius : ℝ) (size : ℝ → ℝ) (hR : 0 < radius) (hsize : ∀ r, 0 < size r) (start : ℝ)
    (l : List ℝ) (h : Angles radius size start l) :
    (∀ t ∈ l, start ≤ t ∧ t < Real.pi ∧ radius * t + size (radius * t) ≤ Real.pi * radius) ∧
    l.Pairwise (· < ·) := by
  induction h with
  | last => simp
  | next t h h' l r ih =>
    have hpos : 0 < size (radius * t) / radius := div_pos (hsize _) hR
    constructor
    · intro x hx
      rcases List.mem_cons.1 hx with rfl | hx
      · exact ⟨le_refl _, h, by linarith⟩
      · obtain ⟨h1, h2, h3⟩ := ih.1 x hx
        exact ⟨by linarith, h2, h3⟩
    · rw [List.pairwise_cons]
      refine ⟨fun x hx => ?_, ih.2⟩
      have := (ih.1 x hx).1
      linarith

/-- C146 (superdomain): every ring point lies on the unit sphere at the angle of its ring, at or beyond the angle
where the rings begin and at least one face size before the antipode. -/
theorem C146_outside (rnd : ℝ → ℤ) (radius : ℝ) (size : ℝ → ℝ) (hR : 0 < radius) (hsize : ∀ r, 0 < size r)
    (start : ℝ) (h0 : 0 ≤ start) (ps : List (ℝ × ℝ × ℝ)) (e : ℝ) (h : ExteriorLoop rnd radius size start ps e)
    (q : ℝ × ℝ × ℝ) (hq : q ∈ ps) :
    q.1 ^ 2 + q.2.1 ^ 2 + q.2.2 ^ 2 = 1 ∧ start ≤ Real.arccos q.2.2 ∧
    radius * Real.arccos q.2.2 + size (radius * Real.arccos q.2.2) ≤ Real.pi * radius := by
  obtain ⟨l, hl, rfl⟩ := C146_rings rnd radius size start ps e h
  obtain ⟨t, ht, hq⟩ := List.mem_flatMap.1 hq
  obtain ⟨h1, h2, h3⟩ := (angles_bounds radius size hR hsize start l hl).1 t ht
  unfold ring at hq
  obtain ⟨φ, -, rfl⟩ := List.mem_map.1 hq
  dsimp only
  rw [Real.arccos_cos (h0.trans h1) h2.le]
  refine ⟨?_, h1, h3⟩
  have e1 := Real.sin_sq_add_cos_sq φ
  have e2 := Real.sin_sq_add_cos_sq t
  calc (Real.sin t * Real.cos φ) ^ 2 + (Real.sin t * Real.sin φ) ^ 2 + Real.cos t ^ 2
      = Real.sin t ^ 2 * (Real.sin φ ^ 2 + Real.cos φ ^ 2) + Real.cos t ^ 2 := by ring
    _ = 1 := by rw [e1]; linarith

/-- C146 (spacing): the number of points on a ring is the circumference of the ring divided by the face size there,
to the nearest integer, but at least one, and they are equally spaced and distinct. -/
theorem C146_spacing (rnd : ℝ → ℤ) (hr : ∀ x, |(rnd x : ℝ) - x| ≤ 1 / 2) (radius : ℝ) (size : ℝ → ℝ) (theta : ℝ)
    (h0 : 0 < theta) (h1 : theta < Real.pi) :
    ((ring rnd radius size theta).Nodup) ∧ 1 ≤ (ring rnd radius size theta).length ∧
    (|((ring rnd radius size theta).length : ℝ) - 2 * Real.pi * radius * Real.sin theta / size (radius * theta)| ≤ 1 / 2
      ∨ ((ring rnd radius size theta).length = 1 ∧
          2 * Real.pi * radius * Real.sin theta / size (radius * theta) ≤ 1 / 2)) := by
  have hlen : (ring rnd radius size theta).length = perRing rnd radius (size (radius * theta)) theta := by
    simp [ring, phis]
  have hpi := Real.pi_pos
  refine ⟨?_, ?_, ?_⟩
  · unfold ring phis
    rw [List.map_map]
    apply List.Nodup.map_on _ List.nodup_range
    intro a ha b hb hab
    rw [List.mem_range] at ha hb
    set n := perRing rnd radius (size (radius * theta)) theta with hn
    have hn0 : (0 : ℝ) < n := by
      have : 0 < n := by omega
      exact_mod_cast this
    simp only [Function.comp, Prod.mk.injEq] at hab
    have hs : Real.sin theta ≠ 0 := (Real.sin_pos_of_pos_of_lt_pi h0 h1).ne'
    have hc := mul_left_cancel₀ hs hab.1
    have hsn := mul_left_cancel₀ hs hab.2.1
    -- cos (a - b) = 1
    have hcos : Real.cos (2 * Real.pi * (a : ℝ) / n - 2 * Real.pi * (b : ℝ) / n) = 1 := by
      rw [Real.cos_sub, hc, hsn]
      have := Real.sin_sq_add_cos_sq (2 * Real.pi * (b : ℝ) / n)
      nlinarith
    have e : 2 * Real.pi * (a : ℝ) / n - 2 * Real.pi * (b : ℝ) / n = 2 * Real.pi * (((a : ℝ) - b) / n) := by ring
    rw [e] at hcos
    have haR : (a : ℝ) < n := by exact_mod_cast ha
    have hbR : (b : ℝ) < n := by exact_mod_cast hb
    have ha0 : (0 : ℝ) ≤ a := Nat.cast_nonneg a
    have hb0 : (0 : ℝ) ≤ b := Nat.cast_nonneg b
    have hx1 : ((a : ℝ) - b) / n < 1 := by rw [div_lt_one hn0]; linarith
    have hx2 : -1 < ((a : ℝ) - b) / n := by rw [lt_div_iff₀ hn0]; linarith
    have := (Real.cos_eq_one_iff_of_lt_of_lt (by nlinarith) (by nlinarith)).1 hcos
    have h2 : ((a : ℝ) - b) / n = 0 := by
      rcases mul_eq_zero.1 this with h | h
      · linarith
      · exact h
    have h3 : (a : ℝ) - b = 0 := by
      rcases div_eq_zero_iff.1 h2 with h | h
      · exact h
      · linarith
    have : (a : ℝ) = b := by linarith
    exact_mod_cast this
  · rw [hlen]
    unfold perRing
    have : (1 : ℤ) ≤ max 1 (rnd (2 * Real.pi * radius * Real.sin theta / size (radius * theta))) := le_max_left _ _
    omega
  · rw [hlen]
    unfold perRing
    set x := 2 * Real.pi * radius * Real.sin theta / size (radius * theta) with hx
    rcases le_or_gt 1 (rnd x) with h | h
    · left
      rw [max_eq_right h]
      have : (((rnd x).toNat : ℕ) : ℝ) = (rnd x : ℝ) := by
        have h' : (((rnd x).toNat : ℕ) : ℤ) = rnd x := Int.toNat_of_nonneg (by omega)
        exact_mod_cast h'
      rw [this]
      exact hr x
    · right
      rw [max_eq_left h.le]
      refine ⟨rfl, ?_⟩
      have := abs_le.1 (hr x)
      have h' : (rnd x : ℝ) ≤ 0 := by exact_mod_cast Int.lt_add_one_iff.1 h
      linarith

/-- The last ring is followed by a gap to the antipode. -/
theorem angles_end (radius : ℝ) (size : ℝ → ℝ) (hR : 0 < radius) (start : ℝ) (l : List ℝ)
    (h : Angles radius size start l) (t : ℝ) (ht : l.getLast? = some t) :
    size (radius * t) ≤ Real.pi * radius - radius * t ∧
    (Real.pi * radius - radius * t < size (radius * t) + size (radius * t + size (radius * t)) ∨
      Real.pi * radius - radius * t ≤ size (radius * t)) := by
  induction h with
  | last => simp at ht
  | next x h h' l r ih =>
    cases r with
    | last _ hl =>
      simp only [List.getLast?_singleton, Option.some.injEq] at ht
      subst ht
      have e : radius * (x + size (radius * x) / radius) = radius * x + size (radius * x) := by field_simp
      refine ⟨h', ?_⟩
      rcases hl with hl | hl
      · left
        rw [e] at hl
        linarith
      · right
        have := mul_le_mul_of_nonneg_left hl hR.le
        rw [e] at this
        linarith
    | next _ h2 h3 l' r' =>
      apply ih
      rw [List.getLast?_cons_cons] at ht
      exact ht

/-- C146 (antipode): the part around the antipode without points has a radius of at least the face size at the last
ring, and less than that size and the next one together. -/
theorem C146_antipode (rnd : ℝ → ℤ) (radius : ℝ) (size : ℝ → ℝ) (hR : 0 < radius) (hsize : ∀ r, 0 < size r)
    (start : ℝ) (ps : List (ℝ × ℝ × ℝ)) (e : ℝ) (h : ExteriorLoop rnd radius size start ps e) (hne : ps ≠ []) :
    ∃ angles t, Angles radius size start angles ∧ ps = angles.flatMap (ring rnd radius size) ∧
      angles.getLast? = some t ∧ size (radius * t) ≤ Real.pi * radius - radius * t ∧
      Real.pi * radius - radius * t < size (radius * t) + size (radius * t + size (radius * t)) := by
  obtain ⟨l, hl, rfl⟩ := C146_rings rnd radius size start ps e h
  have hl' : l ≠ [] := by
    rintro rfl
    exact hne rfl
  have hlast := List.getLast?_eq_some_getLast hl'
  have := angles_end radius size hR start l hl _ hlast
  refine ⟨l, _, hl, rfl, hlast, this.1, ?_⟩
  rcases this.2 with h2 | h2
  · exact h2
  · have := hsize (radius * l.getLast hl' + size (radius * l.getLast hl'))
    linarith

/-- C146 (no overlap): the grid of the local region and the rings have no point in common; the grid lies inside the
local radius and the rings outside of it. -/
theorem C146_separate (rnd : ℝ → ℤ) (radius pix localRadius : ℝ) (size : ℝ → ℝ) (hR : 0 < radius) (hp : 0 < pix)
    (hl : 0 ≤ localRadius) (hs : localRadius + pix ≤ Real.pi * radius)
    (hw : 2 * localRadius ^ 2 ≤ (Real.pi * radius) ^ 2) (hsize : ∀ r, 0 < size r)
    (ps : List (ℝ × ℝ)) (e : ℝ) (h : InteriorLoop radius pix localRadius ps e)
    (qs : List (ℝ × ℝ × ℝ)) (e' : ℝ) (h' : ExteriorLoop rnd radius size e qs e') :
    (∀ p ∈ ps, radius * Real.arccos (interiorPoint p).2.2 < localRadius) ∧
    (∀ q ∈ qs, localRadius < radius * Real.arccos q.2.2) ∧
    (ps.map interiorPoint).Disjoint qs := by
  have h1 : ∀ p ∈ ps, radius * Real.arccos (interiorPoint p).2.2 < localRadius := by
    intro p hm
    obtain ⟨-, h2, h3⟩ := C146_inside radius pix localRadius hR hp hl hs hw ps e h p hm
    linarith
  have he := (C146_grid radius pix localRadius hR hp hl hs ps e h).2.2
  have hK' : localRadius < (⌊localRadius / pix⌋₊ + 1) * pix := by
    have := Nat.lt_floor_add_one (localRadius / pix)
    rwa [div_lt_iff₀ hp] at this
  have he0 : 0 ≤ e := by
    have : 0 ≤ radius * e := by rw [he]; positivity
    exact nonneg_of_mul_nonneg_right this hR
  have h2 : ∀ q ∈ qs, localRadius < radius * Real.arccos q.2.2 := by
    intro q hq
    obtain ⟨-, h3, -⟩ := C146_outside rnd radius size hR hsize e he0 qs e' h' q hq
    have := mul_le_mul_of_nonneg_left h3 hR.le
    linarith
  refine ⟨h1, h2, ?_⟩
  rw [List.disjoint_left]
  intro q hq hq'
  obtain ⟨p, hp', rfl⟩ := List.mem_map.1 hq
  have := h1 p hp'
  have := h2 _ hq'
  linarith

/-! ### Non-vacuity -/

example : ∃ ps e, InteriorLoop 100 1 2 ps e ∧ (0, 0) ∈ ps ∧ (1 / 100, 1 / 100) ∈ ps ∧ ¬ (2 / 100, 0) ∈ ps := by
  have hpi := Real.pi_gt_three
  obtain ⟨ps, e, h⟩ := C146_grid_ends 100 1 2 (by norm_num) (by norm_num) (by linarith)
  obtain ⟨-, hm, -⟩ := C146_grid 100 1 2 (by norm_num) (by norm_num) (by norm_num) (by linarith) ps e h
  have hf : ⌊(2 : ℝ) / 1⌋₊ = 2 := by norm_num
  rw [hf] at hm
  refine ⟨ps, e, h, (hm _).2 ⟨0, 0, by norm_num, by norm_num, by norm_num⟩,
    (hm _).2 ⟨1, 1, by norm_num, by norm_num, by norm_num⟩, ?_⟩
  intro hc
  obtain ⟨i, j, h1, h2, h3⟩ := (hm _).1 hc
  norm_num at h1 h2
  have hi : i = 2 := by exact_mod_cast h1.symm
  have hj : j = 0 := by exact_mod_cast h2.symm
  subst hi hj
  norm_num at h3

example : ∃ ps e, ExteriorLoop round 1 (fun _ => 1) 1 ps e ∧ ps ≠ [] := by
  have hpi := Real.pi_gt_three
  obtain ⟨ps, e, h⟩ := C146_rings_end round 1 (fun _ => 1) one_pos 1 one_pos (fun _ => le_refl _) 1
  refine ⟨ps, e, h, ?_⟩
  have h' : Runs (fun t => t < Real.pi) (exterior round 1 fun _ => 1) 1 ps e := h
  cases h' with
  | stop _ hc => exact absurd (by linarith) hc
  | step _ _ qs _ r =>
    intro hnil
    have h1 := (List.append_eq_nil_iff.1 hnil).1
    unfold exterior at h1
    rw [if_neg (by simp; linarith)] at h1
    have h2 := (C146_spacing round (fun x => by
      rw [abs_sub_comm]; exact abs_sub_round x) 1 (fun _ => 1) 1 one_pos (by linarith)).2.1
    dsimp only at h1
    rw [h1] at h2
    simp at h2

end Verif.Rings
