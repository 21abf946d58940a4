import Verif.Model.Profile
import Mathlib.Analysis.SpecialFunctions.Pow.Continuity
import Mathlib.Topology.Order.Lattice
import Mathlib.Topology.Algebra.Order.Field
import Mathlib.Tactic.Linarith
import Mathlib.Tactic.Positivity
import Mathlib.Tactic.FieldSimp
import Mathlib.Tactic.NormNum

/-! Properties C43, C44, C98, C99, C100: profiles, extents, rays and degradation. -/

namespace Verif.Profile

/-! ### C43 -/

/-- The dimensions of a proper crater: the floor is narrower than the crater and lower than the rim. -/
structure Dims.Proper (d : Dims) : Prop where
  diameter : 0 < d.diameter
  floor_nonneg : 0 ≤ d.floorDiameter
  floor_lt : d.floorDiameter < d.diameter
  depth : d.floorDepth < d.rimHeight

theorem Dims.Proper.flrad_nonneg {d : Dims} (h : d.Proper) : 0 ≤ flrad d := div_nonneg h.floor_nonneg h.diameter.le

theorem Dims.Proper.flrad_lt {d : Dims} (h : d.Proper) : flrad d < 1 := by
  unfold flrad
  rw [div_lt_one h.diameter]
  exact h.floor_lt

/-- The shape polynomial `x + A x² + B x³` increases on `[0, 1]`. -/
theorem shape_lt {x y : ℝ} (hx : 0 ≤ x) (hxy : x < y) (hy : y ≤ 1) :
    x + coefA * x ^ 2 + coefB * x ^ 3 < y + coefA * y ^ 2 + coefB * y ^ 3 := by
  unfold coefA coefB
  have h1 : 0 < y - x := by linarith
  have hx1 : x < 1 := by linarith
  have hy0 : 0 < y := by linarith
  have key : 0 < (y - x) * (1 + 4 / 11 * (x + y) - 32 / 187 * (x ^ 2 + x * y + y ^ 2)) := by
    apply mul_pos h1
    nlinarith [mul_nonneg hx hy0.le, mul_nonneg hx (by linarith : (0:ℝ) ≤ 1 - x),
      mul_nonneg hy0.le (by linarith : (0:ℝ) ≤ 1 - y), mul_nonneg hx (by linarith : (0:ℝ) ≤ 1 - y)]
  nlinarith [key]

theorem c1_pos {d : Dims} (h : d.Proper) : 0 < c1 d := by
  unfold c1
  have := shape_lt h.flrad_nonneg h.flrad_lt (le_refl 1)
  apply div_pos_of_neg_of_neg
  · linarith [h.depth]
  · unfold coefA coefB at *
    linarith

theorem profile_in (d : Dims) {r : ℝ} (hr : r < 1) (e : ℝ) :
    profileFn d r e = e + d.rimHeight + c1 d * ((r + coefA * r ^ 2 + coefB * r ^ 3) - (1 + coefA + coefB)) := by
  unfold profileFn
  rw [if_neg (by linarith)]
  unfold c0
  ring

/-- At the edge of the floor the profile is at the floor depth, and inside the crater it increases outward. -/
theorem C43_interior (d : Dims) (h : d.Proper) (e : ℝ) :
    profileFn d (d.floorDiameter / d.diameter) e = e + d.floorDepth ∧
    ∀ x y, 0 ≤ x → x < y → y < 1 → profileFn d x e < profileFn d y e := by
  constructor
  · change profileFn d (flrad d) e = _
    rw [profile_in d h.flrad_lt]
    have h1 := shape_lt h.flrad_nonneg h.flrad_lt (le_refl 1)
    have h2 : flrad d - 1 + coefA * (flrad d ^ 2 - 1) + coefB * (flrad d ^ 3 - 1) ≠ 0 := by
      unfold coefA coefB at *
      intro h0
      linarith
    have h3 : c1 d * (flrad d - 1 + coefA * (flrad d ^ 2 - 1) + coefB * (flrad d ^ 3 - 1)) =
        d.floorDepth - d.rimHeight := by
      unfold c1
      exact div_mul_cancel₀ _ h2
    linarith [h3]
  · intro x y hx hxy hy
    rw [profile_in d (hxy.trans hy), profile_in d hy]
    have := mul_lt_mul_of_pos_left (shape_lt hx hxy hy.le) (c1_pos h)
    linarith

/-- The wall of a fresh crater steepens outward up to 17/24 of the radius and flattens from there to the rim: halfway between two points the
profile is below their mean nearer the centre, and above it nearer the rim. -/
theorem C43_wall (d : Dims) (h : d.Proper) (e x y : ℝ) (hx : 0 ≤ x) (hxy : x < y) :
    (y ≤ 17 / 24 → profileFn d ((x + y) / 2) e < (profileFn d x e + profileFn d y e) / 2) ∧
    (17 / 24 ≤ x → y < 1 → (profileFn d x e + profileFn d y e) / 2 < profileFn d ((x + y) / 2) e) := by
  have hc := c1_pos h
  have hd : 0 < (y - x) ^ 2 := by
    have : 0 < y - x := by linarith
    positivity
  have id1 : ∀ A B : ℝ, ((x + A * x ^ 2 + B * x ^ 3) + (y + A * y ^ 2 + B * y ^ 3)) / 2 -
      ((x + y) / 2 + A * ((x + y) / 2) ^ 2 + B * ((x + y) / 2) ^ 3) = (y - x) ^ 2 * (A / 4 + 3 * B * (x + y) / 8) := by
    intro A B; ring
  have id2 := id1 coefA coefB
  constructor
  · intro hy
    rw [profile_in d (by linarith), profile_in d (by linarith), profile_in d (by linarith)]
    have h1 : 0 < (y - x) ^ 2 * (coefA / 4 + 3 * coefB * (x + y) / 8) := by
      apply mul_pos hd
      unfold coefA coefB
      linarith
    nlinarith [mul_pos hc h1]
  · intro hx2 hy
    rw [profile_in d (by linarith), profile_in d (by linarith), profile_in d (by linarith)]
    have h1 : 0 < (y - x) ^ 2 * -(coefA / 4 + 3 * coefB * (x + y) / 8) := by
      apply mul_pos hd
      unfold coefA coefB
      linarith
    nlinarith [mul_pos hc h1]

/-- Crater profile and ejecta profile together are continuous, also across the rim, where they reach the rim
height. -/
theorem C43_continuous (d : Dims) (h : 0 < d.diameter) (e : ℝ) :
    Continuous (fun r => profileFn d (r / (d.diameter / 2)) e + ejectaFn r (d.diameter / 2) d.ejrim) ∧
    profileFn d 1 e + ejectaFn (d.diameter / 2) (d.diameter / 2) d.ejrim = e + d.rimHeight := by
  have hR : 0 < d.diameter / 2 := by linarith
  generalize hRd : d.diameter / 2 = R at *
  have hrep : (fun r => profileFn d (r / R) e + ejectaFn r R d.ejrim) = fun r : ℝ =>
      (d.rimHeight - d.ejrim) * (max (r / R) 1) ^ (-(4.20 : ℝ)) + d.ejrim * (max (r / R) 1) ^ (-(3.0 : ℝ)) +
      (e + c1 d * ((min (r / R) 1 + coefA * (min (r / R) 1) ^ 2 + coefB * (min (r / R) 1) ^ 3) -
        (1 + coefA + coefB))) := by
    funext r
    by_cases hr : R ≤ r
    · have hr1 : 1 ≤ r / R := by rw [le_div_iff₀ hR]; linarith
      unfold profileFn ejectaFn
      rw [if_pos hr1, if_pos hr, max_eq_left hr1, min_eq_right hr1]
      ring
    · have hr1 : r / R < 1 := by rw [div_lt_one hR]; linarith
      rw [profile_in d hr1]
      unfold ejectaFn
      rw [if_neg hr, max_eq_right hr1.le, min_eq_left hr1.le]
      rw [Real.one_rpow, Real.one_rpow]
      ring
  constructor
  · rw [hrep]
    have hc : Continuous fun r : ℝ => r / R := continuous_id.div_const R
    have hmax : Continuous fun r : ℝ => max (r / R) 1 := hc.max continuous_const
    have hmin : Continuous fun r : ℝ => min (r / R) 1 := hc.min continuous_const
    have hne : ∀ r : ℝ, max (r / R) 1 ≠ 0 := fun r => (lt_of_lt_of_le one_pos (le_max_right _ _)).ne'
    refine ((continuous_const.mul (hmax.rpow_const fun r => Or.inl (hne r))).add
      (continuous_const.mul (hmax.rpow_const fun r => Or.inl (hne r)))).add
      (continuous_const.add (continuous_const.mul (Continuous.sub ?_ continuous_const)))
    exact (hmin.add (continuous_const.mul (hmin.pow 2))).add (continuous_const.mul (hmin.pow 3))
  · unfold profileFn ejectaFn
    rw [if_pos (le_refl _), if_pos (le_refl _), div_self hR.ne', Real.one_rpow, Real.one_rpow]
    ring

/-- Outside, crater profile and ejecta together never lower the ground. -/
theorem C43_exterior (d : Dims) (h : 0 < d.diameter) (hr : 0 ≤ d.rimHeight) (he : 0 ≤ d.ejrim) (r e : ℝ)
    (h1 : d.diameter / 2 ≤ r) :
    e ≤ profileFn d (r / (d.diameter / 2)) e + ejectaFn r (d.diameter / 2) d.ejrim := by
  have hR : 0 < d.diameter / 2 := by linarith
  generalize d.diameter / 2 = R at *
  have hx : 1 ≤ r / R := by rw [le_div_iff₀ hR]; linarith
  unfold profileFn ejectaFn
  rw [if_pos hx, if_pos h1]
  have h3 : (r / R) ^ (-(4.20 : ℝ)) ≤ (r / R) ^ (-(3.0 : ℝ)) :=
    Real.rpow_le_rpow_of_exponent_le hx (by norm_num)
  have h4 : 0 ≤ (r / R) ^ (-(4.20 : ℝ)) := Real.rpow_nonneg (by linarith) _
  nlinarith [mul_nonneg hr h4, mul_le_mul_of_nonneg_left h3 he]

theorem sum_bounds (l : List ℝ) (a b : ℝ) (h : ∀ x ∈ l, a ≤ x ∧ x ≤ b) :
    a * l.length ≤ l.sum ∧ l.sum ≤ b * l.length := by
  induction l with
  | nil => simp
  | cons x l ih =>
    have h1 := h x (by simp)
    have h2 := ih fun y hy => h y (by simp [hy])
    simp only [List.sum_cons, List.length_cons, Nat.cast_add, Nat.cast_one]
    constructor <;> nlinarith [h1.1, h1.2, h2.1, h2.2]

/-- The mean reference lies within the reference elevations. -/
theorem meanRef_bounds (R a b : ℝ) (pts : List (ℝ × ℝ)) (h : ∀ p ∈ pts, a ≤ p.2 ∧ p.2 ≤ b) (m : ℝ)
    (hm : meanRef R pts = some m) : a ≤ m ∧ m ≤ b := by
  unfold meanRef at hm
  split_ifs at hm with h0
  · rcases ha : pts.argmin Prod.fst with _ | p
    · rw [ha] at hm; simp at hm
    · rw [ha] at hm
      simp only [Option.map_some, Option.some.injEq] at hm
      rw [← hm]
      exact h p (List.argmin_mem ha)
  · simp only [Option.some.injEq] at hm
    have hpos : (0 : ℝ) < (insideRefs R pts).length := by
      have := Nat.pos_of_ne_zero h0
      exact_mod_cast this
    have hb := sum_bounds (insideRefs R pts) a b (by
      intro x hx
      unfold insideRefs at hx
      obtain ⟨p, hp, rfl⟩ := List.mem_map.mp hx
      exact h p (List.mem_of_mem_filter hp))
    rw [← hm, le_div_iff₀ hpos, div_le_iff₀ hpos]
    exact hb

theorem meanRef_isSome (R : ℝ) (pts : List (ℝ × ℝ)) (h : pts ≠ []) : ∃ m, meanRef R pts = some m := by
  unfold meanRef
  split_ifs
  · rcases ha : pts.argmin Prod.fst with _ | p
    · rw [List.argmin_eq_none] at ha; exact absurd ha h
    · exact ⟨p.2, rfl⟩
  · exact ⟨_, rfl⟩

/-- Points inside the rim never come out lower than the floor depth below the lowest reference elevation, and
where there are points inside, than the floor depth below their mean. -/
theorem C43_floor (d : Dims) (pts : List (ℝ × ℝ)) (hne : pts ≠ []) (a b : ℝ)
    (h : ∀ p ∈ pts, a ≤ p.2 ∧ p.2 ≤ b) :
    ∃ out m, craterProfile d pts = some out ∧ out.length = pts.length ∧ a ≤ m ∧ m ≤ b ∧
    (∀ ins : List ℝ, ins = (pts.filter fun p => p.1 ≤ d.diameter / 2).map Prod.snd → ins ≠ [] →
      m * ins.length = ins.sum) ∧
    ∀ (i : ℕ) (p : ℝ × ℝ) (z : ℝ), pts[i]? = some p → out[i]? = some z → p.1 ≤ d.diameter / 2 → m + d.floorDepth ≤ z := by
  obtain ⟨m, hm⟩ := meanRef_isSome (d.diameter / 2) pts hne
  obtain ⟨h1, h2⟩ := meanRef_bounds _ a b pts h m hm
  refine ⟨pts.map (profilePoint d m), m, by simp [craterProfile, hm], by simp, h1, h2, ?_, ?_⟩
  · intro ins hins hi
    unfold meanRef at hm
    have hl : (insideRefs (d.diameter / 2) pts).length ≠ 0 := by
      unfold insideRefs
      rw [← hins]
      exact fun h0 => hi (List.length_eq_zero_iff.mp h0)
    rw [if_neg hl] at hm
    simp only [Option.some.injEq] at hm
    have e : insideRefs (d.diameter / 2) pts = ins := by rw [hins]; rfl
    rw [e] at hm hl
    rw [← hm]
    exact div_mul_cancel₀ _ (by exact_mod_cast hl)
  · intro i p z hp hz hin
    rw [List.getElem?_map, hp] at hz
    simp only [Option.map_some, Option.some.injEq] at hz
    rw [← hz]
    unfold profilePoint
    rw [if_pos hin]
    exact le_max_right _ _

/-- On level ground the floor of the crater is level, at the floor depth, and from its edge to the rim the
profile rises. -/
theorem C43_level (d : Dims) (hd : d.Proper) (e : ℝ) (rs : List ℝ) (hne : rs ≠ []) :
    ∃ out, craterProfile d (rs.map fun r => (r, e)) = some out ∧
    ∀ (i : ℕ) (r z : ℝ), rs[i]? = some r → out[i]? = some z → 0 ≤ r → r < d.diameter / 2 →
      (r ≤ d.floorDiameter / 2 → z = e + d.floorDepth) ∧
      (d.floorDiameter / 2 < r → e + d.floorDepth < z ∧ z < e + d.rimHeight) := by
  have hR : 0 < d.diameter / 2 := by linarith [hd.diameter]
  obtain ⟨m, hm⟩ := meanRef_isSome (d.diameter / 2) (rs.map fun r => (r, e)) (by simpa using hne)
  obtain ⟨h1, h2⟩ := meanRef_bounds _ e e (rs.map fun r => (r, e)) (by
    intro p hp
    obtain ⟨r, _, rfl⟩ := List.mem_map.mp hp
    exact ⟨le_refl _, le_refl _⟩) m hm
  have hme : m = e := le_antisymm h2 h1
  subst hme
  refine ⟨(rs.map fun r => (r, m)).map (profilePoint d m), by simp only [craterProfile, hm, Option.map_some], ?_⟩
  intro i r z hr hz h0 hin
  rw [List.getElem?_map, List.getElem?_map, hr] at hz
  simp only [Option.map_some, Option.some.injEq] at hz
  unfold profilePoint at hz
  simp only at hz
  rw [if_pos hin.le] at hz
  obtain ⟨hfl, hmono⟩ := C43_interior d hd m
  have hx0 : 0 ≤ r / (d.diameter / 2) := div_nonneg h0 hR.le
  have hx1 : r / (d.diameter / 2) < 1 := by rw [div_lt_one hR]; exact hin
  have hflr : d.floorDiameter / d.diameter = d.floorDiameter / 2 / (d.diameter / 2) := by
    have := hd.diameter.ne'
    field_simp
  have hfl1 : d.floorDiameter / d.diameter < 1 := hd.flrad_lt
  constructor
  · intro hle
    rw [← hz]
    apply max_eq_right
    rw [← hfl]
    rcases eq_or_lt_of_le (show r / (d.diameter / 2) ≤ d.floorDiameter / d.diameter by
      rw [hflr]; exact div_le_div_of_nonneg_right hle hR.le) with h3 | h3
    · rw [h3]
    · exact (hmono _ _ hx0 h3 hfl1).le
  · intro hlt
    have h3 : d.floorDiameter / d.diameter < r / (d.diameter / 2) := by
      rw [hflr]; exact div_lt_div_of_pos_right hlt hR
    have h4 := hmono _ _ hd.flrad_nonneg h3 hx1
    rw [show flrad d = d.floorDiameter / d.diameter from rfl, hfl] at h4
    have h5 : profileFn d (r / (d.diameter / 2)) m < m + d.rimHeight := by
      rw [profile_in d hx1]
      have := shape_lt hx0 hx1 (le_refl 1)
      have := mul_lt_mul_of_pos_left this (c1_pos hd)
      linarith
    rw [← hz, max_eq_left h4.le]
    exact ⟨h4, h5⟩

/-- The default dimensions are proper: simple craters up to 1000 km and complex craters of any size. -/
theorem C43_defaults (D : ℝ) (h0 : 0 < D) :
    (D ≤ 1e6 → (simpleDims D).Proper) ∧ (complexDims D).Proper := by
  have hk : 0 < D * 1e-3 := by positivity
  constructor
  · intro h1
    refine ⟨h0, ?_, ?_, ?_⟩
    · simp only [simpleDims]; positivity
    · simp only [simpleDims]
      have h2 : (D * 1e-3) ^ (1.143 : ℝ) = (D * 1e-3) * (D * 1e-3) ^ (0.143 : ℝ) := by
        conv_rhs => rw [← Real.rpow_one (D * 1e-3), ← Real.rpow_mul hk.le]
        rw [one_mul, ← Real.rpow_add hk]
        norm_num
      have h3 : (D * 1e-3) ^ (0.143 : ℝ) < 5 := by
        calc (D * 1e-3) ^ (0.143 : ℝ) ≤ (1000 : ℝ) ^ (0.143 : ℝ) :=
              Real.rpow_le_rpow hk.le (by linarith) (by norm_num)
          _ ≤ (1000 : ℝ) ^ ((1 : ℝ) / 5) := Real.rpow_le_rpow_of_exponent_le (by norm_num) (by norm_num)
          _ < ((5 : ℝ) ^ (5 : ℝ)) ^ ((1 : ℝ) / 5) := by
              apply Real.rpow_lt_rpow (by norm_num) _ (by norm_num)
              rw [show (5 : ℝ) ^ (5 : ℝ) = (5 : ℝ) ^ (5 : ℕ) by rw [← Real.rpow_natCast]; norm_num]
              norm_num
          _ = 5 := by
              rw [← Real.rpow_mul (by norm_num)]
              norm_num
      rw [h2]
      nlinarith
    · simp only [simpleDims]
      have h2 : 0 < (D * 1e-3) ^ (1.014 : ℝ) := Real.rpow_pos_of_pos hk _
      have h3 : 0 < (D * 1e-3) ^ (1.010 : ℝ) := Real.rpow_pos_of_pos hk _
      linarith
  · refine ⟨h0, ?_, ?_, ?_⟩
    · simp only [complexDims]; positivity
    · simp only [complexDims]
      refine lt_of_le_of_lt (min_le_right _ _) ?_
      linarith
    · simp only [complexDims]
      have h2 : 0 < (D * 1e-3) ^ (0.399 : ℝ) := Real.rpow_pos_of_pos hk _
      have h3 : 0 < (D * 1e-3) ^ (0.301 : ℝ) := Real.rpow_pos_of_pos hk _
      linarith

example : ∃ d : Dims, d.Proper ∧ 0 < d.floorDiameter ∧ d.floorDepth < 0 :=
  ⟨⟨10, -1, 4, 1, 1⟩, ⟨by norm_num, by norm_num, by norm_num, by norm_num⟩, by norm_num, by norm_num⟩

/-! ### C44 -/

/-- Ejecta is zero inside, equals the rim value at the rim, and decreases strictly outside. -/
theorem C44_profile (R ejrim : ℝ) (hR : 0 < R) (he : 0 < ejrim) :
    (∀ r < R, ejectaFn r R ejrim = 0) ∧ ejectaFn R R ejrim = ejrim ∧
    ∀ x y, R ≤ x → x < y → ejectaFn y R ejrim < ejectaFn x R ejrim ∧ 0 < ejectaFn y R ejrim := by
  refine ⟨?_, ?_, ?_⟩
  · intro r hr
    unfold ejectaFn
    rw [if_neg (by linarith)]
  · unfold ejectaFn
    rw [if_pos (le_refl _), div_self hR.ne', Real.one_rpow, mul_one]
  · intro x y hx hxy
    unfold ejectaFn
    rw [if_pos hx, if_pos (hx.trans hxy.le)]
    have h0 : 0 < x / R := by apply div_pos (by linarith) hR
    have hy0 : 0 < y / R := by apply div_pos (by linarith) hR
    constructor
    · apply mul_lt_mul_of_pos_left _ he
      exact Real.rpow_lt_rpow_of_neg h0 (div_lt_div_of_pos_right hxy hR) (by norm_num)
    · exact mul_pos he (Real.rpow_pos_of_pos hy0 _)

/-- The distance at which the ejecta is as thin as asked. -/
noncomputable def thinAt (R ejrim thin : ℝ) : ℝ := R * (ejrim / thin) ^ ((1 : ℝ) / 3)

theorem ejecta_thinAt (R ejrim thin r : ℝ) (hR : 0 < R) (he : 0 < ejrim) (ht : 0 < thin) (hr : R ≤ r) :
    (ejectaFn r R ejrim < thin ↔ thinAt R ejrim thin < r) ∧ (ejectaFn r R ejrim = thin ↔ thinAt R ejrim thin = r) := by
  unfold ejectaFn thinAt
  rw [if_pos hr]
  have hx : 0 < r / R := div_pos (by linarith) hR
  have hx3 : (r / R) ^ (-(3.0 : ℝ)) = ((r / R) ^ 3)⁻¹ := by
    rw [Real.rpow_neg hx.le]
    congr 1
    rw [show (3.0 : ℝ) = ((3 : ℕ) : ℝ) by norm_num, Real.rpow_natCast]
  have hq : 0 < ejrim / thin := div_pos he ht
  set u := (ejrim / thin) ^ ((1 : ℝ) / 3) with hu
  have hu0 : 0 < u := Real.rpow_pos_of_pos hq _
  have hu3 : u ^ 3 = ejrim / thin := by
    rw [hu, ← Real.rpow_natCast, ← Real.rpow_mul hq.le]
    norm_num
  rw [hx3]
  have h3 : 0 < (r / R) ^ 3 := by positivity
  have e1 : ejrim * ((r / R) ^ 3)⁻¹ < thin ↔ u ^ 3 < (r / R) ^ 3 := by
    rw [hu3, ← div_eq_mul_inv, div_lt_iff₀ h3, div_lt_iff₀ ht, mul_comm thin]
  have e2 : ejrim * ((r / R) ^ 3)⁻¹ = thin ↔ u ^ 3 = (r / R) ^ 3 := by
    rw [hu3, ← div_eq_mul_inv, div_eq_iff h3.ne', div_eq_iff ht.ne', mul_comm thin]
  constructor
  · rw [e1, pow_lt_pow_iff_left₀ hu0.le hx.le (by norm_num), lt_div_iff₀ hR, mul_comm]
  · rw [e2, pow_left_inj₀ hu0.le hx.le (by norm_num), eq_div_iff hR.ne', mul_comm]

/-- The extent of the ejecta, when the root finder does its work: the distance at which the ejecta reaches the
minimum thickness, but at least 1.0001 radii and at most the truncation distance (or the antipode). -/
theorem C44_extent (R ejrim thin antipode : ℝ) (truncation root : Option ℝ) (hR : 0 < R) (he : 0 < ejrim)
    (ht : 0 < thin) (upper : ℝ)
    (hup : upper = match truncation with | none => antipode | some t => if t = 0 then antipode else t * R)
    (hlu : R * 1.0001 ≤ upper)
    (hroot : ∃ x, root = some x ∧ (thin ≤ ejectaFn (R * 1.0001) R ejrim → ejectaFn upper R ejrim ≤ thin →
      R * 1.0001 ≤ x ∧ x ≤ upper ∧ ejectaFn x R ejrim = thin)) :
    rmax (fun r => ejectaFn r R ejrim - thin) R antipode truncation root =
      max (R * 1.0001) (min upper (R * (ejrim / thin) ^ ((1 : ℝ) / 3))) := by
  have hlow : R ≤ R * 1.0001 := by nlinarith
  have hupR : R ≤ upper := hlow.trans hlu
  have a1 := ejecta_thinAt R ejrim thin _ hR he ht hlow
  have a2 := ejecta_thinAt R ejrim thin upper hR he ht hupR
  change _ = max (R * 1.0001) (min upper (thinAt R ejrim thin))
  have hul : upperLimit R antipode truncation = upper := hup.symm
  unfold rmax
  simp only
  rw [hul]
  by_cases h1 : ejectaFn (R * 1.0001) R ejrim - thin < 0
  · rw [if_pos h1]
    have := a1.1.mp (by linarith)
    rw [max_eq_left ((min_le_right _ _).trans this.le)]
  · rw [if_neg h1]
    have hge : R * 1.0001 ≤ thinAt R ejrim thin := by
      by_contra hc
      exact h1 (by linarith [a1.1.mpr (by linarith)])
    by_cases h2 : ejectaFn upper R ejrim - thin > 0
    · rw [if_pos h2]
      have : upper ≤ thinAt R ejrim thin := by
        by_contra hc
        linarith [a2.1.mpr (by linarith)]
      rw [min_eq_left this, max_eq_right hlu]
    · rw [if_neg h2]
      obtain ⟨x, rfl, hx⟩ := hroot
      obtain ⟨b1, b2, b3⟩ := hx (by linarith) (by linarith)
      have := (ejecta_thinAt R ejrim thin x hR he ht (hlow.trans b1)).2.mp b3
      rw [this, min_eq_right b2, max_eq_right b1]
      rfl

/-- Beyond the extent of a blanket that is not truncated the ejecta is at most the minimum thickness. -/
theorem C44_beyond (R ejrim thin upper r : ℝ) (hR : 0 < R) (he : 0 < ejrim) (ht : 0 < thin)
    (hu : R * (ejrim / thin) ^ ((1 : ℝ) / 3) ≤ upper)
    (hr : max (R * 1.0001) (min upper (R * (ejrim / thin) ^ ((1 : ℝ) / 3))) ≤ r) :
    ejectaFn r R ejrim ≤ thin := by
  rw [min_eq_right hu] at hr
  have h1 : R ≤ r := by nlinarith [le_max_left (R * 1.0001) (R * (ejrim / thin) ^ ((1 : ℝ) / 3))]
  have h2 : thinAt R ejrim thin ≤ r := (le_max_right _ _).trans hr
  have := ejecta_thinAt R ejrim thin r hR he ht h1
  rcases eq_or_lt_of_le h2 with h | h
  · exact (this.2.mpr h).le
  · exact (this.1.mpr h).le

example : ∃ (R ejrim thin upper : ℝ) (root : Option ℝ), 0 < R ∧ 0 < ejrim ∧ 0 < thin ∧ R * 1.0001 ≤ upper ∧
    R * (ejrim / thin) ^ ((1 : ℝ) / 3) ≤ upper ∧
    ∃ x, root = some x ∧ (thin ≤ ejectaFn (R * 1.0001) R ejrim → ejectaFn upper R ejrim ≤ thin →
      R * 1.0001 ≤ x ∧ x ≤ upper ∧ ejectaFn x R ejrim = thin) := by
  have h8 : (8 : ℝ) ^ ((1 : ℝ) / 3) = 2 := by
    rw [show (8 : ℝ) = (2 : ℝ) ^ (3 : ℝ) by
      rw [show (3 : ℝ) = ((3 : ℕ) : ℝ) by norm_num, Real.rpow_natCast]; norm_num]
    rw [← Real.rpow_mul (by norm_num)]
    norm_num
  refine ⟨1, 8, 1, 10, some 2, by norm_num, by norm_num, by norm_num, by norm_num, ?_, 2, rfl, ?_⟩
  · rw [div_one, h8]; norm_num
  · intro _ _
    refine ⟨by norm_num, by norm_num, ?_⟩
    have := (ejecta_thinAt 1 8 1 2 (by norm_num) (by norm_num) (by norm_num) (by norm_num)).2
    rw [this]
    unfold thinAt
    rw [div_one, h8]
    norm_num

/-! ### C101 -/

/-- With a truncation factor of at least 1.0001 the extent of a feature is at most the factor times the
radius, provided the root finder returns a point of its bracket.  Missing: smaller factors, see below. -/
theorem C101_truncated_partial (g : ℝ → ℝ) (R antipode t : ℝ) (root : Option ℝ) (hR : 0 < R) (ht : 1.0001 ≤ t)
    (hroot : ∀ x, root = some x → x ≤ t * R) : rmax g R antipode (some t) root ≤ t * R := by
  have ht0 : t ≠ 0 := by intro h; rw [h] at ht; norm_num at ht
  unfold rmax upperLimit
  simp only [if_neg ht0]
  have h1 : R * 1.0001 ≤ t * R := by nlinarith
  split_ifs
  · exact h1
  · exact le_refl _
  · rcases root with _ | x
    · simp only [Option.getD_none]; nlinarith
    · exact hroot x rfl

/-- With any smaller factor the extent is larger than the factor times the radius if the feature is thinner than the smallest thickness
just outside the rim: it is then 1.0001 radii, whatever the factor. -/
theorem C101_small_fails (g : ℝ → ℝ) (R antipode t : ℝ) (root : Option ℝ) (hR : 0 < R) (ht : t < 1.0001)
    (hg : g (R * 1.0001) < 0) : t * R < rmax g R antipode (some t) root := by
  unfold rmax
  simp only [if_pos hg]
  nlinarith

example : ejectaFn (1 * 1.0001) 1 0.5 - 1 < 0 := by
  simp only [ejectaFn]
  rw [if_pos (by norm_num), show (1 * 1.0001 / 1 : ℝ) = 1.0001 by norm_num, Real.rpow_neg (by norm_num),
    show (3.0 : ℝ) = ((3 : ℕ) : ℝ) by norm_num, Real.rpow_natCast]
  norm_num

/-- A truncation factor of zero is taken as no truncation at all, so the blanket may reach the antipode. -/
theorem C101_zero_fails (g : ℝ → ℝ) (R antipode : ℝ) (root : Option ℝ) (h1 : 0 ≤ g (R * 1.0001))
    (h2 : 0 < g antipode) (ha : 0 < antipode) : 0 * R < rmax g R antipode (some 0) root := by
  unfold rmax upperLimit
  simp only [if_true]
  rw [if_neg (by linarith), if_pos h2]
  linarith

example : ∃ (g : ℝ → ℝ), 0 ≤ g (1 * 1.0001) ∧ 0 < g 3 :=
  ⟨fun r => ejectaFn r 1 100 - 1, by
    have := C44_profile 1 100 (by norm_num) (by norm_num)
    constructor
    · simp only [ejectaFn]
      rw [if_pos (by norm_num)]
      rw [show (1 * 1.0001 / 1 : ℝ) = 1.0001 by norm_num, Real.rpow_neg (by norm_num),
        show (3.0 : ℝ) = ((3 : ℕ) : ℝ) by norm_num, Real.rpow_natCast]
      norm_num
    · simp only [ejectaFn]
      rw [if_pos (by norm_num)]
      rw [show (3 / 1 : ℝ) = 3 by norm_num, Real.rpow_neg (by norm_num),
        show (3.0 : ℝ) = ((3 : ℕ) : ℝ) by norm_num, Real.rpow_natCast]
      norm_num⟩

/-! ### C98 -/

/-- Sum of everything applied on a face. -/
def appliedSum (s : SubPixel) (f : ℕ) : ℝ := (s.applied.map fun k => k f).sum

/-- One call: accumulate a contribution or apply what is pending. -/
inductive Call
  | compute (delta : ℕ → ℝ)
  | apply

/-- Run a sequence of calls. -/
noncomputable def runCalls (n : ℕ) (area : ℕ → ℝ) (s : SubPixel) : List Call → SubPixel
  | [] => s
  | .compute d :: cs => runCalls n area (s.compute n area d) cs
  | .apply :: cs => runCalls n area s.apply cs

/-- Sum of all contributions of a sequence of calls. -/
noncomputable def contributed (f : ℕ) : List Call → ℝ
  | [] => 0
  | .compute d :: cs => d f + contributed f cs
  | .apply :: cs => contributed f cs

theorem apply_total (s : SubPixel) (f : ℕ) :
    appliedSum s.apply f + s.apply.pending f = appliedSum s f + s.pending f := by
  simp [SubPixel.apply, appliedSum]
  ring

theorem compute_total (n : ℕ) (area : ℕ → ℝ) (s : SubPixel) (d : ℕ → ℝ) (f : ℕ) :
    appliedSum (s.compute n area d) f + (s.compute n area d).pending f = appliedSum s f + s.pending f + d f := by
  unfold SubPixel.compute
  simp only
  split_ifs
  · rw [apply_total]
    simp only [appliedSum]
    ring
  · simp only [appliedSum]
    ring

/-- Sub-pixel degradation is neither lost nor applied twice: whatever the calls, on every face what was applied
and what is pending add up to what was contributed; a final apply leaves nothing pending. -/
theorem C98_total (n : ℕ) (area : ℕ → ℝ) (cs : List Call) (f : ℕ) :
    let s := runCalls n area ⟨fun _ => 0, []⟩ cs
    appliedSum s f + s.pending f = contributed f cs ∧
    appliedSum (runCalls n area ⟨fun _ => 0, []⟩ (cs ++ [.apply])) f = contributed f cs := by
  have key : ∀ (cs : List Call) (s : SubPixel), appliedSum (runCalls n area s cs) f + (runCalls n area s cs).pending f =
      appliedSum s f + s.pending f + contributed f cs := by
    intro cs
    induction cs with
    | nil => intro s; simp [runCalls, contributed]
    | cons c cs ih =>
      intro s
      rcases c with d | _
      · simp only [runCalls, contributed]
        rw [ih, compute_total]
        ring
      · simp only [runCalls, contributed]
        rw [ih, apply_total]
  have key2 : ∀ (cs : List Call) (s : SubPixel), runCalls n area s (cs ++ [.apply]) = (runCalls n area s cs).apply := by
    intro cs
    induction cs with
    | nil => intro s; rfl
    | cons c cs ih =>
      intro s
      rcases c with d | _
      · simp only [List.cons_append, runCalls]; exact ih _
      · simp only [List.cons_append, runCalls]; exact ih _
  have h0 := key cs ⟨fun _ => 0, []⟩
  simp only [appliedSum, List.map_nil, List.sum_nil, zero_add] at h0
  constructor
  · exact h0
  · rw [key2]
    have := apply_total (runCalls n area ⟨fun _ => 0, []⟩ cs) f
    have hp : (runCalls n area ⟨fun _ => 0, []⟩ cs).apply.pending f = 0 := rfl
    rw [hp, add_zero] at this
    rw [this]
    exact h0

/-- Between calls no face holds back more degradation than its own area. -/
theorem C98_bounded (n : ℕ) (area : ℕ → ℝ) (ha : ∀ f < n, 0 < area f) (s : SubPixel) (d : ℕ → ℝ) (f : ℕ)
    (hf : f < n) : (s.compute n area d).pending f ≤ area f := by
  unfold SubPixel.compute
  simp only
  split_ifs with h
  · exact (ha f hf).le
  · push Not at h
    have := h f hf
    rw [div_le_one (ha f hf)] at this
    exact this

example : ∃ area : ℕ → ℝ, ∀ f < 3, 0 < area f := ⟨fun _ => 2, by simp⟩

/-! ### C99 -/

theorem kdmare_pos (fe : ℝ) (h : 0 < fe) : 0 < kdmare 0.5e3 fe := by
  unfold kdmare
  have : 0 < Real.pi * fe ^ (2 : ℝ) * 0.0084 * (2.0 * 2.0 / ((3.2 - 2.0) * (2.0 + 2.0 - 3.2))) := by
    have h1 := Real.pi_pos
    have h2 := Real.rpow_pos_of_pos h 2
    have h3 : (0 : ℝ) < 2.0 * 2.0 / ((3.2 - 2.0) * (2.0 + 2.0 - 3.2)) := by norm_num
    positivity
  have h1 := Real.rpow_pos_of_pos this (-(2.0 : ℝ) / (3.2 - 2.0))
  have h2 : (0 : ℝ) < (0.5e3 : ℝ) ^ ((2.0 : ℝ) * ((3.2 - 2.0) / (3.2 - 2.0))) := Real.rpow_pos_of_pos (by norm_num) _
  positivity

theorem broken_eq (x : ℝ) (hx : 0 < x) (a : ℝ) :
    smoothBroken x a 0.5e3 2.0 1.2 1.0 = a * 2 ^ (0.8 : ℝ) * ((x / 500) ^ (1.2 : ℝ) * (x / 500 / (1 + x / 500)) ^ (0.8 : ℝ)) := by
  unfold smoothBroken
  have hy : 0 < x / 500 := by positivity
  rw [show (0.5e3 : ℝ) = 500 by norm_num]
  generalize x / 500 = y at *
  have h1 : (1.0 : ℝ) / 1.0 = 1 := by norm_num
  have h2 : ((1.2 : ℝ) - 2.0) / 1.0 = -0.8 := by norm_num
  rw [h1, h2, Real.rpow_one]
  have h3 : (0.5 : ℝ) * (1.0 + y) = (1 + y) / 2 := by norm_num; ring
  rw [h3, Real.rpow_neg (by positivity), Real.div_rpow (by positivity) (by norm_num),
    Real.div_rpow hy.le (by positivity)]
  have h4 : y ^ (2.0 : ℝ) = y ^ (1.2 : ℝ) * y ^ (0.8 : ℝ) := by
    rw [← Real.rpow_add hy]; norm_num
  rw [h4]
  have h5 : (0 : ℝ) < 2 ^ (0.8 : ℝ) := Real.rpow_pos_of_pos (by norm_num) _
  have h6 : (0 : ℝ) < (1 + y) ^ (0.8 : ℝ) := Real.rpow_pos_of_pos (by positivity) _
  field_simp

/-- Every crater degrades the surface by a positive amount, and larger craters degrade it more. -/
theorem C99_degradation (fe : ℝ) (hfe : 0 < fe) (x y : ℝ) (hx : 0 < x) (hxy : x < y) :
    0 < degradation x fe ∧ degradation x fe < degradation y fe := by
  unfold degradation
  have hk : 0 < kdmare 0.5e3 fe / (1 + (2.0 - 1.2) / 2.0) ^ (2 : ℝ) := by
    apply div_pos (kdmare_pos fe hfe)
    apply Real.rpow_pos_of_pos
    norm_num
  generalize kdmare 0.5e3 fe / (1 + (2.0 - 1.2) / 2.0) ^ (2 : ℝ) = a at *
  rw [broken_eq (x / 2) (by linarith), broken_eq (y / 2) (by linarith)]
  have h5 : (0 : ℝ) < 2 ^ (0.8 : ℝ) := Real.rpow_pos_of_pos (by norm_num) _
  have hX : 0 < x / 2 / 500 := by positivity
  have hXY : x / 2 / 500 < y / 2 / 500 := by linarith
  generalize x / 2 / 500 = X at *
  generalize y / 2 / 500 = Y at *
  have hY : 0 < Y := hX.trans hXY
  have f1 : 0 < X / (1 + X) := by positivity
  have f2 : X / (1 + X) < Y / (1 + Y) := by
    rw [div_lt_div_iff₀ (by positivity) (by positivity)]
    nlinarith
  have g1 := Real.rpow_pos_of_pos hX 1.2
  have g2 := Real.rpow_pos_of_pos f1 0.8
  constructor
  · positivity
  · apply mul_lt_mul_of_pos_left _ (by positivity)
    exact mul_lt_mul'' (Real.rpow_lt_rpow hX.le hXY (by norm_num)) (Real.rpow_lt_rpow f1.le f2 (by norm_num)) g1.le g2.le

example : degradation 500 100 < degradation 1000 100 := (C99_degradation 100 (by norm_num) 500 1000 (by norm_num) (by norm_num)).2

/-- A crater of one kilometre, where the two power laws meet, degrades the surface by the value of Minton et
al. (2019), equation 32, for a radius of 500 m, divided by the square of 1.4.  Every other size follows from
this one by the square of the diameter in kilometres, which the power −0.8 weakens above one kilometre. -/
theorem C99_anchor (fe : ℝ) :
    degradation 1000 fe = 0.3 * (Real.pi * 0.035 * fe ^ 2) ^ (-(5 : ℝ) / 3) * 500 ^ 2 / 1.4 ^ 2 ∧
    ∀ x, 0 < x → degradation x fe =
      degradation 1000 fe * 2 ^ (0.8 : ℝ) * ((x / 1000) ^ 2 / (1 + x / 1000) ^ (0.8 : ℝ)) := by
  have hk : kdmare 0.5e3 fe / (1 + (2.0 - 1.2) / 2.0) ^ (2 : ℝ) =
      0.3 * (Real.pi * 0.035 * fe ^ 2) ^ (-(5 : ℝ) / 3) * 500 ^ 2 / 1.4 ^ 2 := by
    unfold kdmare
    have e1 : Real.pi * fe ^ (2 : ℝ) * 0.0084 * (2.0 * 2.0 / ((3.2 - 2.0) * (2.0 + 2.0 - 3.2))) =
        Real.pi * 0.035 * fe ^ 2 := by
      rw [Real.rpow_two]; norm_num; ring
    have e2 : (-(2.0 : ℝ) / (3.2 - 2.0)) = -(5 : ℝ) / 3 := by norm_num
    have e3 : ((2.0 : ℝ) * ((3.2 - 2.0) / (3.2 - 2.0))) = 2 := by norm_num
    have e4 : ((1 : ℝ) + (2.0 - 1.2) / 2.0) = 1.4 := by norm_num
    have e5 : (0.5e3 : ℝ) = 500 := by norm_num
    have e6 : (0.30 : ℝ) = 0.3 := by norm_num
    rw [e1, e2, e3, e4, e5, e6, Real.rpow_two, Real.rpow_two]
  have h2 : (0 : ℝ) < 2 ^ (0.8 : ℝ) := Real.rpow_pos_of_pos (by norm_num) _
  have key : degradation 1000 fe = kdmare 0.5e3 fe / (1 + (2.0 - 1.2) / 2.0) ^ (2 : ℝ) := by
    unfold degradation
    rw [broken_eq (1000 / 2) (by norm_num)]
    rw [show (1000 : ℝ) / 2 / 500 = 1 by norm_num, Real.one_rpow, show (1 : ℝ) / (1 + 1) = 1 / 2 by norm_num,
      Real.div_rpow (by norm_num) (by norm_num), Real.one_rpow]
    field_simp
  refine ⟨key.trans hk, fun x hx => ?_⟩
  rw [key]
  unfold degradation
  rw [broken_eq (x / 2) (by linarith)]
  have hy : 0 < x / 1000 := by positivity
  rw [show x / 2 / 500 = x / 1000 by ring]
  generalize x / 1000 = y at *
  rw [Real.div_rpow hy.le (by positivity)]
  have h4 : y ^ 2 = y ^ (1.2 : ℝ) * y ^ (0.8 : ℝ) := by
    rw [← Real.rpow_add hy, ← Real.rpow_two]; norm_num
  rw [h4]
  ring

/-! ### C100 -/

theorem rayWidth_pos (rm len r : ℝ) (h1 : 0 < rm) (h2 : 0 < len) (hr : 1 ≤ r) : 0 < rayWidth rm len r := by
  unfold rayWidth
  have hw : 0 < rm / len := div_pos h1 h2
  generalize rm / len = w at *
  have he0 := Real.exp_pos (1 - r ^ (1.25 : ℝ))
  have he1 : Real.exp (1 - r ^ (1.25 : ℝ)) ≤ 1 := by
    rw [Real.exp_le_one_iff]
    have := Real.one_le_rpow hr (show (0 : ℝ) ≤ 1.25 by norm_num)
    linarith
  have hpi := Real.pi_pos
  have h3 : 0 < 1 - (1 - w) * Real.exp (1 - r ^ (1.25 : ℝ)) := by nlinarith
  have : 0 < r := by linarith
  positivity

theorem rayFn_nonneg (erf : ℝ → ℝ) (herf : ∀ x, 0 < x → 0 < erf x) (vs th thr r : ℝ) (n : ℕ) (w : ℝ) (hr : 0 < r)
    (hw : 0 < w) : 0 ≤ rayFn erf vs th thr r n w := by
  unfold rayFn
  simp only
  split_ifs
  · exact le_refl _
  · exact le_refl _
  · have hc : 0 < w / r := div_pos hw hr
    have hd := herf (Real.pi / (2 * Real.sqrt 2 * (w / r))) (by have := Real.pi_pos; positivity)
    positivity

theorem rayIntensityFn_nonneg (erf : ℝ → ℝ) (herf : ∀ x, 0 < x → 0 < erf x) (vs r th rm : ℝ) (hrm : 0 < rm)
    (dirs : ℕ → ℝ) (mr : ℝ) (hmr : 0 < mr) : 0 ≤ rayIntensityFn erf vs r th rm dirs mr := by
  unfold rayIntensityFn
  split_ifs with h1 h2
  · exact le_refl _
  · exact zero_le_one
  · apply List.sum_nonneg
    intro x hx
    obtain ⟨i, _, rfl⟩ := List.mem_map.mp hx
    split_ifs
    · exact le_refl _
    · push Not at h1 h2
      apply rayFn_nonneg erf herf _ _ _ _ _ _ h1.1
      apply rayWidth_pos _ _ _ hrm _ h2
      unfold rayLength
      have := Real.exp_pos (Real.log (rm / mr) * (((5 - (i : ℝ) + 2) ^ (4 : ℝ) - 1) / ((5 : ℝ) ^ (4 : ℝ) - 1)))
      positivity

theorem rayPoint_nonneg (erf : ℝ → ℝ) (herf : ∀ x, 0 < x → 0 < erf x) (vs : ℝ) (turn : ℝ → ℝ → ℝ)
    (r th R rm : ℝ) (hR : 0 < R) (hrm : 0 < rm) (dirs rn : ℕ → ℝ) :
    0 ≤ rayPoint erf vs turn r th R rm dirs rn := by
  unfold rayPoint
  split_ifs
  · exact le_refl _
  · apply List.sum_nonneg
    intro x hx
    obtain ⟨j, _, rfl⟩ := List.mem_map.mp hx
    apply mul_nonneg
    · positivity
    · apply rayIntensityFn_nonneg erf herf _ _ _ _ hrm
      have := Real.rpow_pos_of_pos hR 0.006
      positivity

theorem outerMax_spec (lowest R : ℝ) (ps : List (ℝ × ℝ)) :
    (∀ p ∈ ps, R ≤ p.1 → p.2 ≤ outerMax lowest R ps) ∧
    ((∃ p ∈ ps, R ≤ p.1 ∧ p.2 = outerMax lowest R ps) ∨ outerMax lowest R ps = lowest) := by
  induction ps with
  | nil => simp [outerMax]
  | cons q ps ih =>
    unfold outerMax
    by_cases hq : R ≤ q.1
    · rw [if_pos hq]
      constructor
      · intro p hp hr
        rcases List.mem_cons.mp hp with rfl | hp
        · exact le_max_left _ _
        · exact (ih.1 p hp hr).trans (le_max_right _ _)
      · rcases max_choice q.2 (outerMax lowest R ps) with e | e
        · left; exact ⟨q, by simp, hq, e.symm⟩
        · rw [e]
          rcases ih.2 with ⟨p, hp, h⟩ | h
          · left; exact ⟨p, by simp [hp], h⟩
          · right; exact h
    · rw [if_neg hq]
      constructor
      · intro p hp hr
        rcases List.mem_cons.mp hp with rfl | hp
        · exact absurd hr hq
        · exact ih.1 p hp hr
      · rcases ih.2 with ⟨p, hp, h⟩ | h
        · left; exact ⟨p, by simp [hp], h⟩
        · right; exact h

/-- Ray intensities lie between zero and one and vanish inside the crater, and if any point outside is reached
by ejecta the largest is one and none is undefined. -/
theorem C100_unit_partial (erf : ℝ → ℝ) (herf : ∀ x, 0 < x → 0 < erf x) (vs lowest : ℝ) (hl : lowest < 0)
    (turn : ℝ → ℝ → ℝ) (D : ℝ) (hD : 0 < D) (dirs rn : ℕ → ℝ) (ps : List (ℝ × ℝ)) :
    (∀ x, some x ∈ rayIntensity erf vs lowest turn D dirs rn ps → 0 ≤ x ∧ x ≤ 1) ∧
    (∀ (i : ℕ) (p : ℝ × ℝ), ps[i]? = some p → p.1 < D / 2 → (rayIntensity erf vs lowest turn D dirs rn ps)[i]? = some (some 0)) ∧
    ((∃ p ∈ ps, 0 < rayPoint erf vs turn p.1 p.2 (D / 2) 100 dirs rn) →
      none ∉ rayIntensity erf vs lowest turn D dirs rn ps ∧ some 1 ∈ rayIntensity erf vs lowest turn D dirs rn ps) := by
  have hR : 0 < D / 2 := by linarith
  have hnn : ∀ p : ℝ × ℝ, 0 ≤ rayPoint erf vs turn p.1 p.2 (D / 2) 100 dirs rn := fun p =>
    rayPoint_nonneg erf herf vs turn p.1 p.2 (D / 2) 100 hR (by norm_num) dirs rn
  have hin : ∀ p : ℝ × ℝ, p.1 < D / 2 → rayPoint erf vs turn p.1 p.2 (D / 2) 100 dirs rn = 0 := by
    intro p hp
    unfold rayPoint
    rw [if_pos hp]
  unfold rayIntensity normalise
  generalize hq : (ps.map fun p => (p.1, rayPoint erf vs turn p.1 p.2 (D / 2) 100 dirs rn)) = qs
  obtain ⟨hmax, hatt⟩ := outerMax_spec lowest (D / 2) qs
  generalize outerMax lowest (D / 2) qs = M at *
  have hqs : ∀ q ∈ qs, 0 ≤ q.2 ∧ (q.1 < D / 2 → q.2 = 0) := by
    intro q hqm
    rw [← hq] at hqm
    obtain ⟨p, _, rfl⟩ := List.mem_map.mp hqm
    exact ⟨hnn p, hin p⟩
  refine ⟨?_, ?_, ?_⟩
  · intro x hx
    obtain ⟨q, hqm, hqx⟩ := List.mem_map.mp hx
    split_ifs at hqx with h1 h2
    · simp only [Option.some.injEq] at hqx
      have hle := hmax q hqm h1
      have h0 := (hqs q hqm).1
      have hM : 0 < M := lt_of_le_of_ne (h0.trans hle) (Ne.symm h2)
      rw [← hqx]
      exact ⟨div_nonneg h0 hM.le, (div_le_one hM).mpr hle⟩
    · simp only [Option.some.injEq] at hqx
      rw [← hqx, (hqs q hqm).2 (by linarith)]
      exact ⟨le_refl _, zero_le_one⟩
  · intro i p hp hlt
    rw [List.getElem?_map, ← hq, List.getElem?_map, hp]
    simp only [Option.map_some]
    rw [if_neg (by linarith), hin p hlt]
  · rintro ⟨p, hp, hpos⟩
    have hout : D / 2 ≤ p.1 := by
      by_contra h
      rw [hin p (by linarith)] at hpos
      exact lt_irrefl _ hpos
    have hmem : (p.1, rayPoint erf vs turn p.1 p.2 (D / 2) 100 dirs rn) ∈ qs := by
      rw [← hq]; exact List.mem_map.mpr ⟨p, hp, rfl⟩
    have hM : 0 < M := lt_of_lt_of_le hpos (hmax _ hmem hout)
    constructor
    · intro hn
      obtain ⟨q, hqm, hqx⟩ := List.mem_map.mp hn
      split_ifs at hqx with h1 h2
      exact hM.ne' h2
    · rcases hatt with ⟨q, hqm, h1, h2⟩ | h
      · refine List.mem_map.mpr ⟨q, hqm, ?_⟩
        rw [if_pos h1, if_neg hM.ne', h2, div_self hM.ne']
      · linarith

/-- If all points are beyond 101 crater radii, the intensities are all undefined (NaN), not zero. -/
theorem C100_far_fails (erf : ℝ → ℝ) (vs lowest : ℝ) (hl : lowest < 0) (turn : ℝ → ℝ → ℝ) (D : ℝ) (hD : 0 < D)
    (dirs rn : ℕ → ℝ) (hrn : ∀ j, rn j < 1) (ps : List (ℝ × ℝ)) (hne : ps ≠ [])
    (hfar : ∀ p ∈ ps, 101 * (D / 2) ≤ p.1) :
    ∀ x ∈ rayIntensity erf vs lowest turn D dirs rn ps, x = none := by
  have hR : 0 < D / 2 := by linarith
  have hz : ∀ p ∈ ps, rayPoint erf vs turn p.1 p.2 (D / 2) 100 dirs rn = 0 := by
    intro p hp
    unfold rayPoint
    have h1 := hfar p hp
    rw [if_neg (by nlinarith)]
    apply List.sum_eq_zero
    intro x hx
    obtain ⟨j, _, rfl⟩ := List.mem_map.mp hx
    unfold rayIntensityFn
    have : 101 ≤ p.1 / (D / 2) := by rw [le_div_iff₀ hR]; exact h1
    rw [if_pos (Or.inr (by linarith [hrn j])), mul_zero]
  unfold rayIntensity normalise
  have hM : outerMax lowest (D / 2) (ps.map fun p => (p.1, rayPoint erf vs turn p.1 p.2 (D / 2) 100 dirs rn)) = 0 := by
    obtain ⟨hmax, hatt⟩ := outerMax_spec lowest (D / 2)
      (ps.map fun p => (p.1, rayPoint erf vs turn p.1 p.2 (D / 2) 100 dirs rn))
    rcases hatt with ⟨q, hqm, h1, h2⟩ | h
    · obtain ⟨p, hp, rfl⟩ := List.mem_map.mp hqm
      rw [← h2]
      exact hz p hp
    · obtain ⟨p, hp⟩ := List.exists_mem_of_ne_nil ps hne
      have := hmax _ (List.mem_map.mpr ⟨p, hp, rfl⟩) (by have := hfar p hp; simp only; nlinarith)
      rw [h] at this
      simp only [hz p hp] at this
      linarith
  intro x hx
  obtain ⟨q, hqm, rfl⟩ := List.mem_map.mp hx
  obtain ⟨p, hp, rfl⟩ := List.mem_map.mp hqm
  rw [if_pos (by have := hfar p hp; simp only; nlinarith), if_pos hM]

theorem circular (x : ℝ) (hx : |x| ≤ 2 * Real.pi) :
    0 ≤ min (2 * Real.pi - |x|) |x| ∧ min (2 * Real.pi - |x|) |x| ≤ Real.pi ∧
    Real.cos (min (2 * Real.pi - |x|) |x|) = Real.cos x := by
  refine ⟨le_min (by linarith) (abs_nonneg x), ?_, ?_⟩
  · rcases le_total |x| Real.pi with h | h
    · exact (min_le_right _ _).trans h
    · exact (min_le_left _ _).trans (by linarith)
  · rcases min_choice (2 * Real.pi - |x|) |x| with h | h
    · rw [h, Real.cos_two_pi_sub, Real.cos_abs]
    · rw [h, Real.cos_abs]

theorem rayFn_mono (erf : ℝ → ℝ) (herf : ∀ x, 0 < x → 0 < erf x) (vs t1 t2 thr r : ℝ) (n : ℕ) (w : ℝ) (hr : 0 < r)
    (hw : 0 < w) (h1 : |t1 - thr| ≤ 2 * Real.pi) (h2 : |t2 - thr| ≤ 2 * Real.pi)
    (hc : Real.cos (t1 - thr) ≤ Real.cos (t2 - thr)) : rayFn erf vs t1 thr r n w ≤ rayFn erf vs t2 thr r n w := by
  obtain ⟨a0, a1, a2⟩ := circular _ h1
  obtain ⟨b0, b1, b2⟩ := circular _ h2
  have hn := rayFn_nonneg erf herf vs t2 thr r n w hr hw
  have hcp : 0 < w / r := div_pos hw hr
  have hd := herf (Real.pi / (2 * Real.sqrt 2 * (w / r))) (by have := Real.pi_pos; positivity)
  unfold rayFn at hn ⊢
  simp only at hn ⊢
  rw [← a2, ← b2] at hc
  generalize min (2 * Real.pi - |t1 - thr|) |t1 - thr| = d1 at *
  generalize min (2 * Real.pi - |t2 - thr|) |t2 - thr| = d2 at *
  have hle : d2 ≤ d1 := by
    by_contra hlt
    push Not at hlt
    have := Real.cos_lt_cos_of_nonneg_of_le_pi a0 b1 hlt
    linarith
  have hl : -d1 ^ 2 / (2 * (w / r) ^ 2) ≤ -d2 ^ 2 / (2 * (w / r) ^ 2) := by
    apply div_le_div_of_nonneg_right _ (by positivity)
    nlinarith
  by_cases c1 : -d1 ^ 2 / (2 * (w / r) ^ 2) < Real.log vs
  · rw [if_pos c1]; exact hn
  · have c2 : ¬ -d2 ^ 2 / (2 * (w / r) ^ 2) < Real.log vs := fun h => c1 (lt_of_le_of_lt hl h)
    rw [if_neg c1, if_neg c2]
    by_cases c3 : |erf (Real.pi / (2 * √2 * (w / r)))| ≤ vs
    · rw [if_pos c3, if_pos c3]
    · rw [if_neg c3, if_neg c3]
      apply mul_le_mul_of_nonneg_left (Real.exp_le_exp.mpr hl)
      positivity

/-- In one pattern of rays the intensity only depends on how far, around the crater, a bearing is from each ray
that reaches the distance: of two bearings at the same distance the one nearer to every such ray is at least as
bright.  In particular the intensity is the same on both sides of a ray and does not jump where bearings go
from 2π back to 0.  `cos (bearing − ray)` says how near a bearing is to a ray without choosing a branch. -/
theorem C100_around (erf : ℝ → ℝ) (herf : ∀ x, 0 < x → 0 < erf x) (vs r t1 t2 rm : ℝ) (hrm : 0 < rm) (dirs : ℕ → ℝ)
    (mr : ℝ) (hmr : 0 < mr) (h1 : 0 ≤ t1 ∧ t1 ≤ 2 * Real.pi) (h2 : 0 ≤ t2 ∧ t2 ≤ 2 * Real.pi)
    (hd : ∀ i < 5, 0 ≤ dirs i ∧ dirs i ≤ 2 * Real.pi)
    (hc : ∀ i < 5, r ≤ rayLength mr rm i → Real.cos (t1 - dirs i) ≤ Real.cos (t2 - dirs i)) :
    rayIntensityFn erf vs r t1 rm dirs mr ≤ rayIntensityFn erf vs r t2 rm dirs mr := by
  unfold rayIntensityFn
  split_ifs with c1 c2
  · exact le_refl _
  · exact le_refl _
  · push Not at c1 c2
    apply List.sum_le_sum
    intro i hi
    have hi' : i < 5 := List.mem_range.mp hi
    split_ifs with c3
    · exact le_refl _
    · push Not at c3
      obtain ⟨d0, d1⟩ := hd i hi'
      refine rayFn_mono erf herf _ _ _ _ _ _ _ c1.1 (rayWidth_pos _ _ _ hrm ?_ c2) ?_ ?_ (hc i hi' c3)
      · unfold rayLength; positivity
      · rw [abs_le]; constructor <;> linarith [h1.1, h1.2]
      · rw [abs_le]; constructor <;> linarith [h2.1, h2.2]

/-- Bearings 0 and 2π, which are the same direction, have the same intensity. -/
theorem C100_wrap (erf : ℝ → ℝ) (herf : ∀ x, 0 < x → 0 < erf x) (vs r rm : ℝ) (hrm : 0 < rm) (dirs : ℕ → ℝ)
    (mr : ℝ) (hmr : 0 < mr) (hd : ∀ i < 5, 0 ≤ dirs i ∧ dirs i ≤ 2 * Real.pi) :
    rayIntensityFn erf vs r 0 rm dirs mr = rayIntensityFn erf vs r (2 * Real.pi) rm dirs mr := by
  have hp := Real.pi_pos
  have e : ∀ x : ℝ, Real.cos (2 * Real.pi - x) = Real.cos (0 - x) := fun x => by
    rw [Real.cos_two_pi_sub, zero_sub, Real.cos_neg]
  apply le_antisymm
  · exact C100_around erf herf vs r _ _ rm hrm dirs mr hmr ⟨le_refl _, by linarith⟩ ⟨by linarith, le_refl _⟩ hd
      (fun i _ _ => (e _).ge)
  · exact C100_around erf herf vs r _ _ rm hrm dirs mr hmr ⟨by linarith, le_refl _⟩ ⟨le_refl _, by linarith⟩ hd
      (fun i _ _ => (e _).le)

example : ∃ (erf : ℝ → ℝ) (dirs : ℕ → ℝ), (∀ x, 0 < x → 0 < erf x) ∧ (∀ i < 5, 0 ≤ dirs i ∧ dirs i ≤ 2 * Real.pi) ∧
    ∀ i < 5, Real.cos (0 - dirs i) ≤ Real.cos (2 * Real.pi - dirs i) :=
  ⟨id, fun _ => Real.pi, fun x h => h, fun i _ => ⟨Real.pi_pos.le, by linarith [Real.pi_pos]⟩, fun i _ => by
    rw [Real.cos_two_pi_sub, zero_sub, Real.cos_neg]⟩

example : ∃ (erf : ℝ → ℝ) (ps : List (ℝ × ℝ)), (∀ x, 0 < x → 0 < erf x) ∧ ps ≠ [] ∧ ∀ p ∈ ps, 101 * ((2 : ℝ) / 2) ≤ p.1 :=
  ⟨id, [(200, 0)], fun x h => h, by simp, by simp; norm_num⟩

end Verif.Profile
