import Verif.Model.ProfileCall
import Mathlib.Algebra.Order.Archimedean.Real.Basic
import Mathlib.Tactic.Linarith
import Mathlib.Tactic.Ring
import Mathlib.Tactic.FieldSimp

/-!
# Calling the profile functions: C183, C184
-/

namespace Verif.ProfileCall

open Profile

/-! ### C183: profiles of arrays -/

/-- The shape of the result: that of the argument, or one element for a number. -/
def Arg.resultShape : Arg → List ℕ
  | .scalar _ _ => [1]
  | .list _ s _ => s
  | .array a => a.shape

/-- Without reference elevations the mean reference elevation is zero, whichever points are given. -/
theorem meanRef_zero (R : ℝ) (xs : List ℝ) (h : xs ≠ []) : meanRef R (xs.zip (xs.map fun _ => (0 : ℝ))) = some 0 := by
  have hz : ∀ p ∈ xs.zip (xs.map fun _ => (0 : ℝ)), p.2 = 0 := by
    intro p hp
    have := (List.of_mem_zip hp).2
    simp only [List.mem_map] at this
    obtain ⟨_, _, e⟩ := this
    exact e.symm
  unfold meanRef
  split_ifs with h0
  · cases e : (xs.zip (xs.map fun _ => (0 : ℝ))).argmin Prod.fst with
    | none =>
      rw [List.argmin_eq_none] at e
      cases xs with
      | nil => exact absurd rfl h
      | cons a l => simp at e
    | some p => simp [hz p (List.argmin_mem e)]
  · have : (insideRefs R (xs.zip (xs.map fun _ => (0 : ℝ)))).sum = 0 := by
      apply List.sum_eq_zero
      intro x hx
      simp only [insideRefs, List.mem_map, List.mem_filter] at hx
      obtain ⟨p, ⟨hp, -⟩, rfl⟩ := hx
      exact hz p hp
    rw [this, zero_div]

theorem profile_zero (d : Dims) (xs : List ℝ) (h : xs ≠ []) :
    craterProfile d (xs.zip (xs.map fun _ => (0 : ℝ))) = some (xs.map fun x => profilePoint d 0 (x, 0)) := by
  unfold craterProfile
  rw [meanRef_zero _ _ h, Option.map_some]
  congr 1
  induction xs with
  | nil => rfl
  | cons a l ih =>
    simp only [List.map_cons, List.zip_cons_cons, List.cons.injEq, true_and]
    cases l with
    | nil => rfl
    | cons b l => exact ih (by simp)

/-- **C183** (proved part).  Without reference elevations, the crater profile of floats — a number, a list or an array of any shape, but
not empty — is an array of the same shape (one element for a number), and each element is what the function gives for that distance alone. -/
theorem C183_profile_partial (d : Dims) (r : Arg) (hk : r.raw.kind = .float) (hne : r.raw.data ≠ []) :
    ∃ out, craterProfileCall d r none = .ok out ∧ out.shape = r.resultShape ∧ out.data.length = r.raw.data.length ∧
      ∀ i (hi : i < r.raw.data.length) (ho : i < out.data.length),
        craterProfileCall d (.scalar .float r.raw.data[i]) none = .ok ⟨.float, [1], [out.data[i]]⟩ := by
  have hs : ∀ x, craterProfileCall d (.scalar .float x) none = .ok ⟨.float, [1], [profilePoint d 0 (x, 0)]⟩ := by
    intro x
    have := profile_zero d [x] (by simp)
    simp only [List.map_cons, List.map_nil] at this
    simp [craterProfileCall, Arg.prepare, Arg.raw, Arr.zerosLike] at *
    rw [this]
  have hd : r.prepare.data = r.raw.data := by cases r <;> rfl
  have hkp : r.prepare.kind = .float := by
    cases r with
    | scalar k x => rfl
    | list k s x => rfl
    | array a => exact hk
  have hsh : r.prepare.shape = r.resultShape := by cases r <;> rfl
  refine ⟨⟨.float, r.resultShape, r.raw.data.map fun x => profilePoint d 0 (x, 0)⟩, ?_, rfl, by simp, fun i hi ho => ?_⟩
  · simp only [craterProfileCall, Arr.zerosLike, hkp, hk, hd, hsh, List.length_map, ne_eq, not_true_eq_false, if_false,
      reduceCtorEq, or_self, profile_zero d _ hne]
  · rw [hs]; simp

/-- A list of three distances. -/
example (d : Dims) : ∃ out, craterProfileCall d (.list .float [3] [100, 900, 2500]) none = .ok out ∧ out.shape = [3] :=
  let ⟨out, h, hs, _⟩ := C183_profile_partial d (.list .float [3] [100, 900, 2500]) rfl (by simp [Arg.raw])
  ⟨out, h, hs⟩

/-- **C183** (proved part).  The ejecta profile of numbers and lists, of whole numbers or floats, and of arrays of floats, is an array of the
same shape (one element for a number), and each element is what the function gives for that distance alone. -/
theorem C183_ejecta_partial (d : Dims) (r : Arg) (h : ∀ a, r = .array a → a.kind = .float) :
    ∃ out, ejectaProfileCall d r = .ok out ∧ out.shape = r.resultShape ∧ out.data.length = r.raw.data.length ∧
      ∀ i (hi : i < r.raw.data.length) (ho : i < out.data.length),
        ejectaProfileCall d (.scalar .float r.raw.data[i]) = .ok ⟨.float, [1], [out.data[i]]⟩ := by
  have hd : r.prepare.data = r.raw.data := by cases r <;> rfl
  have hkp : r.prepare.kind = .float := by
    cases r with
    | scalar k x => rfl
    | list k s x => rfl
    | array a => exact h a rfl
  have hsh : r.prepare.shape = r.resultShape := by cases r <;> rfl
  refine ⟨⟨.float, r.resultShape, r.raw.data.map fun x => ejectaFn x (d.diameter / 2) d.ejrim⟩, ?_, rfl, by simp, fun i hi ho => ?_⟩
  · simp [ejectaProfileCall, hkp, hd, hsh]
  · simp [ejectaProfileCall, Arg.prepare]

/-- A list of whole numbers. -/
example (d : Dims) : ∃ out, ejectaProfileCall d (.list .int [2, 2] [1, 2, 3, 4]) = .ok out ∧ out.shape = [2, 2] :=
  let ⟨out, h, hs, _⟩ := C183_ejecta_partial d (.list .int [2, 2] [1, 2, 3, 4]) (by intro a e; cases e)
  ⟨out, h, hs⟩

/-- **C183 fails** for whole numbers: the crater profile at a distance of, say, 5000 metres raises when the distance is written without a decimal
point, as do lists of whole numbers, because the reference elevations become whole numbers too; arrays of whole numbers raise in every function. -/
theorem C183_whole_fails (d : Dims) (x : ℝ) (s : List ℕ) (xs : List ℝ) :
    craterProfileCall d (.scalar .int x) none = .error .typeError ∧
    craterProfileCall d (.list .int s xs) none = .error .typeError ∧
    (∀ ref, craterProfileCall d (.array ⟨.int, s, xs⟩) ref = .error .typeError) ∧
    ejectaProfileCall d (.array ⟨.int, s, xs⟩) = .error .typeError := by
  refine ⟨?_, ?_, fun ref => ?_, ?_⟩ <;> simp [craterProfileCall, ejectaProfileCall, Arg.prepare, Arg.raw, Arr.zerosLike]

/-- **C183** (proved part).  The ejecta with rays at one-dimensional arrays of floats: as many thicknesses and intensities as points, and each
thickness is the thickness without rays times the intensity. -/
theorem C183_rays_partial (d : Dims) (rays : List (ℝ × ℝ) → List (Option ℝ)) (hrays : ∀ l, (rays l).length = l.length) (toRadians : ℝ → ℝ)
    (xs ts : List ℝ) (h : xs.length = ts.length) :
    ∃ thick int, distributionCall d rays toRadians (.array ⟨.float, [xs.length], xs⟩) (.array ⟨.float, [ts.length], ts⟩) =
        .ok ([xs.length], thick, int) ∧
      rayIntensityCall rays toRadians (.array ⟨.float, [xs.length], xs⟩) (.array ⟨.float, [ts.length], ts⟩) = .ok ([xs.length], int) ∧
      thick.length = xs.length ∧ int.length = xs.length ∧
      ∀ i (hi : i < xs.length), ∃ t, ejectaProfileCall d (.scalar .float xs[i]) = .ok ⟨.float, [1], [t]⟩ ∧
        ∀ (h1 : i < thick.length) (h2 : i < int.length), thick[i] = int[i].map (t * ·) := by
  have hl : (rays (xs.zip (ts.map toRadians))).length = xs.length := by rw [hrays]; simp [h]
  refine ⟨List.zipWith (fun t i => i.map (t * ·)) (xs.map fun x => ejectaFn x (d.diameter / 2) d.ejrim) (rays (xs.zip (ts.map toRadians))),
    rays (xs.zip (ts.map toRadians)), ?_, ?_, ?_, hl, fun i hi => ⟨ejectaFn xs[i] (d.diameter / 2) d.ejrim, by simp [ejectaProfileCall, Arg.prepare], ?_⟩⟩
  · simp only [distributionCall, ejectaProfileCall, Arg.prepare, Arg.raw, Arg.shape?, reduceCtorEq, if_false, h, ne_eq, not_true_eq_false,
      broadcasts, List.getLast?_singleton, BEq.rfl, Bool.true_or, Bool.not_true, Bool.false_eq_true]
  · simp [rayIntensityCall, Arg.raw, Arg.shape?, h]
  · simp [hl]
  · intro h1 h2; simp

/-- Two points, with rays of intensity one half everywhere. -/
example (d : Dims) : ∃ thick int, distributionCall d (fun l => l.map fun _ => some (1 / 2)) id (.array ⟨.float, [2], [100, 200]⟩)
    (.array ⟨.float, [2], [0, 90]⟩) = .ok ([2], thick, int) ∧ thick.length = 2 :=
  let ⟨t, i, h, _, h1, _⟩ := C183_rays_partial d (fun l => l.map fun _ => some (1 / 2)) (by simp) id [100, 200] [0, 90] rfl
  ⟨t, i, h, h1⟩

/-- **C183 fails** for the functions with rays on anything but arrays: numbers, lists and tuples, which the documentation allows, raise. -/
theorem C183_list_fails (d : Dims) (rays : List (ℝ × ℝ) → List (Option ℝ)) (toRadians : ℝ → ℝ) (n : ℕ) (xs : List ℝ) (theta : Arg)
    (hn : xs.length = n) (h : theta.raw.data.length = n) :
    distributionCall d rays toRadians (.list .float [n] xs) theta = .error .attributeError ∧
    rayIntensityCall rays toRadians (.list .float [n] xs) theta = .error .attributeError := by
  have hr : (Arg.list .float [n] xs).raw = ⟨.float, [n], xs⟩ := rfl
  constructor <;> simp [distributionCall, ejectaProfileCall, rayIntensityCall, Arg.prepare, hr, Arg.shape?, broadcasts, hn, h]

example (d : Dims) : rayIntensityCall (fun _ => []) id (.list .float [2] [100, 200]) (.list .float [2] [0, 90]) = .error .attributeError :=
  (C183_list_fails d _ _ 2 _ _ rfl rfl).2

/-- **C183 fails** for the ejecta with rays on a grid of distances with more than one row and more than one column: it raises, although the
intensity alone can be computed on it. -/
theorem C183_grid_fails (d : Dims) (rays : List (ℝ × ℝ) → List (Option ℝ)) (toRadians : ℝ → ℝ) (rows cols : ℕ) (xs ts : List ℝ)
    (hr : 1 < rows) (hc : 1 < cols) (hx : xs.length = rows * cols) (ht : ts.length = rows * cols) :
    distributionCall d rays toRadians (.array ⟨.float, [rows, cols], xs⟩) (.array ⟨.float, [rows, cols], ts⟩) = .error .valueError ∧
    ∃ out, rayIntensityCall rays toRadians (.array ⟨.float, [rows, cols], xs⟩) (.array ⟨.float, [rows, cols], ts⟩) = .ok out := by
  have h1 : cols ≠ rows * cols := by
    intro e
    have : 1 * cols < rows * cols := Nat.mul_lt_mul_of_pos_right hr (by omega)
    omega
  have h2 : rows * cols ≠ 1 := by
    intro e
    have := Nat.eq_one_of_mul_eq_one_left e
    omega
  constructor
  · have hb : broadcasts [rows, cols] (rows * cols) = false := by simp [broadcasts, h1, h2]
    simp [distributionCall, ejectaProfileCall, Arg.prepare, Arg.raw, hx, ht, hb]
  · simp [rayIntensityCall, Arg.raw, Arg.shape?, hx, ht]

example (d : Dims) : distributionCall d (fun _ => []) id (.array ⟨.float, [2, 2], [1, 2, 3, 4]⟩) (.array ⟨.float, [2, 2], [0, 0, 0, 0]⟩) =
    .error .valueError := (C183_grid_fails d _ _ 2 2 _ _ (by decide) (by decide) rfl rfl).1

/-! ### C184: points asked for together -/

theorem outerMax_single (lowest R : ℝ) (p : ℝ × ℝ) (h : R ≤ p.1) (hl : lowest ≤ p.2) : outerMax lowest R [p] = p.2 := by
  simp [outerMax, h, max_eq_left hl]

/-- **C184** (proved part).  With the same random numbers, the ratio of the intensities of two points outside the crater is the same, whichever
other points are asked for with them. -/
theorem C184_ratio_partial (erf : ℝ → ℝ) (vs lowest : ℝ) (turn : ℝ → ℝ → ℝ) (D : ℝ) (dirs rn : ℕ → ℝ) (ps qs : List (ℝ × ℝ)) (p q : ℝ × ℝ)
    (hp : D / 2 ≤ p.1) (hq : D / 2 ≤ q.1) (i j k l : ℕ) (hi : ps[i]? = some p) (hj : ps[j]? = some q) (hk : qs[k]? = some p)
    (hl : qs[l]? = some q) (a b a' b' : ℝ)
    (ha : (rayIntensity erf vs lowest turn D dirs rn ps)[i]? = some (some a))
    (hb : (rayIntensity erf vs lowest turn D dirs rn ps)[j]? = some (some b))
    (ha' : (rayIntensity erf vs lowest turn D dirs rn qs)[k]? = some (some a'))
    (hb' : (rayIntensity erf vs lowest turn D dirs rn qs)[l]? = some (some b')) : a * b' = a' * b := by
  simp only [rayIntensity, normalise, List.getElem?_map, hi, hj, hk, hl, Option.map_some,
    Option.some.injEq, hp, hq, if_true] at ha hb ha' hb'
  split_ifs at ha hb ha' hb' with h0 h1
  simp only [Option.some.injEq] at ha hb ha' hb'
  rw [← ha, ← hb, ← ha', ← hb']; ring

/-- **C184 fails**: the intensity at a point depends on the points that are asked for with it.  Alone, every point outside the crater that any ray
reaches has the intensity 1. -/
theorem C184_alone_fails (erf : ℝ → ℝ) (vs lowest : ℝ) (turn : ℝ → ℝ → ℝ) (D : ℝ) (dirs rn : ℕ → ℝ) (p : ℝ × ℝ) (ho : D / 2 ≤ p.1)
    (hl : lowest ≤ 0) (h : 0 < rayPoint erf vs turn p.1 p.2 (D / 2) 100 dirs rn) :
    rayIntensity erf vs lowest turn D dirs rn [p] = [some 1] := by
  have hm := outerMax_single lowest (D / 2) (p.1, rayPoint erf vs turn p.1 p.2 (D / 2) 100 dirs rn) ho (by dsimp only; linarith)
  simp only [rayIntensity, normalise, List.map_cons, List.map_nil, hm, ho, if_true, h.ne', if_false, div_self h.ne']

/-- On the rim, with a random number of one half in each of the patterns, the intensity is positive. -/
theorem rim_positive (erf : ℝ → ℝ) (vs : ℝ) (turn : ℝ → ℝ → ℝ) (dirs : ℕ → ℝ) (theta : ℝ) :
    0 < rayPoint erf vs turn 1 theta (2 / 2) 100 dirs (fun _ => 1 / 2) := by
  have h : ∀ t m, rayIntensityFn erf vs (1 / (2 / 2) - 1 / 2) t 100 dirs m = 1 := by
    intro t m
    unfold rayIntensityFn
    rw [if_neg (by norm_num), if_pos (by norm_num)]
  unfold rayPoint
  rw [if_neg (by norm_num)]
  simp only [h, mul_one]
  apply List.sum_pos
  · intro x hx
    simp only [List.mem_map] at hx
    obtain ⟨j, -, rfl⟩ := hx
    positivity
  · simp

/-- More than a hundred radii away no ray reaches a point. -/
theorem far_zero (erf : ℝ → ℝ) (vs : ℝ) (turn : ℝ → ℝ → ℝ) (dirs : ℕ → ℝ) (theta : ℝ) :
    rayPoint erf vs turn 102 theta (2 / 2) 100 dirs (fun _ => 1 / 2) = 0 := by
  have h : ∀ t m, rayIntensityFn erf vs (102 / (2 / 2) - 1 / 2) t 100 dirs m = 0 := by
    intro t m
    unfold rayIntensityFn
    rw [if_pos (by right; norm_num)]
  unfold rayPoint
  rw [if_neg (by norm_num)]
  simp only [h, mul_zero]
  apply List.sum_eq_zero
  intro x hx
  simp only [List.mem_map] at hx
  obtain ⟨j, -, rfl⟩ := hx
  rfl

example (erf : ℝ → ℝ) (turn : ℝ → ℝ → ℝ) (dirs : ℕ → ℝ) :
    rayIntensity erf 1e-300 (-1e300) turn 2 dirs (fun _ => 1 / 2) [(1, 0)] = [some 1] :=
  C184_alone_fails _ _ _ _ _ _ _ _ (by norm_num) (by norm_num) (rim_positive _ _ _ _ _)

/-- **C184 fails**: a point that no ray reaches has intensity 0 if some point with a ray is asked for with it, and is not a number alone.
A point on the rim and a point 102 radii away, with the same random numbers. -/
theorem C184_far_fails (erf : ℝ → ℝ) (vs lowest : ℝ) (hl : lowest ≤ 0) (turn : ℝ → ℝ → ℝ) (dirs : ℕ → ℝ) (t1 t2 : ℝ) :
    rayIntensity erf vs lowest turn 2 dirs (fun _ => 1 / 2) [(102, t2)] = [none] ∧
    rayIntensity erf vs lowest turn 2 dirs (fun _ => 1 / 2) [(1, t1), (102, t2)] = [some 1, some 0] := by
  have h1 := rim_positive erf vs turn dirs t1
  have h2 := far_zero erf vs turn dirs t2
  constructor
  · have hm := outerMax_single lowest (2 / 2) (102, 0) (by norm_num) hl
    simp only [rayIntensity, normalise, List.map_cons, List.map_nil, h2, hm]
    norm_num
  · have hm : outerMax lowest (2 / 2) [(1, rayPoint erf vs turn 1 t1 (2 / 2) 100 dirs (fun _ => 1 / 2)), (102, 0)] =
        rayPoint erf vs turn 1 t1 (2 / 2) 100 dirs (fun _ => 1 / 2) := by
      have e1 : (2 / 2 : ℝ) ≤ 1 := by norm_num
      have e2 : (2 / 2 : ℝ) ≤ 102 := by norm_num
      simp only [outerMax, e1, e2, if_true]
      rw [max_eq_left hl, max_eq_left h1.le]
    simp only [rayIntensity, normalise, List.map_cons, List.map_nil, h2, hm, h1.ne', if_false, div_self h1.ne', zero_div]
    norm_num

/-- The two points asked for in both orders: the ratio is the same. -/
example (erf : ℝ → ℝ) (turn : ℝ → ℝ → ℝ) (dirs : ℕ → ℝ) (a' b' : ℝ)
    (ha' : (rayIntensity erf 1e-300 (-1e300) turn 2 dirs (fun _ => 1 / 2) [(102, 5), (1, 0)])[1]? = some (some a'))
    (hb' : (rayIntensity erf 1e-300 (-1e300) turn 2 dirs (fun _ => 1 / 2) [(102, 5), (1, 0)])[0]? = some (some b')) : 1 * b' = a' * 0 := by
  have h := (C184_far_fails erf 1e-300 (-1e300) (by norm_num) turn dirs 0 5).2
  exact C184_ratio_partial erf 1e-300 (-1e300) turn 2 dirs (fun _ => 1 / 2) [(1, 0), (102, 5)] [(102, 5), (1, 0)] (1, 0) (102, 5)
    (by norm_num) (by norm_num) 0 1 1 0 rfl rfl rfl rfl 1 0 a' b' (by rw [h]; rfl) (by rw [h]; rfl) ha' hb'

end Verif.ProfileCall
