import Verif.Model.Noise
import Mathlib.Tactic.Linarith
import Mathlib.Tactic.FieldSimp
import Mathlib.Tactic.Positivity
import Mathlib.Tactic.Ring

/-! Property C135: the size of the noise added to a surface. -/

namespace Verif.Noise

/-- The simplex noise has values between minus one and one. -/
def Bounded {P : Type} (simplex : ℕ → P → ℝ) : Prop := ∀ i p, |simplex i p| ≤ 1

theorem geom (pers : ℝ) (n : ℕ) : ((List.range n).map fun i => 1 / 2 * pers ^ i).sum = 1 / 2 * ((List.range n).map fun i => pers ^ i).sum := by
  induction n with
  | zero => simp
  | succ n ih => rw [List.range_succ, List.map_append, List.map_append, List.sum_append, List.sum_append, ih]; simp; ring

theorem geom_nonneg (pers : ℝ) (hp : 0 ≤ pers) (n : ℕ) : 0 ≤ ((List.range n).map fun i => pers ^ i).sum := by
  apply List.sum_nonneg
  intro x hx
  obtain ⟨i, _, rfl⟩ := List.mem_map.mp hx
  positivity

theorem octaveSum_le {P : Type} (simplex : ℕ → P → ℝ) (hs : Bounded simplex) (pers : ℝ) (hp : 0 ≤ pers) (n : ℕ) (p : P) :
    |octaveSum simplex pers n p| ≤ ((List.range n).map fun i => pers ^ i).sum := by
  unfold octaveSum
  induction n with
  | zero => simp
  | succ n ih =>
    rw [List.range_succ, List.map_append, List.map_append, List.sum_append, List.sum_append]
    simp only [List.map_cons, List.map_nil, List.sum_cons, List.sum_nil, add_zero]
    have h1 := abs_add_le ((List.map (fun i => simplex i p * pers ^ i) (List.range n)).sum) (simplex n p * pers ^ n)
    have h2 : |simplex n p * pers ^ n| ≤ pers ^ n := by
      rw [abs_mul, abs_of_nonneg (by positivity : (0 : ℝ) ≤ pers ^ n)]
      have := hs n p
      have h3 : (0 : ℝ) ≤ pers ^ n := by positivity
      nlinarith
    linarith

theorem turbulence_le {P : Type} (simplex : ℕ → P → ℝ) (hs : Bounded simplex) (h pers : ℝ) (hh : 0 ≤ h) (hp : 0 ≤ pers) (n : ℕ)
    (ps : List P) : ∀ v ∈ turbulence simplex h pers n ps, |v| ≤ 2 * h := by
  intro v hv
  obtain ⟨p, _, rfl⟩ := List.mem_map.mp hv
  have h1 := octaveSum_le simplex hs pers hp n p
  have h2 := geom_nonneg pers hp n
  have hn : norm pers n = 1 / 2 + 1 / 2 * ((List.range n).map fun i => pers ^ i).sum := by rw [norm, geom]
  have hn0 : 0 < norm pers n := by rw [hn]; linarith
  rw [abs_mul, abs_of_nonneg (by positivity : 0 ≤ h / norm pers n), ← mul_div_assoc, div_le_iff₀ hn0, hn]
  nlinarith

theorem mean_le (areas noise : List ℝ) (B : ℝ) (ha : ∀ a ∈ areas, 0 < a) (hne : areas ≠ []) (hlen : areas.length ≤ noise.length)
    (hB : ∀ v ∈ noise, |v| ≤ B) : |(List.zipWith (· * ·) (noise.take areas.length) areas).sum / areas.sum| ≤ B := by
  have key : ∀ (as ns : List ℝ), (∀ a ∈ as, 0 < a) → as.length ≤ ns.length → (∀ v ∈ ns, |v| ≤ B) →
      |(List.zipWith (· * ·) (ns.take as.length) as).sum| ≤ B * as.sum := by
    intro as
    induction as with
    | nil => intro ns _ _ _; simp
    | cons a as ih =>
      intro ns ha hl hb
      cases ns with
      | nil => simp at hl
      | cons v ns =>
        simp only [List.length_cons, List.take_succ_cons, List.zipWith_cons_cons, List.sum_cons]
        have h1 := ih ns (fun x hx => ha x (List.mem_cons_of_mem _ hx)) (by simpa using hl)
          (fun x hx => hb x (List.mem_cons_of_mem _ hx))
        have h2 := abs_add_le (v * a) ((List.zipWith (· * ·) (ns.take as.length) as).sum)
        have h3 : |v * a| ≤ B * a := by
          rw [abs_mul, abs_of_pos (ha a List.mem_cons_self)]
          exact mul_le_mul_of_nonneg_right (hb v List.mem_cons_self) (ha a List.mem_cons_self).le
        linarith
  have hsum : 0 < areas.sum := List.sum_pos areas ha hne
  rw [abs_div, abs_of_pos hsum, div_le_iff₀ hsum]
  exact key areas noise ha hlen hB

/-- C135 (bound): no elevation changes by more than four times the height of the noise over the radius of the body. -/
theorem C135_bound_partial {P : Type} (simplex : ℕ → P → ℝ) (hs : Bounded simplex) (height radius : ℝ) (hh : 0 ≤ height)
    (hr : 0 < radius) (octaves : ℕ) (areas : List ℝ) (ha : ∀ a ∈ areas, 0 < a) (hne : areas ≠ []) (ps : List P)
    (hlen : areas.length ≤ ps.length) : ∀ v ∈ change simplex height radius octaves areas ps, |v| ≤ 4 * height / radius := by
  intro v hv
  obtain ⟨w, hw, rfl⟩ := List.mem_map.mp hv
  have hB := turbulence_le simplex hs (height / radius) (1 / 2) (by positivity) (by norm_num) octaves ps
  have h1 := hB w hw
  have h2 := mean_le areas (turbulence simplex (height / radius) (1 / 2) octaves ps) _ ha hne (by simpa [turbulence] using hlen) hB
  have h3 := abs_sub w ((List.zipWith (· * ·) ((turbulence simplex (height / radius) (1 / 2) octaves ps).take areas.length) areas).sum / areas.sum)
  have h4 : 4 * height / radius = 2 * (height / radius) + 2 * (height / radius) := by ring
  linarith

/-- C135 (proportion): noise of `c` times the height is `c` times the noise. -/
theorem C135_linear {P : Type} (simplex : ℕ → P → ℝ) (height radius c : ℝ) (octaves : ℕ) (areas : List ℝ) (ps : List P) :
    change simplex (c * height) radius octaves areas ps = (change simplex height radius octaves areas ps).map (c * ·) := by
  have ht : turbulence simplex (c * height / radius) (1 / 2) octaves ps =
      (turbulence simplex (height / radius) (1 / 2) octaves ps).map (c * ·) := by
    unfold turbulence
    rw [List.map_map]
    apply List.map_congr_left
    intro p _
    simp only [Function.comp]
    ring
  have hz : ∀ (ns as : List ℝ), (List.zipWith (· * ·) (ns.map (c * ·)) as).sum = c * (List.zipWith (· * ·) ns as).sum := by
    intro ns
    induction ns with
    | nil => intro as; simp
    | cons n ns ih =>
      intro as
      cases as with
      | nil => simp
      | cons a as => simp only [List.map_cons, List.zipWith_cons_cons, List.sum_cons, ih]; ring
  unfold change Verif.SurfaceData.centred
  rw [ht, ← List.map_take, hz, List.map_map, List.map_map]
  apply List.map_congr_left
  intro w _
  simp only [Function.comp]
  ring

/-- C135 (far too low): the height is divided by the radius of the body, as the coordinates are, but the noise is added to the elevations
without multiplying by the radius again.  On every body of more than four kilometres radius, noise of any height changes no elevation by
as much as a thousandth of that height; on the Moon noise of one kilometre is less than three millimetres high. -/
theorem C135_amplitude_fails {P : Type} (simplex : ℕ → P → ℝ) (hs : Bounded simplex) (height radius : ℝ) (hh : 0 < height)
    (hr : 4000 < radius) (octaves : ℕ) (areas : List ℝ) (ha : ∀ a ∈ areas, 0 < a) (hne : areas ≠ []) (ps : List P)
    (hlen : areas.length ≤ ps.length) :
    (∀ v ∈ change simplex height radius octaves areas ps, |v| < height / 1000) ∧
    (height = 1000 → 1737400 ≤ radius → ∀ v ∈ change simplex height radius octaves areas ps, |v| < 0.003) := by
  have h := C135_bound_partial simplex hs height radius hh.le (by linarith) octaves areas ha hne ps hlen
  constructor
  · intro v hv
    refine lt_of_le_of_lt (h v hv) ?_
    rw [div_lt_div_iff₀ (by linarith) (by norm_num)]
    nlinarith
  · intro he hR v hv
    refine lt_of_le_of_lt (h v hv) ?_
    rw [he, div_lt_iff₀ (by linarith)]
    nlinarith

/-- Two faces and a node, one octave: the change at the faces is as high as the height over the radius. -/
example : change (P := ℝ) (fun _ p => p) 1000 100 1 [1, 1] [1, -1, 0] = [10, -10, 0] := by
  norm_num [change, turbulence, octaveSum, norm, Verif.SurfaceData.centred, List.range_succ]

/-- Bounded noise. -/
example : Bounded (fun (_ : ℕ) (p : ℝ) => p / (1 + |p|)) := by
  intro _ p
  rw [abs_div, abs_of_pos (by positivity : 0 < 1 + |p|), div_le_one (by positivity)]
  linarith

end Verif.Noise
