import Verif.Props.Points
import Mathlib.Analysis.SpecialFunctions.Complex.Arg

/-! Property C218: nothing depends on the choice of the prime meridian, and a mirrored surface behaves as the mirror image. -/

namespace Verif.Points

open Location Sphere Real

/-! ### Specification -/

/-- A change of coordinates of a sphere in degrees: longitudes times `σ` plus `δ`, latitudes times `τ`. -/
structure Change where
  σ : ℝ
  δ : ℝ
  τ : ℝ

/-- Where a point lies in the changed coordinates. -/
def Change.pt (c : Change) (p : ℝ × ℝ) : ℝ × ℝ := (c.σ * p.1 + c.δ, c.τ * p.2)

/-- Another prime meridian. -/
def shift (d : ℝ) : Change := ⟨1, d, 1⟩

/-- North and south exchanged. -/
def flipNS : Change := ⟨1, 0, -1⟩

/-- East and west exchanged. -/
def flipEW : Change := ⟨-1, 0, 1⟩

/-- A row of numbers that begins with longitude and latitude. -/
def Change.row (c : Change) : List ℝ → List ℝ
  | x :: y :: r => (c.σ * x + c.δ) :: (c.τ * y) :: r
  | r => r

/-- Locations in any of the accepted shapes. -/
def Change.arg (c : Change) : LocArg → LocArg
  | .flat xs => .flat (c.row xs)
  | .rows rs => .rows (rs.map c.row)
  | .array2 rs => .array2 (rs.map c.pt)
  | .dict a b => .dict (a.map fun x => c.σ * x + c.δ) (b.map fun y => c.τ * y)

/-! ### Proofs -/

/-- The changes treated. -/
structure Change.Ok (c : Change) : Prop where
  hs : c.σ = 1 ∨ c.σ = -1
  ht : c.τ = 1 ∨ c.τ = -1

/-- `q` is `p` after the change, up to full turns. -/
def Change.Rel (c : Change) (p q : ℝ × ℝ) : Prop := ∃ k : ℤ, q = (c.σ * p.1 + c.δ + 360 * k, c.τ * p.2)

theorem pymod_turn (x : ℝ) (k : ℤ) : pymod (x + 360 * k) 360 = pymod x 360 := by
  unfold pymod
  rw [show (x + 360 * k) / 360 = x / 360 + k by field_simp, Int.floor_add_intCast]
  push_cast
  ring

theorem pymod_turns (x : ℝ) : ∃ k : ℤ, pymod x 360 = x + 360 * k := ⟨-⌊x / 360⌋, by unfold pymod; push_cast; ring⟩

theorem clip_sign {t : ℝ} (ht : t = 1 ∨ t = -1) (y : ℝ) : clip (t * y) (-90) 90 = t * clip y (-90) 90 := by
  rcases ht with rfl | rfl
  · simp
  · unfold clip
    rw [neg_one_mul, neg_one_mul]
    rcases le_total y (-90) with h | h
    · have a : max (-y) (-90) = -y := max_eq_left (by linarith)
      have b : min (-y) 90 = 90 := min_eq_right (by linarith)
      have d : min (-90 : ℝ) 90 = -90 := min_eq_left (by norm_num)
      rw [max_eq_right h, a, b, d]; norm_num
    · rw [max_eq_left h]
      rcases le_total y 90 with h' | h'
      · rw [min_eq_left h', max_eq_left (by linarith), min_eq_left (by linarith)]
      · rw [min_eq_right h', max_eq_right (by linarith), min_eq_left (by norm_num)]

theorem norm_cases (p : ℝ × ℝ) : (∃ k : ℤ, normalizeCoords p = (p.1 + 360 * k, clip p.2 (-90) 90) ∧ -90 ≤ p.2 ∧ p.2 ≤ 90) ∨
    (normalizeCoords p = (p.1 - 180, clip (180 - p.2) (-90) 90) ∧ 90 < p.2) ∨
    (normalizeCoords p = (p.1 - 180, clip (-180 - p.2) (-90) 90) ∧ p.2 < -90) := by
  unfold normalizeCoords
  dsimp only
  by_cases h1 : p.2 > 90
  · rw [if_pos h1]
    exact .inr (.inl ⟨rfl, h1⟩)
  · rw [if_neg h1]
    by_cases h2 : p.2 < -90
    · rw [if_pos h2]
      exact .inr (.inr ⟨rfl, h2⟩)
    · rw [if_neg h2]
      obtain ⟨k, hk⟩ := pymod_turns (p.1 + 180)
      refine .inl ⟨k, ?_, not_lt.mp h2, not_lt.mp h1⟩
      rw [hk]
      congr 1
      ring

theorem norm_rel (c : Change) (hc : c.Ok) (p : ℝ × ℝ) : c.Rel (normalizeCoords p) (normalizeCoords (c.pt p)) := by
  have hs2 : ∃ j : ℤ, c.σ * 180 = 180 + 360 * j := by
    rcases hc.hs with h | h
    · exact ⟨0, by rw [h]; norm_num⟩
    · exact ⟨-1, by rw [h]; norm_num⟩
  obtain ⟨j, hj⟩ := hs2
  have hsk : ∀ k : ℤ, ∃ i : ℤ, c.σ * k = i := by
    intro k
    rcases hc.hs with h | h
    · exact ⟨k, by rw [h, one_mul]⟩
    · exact ⟨-k, by rw [h]; push_cast; ring⟩
  have hrng : ∀ y, -90 ≤ c.τ * y → c.τ * y ≤ 90 → ¬ (90 < y) ∧ ¬ (y < -90) := by
    intro y h1 h2
    rcases hc.ht with h | h <;> rw [h] at h1 h2 <;> constructor <;> intro h3 <;> linarith
  rcases norm_cases p with ⟨k, h, h1, h2⟩ | ⟨h, h1⟩ | ⟨h, h1⟩
  · rcases norm_cases (c.pt p) with ⟨i, e, _, _⟩ | ⟨_, e⟩ | ⟨_, e⟩
    · obtain ⟨l, hl⟩ := hsk k
      refine ⟨i - l, ?_⟩
      rw [h, e]
      simp only [Change.pt, clip_sign hc.ht]
      rw [Prod.mk.injEq]
      refine ⟨?_, rfl⟩
      push_cast
      rw [← hl]
      ring
    · exfalso
      simp only [Change.pt] at e
      rcases hc.ht with h' | h' <;> rw [h'] at e <;> linarith
    · exfalso
      simp only [Change.pt] at e
      rcases hc.ht with h' | h' <;> rw [h'] at e <;> linarith
  · rcases norm_cases (c.pt p) with ⟨i, e, e1, e2⟩ | ⟨e, e1⟩ | ⟨e, e1⟩
    · exact absurd h1 (hrng _ e1 e2).1
    · have ht : c.τ = 1 := by
        rcases hc.ht with h' | h'
        · exact h'
        · simp only [Change.pt, h'] at e1; linarith
      refine ⟨j, ?_⟩
      rw [h, e]
      simp only [Change.pt, ht, one_mul]
      rw [Prod.mk.injEq]
      exact ⟨by linarith, rfl⟩
    · have ht : c.τ = -1 := by
        rcases hc.ht with h' | h'
        · simp only [Change.pt, h'] at e1; linarith
        · exact h'
      refine ⟨j, ?_⟩
      rw [h, e]
      simp only [Change.pt]
      rw [Prod.mk.injEq, ← clip_sign hc.ht]
      refine ⟨by linarith, ?_⟩
      congr 1
      rw [ht]; ring
  · rcases norm_cases (c.pt p) with ⟨i, e, e1, e2⟩ | ⟨e, e1⟩ | ⟨e, e1⟩
    · exact absurd h1 (hrng _ e1 e2).2
    · have ht : c.τ = -1 := by
        rcases hc.ht with h' | h'
        · simp only [Change.pt, h'] at e1; linarith
        · exact h'
      refine ⟨j, ?_⟩
      rw [h, e]
      simp only [Change.pt]
      rw [Prod.mk.injEq, ← clip_sign hc.ht]
      refine ⟨by linarith, ?_⟩
      congr 1
      rw [ht]; ring
    · have ht : c.τ = 1 := by
        rcases hc.ht with h' | h'
        · exact h'
        · simp only [Change.pt, h'] at e1; linarith
      refine ⟨j, ?_⟩
      rw [h, e]
      simp only [Change.pt, ht, one_mul]
      rw [Prod.mk.injEq]
      exact ⟨by linarith, rfl⟩

/-- Results that belong together. -/
def Change.RelRes (c : Change) : Except Err LocRes → Except Err LocRes → Prop
  | .error e, .error e' => e = e'
  | .ok (.one p), .ok (.one q) => c.Rel p q
  | .ok (.many ps), .ok (.many qs) => List.Forall₂ c.Rel ps qs
  | _, _ => False

/-- Single results that belong together. -/
def Change.RelOne (c : Change) : Except Err (ℝ × ℝ) → Except Err (ℝ × ℝ) → Prop
  | .error e, .error e' => e = e'
  | .ok p, .ok q => c.Rel p q
  | _, _ => False

/-- Lists that belong together. -/
def Change.RelMany (c : Change) : Except Err (List (ℝ × ℝ)) → Except Err (List (ℝ × ℝ)) → Prop
  | .error e, .error e' => e = e'
  | .ok ps, .ok qs => List.Forall₂ c.Rel ps qs
  | _, _ => False

theorem flat_rel (c : Change) (hc : c.Ok) (xs : List ℝ) : c.RelOne (validateFlat xs) (validateFlat (c.row xs)) := by
  match xs with
  | [] => exact rfl
  | [_] => exact rfl
  | [x, y] => exact norm_rel c hc (x, y)
  | _ :: _ :: _ :: _ => exact rfl

theorem row_length (c : Change) (xs : List ℝ) : (c.row xs).length = xs.length := by
  match xs with
  | [] => rfl
  | [_] => rfl
  | _ :: _ :: _ => rfl

theorem all_rel (c : Change) (hc : c.Ok) (rs : List (List ℝ)) : c.RelMany (validateAll rs) (validateAll (rs.map c.row)) := by
  induction rs with
  | nil => exact List.Forall₂.nil
  | cons r rs ih =>
    have h := flat_rel c hc r
    simp only [List.map_cons, validateAll]
    rcases e1 : validateFlat r with a | a <;> rcases e2 : validateFlat (c.row r) with b | b <;> rw [e1, e2] at h
    · exact h
    · exact h.elim
    · exact h.elim
    · rcases e3 : validateAll rs with u | u <;> rcases e4 : validateAll (rs.map c.row) with v | v <;> rw [e3, e4] at ih
      · exact ih
      · exact ih.elim
      · exact ih.elim
      · exact List.Forall₂.cons h ih

theorem one_rel (c : Change) {a b : Except Err (ℝ × ℝ)} (h : c.RelOne a b) : c.RelRes (a.map .one) (b.map .one) := by
  rcases a with a | a <;> rcases b with b | b <;> exact h

theorem many_rel (c : Change) {a b : Except Err (List (ℝ × ℝ))} (h : c.RelMany a b) : c.RelRes (a.map .many) (b.map .many) := by
  rcases a with a | a <;> rcases b with b | b <;> exact h

theorem list_rel (c : Change) (hc : c.Ok) (ps : List (ℝ × ℝ)) :
    List.Forall₂ c.Rel (ps.map normalizeCoords) ((ps.map c.pt).map normalizeCoords) := by
  induction ps with
  | nil => exact List.Forall₂.nil
  | cons p ps ih => exact List.Forall₂.cons (norm_rel c hc p) ih

theorem validate_rel (c : Change) (hc : c.Ok) (a : LocArg) : c.RelRes (validateLocation a) (validateLocation (c.arg a)) := by
  cases a with
  | flat xs => exact one_rel c (flat_rel c hc xs)
  | rows rs =>
    match rs with
    | [] => exact rfl
    | [r] =>
      simp only [Change.arg, List.map_cons, List.map_nil, validateLocation, row_length]
      by_cases h : r.length = 2
      · rw [if_pos h, if_pos h]
        exact one_rel c (flat_rel c hc r)
      · rw [if_neg h, if_neg h]
        exact rfl
    | [_, _] => exact rfl
    | r :: s :: t :: rest =>
      simp only [Change.arg, List.map_cons, validateLocation, row_length, reduceCtorEq, if_false]
      by_cases h : r.length = 2
      · rw [if_pos h, if_pos h]
        exact many_rel c (all_rel c hc (r :: s :: t :: rest))
      · rw [if_neg h, if_neg h]
        exact rfl
  | array2 rs =>
    match rs with
    | [] => exact rfl
    | [p] => exact norm_rel c hc p
    | p :: q :: ps => exact list_rel c hc (p :: q :: ps)
  | dict a b =>
    rcases a with _ | a <;> rcases b with _ | b
    · exact rfl
    · exact rfl
    · exact rfl
    · exact norm_rel c hc (a, b)

theorem reference_rel (c : Change) (hc : c.Ok) (centre : Option (ℝ × ℝ)) (ref : Option LocArg) :
    c.RelOne (reference centre ref) (reference (centre.map c.pt) (ref.map c.arg)) := by
  rcases ref with _ | a
  · rcases centre with _ | p
    · exact rfl
    · exact norm_rel c hc p
  · have h := validate_rel c hc a
    simp only [Option.map_some, reference]
    rcases e1 : validateLocation a with x | (x | x) <;> rcases e2 : validateLocation (c.arg a) with y | (y | y) <;> rw [e1, e2] at h
    all_goals first | exact h | exact h.elim | exact rfl

theorem rad_rel (c : Change) {p q : ℝ × ℝ} (h : c.Rel p q) : ∃ k : ℤ, rad q.1 = c.σ * rad p.1 + rad c.δ + k * (2 * π) ∧ rad q.2 = c.τ * rad p.2 := by
  obtain ⟨k, rfl⟩ := h
  exact ⟨k, by unfold rad; ring, by unfold rad; ring⟩

theorem cos_sign {t : ℝ} (ht : t = 1 ∨ t = -1) (x : ℝ) : cos (t * x) = cos x := by
  rcases ht with rfl | rfl
  · rw [one_mul]
  · rw [neg_one_mul, cos_neg]

theorem sin_sign {t : ℝ} (ht : t = 1 ∨ t = -1) (x : ℝ) : sin (t * x) = t * sin x := by
  rcases ht with rfl | rfl
  · rw [one_mul, one_mul]
  · rw [neg_one_mul, sin_neg, neg_one_mul]

theorem sq_sign {t : ℝ} (ht : t = 1 ∨ t = -1) : t * t = 1 := by
  rcases ht with rfl | rfl <;> norm_num

theorem dlon_rel (c : Change) {p q p' q' : ℝ × ℝ} (h : c.Rel p p') (h' : c.Rel q q') :
    ∃ k : ℤ, rad q'.1 - rad p'.1 = c.σ * (rad q.1 - rad p.1) + k * (2 * π) := by
  obtain ⟨i, hi, _⟩ := rad_rel c h
  obtain ⟨j, hj, _⟩ := rad_rel c h'
  exact ⟨j - i, by rw [hi, hj]; push_cast; ring⟩

theorem distance_rel (c : Change) (hc : c.Ok) (R : ℝ) {p q p' q' : ℝ × ℝ} (h : c.Rel p p') (h' : c.Rel q q') :
    distance (rad p'.1) (rad p'.2) (rad q'.1) (rad q'.2) R = distance (rad p.1) (rad p.2) (rad q.1) (rad q.2) R := by
  rw [C41_great_circle, C41_great_circle]
  unfold InnerProductGeometry.angle
  simp only [norm_unit]
  congr 3
  rw [inner_unit, inner_unit]
  obtain ⟨k, hk⟩ := dlon_rel c h h'
  obtain ⟨_, _, e1⟩ := rad_rel c h
  obtain ⟨_, _, e2⟩ := rad_rel c h'
  rw [hk, e1, e2, cos_add_int_mul_two_pi, cos_sign hc.hs, cos_sign hc.ht, cos_sign hc.ht, sin_sign hc.ht, sin_sign hc.ht]
  have := sq_sign hc.ht
  linear_combination (sin (rad p.2) * sin (rad q.2)) * this

theorem distances_rel (c : Change) (hc : c.Ok) (R : ℝ) {p p' : ℝ × ℝ} (h : c.Rel p p') {l l' : List (ℝ × ℝ)} (hl : List.Forall₂ c.Rel l l') :
    (l'.map fun q => distance (rad p'.1) (rad p'.2) (rad q.1) (rad q.2) R) = l.map fun q => distance (rad p.1) (rad p.2) (rad q.1) (rad q.2) R := by
  induction hl with
  | nil => rfl
  | cons h1 _ ih => rw [List.map_cons, List.map_cons, ih, distance_rel c hc R h h1]

theorem none_iff {α β : Type} (f : α → β) (o : Option α) : o.map f = none ↔ o = none := Option.map_eq_none_iff

theorem compute_distances_rel (c : Change) (hc : c.Ok) (R : ℝ) (centre : Option (ℝ × ℝ)) (locations : LocArg) (ref : Option LocArg) :
    computeDistances R (centre.map c.pt) (c.arg locations) (ref.map c.arg) = computeDistances R centre locations ref := by
  unfold computeDistances
  have hn' : (ref.map c.arg = none ∧ centre.map c.pt = none) ↔ (ref = none ∧ centre = none) := by rw [none_iff, none_iff]
  by_cases hn : ref = none ∧ centre = none
  · rw [if_pos hn, if_pos (hn'.mpr hn)]
  rw [if_neg hn, if_neg (fun h => hn (hn'.mp h))]
  have h := validate_rel c hc locations
  have hr := reference_rel c hc centre ref
  rcases e1 : validateLocation locations with x | x <;> rcases e2 : validateLocation (c.arg locations) with y | y <;> rw [e1, e2] at h
  · exact congrArg _ (Eq.symm h)
  · rcases y with y | y <;> exact h.elim
  · rcases x with x | x <;> exact h.elim
  · rcases e3 : reference centre ref with u | u <;> rcases e4 : reference (centre.map c.pt) (ref.map c.arg) with v | v <;> rw [e3, e4] at hr
    · exact congrArg _ (Eq.symm hr)
    · exact hr.elim
    · exact hr.elim
    · have hl : List.Forall₂ c.Rel (LocRes.list x) (LocRes.list y) := by
        rcases x with x | x <;> rcases y with y | y
        · exact List.Forall₂.cons h List.Forall₂.nil
        · exact h.elim
        · exact h.elim
        · exact h
      exact congrArg Except.ok (distances_rel c hc R hr hl)

theorem rows_rel (c : Change) (a : LocArg) : asRows (c.arg a) = (asRows a).map fun l => l.map c.pt := by
  cases a with
  | flat xs =>
    match xs with
    | [] => rfl
    | [_] => rfl
    | [_, _] => rfl
    | _ :: _ :: _ :: _ => rfl
  | rows rs =>
    match rs with
    | [] => rfl
    | r :: rs =>
      simp only [Change.arg, List.map_cons, asRows, List.all_map, Function.comp_def, row_length]
      by_cases h1 : (rs.all fun s => decide (s.length = r.length)) = true
      · rw [if_pos h1, if_pos h1]
        by_cases h2 : 2 ≤ r.length
        · rw [if_pos h2, if_pos h2]
          simp only [Except.map, Except.ok.injEq, List.map_cons, List.map_map]
          have key : ∀ s : List ℝ, 2 ≤ s.length → ((c.row s).getD 0 0, (c.row s).getD 1 0) = c.pt (s.getD 0 0, s.getD 1 0) := by
            intro s hs
            match s with
            | [] => simp at hs
            | [_] => simp at hs
            | _ :: _ :: _ => rfl
          rw [key r h2]
          congr 1
          apply List.map_congr_left
          intro s hs
          have : s.length = r.length := by
            have := List.all_eq_true.mp h1 s hs
            simpa using this
          exact key s (by omega)
        · rw [if_neg h2, if_neg h2]; rfl
      · rw [if_neg h1, if_neg h1]; rfl
  | array2 rs => rfl
  | dict a b => rfl

/-! ### Bearings -/

/-- Easting and northing of the direction from one point to another. -/
noncomputable def east (p q : ℝ × ℝ) : ℝ := sin (rad q.1 - rad p.1) * cos (rad q.2)
noncomputable def north (p q : ℝ × ℝ) : ℝ := cos (rad p.2) * sin (rad q.2) - sin (rad p.2) * cos (rad q.2) * cos (rad q.1 - rad p.1)

theorem bearing_angle (p q : ℝ × ℝ) : bearing (rad p.1) (rad p.2) (rad q.1) (rad q.2) = positiveMod (atan2 (east p q) (north p q)) (2 * π) := by
  unfold bearing oneBearing east north
  simp only
  rw [sin_wrap, cos_wrap]

theorem east_rel (c : Change) (hc : c.Ok) {p q p' q' : ℝ × ℝ} (h : c.Rel p p') (h' : c.Rel q q') :
    east p' q' = c.σ * east p q ∧ north p' q' = c.τ * north p q := by
  obtain ⟨k, hk⟩ := dlon_rel c h h'
  obtain ⟨_, _, e1⟩ := rad_rel c h
  obtain ⟨_, _, e2⟩ := rad_rel c h'
  unfold east north
  rw [hk, e1, e2, cos_add_int_mul_two_pi, sin_add_int_mul_two_pi, cos_sign hc.hs, cos_sign hc.ht, cos_sign hc.ht, sin_sign hc.ht,
    sin_sign hc.ht, sin_sign hc.hs]
  constructor <;> ring

theorem positiveMod_congr {x y : ℝ} (k : ℤ) (h : x = y + 2 * π * k) : positiveMod x (2 * π) = positiveMod y (2 * π) := by
  have hp : (0 : ℝ) < 2 * π := by positivity
  obtain ⟨a1, a2, i, hi⟩ := positiveMod_spec x (2 * π) hp
  obtain ⟨b1, b2, j, hj⟩ := positiveMod_spec y (2 * π) hp
  have e : positiveMod x (2 * π) - positiveMod y (2 * π) = 2 * π * ((k + i - j : ℤ) : ℝ) := by
    rw [hi, hj, h]; push_cast; ring
  have h1 : (-1 : ℝ) < ((k + i - j : ℤ) : ℝ) := by
    by_contra hc
    have := mul_le_mul_of_nonneg_left (not_lt.mp hc) hp.le
    linarith
  have h2 : ((k + i - j : ℤ) : ℝ) < 1 := by
    by_contra hc
    have := mul_le_mul_of_nonneg_left (not_lt.mp hc) hp.le
    linarith
  have h0 : k + i - j = 0 := by
    have h1 : (-1 : ℤ) < k + i - j := by exact_mod_cast h1
    have h2 : k + i - j < (1 : ℤ) := by exact_mod_cast h2
    omega
  rw [h0] at e
  simp at e
  linarith

theorem atan2_flip (y x : ℝ) : ∃ k : ℤ, atan2 (-y) x = -atan2 y x + 2 * π * k := by
  have h := Complex.arg_conj_coe_angle ⟨x, y⟩
  rw [← Real.Angle.coe_neg, Real.Angle.angle_eq_iff_two_pi_dvd_sub] at h
  obtain ⟨k, hk⟩ := h
  refine ⟨k, ?_⟩
  have e : (starRingEnd ℂ) ⟨x, y⟩ = ⟨x, -y⟩ := rfl
  rw [e] at hk
  unfold atan2
  linarith

theorem atan2_turn (y x : ℝ) (h0 : x ≠ 0 ∨ y ≠ 0) : ∃ k : ℤ, atan2 y (-x) = π - atan2 y x + 2 * π * k := by
  obtain ⟨i, hi⟩ := atan2_flip y x
  have hne : (⟨x, -y⟩ : ℂ) ≠ 0 := by
    intro h
    have h1 := congrArg Complex.re h
    have h2 := congrArg Complex.im h
    simp at h1 h2
    rcases h0 with h0 | h0
    · exact h0 h1
    · exact h0 h2
  have h := Complex.arg_neg_coe_angle hne
  rw [← Real.Angle.coe_add, Real.Angle.angle_eq_iff_two_pi_dvd_sub] at h
  obtain ⟨k, hk⟩ := h
  have e : -(⟨x, -y⟩ : ℂ) = ⟨-x, y⟩ := by
    apply Complex.ext <;> simp
  rw [e] at hk
  refine ⟨k + i, ?_⟩
  unfold atan2 at *
  push_cast
  linarith

theorem deg_mod (x : ℝ) : deg (positiveMod x (2 * π)) = pymod (deg x) 360 := by
  have hp := pi_pos
  obtain ⟨a1, a2, i, hi⟩ := positiveMod_spec x (2 * π) (by positivity)
  have e : deg (positiveMod x (2 * π)) = deg x + 360 * i := by
    rw [hi]; unfold deg; field_simp; ring
  have h1 : 0 ≤ deg (positiveMod x (2 * π)) := by unfold deg; positivity
  have h2 : deg (positiveMod x (2 * π)) < 360 := by
    have := deg_lt a2
    have e2 : deg (2 * π) = 360 := by unfold deg; field_simp; norm_num
    linarith
  rw [← pymod_turn (deg x) i, ← e, pymod_eq_self (by norm_num) h1 h2]

theorem pt_rel (c : Change) (p : ℝ × ℝ) : c.Rel p (c.pt p) := ⟨0, by simp [Change.pt]⟩

/-- The bearing in degrees. -/
noncomputable def bear (p q : ℝ × ℝ) : ℝ := deg (bearing (rad p.1) (rad p.2) (rad q.1) (rad q.2))

theorem bear_eq (p q : ℝ × ℝ) : bear p q = pymod (deg (atan2 (east p q) (north p q))) 360 := by
  unfold bear
  rw [bearing_angle, deg_mod]

theorem deg_turn (x y : ℝ) (k : ℤ) (h : x = y + 2 * π * k) : deg x = deg y + 360 * k := by
  have := pi_pos
  rw [h]; unfold deg; field_simp; ring

theorem bear_same (c : Change) (hc : c.Ok) (h1 : c.σ = 1) (h2 : c.τ = 1) {p q p' q' : ℝ × ℝ} (h : c.Rel p p') (h' : c.Rel q q') :
    bear p' q' = bear p q := by
  obtain ⟨e1, e2⟩ := east_rel c hc h h'
  rw [bear_eq, bear_eq, e1, e2, h1, h2, one_mul, one_mul]

theorem bear_ew (c : Change) (hc : c.Ok) (h1 : c.σ = -1) (h2 : c.τ = 1) {p q p' q' : ℝ × ℝ} (h : c.Rel p p') (h' : c.Rel q q') :
    bear p' q' = pymod (-bear p q) 360 := by
  obtain ⟨e1, e2⟩ := east_rel c hc h h'
  rw [bear_eq, bear_eq, e1, e2, h1, h2, one_mul, neg_one_mul]
  obtain ⟨k, hk⟩ := atan2_flip (east p q) (north p q)
  obtain ⟨i, hi⟩ := pymod_turns (deg (atan2 (east p q) (north p q)))
  rw [deg_turn _ _ k hk, hi, pymod_turn, deg_neg, show -(deg (atan2 (east p q) (north p q)) + 360 * (i : ℝ)) =
    -deg (atan2 (east p q) (north p q)) + 360 * ((-i : ℤ) : ℝ) by push_cast; ring, pymod_turn]

theorem bear_ns (c : Change) (hc : c.Ok) (h1 : c.σ = 1) (h2 : c.τ = -1) {p q p' q' : ℝ × ℝ} (h : c.Rel p p') (h' : c.Rel q q')
    (h0 : north p q ≠ 0 ∨ east p q ≠ 0) : bear p' q' = pymod (180 - bear p q) 360 := by
  obtain ⟨e1, e2⟩ := east_rel c hc h h'
  rw [bear_eq, bear_eq, e1, e2, h1, h2, one_mul, neg_one_mul]
  obtain ⟨k, hk⟩ := atan2_turn (east p q) (north p q) h0
  obtain ⟨i, hi⟩ := pymod_turns (deg (atan2 (east p q) (north p q)))
  have e : deg (π - atan2 (east p q) (north p q)) = 180 - deg (atan2 (east p q) (north p q)) := by
    rw [← deg_pi]; unfold deg; ring
  rw [deg_turn _ _ k hk, hi, pymod_turn, e, show 180 - (deg (atan2 (east p q) (north p q)) + 360 * (i : ℝ)) =
    180 - deg (atan2 (east p q) (north p q)) + 360 * ((-i : ℤ) : ℝ) by push_cast; ring, pymod_turn]

theorem east_north_sq (p q : ℝ × ℝ) : east p q ^ 2 + north p q ^ 2 = 1 - (inner ℝ (unit (rad p.1) (rad p.2)) (unit (rad q.1) (rad q.2))) ^ 2 := by
  rw [inner_unit]
  unfold east north
  have a := sin_sq_add_cos_sq (rad p.2)
  have b := sin_sq_add_cos_sq (rad q.2)
  have d := sin_sq_add_cos_sq (rad q.1 - rad p.1)
  generalize sin (rad q.1 - rad p.1) = S at *
  generalize cos (rad q.1 - rad p.1) = C at *
  generalize sin (rad p.2) = s at *
  generalize cos (rad p.2) = k at *
  generalize sin (rad q.2) = t at *
  generalize cos (rad q.2) = l at *
  linear_combination l ^ 2 * d + (t ^ 2 + l ^ 2 * C ^ 2) * a + b

/-- Two places are the same or opposite to each other exactly if there is no direction from one to the other. -/
theorem apart (p q : ℝ × ℝ) (h1 : unit (rad q.1) (rad q.2) ≠ unit (rad p.1) (rad p.2)) (h2 : unit (rad q.1) (rad q.2) ≠ -unit (rad p.1) (rad p.2)) :
    north p q ≠ 0 ∨ east p q ≠ 0 := by
  by_contra hc
  push Not at hc
  have h := east_north_sq p q
  rw [hc.1, hc.2] at h
  have hi : (inner ℝ (unit (rad p.1) (rad p.2)) (unit (rad q.1) (rad q.2))) ^ 2 = 1 := by linarith
  rcases sq_eq_sq_iff_eq_or_eq_neg.mp (hi.trans (one_pow 2).symm) with e | e
  · exact h1 ((inner_eq_one_iff_of_norm_eq_one (norm_unit _ _) (norm_unit _ _)).mp e).symm
  · apply h2
    have e' : inner ℝ (unit (rad p.1) (rad p.2)) (-unit (rad q.1) (rad q.2)) = 1 := by rw [inner_neg_right, e]; norm_num
    have := (inner_eq_one_iff_of_norm_eq_one (𝕜 := ℝ) (norm_unit _ _) (by rw [norm_neg, norm_unit])).mp e'
    rw [this, neg_neg]

theorem bearings_eq (c : Change) (hc : c.Ok) (centre : Option (ℝ × ℝ)) (locations : LocArg) (ref : Option LocArg) (g : ℝ → ℝ)
    (hg : ∀ p p' l, reference centre ref = .ok p → c.Rel p p' → asRows locations = .ok l → ∀ q ∈ l, bear p' (c.pt q) = g (bear p q)) :
    computeBearings (centre.map c.pt) (c.arg locations) (ref.map c.arg) = (computeBearings centre locations ref).map fun l => l.map g := by
  unfold computeBearings
  have hn' : (ref.map c.arg = none ∧ centre.map c.pt = none) ↔ (ref = none ∧ centre = none) := by rw [none_iff, none_iff]
  by_cases hn : ref = none ∧ centre = none
  · rw [if_pos hn, if_pos (hn'.mpr hn)]; rfl
  rw [if_neg hn, if_neg (fun h => hn (hn'.mp h)), rows_rel]
  have hr := reference_rel c hc centre ref
  rcases e1 : asRows locations with x | x
  · rfl
  · simp only [Except.map]
    rcases e3 : reference centre ref with u | u <;> rcases e4 : reference (centre.map c.pt) (ref.map c.arg) with v | v <;> rw [e3, e4] at hr
    · exact congrArg _ (Eq.symm hr)
    · exact hr.elim
    · exact hr.elim
    · simp only [Except.ok.injEq, List.map_map]
      apply List.map_congr_left
      intro q hq
      exact hg u v x e3 hr e1 q hq

/-! ### Places at a distance and in a direction -/

/-- Results changed, with longitudes in range again. -/
noncomputable def Change.res (c : Change) : LocRes → LocRes
  | .one p => .one (normalizeCoords (c.pt p))
  | .many ps => .many (ps.map fun p => normalizeCoords (c.pt p))

theorem norm_turn (p q : ℝ × ℝ) (k : ℤ) (h : q = (p.1 + 360 * k, p.2)) (hl : -90 ≤ p.2 ∧ p.2 ≤ 90) : normalizeCoords q = normalizeCoords p := by
  unfold normalizeCoords
  rw [h]
  simp only [not_lt.2 hl.1, not_lt.2 hl.2, if_false]
  rw [show p.1 + 360 * (k : ℝ) + 180 = p.1 + 180 + 360 * k by ring, pymod_turn]

theorem dest_lat (R : ℝ) (p x : ℝ × ℝ) : (dest R p x).2 = deg (arcsin (sin (rad p.2) * cos (x.1 / R) + cos (rad p.2) * sin (x.1 / R) * cos (rad x.2))) := by
  have hp := pi_pos
  unfold dest location destination
  dsimp only
  rw [positiveMod_of_mem _ _ (by positivity)]
  · congr 1; ring
  · have := neg_pi_div_two_le_arcsin (sin (rad p.2) * cos (x.1 / R) + cos (rad p.2) * sin (x.1 / R) * cos (rad x.2)); linarith
  · have := arcsin_le_pi_div_two (sin (rad p.2) * cos (x.1 / R) + cos (rad p.2) * sin (x.1 / R) * cos (rad x.2)); linarith

theorem dest_lon (R : ℝ) (p x : ℝ × ℝ) : ∃ k : ℤ, (dest R p x).1 = p.1 + deg (atan2 (sin (rad x.2) * sin (x.1 / R) * cos (rad p.2))
    (cos (x.1 / R) - sin (rad p.2) * sin (arcsin (sin (rad p.2) * cos (x.1 / R) + cos (rad p.2) * sin (x.1 / R) * cos (rad x.2))))) + 360 * k := by
  have hp := pi_pos
  unfold dest location destination
  dsimp only
  obtain ⟨_, _, k, hk⟩ := positiveMod_spec (rad p.1 + atan2 (sin (rad x.2) * sin (x.1 / R) * cos (rad p.2))
    (cos (x.1 / R) - sin (rad p.2) * sin (arcsin (sin (rad p.2) * cos (x.1 / R) + cos (rad p.2) * sin (x.1 / R) * cos (rad x.2)))) + π)
    (2 * π) (by positivity)
  refine ⟨k, ?_⟩
  rw [hk]
  generalize atan2 _ _ = A
  unfold deg rad
  field_simp
  ring

theorem dest_rel (c : Change) (hc : c.Ok) (R : ℝ) {p p' : ℝ × ℝ} (h : c.Rel p p') (x x' : ℝ × ℝ) (hx : x'.1 = x.1)
    (hcos : cos (rad x'.2) = c.τ * cos (rad x.2)) (hsin : sin (rad x'.2) = c.σ * sin (rad x.2)) :
    dest R p' x' = normalizeCoords (c.pt (dest R p x)) := by
  rw [← normalize_dest R p' x']
  obtain ⟨j, _, e2⟩ := rad_rel c h
  obtain ⟨n, hn⟩ := h
  have hlat : (dest R p' x').2 = c.τ * (dest R p x).2 := by
    rw [dest_lat, dest_lat, e2, sin_sign hc.ht, cos_sign hc.ht, hcos, hx]
    rw [show c.τ * sin (rad p.2) * cos (x.1 / R) + cos (rad p.2) * sin (x.1 / R) * (c.τ * cos (rad x.2)) =
      c.τ * (sin (rad p.2) * cos (x.1 / R) + cos (rad p.2) * sin (x.1 / R) * cos (rad x.2)) by ring]
    rcases hc.ht with h | h <;> rw [h]
    · rw [one_mul, one_mul]
    · rw [neg_one_mul, neg_one_mul, arcsin_neg, deg_neg]
  obtain ⟨k, hk⟩ := dest_lon R p x
  obtain ⟨k', hk'⟩ := dest_lon R p' x'
  have hlon : ∃ i : ℤ, (dest R p' x').1 = c.σ * (dest R p x).1 + c.δ + 360 * i := by
    rw [e2, sin_sign hc.ht, cos_sign hc.ht, hcos, hsin, hx] at hk'
    rw [show c.τ * sin (rad p.2) * cos (x.1 / R) + cos (rad p.2) * sin (x.1 / R) * (c.τ * cos (rad x.2)) =
      c.τ * (sin (rad p.2) * cos (x.1 / R) + cos (rad p.2) * sin (x.1 / R) * cos (rad x.2)) by ring] at hk'
    have harc : ∀ y, c.τ * sin (rad p.2) * sin (arcsin (c.τ * y)) = sin (rad p.2) * sin (arcsin y) := by
      intro y
      rcases hc.ht with h | h <;> rw [h]
      · rw [one_mul, one_mul]
      · rw [neg_one_mul, neg_one_mul, arcsin_neg, sin_neg]; ring
    rw [harc] at hk'
    rw [show c.σ * sin (rad x.2) * sin (x.1 / R) * cos (rad p.2) = c.σ * (sin (rad x.2) * sin (x.1 / R) * cos (rad p.2)) by ring] at hk'
    generalize (sin (rad x.2) * sin (x.1 / R) * cos (rad p.2)) = Y at hk hk'
    generalize (cos (x.1 / R) - sin (rad p.2) * sin (arcsin (sin (rad p.2) * cos (x.1 / R) + cos (rad p.2) * sin (x.1 / R) * cos (rad x.2)))) = X at hk hk'
    have hp1 : p'.1 = c.σ * p.1 + c.δ + 360 * n := by rw [hn]
    rcases hc.hs with h | h
    · refine ⟨n + k' - k, ?_⟩
      rw [hk', hk, hp1, h]
      push_cast
      rw [one_mul, one_mul]
      ring
    · obtain ⟨i, hi⟩ := atan2_flip Y X
      refine ⟨n + k' + k + i, ?_⟩
      rw [hk', hk, hp1, h, neg_one_mul Y, deg_turn _ _ i hi, deg_neg]
      push_cast
      ring
  obtain ⟨i, hi⟩ := hlon
  obtain ⟨_, _, a, b⟩ := C42_range (rad p'.1) (rad p'.2) x'.1 (rad x'.2) R
  have a : -90 ≤ (dest R p' x').2 := by have := deg_le a; rw [deg_neg, deg_half] at this; exact this
  have b : (dest R p' x').2 ≤ 90 := by have := deg_le b; rw [deg_half] at this; exact this
  apply norm_turn _ _ i
  · apply Prod.ext
    · exact hi
    · exact hlat
  · simp only [Change.pt]
    rw [← hlat]
    exact ⟨a, b⟩

theorem computeLocations_eq (R : ℝ) (centre : Option (ℝ × ℝ)) (ds bs : List ℝ) (ref : Option LocArg) :
    computeLocations R centre ds bs ref = (reference centre ref).bind fun p =>
      if bs.length ≠ ds.length then .error .valueError
      else match ds.zip bs with
        | [] => .error .indexError
        | [x] => .ok (.one (dest R p x))
        | xs => .ok (.many (xs.map (dest R p))) := by
  unfold computeLocations
  rcases reference centre ref with e | p
  · rfl
  · simp only [Except.bind]
    by_cases hl : bs.length ≠ ds.length
    · rw [if_pos hl, if_pos hl]
    · rw [if_neg hl, if_neg hl]
      match ds.zip bs with
      | [] => rfl
      | [x] =>
        simp only [List.map_cons, List.map_nil, validateLocation]
        exact congrArg (fun p => Except.ok (LocRes.one p)) (normalize_dest R p x)
      | x :: y :: zs =>
        simp only [List.map_cons, validateLocation, List.map_map]
        refine congrArg (fun p => Except.ok (LocRes.many p)) ?_
        refine List.cons_eq_cons.mpr ⟨normalize_dest R p x, List.cons_eq_cons.mpr ⟨normalize_dest R p y, ?_⟩⟩
        exact List.map_congr_left fun z _ => normalize_dest R p z

theorem locations_rel (c : Change) (hc : c.Ok) (R : ℝ) (centre : Option (ℝ × ℝ)) (ds bs : List ℝ) (ref : Option LocArg) (g : ℝ → ℝ)
    (hcos : ∀ b, cos (rad (g b)) = c.τ * cos (rad b)) (hsin : ∀ b, sin (rad (g b)) = c.σ * sin (rad b)) :
    computeLocations R (centre.map c.pt) ds (bs.map g) (ref.map c.arg) = (computeLocations R centre ds bs ref).map c.res := by
  rw [computeLocations_eq, computeLocations_eq]
  have hr := reference_rel c hc centre ref
  rcases e3 : reference centre ref with u | u <;> rcases e4 : reference (centre.map c.pt) (ref.map c.arg) with v | v <;> rw [e3, e4] at hr
  · exact congrArg _ (Eq.symm hr)
  · exact hr.elim
  · exact hr.elim
  · simp only [Except.bind, List.length_map]
    by_cases hl : bs.length ≠ ds.length
    · rw [if_pos hl, if_pos hl]; rfl
    · rw [if_neg hl, if_neg hl, List.zip_map_right]
      have key : ∀ x : ℝ × ℝ, dest R v (Prod.map id g x) = normalizeCoords (c.pt (dest R u x)) := fun x =>
        dest_rel c hc R hr x _ rfl (hcos x.2) (hsin x.2)
      match ds.zip bs with
      | [] => rfl
      | [x] => exact congrArg (fun p => Except.ok (LocRes.one p)) (key x)
      | x :: y :: zs =>
        refine congrArg (fun p => Except.ok (LocRes.many p)) ?_
        rw [← List.map_cons (f := Prod.map id g), List.map_map, List.map_map]
        exact List.map_congr_left fun z _ => key z

/-! ### The property -/

theorem shift_ok (d : ℝ) : (shift d).Ok := ⟨.inl rfl, .inl rfl⟩
theorem ns_ok : flipNS.Ok := ⟨.inl rfl, .inr rfl⟩
theorem ew_ok : flipEW.Ok := ⟨.inr rfl, .inl rfl⟩

/-- Nothing depends on where the prime meridian is: if all longitudes change by the same angle, distances and bearings are the same, the places
at given distances and bearings change by that angle, and what was an error is the same error. -/
theorem C218_meridian (d R : ℝ) (centre : Option (ℝ × ℝ)) (locations : LocArg) (ref : Option LocArg) (ds bs : List ℝ) :
    computeDistances R (centre.map (shift d).pt) ((shift d).arg locations) (ref.map (shift d).arg) = computeDistances R centre locations ref ∧
    computeBearings (centre.map (shift d).pt) ((shift d).arg locations) (ref.map (shift d).arg) = computeBearings centre locations ref ∧
    computeLocations R (centre.map (shift d).pt) ds bs (ref.map (shift d).arg) = (computeLocations R centre ds bs ref).map (shift d).res := by
  refine ⟨compute_distances_rel _ (shift_ok d) R centre locations ref, ?_, ?_⟩
  · have h := bearings_eq _ (shift_ok d) centre locations ref id fun p p' l _ hp _ q _ => bear_same _ (shift_ok d) rfl rfl hp (pt_rel _ q)
    rw [h]
    rcases computeBearings centre locations ref with e | l
    · rfl
    · simp [Except.map]
  · have h := locations_rel _ (shift_ok d) R centre ds bs ref id (fun b => (one_mul _).symm) (fun b => (one_mul _).symm)
    rwa [List.map_id] at h

/-- East and west exchanged: distances are the same, a bearing `b` becomes `-b`, and going in direction `-b` leads to the mirror image. -/
theorem C218_east_west (R : ℝ) (centre : Option (ℝ × ℝ)) (locations : LocArg) (ref : Option LocArg) (ds bs : List ℝ) :
    computeDistances R (centre.map flipEW.pt) (flipEW.arg locations) (ref.map flipEW.arg) = computeDistances R centre locations ref ∧
    computeBearings (centre.map flipEW.pt) (flipEW.arg locations) (ref.map flipEW.arg) =
      (computeBearings centre locations ref).map (fun l => l.map fun b => pymod (-b) 360) ∧
    computeLocations R (centre.map flipEW.pt) ds (bs.map fun b => -b) (ref.map flipEW.arg) =
      (computeLocations R centre ds bs ref).map flipEW.res := by
  refine ⟨compute_distances_rel _ ew_ok R centre locations ref, ?_, ?_⟩
  · exact bearings_eq _ ew_ok centre locations ref _ fun p p' l _ hp _ q _ => bear_ew _ ew_ok rfl rfl hp (pt_rel _ q)
  · refine locations_rel _ ew_ok R centre ds bs ref _ (fun b => ?_) (fun b => ?_)
    · rw [show rad (-b) = -rad b by unfold rad; ring, cos_neg]; exact (one_mul _).symm
    · rw [show rad (-b) = -rad b by unfold rad; ring, sin_neg]; exact (neg_one_mul _).symm

/-- North and south exchanged: distances are the same, a bearing `b` becomes `180 - b` for all places that are neither the reference place nor
opposite to it, and going in direction `180 - b` leads to the mirror image. -/
theorem C218_north_south (R : ℝ) (centre : Option (ℝ × ℝ)) (locations : LocArg) (ref : Option LocArg) (ds bs : List ℝ) :
    computeDistances R (centre.map flipNS.pt) (flipNS.arg locations) (ref.map flipNS.arg) = computeDistances R centre locations ref ∧
    ((∀ p l, reference centre ref = .ok p → asRows locations = .ok l → ∀ q ∈ l,
        unit (rad q.1) (rad q.2) ≠ unit (rad p.1) (rad p.2) ∧ unit (rad q.1) (rad q.2) ≠ -unit (rad p.1) (rad p.2)) →
      computeBearings (centre.map flipNS.pt) (flipNS.arg locations) (ref.map flipNS.arg) =
        (computeBearings centre locations ref).map (fun l => l.map fun b => pymod (180 - b) 360)) ∧
    computeLocations R (centre.map flipNS.pt) ds (bs.map fun b => 180 - b) (ref.map flipNS.arg) =
      (computeLocations R centre ds bs ref).map flipNS.res := by
  have e : ∀ b, rad (180 - b) = π - rad b := fun b => by unfold rad; ring
  refine ⟨compute_distances_rel _ ns_ok R centre locations ref, ?_, ?_⟩
  · intro h
    refine bearings_eq _ ns_ok centre locations ref _ fun p p' l hp hpp hl q hq => bear_ns _ ns_ok rfl rfl hpp (pt_rel _ q) ?_
    exact apart p q (h p l hp hl q hq).1 (h p l hp hl q hq).2
  · refine locations_rel _ ns_ok R centre ds bs ref _ (fun b => ?_) (fun b => ?_)
    · rw [e, cos_pi_sub]; exact (neg_one_mul _).symm
    · rw [e, sin_pi_sub]; exact (one_mul _).symm

/-- A place at the equator and one north-east of it, seen from another meridian and in the mirror: neither is the same or opposite. -/
example : unit (rad 20) (rad 10) ≠ unit (rad 0) (rad 0) ∧ unit (rad 20) (rad 10) ≠ -unit (rad 0) (rad 0) ∧
    (shift 30).arg (.flat [20, 10]) = .flat [1 * 20 + 30, 1 * 10] ∧ flipNS.arg (.array2 [(20, 10)]) = .array2 [(1 * 20 + 0, -1 * 10)] := by
  have h : 0 < sin (rad 10) := by
    apply sin_pos_of_pos_of_lt_pi
    · unfold rad; positivity
    · unfold rad; have := pi_pos; linarith
  refine ⟨?_, ?_, rfl, rfl⟩
  · intro e
    have := congrFun (congrArg WithLp.ofLp e) 2
    simp [unit, rad] at this
    unfold rad at h
    rw [this] at h
    exact lt_irrefl _ h
  · intro e
    have := congrFun (congrArg WithLp.ofLp e) 2
    simp [unit, rad] at this
    unfold rad at h
    rw [this] at h
    exact lt_irrefl _ h

end Verif.Points
