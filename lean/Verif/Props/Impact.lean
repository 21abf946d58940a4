import Verif.Model.Impact
import Verif.Props.Bodies

/-! C244: a crater has the velocities, the angle, the direction and the density of the projectile that it is given. -/

namespace Verif.Impact

open Verif.Bodies (Proj Draws newProjectile)

variable {Loc : Type}

/-- How many of three values are given. -/
def given (x y z : Option ℝ) : ℕ := (if x = none then 0 else 1) + (if y = none then 0 else 1) + (if z = none then 0 else 1)

theorem toList_length (x : Option ℝ) : x.toList.length = if x = none then 0 else 1 := by cases x <;> simp

theorem count_eq (a : Args Loc) : count a = given a.velocity a.vertical a.angle := by
  simp only [count, given, toList_length]

/-- What may not be given together: orientation and direction; velocity, vertical velocity and angle; the mean velocity and one of the
velocities. -/
def TooMuch (a : Args Loc) : Prop :=
  (a.orientation ≠ none ∧ a.direction ≠ none) ∨ (a.velocity ≠ none ∧ a.vertical ≠ none ∧ a.angle ≠ none) ∨
    (a.mean ≠ none ∧ (a.velocity ≠ none ∨ a.vertical ≠ none))

theorem redundant_iff (a : Args Loc) : redundant a = true ↔ TooMuch a := by
  unfold redundant TooMuch
  rw [count_eq]
  unfold given
  rcases a with ⟨v, u, g, m, o, d, r, l⟩
  cases v <;> cases u <;> cases g <;> cases m <;> cases o <;> cases d <;> simp

/-- C244: a copy is refused exactly if the check is on and more is given than may be. -/
theorem C244_rejects (check : Bool) (old : Kept Loc) (a : Args Loc) : copy check old a = none ↔ check = true ∧ TooMuch a := by
  unfold copy
  rw [← redundant_iff]
  split_ifs with h
  · simpa using h
  · simpa using h

/-- C244, exactly what a copy without a new size has.  Its direction is the one given, as orientation or direction, or else the old one; its
velocity and angle are those given.  If they are not given they are the old ones, except that the velocity is lost if a vertical velocity
is given without a velocity, and the angle is lost if a velocity and a vertical velocity are given (both are kept if also a mean velocity is
given and nothing is checked).  The size and mass of the projectile are the old ones. -/
theorem C244_copy_exact_partial (check : Bool) (old new : Kept Loc) (a : Args Loc) (h : copy check old a = some new) :
    new.orientation = (if a.orientation = none then (if a.direction = none then old.orientation else a.direction) else a.orientation) ∧
    new.diameter = old.diameter ∧ new.mass = old.mass ∧
    new.location = (if a.location = none then old.location else a.location) ∧
    new.velocity = (if a.velocity ≠ none then a.velocity else if a.vertical ≠ none ∧ a.mean = none then none else old.velocity) ∧
    new.angle = (if a.angle ≠ none then a.angle else if a.velocity ≠ none ∧ a.vertical ≠ none ∧ a.mean = none then none else old.angle) := by
  unfold copy at h
  split_ifs at h
  simp only [Option.some.injEq] at h
  subst h
  simp only [filled, oldVelocity, oldAngle, count_eq, given, orientationOf]
  rcases a with ⟨v, u, g, m, o, d, r, l⟩
  refine ⟨?_, trivial, trivial, ?_, ?_, ?_⟩
  · cases o <;> cases d <;> simp
  · cases l <;> simp
  · cases v <;> cases u <;> cases g <;> cases m <;> simp
  · cases v <;> cases u <;> cases g <;> cases m <;> simp

/-- A copy with another angle keeps the velocity, and its vertical velocity follows. -/
example : copy true (⟨some 10, some 45, some 0, some 2, some 3, some 7⟩ : Kept ℕ) { angle := some 90 } =
    some ⟨some 10, some 90, some 0, some 2, some 3, some 7⟩ := by
  norm_num [copy, redundant, filled, oldVelocity, oldAngle, count, orientationOf]

/-- **C244 fails** for a vertical velocity that is given to a copy: the copy has no vertical velocity at all, whatever else is given, unless it
is made without the check and velocity and angle are given too; then its vertical velocity is that of velocity and angle. -/
theorem C244_copy_vertical_fails (check : Bool) (old new : Kept Loc) (a : Args Loc) (V : ℝ) (hV : a.vertical = some V) (hm : a.mean = none)
    (h : copy check old a = some new) :
    new.vertical = match a.velocity, a.angle with
      | some v, some g => some (v * Real.sin (g * (Real.pi / 180)))
      | _, _ => none := by
  obtain ⟨-, -, -, -, h5, h6⟩ := C244_copy_exact_partial check old new a h
  unfold Kept.vertical
  rw [h5, h6]
  rcases a with ⟨v, u, g, m, o, d, r, l⟩
  simp only at hV hm
  subst hV hm
  cases v <;> cases g <;> simp

/-- **C244 fails** for a density that is given to a copy: it is not used, the copy has the density of the original. -/
theorem C244_copy_density_fails (check : Bool) (old new : Kept Loc) (a : Args Loc) (h : copy check old a = some new) :
    new.density = old.density := by
  obtain ⟨-, h2, h3, -, -, -⟩ := C244_copy_exact_partial check old new a h
  unfold Kept.density
  rw [h2, h3]

/-- A copy that is to have the density 1000 and a vertical velocity of 5 km/s: it has the old density and no velocity. -/
example : ∃ new, copy true (⟨some 10000, some 45, some 0, some 2, some 3, some 7⟩ : Kept ℕ) { vertical := some 5000, density := some 1000 } = some new ∧
    new.velocity = none ∧ new.vertical = none ∧ new.density = some (3 * 3 / (4 * Real.pi * (2 / 2) ^ 3)) := by
  refine ⟨⟨none, some 45, some 0, some 2, some 3, some 7⟩, ?_, rfl, rfl, rfl⟩
  norm_num [copy, redundant, filled, oldVelocity, oldAngle, count, orientationOf]

theorem newProjectile_sample {norm : Loc → Option Loc} {zero : Loc} {dens : ℝ} {p n : Proj Loc} {g : Bodies.Given Loc} {w : Draws Loc}
    (h : newProjectile norm zero dens p g w = some n) : n.sample = p.sample := by
  unfold newProjectile at h
  rcases hc : Bodies.make zero dens p with _ | c
  · rw [hc] at h; cases h
  rw [hc] at h
  simp only at h
  have := (Bodies.make_common hc).1
  split at h
  · simp only [Option.some.injEq] at h
    subst h
    exact this
  · cases h

theorem shoot_spec (norm : Loc → Option Loc) (zero : Loc) (dens : ℝ) (named : Bool) (p q : Proj Loc) (a : Args Loc) (w₁ w₂ : Draws Loc)
    (h : shoot norm zero dens named p a w₁ w₂ = some q) :
    (∀ v, a.velocity = some v → q.velocity = some v ∧ 0 ≤ v) ∧ (∀ v, a.angle = some v → q.angle = some v ∧ 0 ≤ v) ∧
    (∀ v, orientationOf a = some v → q.direction = some v ∧ 0 ≤ v) ∧ (∀ v, a.density = some v → q.density = some v ∧ 0 ≤ v) ∧
    (∀ v, a.location = some v → q.location = norm v) ∧
    (p.sample = true → (a.velocity = none → q.velocity = some w₂.velocity) ∧ (a.angle = none → q.angle = some w₂.angle) ∧
      (orientationOf a = none → q.direction = some w₂.direction) ∧ (a.location = none → q.location = some w₂.location)) := by
  unfold shoot at h
  simp only at h
  split at h
  · cases h
  · rename_i r hr
    have hs : r.sample = p.sample := by
      split_ifs at hr
      · exact newProjectile_sample hr
      · cases hr; rfl
    obtain ⟨h1, h2, h3, h4, h5, h6, -⟩ := Bodies.C32_explicit_or_sampled norm zero dens r _ w₂ q h
    exact ⟨h1, h2, h3, h5, fun v hv => (h4 v hv).1, fun hp => h6 (hs.trans hp)⟩

/-- C244, the part that holds of a new crater: it is refused if more is given than may be; otherwise it has the velocity, the angle, the direction
(as orientation or direction) that it is given, and its vertical velocity follows from these; what is not given is drawn, if the
projectiles draw. -/
theorem C244_new_partial (norm : Loc → Option Loc) (zero : Loc) (dens : ℝ) (size : ℝ → ℝ × ℝ) (named : Bool) (p : Proj Loc) (a : Args Loc)
    (w₁ w₂ : Draws Loc) :
    (TooMuch a → make norm zero dens size named p a w₁ w₂ = none) ∧
    ∀ new, make norm zero dens size named p a w₁ w₂ = some new →
      (∀ v, a.velocity = some v → new.velocity = some v) ∧ (∀ g, a.angle = some g → new.angle = some g) ∧
      (∀ o, a.orientation = some o ∨ a.direction = some o → new.orientation = some o) ∧
      (∀ v g, a.velocity = some v → a.angle = some g → new.vertical = some (v * Real.sin (g * (Real.pi / 180)))) ∧
      (∀ rho, a.density = some rho → new.diameter = some (size rho).1 ∧ new.mass = some (size rho).2) ∧
      (p.sample = true → (a.velocity = none → new.velocity = some w₂.velocity) ∧ (a.angle = none → new.angle = some w₂.angle)) := by
  constructor
  · intro h
    unfold make
    rw [if_pos ((redundant_iff a).mpr h)]
  · intro new h
    unfold make at h
    split_ifs at h with hr
    have hno : ¬ TooMuch a := fun ht => hr ((redundant_iff a).mpr ht)
    rcases hq : shoot norm zero dens named p a w₁ w₂ with _ | q
    · rw [hq] at h; cases h
    rw [hq] at h
    simp only at h
    obtain ⟨h1, h2, h3, h4, h5, h6⟩ := shoot_spec norm zero dens named p q a w₁ w₂ hq
    rcases hv : q.velocity with _ | v
    · rw [hv] at h; cases h
    rcases hd : q.density with _ | rho
    · rw [hv, hd] at h; cases h
    rw [hv, hd] at h
    simp only at h
    split_ifs at h
    simp only [Option.some.injEq] at h
    subst h
    refine ⟨fun v' e => ?_, fun g e => (h2 g e).1, fun o e => ?_, fun v' g e1 e2 => ?_, fun r e => ?_, fun hp => ⟨fun e => ?_, fun e => (h6 hp).2.1 e⟩⟩
    · have := (h1 v' e).1; rw [hv] at this; exact this
    · apply (fun x => (h3 o x).1)
      unfold orientationOf
      unfold TooMuch at hno
      push Not at hno
      rcases e with e | e
      · rw [e]; rfl
      · rcases ho : a.orientation with _ | y
        · simp [e]
        · have := hno.1 (by simp [ho]); rw [e] at this; cases this
    · have k1 := (h1 v' e1).1
      rw [hv] at k1
      simp only [Option.some.injEq] at k1
      subst k1
      simp only [Kept.vertical, (h2 g e2).1]
    · have := (h4 r e).1
      rw [hd] at this
      simp only [Option.some.injEq] at this
      subst this
      exact ⟨rfl, rfl⟩
    · have := (h6 hp).1 e; rw [hv] at this; exact this

/-- C244: a new crater that is given a density reports that density, whatever the scaling gives for the size of the projectile, as long as the projectile is a ball whose
mass is its volume times that density. -/
theorem C244_density_partial (norm : Loc → Option Loc) (zero : Loc) (dens : ℝ) (size : ℝ → ℝ × ℝ) (named : Bool) (p : Proj Loc) (a : Args Loc)
    (w₁ w₂ : Draws Loc) (new : Kept Loc) (h : make norm zero dens size named p a w₁ w₂ = some new) (rho : ℝ) (ha : a.density = some rho)
    (hpos : 0 < (size rho).1) (hball : (size rho).2 = 4 / 3 * Real.pi * ((size rho).1 / 2) ^ 3 * rho) : new.density = some rho := by
  obtain ⟨h1, h2⟩ := ((C244_new_partial norm zero dens size named p a w₁ w₂).2 new h).2.2.2.2.1 rho ha
  unfold Kept.density
  rw [h1, h2]
  simp only [Option.some.injEq]
  rw [hball]
  have hpi := Real.pi_pos
  field_simp

/-- A crater made by a ball of diameter 2 with the density 3000 reports that density. -/
example (m : ℝ → ℝ) (hm : ∀ rho, m rho = 4 / 3 * Real.pi * (2 / 2) ^ 3 * rho) :
    ∃ new, make some 0 2250 (fun rho => (2, m rho)) true (⟨.generic, true, some 20000, none, none, none, none, none⟩ : Proj ℕ)
      { density := some 3000 } ⟨1, 2, 3, 4⟩ ⟨17000, 45, 6, 7⟩ = some new ∧ new.density = some 3000 := by
  have h : make some 0 2250 (fun rho => (2, m rho)) true (⟨.generic, true, some 20000, none, none, none, none, none⟩ : Proj ℕ)
      { density := some 3000 } ⟨1, 2, 3, 4⟩ ⟨17000, 45, 6, 7⟩ = some ⟨some 17000, some 45, some 6, some 2, some (m 3000), some 7⟩ := by
    norm_num [make, redundant, count, shoot, orientationOf, newProjectile, Bodies.make, Bodies.check, Bodies.pick, Bodies.nonneg, Bodies.through]
  exact ⟨_, h, C244_density_partial _ _ _ _ _ _ _ _ _ _ h 3000 rfl (by norm_num) (hm 3000)⟩

/-- Projectiles that draw their velocities and know for which mean velocity. -/
def Drawing (p : Proj Loc) : Prop := p.sample = true ∧ (p.kind = .generic → p.meanVelocity ≠ none)

theorem newProjectile_accepts (norm : Loc → Option Loc) (zero : Loc) (dens : ℝ) (hdens : 0 ≤ dens) (p : Proj Loc) (hp : Drawing p)
    (hpd : ∀ x, p.density = some x → 0 ≤ x) (g : Bodies.Given Loc) (w : Draws Loc)
    (h1 : ∀ v, g.velocity = some v → 0 ≤ v) (h2 : ∀ v, g.angle = some v → 0 ≤ v) (h3 : ∀ v, g.direction = some v → 0 ≤ v)
    (h4 : ∀ l, g.location = some l → norm l ≠ none) (h5 : ∀ v, g.density = some v → 0 ≤ v) :
    ∃ n, newProjectile norm zero dens p g w = some n ∧ Drawing n ∧ ∃ x, n.density = some x ∧ 0 ≤ x := by
  obtain ⟨hs, hk⟩ := hp
  have nn : ∀ {v : ℝ}, 0 ≤ v → Bodies.nonneg v = some v := fun h => if_neg (not_lt.mpr h)
  have hmake : ∃ c, Bodies.make zero dens p = some c ∧ Drawing c ∧ ∃ x, c.density = some x ∧ 0 ≤ x := by
    rcases hkind : p.kind with _ | v
    · have hm := hk hkind
      refine ⟨{ p with
        density := some (p.density.getD 1000)
        angle := some (p.angle.getD 90)
        direction := some (p.direction.getD 0)
        location := some (p.location.getD zero) }, by simp [Bodies.make, hkind, Bodies.check, hs, hm], ⟨hs, fun _ => hm⟩, _, rfl, ?_⟩
      rcases hd : p.density with _ | x
      · norm_num
      · exact hpd x hd
    · refine ⟨{ p with
        density := some (p.density.getD dens)
        meanVelocity := some v
        velocity := some v }, by simp [Bodies.make, hkind, Bodies.check, hs], ⟨hs, fun _ => by simp⟩, _, rfl, ?_⟩
      rcases hd : p.density with _ | x
      · exact hdens
      · exact hpd x hd
  obtain ⟨c, hc, hcd, x, hx, hx0⟩ := hmake
  have pk : ∀ {given : Option ℝ} {draw : ℝ} {st fb : Option ℝ}, (∀ v, given = some v → 0 ≤ v) →
      ∃ r, Bodies.pick Bodies.nonneg given c.sample draw st fb = some r := by
    intro given draw st fb hg
    rcases given with _ | v
    · refine ⟨some draw, ?_⟩
      simp [Bodies.pick, hcd.1]
    · exact ⟨some v, by simp [Bodies.pick, nn (hg v rfl)]⟩
  obtain ⟨r1, e1⟩ := pk (draw := w.velocity) (st := c.velocity) (fb := c.meanVelocity) h1
  obtain ⟨r2, e2⟩ := pk (draw := w.angle) (st := c.angle) (fb := some 90) h2
  obtain ⟨r3, e3⟩ := pk (draw := w.direction) (st := c.direction) (fb := some 0) h3
  obtain ⟨r4, e4⟩ : ∃ r, Bodies.pick norm g.location c.sample w.location c.location (some zero) = some r := by
    rcases hl : g.location with _ | l
    · exact ⟨some w.location, by simp [Bodies.pick, hcd.1]⟩
    · obtain ⟨y, hy⟩ := Option.ne_none_iff_exists'.mp (h4 l hl)
      exact ⟨some y, by simp [Bodies.pick, hy]⟩
  obtain ⟨r5, e5, x', hx', hx0'⟩ : ∃ r, Bodies.through Bodies.nonneg g.density c.density = some r ∧ ∃ x, r = some x ∧ 0 ≤ x := by
    rcases hd : g.density with _ | v
    · exact ⟨c.density, by simp [Bodies.through], x, hx, hx0⟩
    · exact ⟨some v, by simp [Bodies.through, nn (h5 v hd)], v, rfl, h5 v hd⟩
  refine ⟨{ c with velocity := r1, angle := r2, direction := r3, location := r4, density := r5 }, ?_, ?_, x', ?_, hx0'⟩
  · unfold newProjectile
    rw [hc]
    simp only [e1, e2, e3, e4, e5]
  · exact hcd
  · exact hx'

/-- C244: nothing else is refused.  For projectiles that draw, a new crater is made whenever no more is given than may be, the values given are not
negative, the location is valid and the velocity that is drawn is not negative. -/
theorem C244_accepts (norm : Loc → Option Loc) (zero : Loc) (dens : ℝ) (hdens : 0 ≤ dens) (size : ℝ → ℝ × ℝ) (named : Bool) (p : Proj Loc)
    (hp : Drawing p) (hpd : ∀ x, p.density = some x → 0 ≤ x) (a : Args Loc) (w₁ w₂ : Draws Loc) (hw : 0 ≤ w₂.velocity) (h : ¬ TooMuch a)
    (h1 : ∀ v, a.velocity = some v → 0 ≤ v) (h2 : ∀ v, a.angle = some v → 0 ≤ v) (h3 : ∀ v, a.orientation = some v ∨ a.direction = some v → 0 ≤ v)
    (h4 : ∀ l, a.location = some l → norm l ≠ none) (h5 : ∀ v, a.density = some v → 0 ≤ v) :
    ∃ new, make norm zero dens size named p a w₁ w₂ = some new := by
  have h3' : ∀ v, orientationOf a = some v → 0 ≤ v := by
    intro v hv
    unfold orientationOf at hv
    rcases ho : a.orientation with _ | y
    · rw [ho] at hv; exact h3 v (Or.inr (by simpa using hv))
    · rw [ho] at hv; exact h3 v (Or.inl (by rw [ho]; simpa using hv))
  have acc := fun (q : Proj Loc) (hq : Drawing q) (hqd : ∀ x, q.density = some x → 0 ≤ x) (w : Draws Loc) =>
    newProjectile_accepts norm zero dens hdens q hq hqd ⟨a.velocity, a.angle, orientationOf a, a.location, a.density⟩ w h1 h2 h3' h4 h5
  have hshoot : ∃ q, shoot norm zero dens named p a w₁ w₂ = some q ∧ ∃ x, q.density = some x ∧ 0 ≤ x := by
    unfold shoot
    simp only
    split_ifs with hf
    · obtain ⟨n, hn, hnd, x, hx, hx0⟩ := acc p hp hpd w₁
      rw [hn]
      obtain ⟨q, hq, -, hqx⟩ := acc n hnd (fun y hy => by rw [hx] at hy; cases hy; exact hx0) w₂
      exact ⟨q, hq, hqx⟩
    · obtain ⟨q, hq, -, hqx⟩ := acc p hp hpd w₂
      exact ⟨q, hq, hqx⟩
  obtain ⟨q, hq, x, hx, hx0⟩ := hshoot
  obtain ⟨k1, -, -, -, -, k6⟩ := shoot_spec norm zero dens named p q a w₁ w₂ hq
  have hv : ∃ v, q.velocity = some v ∧ 0 ≤ v := by
    rcases hav : a.velocity with _ | v
    · exact ⟨_, (k6 hp.1).1 hav, hw⟩
    · exact ⟨v, (k1 v hav).1, h1 v hav⟩
  obtain ⟨v, hv, hv0⟩ := hv
  unfold make
  rw [if_neg (fun e => h ((redundant_iff a).mp e)), hq]
  simp only [hv, hx]
  rw [if_neg (by push Not; exact ⟨hv0, hx0⟩)]
  exact ⟨_, rfl⟩

/-- **C244 fails** for a vertical velocity or a mean velocity that is given to a new crater: once accepted it is ignored.  The crater is the same
as without it. -/
theorem C244_ignored_fails (norm : Loc → Option Loc) (zero : Loc) (dens : ℝ) (size : ℝ → ℝ × ℝ) (named : Bool) (p : Proj Loc) (a : Args Loc)
    (w₁ w₂ : Draws Loc) (h : ¬ TooMuch a) :
    make norm zero dens size named p a w₁ w₂ = make norm zero dens size named p { a with vertical := none, mean := none } w₁ w₂ := by
  have h' : ¬ TooMuch { a with vertical := none, mean := none } := by
    unfold TooMuch at h ⊢
    simp only [ne_eq, not_true_eq_false, false_and, and_false, or_false] 
    tauto
  unfold make
  rw [if_neg (fun e => h ((redundant_iff a).mp e)), if_neg (fun e => h' ((redundant_iff _).mp e))]
  rfl

/-- A new crater given a vertical velocity of 5 km/s at 90 degrees has the velocity that was drawn, 17 km/s. -/
example : make some 0 2250 (fun _ => (2, 3)) true (⟨.generic, true, some 20000, none, none, none, none, none⟩ : Proj ℕ)
    { vertical := some 5000, angle := some 90 } ⟨1, 2, 3, 4⟩ ⟨17000, 45, 6, 7⟩ = some ⟨some 17000, some 90, some 6, some 2, some 3, some 7⟩ := by
  norm_num [make, redundant, count, shoot, orientationOf, newProjectile, Bodies.make, Bodies.check, Bodies.pick, Bodies.nonneg, Bodies.through]

/-- C244, the part that holds of a copy with a new size: the velocity, the angle and the direction are those given, and if no vertical or mean
velocity is given, those of the original that are not given, whether or not the projectiles draw; likewise the density, which the new projectile
has whatever its size. -/
theorem C244_resized_partial (norm : Loc → Option Loc) (zero : Loc) (dens : ℝ) (size : ℝ → ℝ × ℝ) (named : Bool) (p : Proj Loc) (old new : Kept Loc)
    (a : Args Loc) (w₁ w₂ : Draws Loc) (hu : a.vertical = none) (hm : a.mean = none)
    (h : resize norm zero dens size named p old a w₁ w₂ = some new) :
    (∀ v, a.velocity = some v ∨ a.velocity = none ∧ old.velocity = some v → new.velocity = some v) ∧
    (∀ g, a.angle = some g ∨ a.angle = none ∧ old.angle = some g → new.angle = some g) ∧
    (∀ o, a.orientation = some o ∨ a.direction = some o ∨ a.orientation = none ∧ a.direction = none ∧ old.orientation = some o →
      new.orientation = some o) ∧
    (∀ rho, a.density = some rho ∨ a.density = none ∧ old.density = some rho → new.diameter = some (size rho).1 ∧ new.mass = some (size rho).2) := by
  unfold resize at h
  split_ifs at h with hr
  have hno : ¬ TooMuch a := fun ht => hr ((redundant_iff a).mpr ht)
  obtain ⟨k1, k2, k3, -, k5, -⟩ := (C244_new_partial norm zero dens size named p _ w₁ w₂).2 new h
  refine ⟨fun v hv => k1 v ?_, fun g hg => k2 g ?_, fun o ho => k3 o (Or.inl ?_), fun rho hrho => k5 rho ?_⟩
  · simp only [filled, oldVelocity, count_eq, given, hu, hm]
    rcases hv with e | ⟨e, e'⟩
    · simp [e]
    · rw [e, e']; cases a.angle <;> simp
  · simp only [filled, oldAngle, count_eq, given, hu, hm]
    rcases hg with e | ⟨e, e'⟩
    · simp [e]
    · rw [e, e']; cases a.velocity <;> simp
  · simp only [filled, orientationOf]
    unfold TooMuch at hno
    push Not at hno
    rcases ho with e | e | ⟨e, e', e''⟩
    · simp [e]
    · rcases ho : a.orientation with _ | y
      · simp [e]
      · have := hno.1 (by simp [ho]); rw [e] at this; cases this
    · simp [e, e', e'']
  · simp only [filled]
    rcases hrho with e | ⟨e, e'⟩
    · simp [e]
    · simp [e, e']

/-- **C244 fails** for a copy with a new size that is given a vertical velocity: not only is that ignored, the velocity of the original is lost
too, and another one is drawn. -/
theorem C244_resized_vertical_fails (norm : Loc → Option Loc) (zero : Loc) (dens : ℝ) (size : ℝ → ℝ × ℝ) (named : Bool) (p : Proj Loc)
    (hp : p.sample = true) (old new : Kept Loc) (a : Args Loc) (w₁ w₂ : Draws Loc) (V : ℝ) (hV : a.vertical = some V) (hm : a.mean = none)
    (hv : a.velocity = none) (h : resize norm zero dens size named p old a w₁ w₂ = some new) :
    new.velocity = some w₂.velocity := by
  unfold resize at h
  split_ifs at h with hr
  obtain ⟨-, -, -, -, -, k6⟩ := (C244_new_partial norm zero dens size named p _ w₁ w₂).2 new h
  refine (k6 hp).1 ?_
  simp only [filled, oldVelocity, count_eq, given, hV, hm, hv]
  cases a.angle <;> simp

/-- A copy with a new size of a crater of 10 km/s keeps that velocity, but not if it is given a vertical velocity. -/
example : ∃ n₁ n₂, resize some 0 2250 (fun _ => (2, 3)) true (⟨.generic, true, some 20000, none, none, none, none, none⟩ : Proj ℕ)
      ⟨some 10000, some 45, some 0, some 1, some 1, some 7⟩ {} ⟨1, 2, 3, 4⟩ ⟨17000, 45, 6, 7⟩ = some n₁ ∧ n₁.velocity = some 10000 ∧
    resize some 0 2250 (fun _ => (2, 3)) true (⟨.generic, true, some 20000, none, none, none, none, none⟩ : Proj ℕ)
      ⟨some 10000, some 45, some 0, some 1, some 1, some 7⟩ { vertical := some 5000 } ⟨1, 2, 3, 4⟩ ⟨17000, 45, 6, 7⟩ = some n₂ ∧
      n₂.velocity = some 17000 := by
  have hd : ¬ (3 * 1 / (4 * Real.pi * (1 / 2) ^ 3) < (0 : ℝ)) := by
    rw [not_lt]; have := Real.pi_pos; positivity
  have hd' : ¬ (3 / (4 * Real.pi * 8⁻¹) < (0 : ℝ)) := by
    rw [not_lt]; have := Real.pi_pos; positivity
  refine ⟨⟨some 10000, some 45, some 0, some 2, some 3, some 7⟩, ⟨some 17000, some 45, some 0, some 2, some 3, some 7⟩, ?_, rfl, ?_, rfl⟩ <;>
  · norm_num [resize, filled, oldVelocity, oldAngle, Kept.density, make, redundant, count, shoot, orientationOf, newProjectile, Bodies.make, Bodies.check,
      Bodies.pick, Bodies.nonneg, Bodies.through]
    simp [hd']

end Verif.Impact
