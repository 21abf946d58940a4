import Verif.Model.Bodies
import Mathlib.Tactic.NormNum

/-!
# C260: copies of projectiles

A copy (`copy.copy` or `copy.deepcopy`, `cratermaker/components/projectile/__init__.py:137-166`) is made by the constructor with the values of
the attributes, which is `make`.
-/

namespace Verif.Bodies

section

variable {Loc : Type}

private theorem pick_some {α : Type} {set : α → Option α} {g : Option α} {b : Bool} {w : α} {s : Option α} {f : α} {r : Option α}
    (h : pick set g b w s (some f) = some r) : r.isSome := by
  unfold pick at h
  split at h
  · rename_i v
    rcases hs : set v with _ | x <;> simp [hs] at h
    subst h
    rfl
  · split at h
    · simp only [Option.some.injEq] at h
      subst h
      rfl
    · simp only [Option.some.injEq] at h
      subst h
      cases s <;> rfl

private theorem make_spec {zero : Loc} {dens : ℝ} {p c : Proj Loc} (h : make zero dens p = some c) :
    c.kind = p.kind ∧ c.sample = p.sample ∧ c.density.isSome ∧ (c.sample = true → c.meanVelocity.isSome) ∧
    (c.sample = false → c.velocity.isSome) ∧ (∀ v, p.kind = .catalogued v → c.meanVelocity = some v) := by
  obtain ⟨k, s, mv, ve, an, di, lo, de⟩ := p
  unfold make at h
  split at h
  · rename_i hk
    simp only at hk
    subst hk
    unfold check at h
    cases s <;> cases mv <;> cases ve <;> simp at h <;> subst h <;> simp
  · rename_i v hk
    simp only at hk
    subst hk
    unfold check at h
    cases s <;> cases an <;> cases di <;> cases lo <;> simp at h <;> subst h <;> simp

/-- What every projectile that was made by `new_projectile` (and so by `Projectile.maker`) has. -/
private theorem new_spec {norm : Loc → Option Loc} {zero : Loc} {dens : ℝ} {p q : Proj Loc} {g : Given Loc} {w : Draws Loc}
    (h : newProjectile norm zero dens p g w = some q) :
    q.kind = p.kind ∧ q.angle.isSome ∧ q.direction.isSome ∧ q.location.isSome ∧ q.density.isSome ∧
    (q.sample = true → q.meanVelocity.isSome) ∧ (q.sample = false → q.velocity.isSome) ∧
    (∀ v, p.kind = .catalogued v → q.meanVelocity = some v) := by
  unfold newProjectile at h
  split at h
  · simp at h
  · rename_i c hc
    obtain ⟨h1, _, h3, h4, h5, h6⟩ := make_spec hc
    split at h
    · rename_i v a d l r hv ha hd hl hr
      simp only [Option.some.injEq] at h
      subst h
      refine ⟨h1, pick_some ha, pick_some hd, pick_some hl, ?_, h4, ?_, h6⟩
      · simp only
        rcases hg : g.density with _ | x
        · simp only [through, hg, Option.some.injEq] at hr
          subst hr
          exact h3
        · rcases hx : nonneg x with _ | y <;> simp [through, hg, hx] at hr
          subst hr
          rfl
      · intro hs
        simp only at hs ⊢
        have := h5 hs
        rcases hg : g.velocity with _ | x
        · simp only [pick, hg, hs, Bool.false_eq_true, if_false, Option.some.injEq] at hv
          subst hv
          rcases hcv : c.velocity with _ | y
          · simp [hcv] at this
          · rfl
        · rcases hx : nonneg x with _ | y <;> simp [pick, hg, hx] at hv
          subst hv
          rfl
    · simp at h

/-- **C260** (proved part).  A copy of a projectile of the generic kind equals the original in all properties. -/
theorem C260_generic_partial (norm : Loc → Option Loc) (zero : Loc) (dens : ℝ) (p q : Proj Loc) (g : Given Loc) (w : Draws Loc)
    (hk : p.kind = .generic) (h : newProjectile norm zero dens p g w = some q) : make zero dens q = some q := by
  obtain ⟨h1, h2, h3, h4, h5, h6, h7, -⟩ := new_spec h
  rw [hk] at h1
  obtain ⟨k, s, mv, ve, an, di, lo, de⟩ := q
  simp only at h1 h2 h3 h4 h5 h6 h7
  subst h1
  obtain ⟨an, rfl⟩ := Option.isSome_iff_exists.1 h2
  obtain ⟨di, rfl⟩ := Option.isSome_iff_exists.1 h3
  obtain ⟨lo, rfl⟩ := Option.isSome_iff_exists.1 h4
  obtain ⟨de, rfl⟩ := Option.isSome_iff_exists.1 h5
  cases s
  · obtain ⟨ve, rfl⟩ := Option.isSome_iff_exists.1 (h7 rfl)
    simp [make, check]
  · obtain ⟨mv, rfl⟩ := Option.isSome_iff_exists.1 (h6 rfl)
    simp [make, check]

/-- **C260 fails** for the velocity of asteroids and comets: a copy has all properties of the original but the velocity, which is the mean
velocity of the target body.  A copy of a projectile with a sampled or given velocity thus has another velocity. -/
theorem C260_velocity_fails (norm : Loc → Option Loc) (zero : Loc) (dens : ℝ) (p q : Proj Loc) (g : Given Loc) (w : Draws Loc) (v : ℝ)
    (hk : p.kind = .catalogued v) (h : newProjectile norm zero dens p g w = some q) :
    make zero dens q = some { q with velocity := some v } ∧
    (q.velocity ≠ some v → make zero dens q ≠ some q) ∧
    (∀ u, g.velocity = some u → u ≠ v → make zero dens q ≠ some q) ∧
    (g.velocity = none → p.sample = true → w.velocity ≠ v → make zero dens q ≠ some q) := by
  obtain ⟨h1, h2, h3, h4, h5, h6, h7, h8⟩ := new_spec h
  replace h8 := h8 v hk
  rw [hk] at h1
  have hcopy : make zero dens q = some { q with velocity := some v } := by
    obtain ⟨k, s, mv, ve, an, di, lo, de⟩ := q
    simp only at h1 h2 h3 h4 h5 h8
    subst h1 h8
    obtain ⟨an, rfl⟩ := Option.isSome_iff_exists.1 h2
    obtain ⟨di, rfl⟩ := Option.isSome_iff_exists.1 h3
    obtain ⟨lo, rfl⟩ := Option.isSome_iff_exists.1 h4
    obtain ⟨de, rfl⟩ := Option.isSome_iff_exists.1 h5
    cases s <;> simp [make, check]
  have hne : q.velocity ≠ some v → make zero dens q ≠ some q := by
    intro hv he
    rw [hcopy] at he
    exact hv (congrArg Proj.velocity (Option.some.inj he)).symm
  refine ⟨hcopy, hne, fun u hu huv => ?_, fun hg hs hw => ?_⟩
  all_goals
    apply hne
    unfold newProjectile at h
    split at h
    · simp at h
    · rename_i c hc
      have hcs := (make_spec hc).2.1
      split at h
      · rename_i v' a d l r hv ha hd hl hr
        simp only [Option.some.injEq] at h
        subst h
        simp_all only [pick, nonneg]
        first
        | (split at hv <;> simp at hv; subst hv; simpa using huv)
        | (simp at hv; subst hv; simpa using hw)
      · simp at h

/-- An asteroid at the Moon that was asked to hit with 30 km/s: its copy hits with the mean velocity. -/
example : newProjectile (Loc := ℕ) some 0 2250 ⟨.catalogued 22100, true, none, none, none, none, none, none⟩
    ⟨some 30000, none, none, none, none⟩ ⟨19000, 40, 10, 5⟩ =
      some ⟨.catalogued 22100, true, some 22100, some 30000, some 40, some 10, some 5, some 2250⟩ := by
  have h : ¬ (30000 : ℝ) < 0 := by norm_num
  simp [newProjectile, make, check, pick, nonneg, through, h]

/-- A generic projectile without sampling. -/
example : newProjectile (Loc := ℕ) some 0 2250 ⟨.generic, false, none, some 10000, none, none, none, none⟩
    ⟨none, none, none, none, some 3000⟩ ⟨19000, 40, 10, 5⟩ =
      some ⟨.generic, false, none, some 10000, some 90, some 0, some 0, some 3000⟩ := by
  have h : ¬ (3000 : ℝ) < 0 := by norm_num
  simp [newProjectile, make, check, pick, nonneg, through, h]

end

end Verif.Bodies
