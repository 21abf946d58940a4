import Verif.Model.ScalingMaker
import Verif.Props.Scaling
import Mathlib.Tactic.NormNum

/-!
C196 A scaling model has the target and projectiles it is made with.
-/

namespace Verif.ScalingMaker

open Verif.Defaults (Proj Population)
open Verif.Scaling (Args Params Mat wanted softRock)

/-- With the target and the projectiles given as objects, or left out, a new scaling model has this target (the Moon when left out) and
these projectiles (those of the target when left out), the density that was asked for becomes that of the target, and this is the density
the scaling model uses.  Missing for the full property: names, see the next theorems. -/
theorem C196_objects_partial (title : String → String) (htitle : ∀ s, title (title s) = title s) (cat : String → Option Mat)
    (bodies : String → Option Body) (given : Option Body) (q : Option Population) (velocity : Option ℚ) (a : Args) (m : Model)
    (h : maker title cat bodies (given.elim .none .object) (q.elim .none .object) velocity a = some m)
    (hmoon : (bodies "Moon").isSome) :
    ∃ b, (given = some b ∨ given = none ∧ bodies "Moon" = some b) ∧
      m.target.name = b.name ∧ m.target.gravity = b.gravity ∧ m.target.material = b.material ∧
      m.target.density = m.params.density ∧
      (∀ d, a.density = some d → m.target.density = some d) ∧
      (∀ p, q = some p → m.projectile = p) ∧
      (q = none → Defaults.makeProjectile none velocity b.name = some m.projectile) := by
  obtain ⟨moon, hmoon⟩ := Option.isSome_iff_exists.1 hmoon
  have key : ∀ (b : Body), makeTarget bodies (given.elim .none .object) = some b →
      m.target.name = b.name ∧ m.target.gravity = b.gravity ∧ m.target.material = b.material ∧
      m.target.density = m.params.density ∧
      (∀ d, a.density = some d → m.target.density = some d) ∧
      (∀ p, q = some p → m.projectile = p) ∧
      (q = none → Defaults.makeProjectile none velocity b.name = some m.projectile) := by
    intro b hb
    unfold maker at h
    rw [hb] at h
    dsimp only at h
    rcases hq : makeProjectile velocity b (q.elim .none .object) with _ | q'
    · rw [hq] at h; simp at h
    rw [hq] at h
    dsimp only at h
    rcases hp : Scaling.init title cat b.material b.density a with _ | p
    · rw [hp] at h; simp at h
    rw [hp] at h
    dsimp only at h
    have hm : m = ⟨p, { b with density := p.density }, q'⟩ := by
      rcases given with _ | g <;> rcases q with _ | q0
      · simpa [assign] using h.symm
      · simp only [Option.elim, makeProjectile, Option.some.injEq] at hq
        subst hq
        simpa [assign, setProjectile, makeTarget, makeProjectile, hmoon] using h.symm
      · simpa [assign, setTarget, makeTarget] using h.symm
      · simp only [Option.elim, makeProjectile, Option.some.injEq] at hq
        subst hq
        simpa [assign, setProjectile, setTarget, makeTarget, makeProjectile, hmoon] using h.symm
    subst hm
    obtain ⟨n, _, _, _, _, _, hd, _⟩ := Scaling.C31_explicit title htitle cat _ _ a p hp
    refine ⟨rfl, rfl, rfl, rfl, ?_, ?_, ?_⟩
    · intro d had
      show p.density = some d
      rw [hd, had]; rfl
    · rintro p0 rfl
      simp only [Option.elim, makeProjectile, Option.some.injEq] at hq
      exact hq.symm
    · rintro rfl
      simpa [makeProjectile] using hq
  rcases given with _ | g
  · exact ⟨moon, Or.inr ⟨rfl, hmoon⟩, key moon hmoon⟩
  · exact ⟨g, Or.inl rfl, key g rfl⟩

/-- With the target given by its name, the target of the scaling model is made anew after the construction, so a density (or a material)
that was asked for never reaches it, whatever the values. -/
theorem C196_name_fails (title : String → String) (cat : String → Option Mat) (bodies : String → Option Body) (s : String)
    (projectile : ProjArg) (velocity : Option ℚ) (a : Args) (m : Model)
    (h : maker title cat bodies (.name s) projectile velocity a = some m) : bodies s = some m.target := by
  have hs : ∀ m1 : Model, setTarget bodies (.name s) m1 = some m → bodies s = some m.target := by
    intro m1 h1
    simp only [setTarget, makeTarget, Option.map_eq_some_iff] at h1
    obtain ⟨b, hb, rfl⟩ := h1
    exact hb
  unfold maker at h
  split at h
  · simp at h
  · split at h
    · simp at h
    · split at h
      · simp at h
      · simp only [assign] at h
        split at h
        · simp at h
        · exact hs _ h

/-- With the projectiles given by their name, they are made anew for the Moon, whatever the target is. -/
theorem C196_projectile_fails (title : String → String) (cat : String → Option Mat) (bodies : String → Option Body) (target : TargetArg)
    (k : Proj) (velocity : Option ℚ) (a : Args) (m : Model) (moon : Body) (hmoon : bodies "Moon" = some moon) (hname : moon.name = "Moon")
    (h : maker title cat bodies target (.name k) velocity a = some m) :
    m.projectile = match k with
      | .asteroids => ⟨.asteroids, 22100⟩
      | .comets => ⟨.comets, 17670⟩
      | .generic => m.projectile := by
  have hset : ∀ m0 m1 : Model, setProjectile bodies (.name k) m0 = some m1 → m1.projectile = match k with
      | .asteroids => ⟨.asteroids, 22100⟩
      | .comets => ⟨.comets, 17670⟩
      | .generic => m1.projectile := by
    intro m0 m1 h1
    simp only [setProjectile, makeTarget, hmoon, makeProjectile, hname] at h1
    have ha : Defaults.makeProjectile (some .asteroids) none "Moon" = some ⟨.asteroids, 22100⟩ := by decide +kernel
    have hc : Defaults.makeProjectile (some .comets) none "Moon" = some ⟨.comets, 17670⟩ := by decide +kernel
    cases k
    · rw [ha] at h1; simp only [Option.map_some, Option.some.injEq] at h1; subst h1; rfl
    · rw [hc] at h1; simp only [Option.map_some, Option.some.injEq] at h1; subst h1; rfl
    · rfl
  have htar : ∀ (t : TargetArg) (m1 : Model), (match t with | .none => some m1 | a => setTarget bodies a m1) = some m →
      m.projectile = m1.projectile := by
    intro t m1 h1
    cases t with
    | none => simp only [Option.some.injEq] at h1; rw [h1]
    | name s =>
      simp only [setTarget, Option.map_eq_some_iff] at h1
      obtain ⟨b, _, rfl⟩ := h1; rfl
    | object b0 =>
      simp only [setTarget, Option.map_eq_some_iff] at h1
      obtain ⟨b, _, rfl⟩ := h1; rfl
  unfold maker at h
  split at h
  · simp at h
  · split at h
    · simp at h
    · split at h
      · simp at h
      · simp only [assign] at h
        split at h
        · simp at h
        · rename_i m1 h1
          rw [htar _ _ h]
          exact hset _ _ h1

/-- Generic projectiles asked for by name are refused, even with the mean velocity they need. -/
theorem C196_generic_fails (title : String → String) (cat : String → Option Mat) (bodies : String → Option Body) (target : TargetArg)
    (velocity : Option ℚ) (a : Args) : maker title cat bodies target (.name .generic) velocity a = none := by
  have hset : ∀ m0, setProjectile bodies (.name .generic) m0 = none := by
    intro m0
    unfold setProjectile
    split
    · rfl
    · rfl
  unfold maker
  split
  · rfl
  · split
    · rfl
    · split
      · rfl
      · simp only [assign, hset]

/-- An existing scaling model given a new target and new projectiles has these, but its material and constants stay those of the old
target, whatever the new one is made of. -/
theorem C196_replace_fails (bodies : String → Option Body) (s : Model) (b : Body) (q : Population) (hmoon : (bodies "Moon").isSome) :
    makerOf bodies s (.object b) (.object q) = some ⟨s.params, b, q⟩ := by
  obtain ⟨moon, hmoon⟩ := Option.isSome_iff_exists.1 hmoon
  simp [makerOf, assign, setProjectile, setTarget, makeTarget, makeProjectile, hmoon]

/-- The Moon and Mars, for the examples. -/
noncomputable def twoBodies (s : String) : Option Body :=
  if s = "Moon" then some ⟨"Moon", 1.62, some "Soft Rock", some 2250⟩
  else if s = "Mars" then some ⟨"Mars", 3.72, some "Soft Rock", some 2250⟩
  else none

/-- Mars with a density of 3000 kg/m³: kept when Mars is an object, with projectiles at 10.7 km/s; lost when both are given by name, where
the projectiles have the velocity of the Moon, 22.1 km/s. -/
example : ∃ m n mars, twoBodies "Mars" = some mars ∧
    maker id softRock twoBodies (.object mars) .none none ⟨none, none, none, none, some 3000⟩ = some m ∧
    m.target.density = some 3000 ∧ m.projectile = ⟨.asteroids, 10700⟩ ∧
    maker id softRock twoBodies (.name "Mars") (.name .asteroids) none ⟨none, none, none, none, some 3000⟩ = some n ∧
    n.target.density = some 2250 ∧ n.projectile = ⟨.asteroids, 22100⟩ := by
  have hmars : twoBodies "Mars" = some ⟨"Mars", 3.72, some "Soft Rock", some 2250⟩ := by
    unfold twoBodies; rw [if_neg (by decide), if_pos rfl]
  have hmoon : twoBodies "Moon" = some ⟨"Moon", 1.62, some "Soft Rock", some 2250⟩ := by
    unfold twoBodies; rw [if_pos rfl]
  have h1 : Defaults.makeProjectile none none "Mars" = some ⟨.asteroids, 10700⟩ := by decide +kernel
  have h2 : Defaults.makeProjectile (some .asteroids) none "Mars" = some ⟨.asteroids, 10700⟩ := by decide +kernel
  have h3 : Defaults.makeProjectile (some .asteroids) none "Moon" = some ⟨.asteroids, 22100⟩ := by decide +kernel
  have hi : Scaling.init id softRock (some "Soft Rock") (some 2250) ⟨none, none, none, none, some 3000⟩ =
      some ⟨some "Soft Rock", some 0.2, some 0.55, some 7.6e6, some 3000⟩ := by
    norm_num [Scaling.init, Scaling.setMaterial, softRock, Scaling.checked, Scaling.checkedDensity, Scaling.setOpt]
  refine ⟨⟨⟨some "Soft Rock", some 0.2, some 0.55, some 7.6e6, some 3000⟩, ⟨"Mars", 3.72, some "Soft Rock", some 3000⟩, ⟨.asteroids, 10700⟩⟩,
    ⟨⟨some "Soft Rock", some 0.2, some 0.55, some 7.6e6, some 3000⟩, ⟨"Mars", 3.72, some "Soft Rock", some 2250⟩, ⟨.asteroids, 22100⟩⟩,
    ⟨"Mars", 3.72, some "Soft Rock", some 2250⟩, hmars, ?_, rfl, rfl, ?_, rfl, rfl⟩
  · simp only [maker, makeTarget, makeProjectile, h1, hi, assign, setTarget, Option.map_some]
  · simp only [maker, makeTarget, makeProjectile, hmars, h2, hi, assign, setProjectile, hmoon, h3, setTarget, Option.map_some]

/-- A model made for a soft target and given an icy one keeps the constants of the soft rock. -/
example : (twoBodies "Moon").isSome ∧
    makerOf twoBodies ⟨⟨some "Soft Rock", some 0.2, some 0.55, some 7.6e6, some 2250⟩, ⟨"Moon", 1.62, some "Soft Rock", some 2250⟩,
      ⟨.asteroids, 22100⟩⟩ (.object ⟨"Europa", 1.31, some "Ice", some 900⟩) (.object ⟨.comets, 26000⟩) =
    some ⟨⟨some "Soft Rock", some 0.2, some 0.55, some 7.6e6, some 2250⟩, ⟨"Europa", 1.31, some "Ice", some 900⟩, ⟨.comets, 26000⟩⟩ := by
  have h : (twoBodies "Moon").isSome := by unfold twoBodies; rw [if_pos rfl]; rfl
  exact ⟨h, C196_replace_fails _ _ _ _ h⟩

end Verif.ScalingMaker
