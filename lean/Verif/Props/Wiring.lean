import Verif.Model.Wiring
import Mathlib.Tactic.Common

/-! Property C243: the components of a simulation belong to each other. -/

namespace Verif.Wiring

/-- The components of a simulation belong to each other: all refer to the same target, surface, projectiles, counting object and so on. -/
structure Coherent (w : World) (s : Sim) : Prop where
  projectileTarget : w.projTarget s.projectile = s.target
  scalingTarget : w.scalTarget s.scaling = s.target
  scalingProjectile : w.scalProj s.scaling = s.projectile
  surfaceTarget : w.surfTarget s.surface = s.target
  countingSurface : w.countSurf s.counting = s.surface
  countingMorphology : w.countMorph s.counting = some s.morphology
  morphologySurface : w.morphSurf s.morphology = s.surface
  morphologyCounting : w.morphCount s.morphology = s.counting
  morphologyScaling : w.morphScal s.morphology = s.scaling
  morphologyProduction : w.morphProd s.morphology = none ∨ w.morphProd s.morphology = some s.production

/-- The objects given exist, and so do those they refer to. -/
structure Exists (w : World) (a : Args) : Prop where
  target : ∀ t, a.target = some t → t < w.next
  production : ∀ p, a.production = some p → p < w.next
  projectile : ∀ j, a.projectile = some j → j < w.next ∧ w.projTarget j < w.next
  scaling : ∀ k, a.scaling = some k → k < w.next
  surface : ∀ s, a.surface = some s → s < w.next ∧ w.surfTarget s < w.next
  counting : ∀ c, a.counting = some c → c < w.next ∧ w.countSurf c < w.next
  morphology : ∀ m, a.morphology = some m → m < w.next ∧ w.morphSurf m < w.next ∧ w.morphCount m < w.next ∧
    w.morphScal m < w.next ∧ (∀ p, w.morphProd m = some p → p < w.next)

/-- The objects that are given fit together: each one given refers only to objects that are given too. -/
structure Fits (w : World) (a : Args) : Prop where
  projectile : ∀ j, a.projectile = some j → a.target = some (w.projTarget j)
  surface : ∀ s, a.surface = some s → a.target = some (w.surfTarget s)
  counting : ∀ c, a.counting = some c → a.surface = some (w.countSurf c)
  morphology : ∀ m, a.morphology = some m → a.surface = some (w.morphSurf m) ∧ a.counting = some (w.morphCount m) ∧
    a.scaling = some (w.morphScal m) ∧ (w.morphProd m = none ∨ w.morphProd m = a.production) ∧
    w.countMorph (w.morphCount m) = some m

theorem makePlain_keeps (w : World) (o) :
    (makePlain w o).1.projTarget = w.projTarget ∧
    (makePlain w o).1.scalTarget = w.scalTarget ∧
    (makePlain w o).1.scalProj = w.scalProj ∧
    (makePlain w o).1.surfTarget = w.surfTarget ∧
    (makePlain w o).1.countSurf = w.countSurf ∧
    (makePlain w o).1.countMorph = w.countMorph ∧
    (makePlain w o).1.morphSurf = w.morphSurf ∧
    (makePlain w o).1.morphCount = w.morphCount ∧
    (makePlain w o).1.morphScal = w.morphScal ∧
    (makePlain w o).1.morphProd = w.morphProd ∧
    w.next ≤ (makePlain w o).1.next := by
  cases o <;> simp [makePlain]

theorem makeProjectile_keeps (w : World) (b t o) :
    (makeProjectile w b t o).1.scalTarget = w.scalTarget ∧
    (makeProjectile w b t o).1.scalProj = w.scalProj ∧
    (makeProjectile w b t o).1.surfTarget = w.surfTarget ∧
    (makeProjectile w b t o).1.countSurf = w.countSurf ∧
    (makeProjectile w b t o).1.countMorph = w.countMorph ∧
    (makeProjectile w b t o).1.morphSurf = w.morphSurf ∧
    (makeProjectile w b t o).1.morphCount = w.morphCount ∧
    (makeProjectile w b t o).1.morphScal = w.morphScal ∧
    (makeProjectile w b t o).1.morphProd = w.morphProd ∧
    w.next ≤ (makeProjectile w b t o).1.next := by
  cases o <;> cases b <;> simp [makeProjectile, copyProjectile] <;> omega

theorem makeScaling_keeps (w : World) (t p o) :
    (makeScaling w t p o).1.projTarget = w.projTarget ∧
    (makeScaling w t p o).1.surfTarget = w.surfTarget ∧
    (makeScaling w t p o).1.countSurf = w.countSurf ∧
    (makeScaling w t p o).1.countMorph = w.countMorph ∧
    (makeScaling w t p o).1.morphSurf = w.morphSurf ∧
    (makeScaling w t p o).1.morphCount = w.morphCount ∧
    (makeScaling w t p o).1.morphScal = w.morphScal ∧
    (makeScaling w t p o).1.morphProd = w.morphProd ∧
    w.next ≤ (makeScaling w t p o).1.next := by
  cases o <;> simp [makeScaling]

theorem makeSurface_keeps (w : World) (t o) :
    (makeSurface w t o).1.projTarget = w.projTarget ∧
    (makeSurface w t o).1.scalTarget = w.scalTarget ∧
    (makeSurface w t o).1.scalProj = w.scalProj ∧
    (makeSurface w t o).1.countSurf = w.countSurf ∧
    (makeSurface w t o).1.countMorph = w.countMorph ∧
    (makeSurface w t o).1.morphSurf = w.morphSurf ∧
    (makeSurface w t o).1.morphCount = w.morphCount ∧
    (makeSurface w t o).1.morphScal = w.morphScal ∧
    (makeSurface w t o).1.morphProd = w.morphProd ∧
    w.next ≤ (makeSurface w t o).1.next := by
  cases o <;> simp [makeSurface]

theorem makeCounting_keeps (w : World) (s o) :
    (makeCounting w s o).1.projTarget = w.projTarget ∧
    (makeCounting w s o).1.scalTarget = w.scalTarget ∧
    (makeCounting w s o).1.scalProj = w.scalProj ∧
    (makeCounting w s o).1.surfTarget = w.surfTarget ∧
    (makeCounting w s o).1.morphSurf = w.morphSurf ∧
    (makeCounting w s o).1.morphCount = w.morphCount ∧
    (makeCounting w s o).1.morphScal = w.morphScal ∧
    (makeCounting w s o).1.morphProd = w.morphProd ∧
    w.next ≤ (makeCounting w s o).1.next := by
  cases o <;> simp [makeCounting]

theorem makeMorphology_keeps (w : World) (b s p c k o) :
    (makeMorphology w b s p c k o).1.projTarget = w.projTarget ∧
    (makeMorphology w b s p c k o).1.scalTarget = w.scalTarget ∧
    (makeMorphology w b s p c k o).1.scalProj = w.scalProj ∧
    (makeMorphology w b s p c k o).1.surfTarget = w.surfTarget ∧
    (makeMorphology w b s p c k o).1.countSurf = w.countSurf ∧
    w.next ≤ (makeMorphology w b s p c k o).1.next := by
  cases o <;> simp [makeMorphology]


theorem makePlain_result (w : World) (o) :
    (o = some (makePlain w o).2 ∨ o = none ∧ w.next ≤ (makePlain w o).2) := by
  cases o <;> simp [makePlain]

theorem makeProjectile_result (w : World) (b t o) :
    (makeProjectile w b t o).1.projTarget (makeProjectile w b t o).2 = o.elim t w.projTarget := by
  cases o <;> cases b <;> simp [makeProjectile, copyProjectile]

theorem makeScaling_result (w : World) (t p o) :
    (makeScaling w t p o).1.scalTarget (makeScaling w t p o).2 = t ∧
    (makeScaling w t p o).1.scalProj (makeScaling w t p o).2 = p ∧
    (o = some (makeScaling w t p o).2 ∨ o = none ∧ w.next ≤ (makeScaling w t p o).2) := by
  cases o <;> simp [makeScaling]

theorem makeSurface_result (w : World) (t o) :
    (makeSurface w t o).1.surfTarget (makeSurface w t o).2 = o.elim t w.surfTarget ∧
    (o = some (makeSurface w t o).2 ∨ o = none ∧ w.next ≤ (makeSurface w t o).2) := by
  cases o <;> simp [makeSurface]

theorem makeCounting_result (w : World) (s o) :
    (makeCounting w s o).1.countSurf (makeCounting w s o).2 = o.elim s w.countSurf ∧
    (makeCounting w s o).1.countMorph (makeCounting w s o).2 = o.elim none w.countMorph ∧
    (o = some (makeCounting w s o).2 ∨ o = none ∧ w.next ≤ (makeCounting w s o).2) := by
  cases o <;> simp [makeCounting]

theorem makeMorphology_result (w : World) (b s p c k o) :
    (makeMorphology w b s p c k o).1.morphSurf (makeMorphology w b s p c k o).2 = o.elim s w.morphSurf ∧
    (makeMorphology w b s p c k o).1.morphCount (makeMorphology w b s p c k o).2 = o.elim c w.morphCount ∧
    (makeMorphology w b s p c k o).1.morphScal (makeMorphology w b s p c k o).2 = o.elim k w.morphScal ∧
    (makeMorphology w b s p c k o).1.morphProd (makeMorphology w b s p c k o).2 =
      o.elim (if b then some p else none) w.morphProd ∧
    (makeMorphology w b s p c k o).1.countMorph c =
      o.elim (some (makeMorphology w b s p c k o).2) (fun _ => w.countMorph c) ∧
    (∀ m, o = some m → (makeMorphology w b s p c k o).2 = m) := by
  cases o <;> simp [makeMorphology]

/-- Exactly when the components of a new simulation belong to each other: the objects given to it fit together.  A component given as an
object is never adapted to the others, except that a scaling model gets the target and the projectiles, and that a new morphology model
takes over the counting object. -/
theorem C243_exact_partial (w : World) (a : Args) (h : Exists w a) :
    Coherent (build w a).1 (build w a).2 ↔ Fits w a := by
  obtain ⟨ht, hp, hj, hk, hs, hc, hm⟩ := h
  simp only [build]
  have T := makePlain_keeps w a.target
  have T' := makePlain_result w a.target
  generalize makePlain w a.target = t at *
  have P := makePlain_keeps t.1 a.production
  have P' := makePlain_result t.1 a.production
  generalize makePlain t.1 a.production = p at *
  have J := makeProjectile_keeps p.1 a.sampled t.2 a.projectile
  have J' := makeProjectile_result p.1 a.sampled t.2 a.projectile
  generalize makeProjectile p.1 a.sampled t.2 a.projectile = j at *
  have K := makeScaling_keeps j.1 t.2 j.2 a.scaling
  have K' := makeScaling_result j.1 t.2 j.2 a.scaling
  generalize makeScaling j.1 t.2 j.2 a.scaling = k at *
  have S := makeSurface_keeps k.1 t.2 a.surface
  have S' := makeSurface_result k.1 t.2 a.surface
  generalize makeSurface k.1 t.2 a.surface = s at *
  have C := makeCounting_keeps s.1 s.2 a.counting
  have C' := makeCounting_result s.1 s.2 a.counting
  generalize makeCounting s.1 s.2 a.counting = c at *
  have M := makeMorphology_keeps c.1 a.subpixel s.2 p.2 c.2 k.2 a.morphology
  have M' := makeMorphology_result c.1 a.subpixel s.2 p.2 c.2 k.2 a.morphology
  generalize makeMorphology c.1 a.subpixel s.2 p.2 c.2 k.2 a.morphology = m at *
  obtain ⟨T1, T2, T3, T4, T5, T6, T7, T8, T9, T10, T11⟩ := T
  obtain ⟨P1, P2, P3, P4, P5, P6, P7, P8, P9, P10, P11⟩ := P
  obtain ⟨J2, J3, J4, J5, J6, J7, J8, J9, J10, J11⟩ := J
  obtain ⟨K1, K4, K5, K6, K7, K8, K9, K10, K11⟩ := K
  obtain ⟨S1, S2, S3, S5, S6, S7, S8, S9, S10, S11⟩ := S
  obtain ⟨C1, C2, C3, C4, C7, C8, C9, C10, C11⟩ := C
  obtain ⟨M1, M2, M3, M4, M5, M11⟩ := M
  obtain ⟨K12, K13, K14⟩ := K'
  obtain ⟨S12, S13⟩ := S'
  obtain ⟨C12, C13, C14⟩ := C'
  obtain ⟨M12, M13, M14, M15, M16, M17⟩ := M'
  rw [P1, T1] at J'
  rw [K4, J4, P4, T4] at S12
  rw [S5, K5, J5, P5, T5] at C12
  rw [S6, K6, J6, P6, T6] at C13
  rw [C7, S7, K7, J7, P7, T7] at M12
  rw [C8, S8, K8, J8, P8, T8] at M13
  rw [C9, S9, K9, J9, P9, T9] at M14
  rw [C10, S10, K10, J10, P10, T10] at M15
  rw [C13] at M16
  have e1 : m.1.projTarget j.2 = a.projectile.elim t.2 w.projTarget := by
    rw [M1, C1, S1, K1, J']
  have e2 : m.1.scalTarget k.2 = t.2 := by rw [M2, C2, S2, K12]
  have e3 : m.1.scalProj k.2 = j.2 := by rw [M3, C3, S3, K13]
  have e4 : m.1.surfTarget s.2 = a.surface.elim t.2 w.surfTarget := by rw [M4, C4, S12]
  have e5 : m.1.countSurf c.2 = a.counting.elim s.2 w.countSurf := by rw [M5, C12]
  -- an object given that refers to the one in use
  have use : ∀ (o : Option ℕ) (r x n : ℕ), (o = some r ∨ o = none ∧ n ≤ r) → w.next ≤ n → x < w.next →
      (x = r ↔ o = some x) := by
    intro o r x n h hn hx
    rcases h with rfl | ⟨rfl, h⟩
    · simp [eq_comm]
    · simp; omega
  have hS := fun x hx => use a.surface s.2 x k.1.next S13 (by omega) hx
  have hT := fun x hx => use a.target t.2 x w.next T' (by omega) hx
  have hC := fun x hx => use a.counting c.2 x s.1.next C14 (by omega) hx
  have hK := fun x hx => use a.scaling k.2 x j.1.next K14 (by omega) hx
  have hP := fun x hx => use a.production p.2 x t.1.next P' (by omega) hx
  constructor
  · rintro ⟨c1, c2, c3, c4, c5, c6, c7, c8, c9, c10⟩
    simp only at c1 c2 c3 c4 c5 c6 c7 c8 c9 c10
    rw [e1] at c1
    rw [e4] at c4
    rw [e5] at c5
    rw [M16] at c6
    rw [M12] at c7
    rw [M13] at c8
    rw [M14] at c9
    rw [M15] at c10
    refine ⟨?_, ?_, ?_, ?_⟩
    · intro x hx
      rw [hx] at c1
      exact (hT _ (hj x hx).2).mp c1
    · intro x hx
      rw [hx] at c4
      exact (hT _ (hs x hx).2).mp c4
    · intro x hx
      rw [hx] at c5
      exact (hS _ (hc x hx).2).mp c5
    · intro x hx
      obtain ⟨h0, h1, h2, h3, h4⟩ := hm x hx
      have hx' := M17 x hx
      rw [hx] at c6 c7 c8 c9 c10
      simp only [Option.elim] at c6 c7 c8 c9 c10
      have hcc := (hC _ h2).mp c8
      refine ⟨(hS _ h1).mp c7, hcc, (hK _ h3).mp c9, ?_, ?_⟩
      · rcases c10 with h | h
        · exact Or.inl h
        · right
          rw [h]
          exact ((hP _ (h4 _ h)).mp rfl).symm
      · rw [hcc] at c6
        simpa [hx'] using c6
  · rintro ⟨f1, f2, f3, f4⟩
    refine ⟨?_, e2, e3, ?_, ?_, ?_, ?_, ?_, ?_, ?_⟩ <;> simp only
    · rw [e1]
      rcases h : a.projectile with _ | x
      · rfl
      · exact (hT _ (hj x h).2).mpr (f1 x h)
    · rw [e4]
      rcases h : a.surface with _ | x
      · rfl
      · exact (hT _ (hs x h).2).mpr (f2 x h)
    · rw [e5]
      rcases h : a.counting with _ | x
      · rfl
      · exact (hS _ (hc x h).2).mpr (f3 x h)
    · rw [M16]
      rcases h : a.morphology with _ | x
      · rfl
      · obtain ⟨g1, g2, g3, g4, g5⟩ := f4 x h
        rw [g2, M17 x h]
        exact g5
    · rw [M12]
      rcases h : a.morphology with _ | x
      · rfl
      · exact (hS _ (hm x h).2.1).mpr (f4 x h).1
    · rw [M13]
      rcases h : a.morphology with _ | x
      · rfl
      · exact (hC _ (hm x h).2.2.1).mpr (f4 x h).2.1
    · rw [M14]
      rcases h : a.morphology with _ | x
      · rfl
      · exact (hK _ (hm x h).2.2.2.1).mpr (f4 x h).2.2.1
    · rw [M15]
      rcases h : a.morphology with _ | x
      · cases a.subpixel <;> simp
      · rcases (f4 x h).2.2.2.1 with g | g
        · exact Or.inl g
        · rcases hq : w.morphProd x with _ | q
          · exact Or.inl hq
          · right
            rw [hq] at g
            have : q = p.2 := (hP _ ((hm x h).2.2.2.2 q hq)).mpr g.symm
            simp only [Option.elim]
            rw [hq, this]

/-- Without objects for projectiles, surface, counting and morphology, that is with names or nothing, the components of a new simulation
always belong to each other, whatever target, scaling model and production function is given. -/
theorem C243_new_partial (w : World) (a : Args) (h : Exists w a) (hj : a.projectile = none) (hs : a.surface = none)
    (hc : a.counting = none) (hm : a.morphology = none) : Coherent (build w a).1 (build w a).2 := by
  rw [C243_exact_partial w a h]
  constructor <;> intro x hx
  · rw [hj] at hx; cases hx
  · rw [hs] at hx; cases hx
  · rw [hc] at hx; cases hx
  · rw [hm] at hx; cases hx

/-- A simulation made with the components of another one has all of them. -/
theorem C243_reused_partial (w : World) (s : Sim) (h : Coherent w s) (b : Bool)
    (he : Exists w ⟨some s.target, some s.production, some s.projectile, some s.scaling, some s.surface, some s.counting,
      some s.morphology, b, false⟩) :
    Coherent (build w ⟨some s.target, some s.production, some s.projectile, some s.scaling, some s.surface, some s.counting,
      some s.morphology, b, false⟩).1 s ∧
    (build w ⟨some s.target, some s.production, some s.projectile, some s.scaling, some s.surface, some s.counting,
      some s.morphology, b, false⟩).2 = s := by
  have e : (build w ⟨some s.target, some s.production, some s.projectile, some s.scaling, some s.surface, some s.counting,
      some s.morphology, b, false⟩).2 = s := rfl
  refine ⟨?_, e⟩
  have key := C243_exact_partial w _ he
  rw [e] at key
  rw [key]
  obtain ⟨c1, c2, c3, c4, c5, c6, c7, c8, c9, c10⟩ := h
  refine ⟨?_, ?_, ?_, ?_⟩
  · rintro x ⟨⟩; simp [c1]
  · rintro x ⟨⟩; simp [c4]
  · rintro x ⟨⟩; simp [c5]
  · rintro x ⟨⟩
    exact ⟨by simp [c7], by simp [c8], by simp [c9], c10, by rw [c8]; exact c6⟩

/-- With a surface given as an object and a target given by name or not at all, the surface belongs to another target than the simulation,
whatever they are; with a morphology model given as an object and a surface given by name or not at all, the craters are formed on another
surface than the one that is saved and plotted; and unless its counting object is given too, they are recorded elsewhere than in the
object that is saved and shown. -/
theorem C243_objects_fails (w : World) (a : Args) (h : Exists w a) :
    (a.surface.isSome → a.target = none → (build w a).1.surfTarget (build w a).2.surface ≠ (build w a).2.target) ∧
    (a.morphology.isSome → a.surface = none → cratered (build w a).1 (build w a).2 ≠ saved (build w a).2) ∧
    (a.morphology.isSome → a.counting = none → recorded (build w a).1 (build w a).2 ≠ shown (build w a).2) := by
  obtain ⟨ht, hp, hj, hk, hs, hc, hm⟩ := h
  obtain ⟨at', ap, aj, ak, as, ac, am, sub, sam⟩ := a
  simp only at ht hp hj hk hs hc hm
  refine ⟨?_, ?_, ?_⟩
  · intro h1 h2
    rcases as with _ | s
    · simp at h1
    simp only at h2
    subst h2
    have hlt := (hs s rfl).2
    rcases ap with _ | p <;> rcases aj with _ | j <;> rcases ak with _ | k <;> rcases ac with _ | c <;> rcases am with _ | m <;>
      rcases sam <;>
      simp [build, makePlain, makeProjectile, copyProjectile, makeScaling, makeSurface, makeCounting, makeMorphology] <;> omega
  · intro h1 h2
    rcases am with _ | m
    · simp at h1
    simp only at h2
    subst h2
    have hlt := (hm m rfl).2.1
    rcases at' with _ | t <;> rcases ap with _ | p <;> rcases aj with _ | j <;> rcases ak with _ | k <;> rcases ac with _ | c <;>
      rcases sam <;>
      simp [build, makePlain, makeProjectile, copyProjectile, makeScaling, makeSurface, makeCounting, makeMorphology, cratered,
        saved] <;> omega
  · intro h1 h2
    rcases am with _ | m
    · simp at h1
    simp only at h2
    subst h2
    have hlt := (hm m rfl).2.2.1
    rcases at' with _ | t <;> rcases ap with _ | p <;> rcases aj with _ | j <;> rcases ak with _ | k <;> rcases as with _ | s <;>
      rcases sam <;>
      simp [build, makePlain, makeProjectile, copyProjectile, makeScaling, makeSurface, makeCounting, makeMorphology, recorded,
        shown] <;> omega

/-- Assigning an object to a component of a simulation never adapts the others: of components that belong to each other, only the
production function of a simulation whose morphology model uses none can be replaced by another object so that they still do. -/
theorem C243_assign_fails (w : World) (s : Sim) (h : Coherent w s) :
    (∀ t, Coherent w (assign s (.target t)) ↔ t = s.target) ∧
    (∀ j, Coherent w (assign s (.projectile j)) ↔ j = s.projectile) ∧
    (∀ k, Coherent w (assign s (.scaling k)) ↔ k = s.scaling) ∧
    (∀ x, Coherent w (assign s (.surface x)) ↔ x = s.surface) ∧
    (∀ c, Coherent w (assign s (.counting c)) ↔ c = s.counting) ∧
    (∀ m, Coherent w (assign s (.morphology m)) ↔ m = s.morphology) ∧
    (∀ p, Coherent w (assign s (.production p)) ↔ p = s.production ∨ w.morphProd s.morphology = none) := by
  have h' := h
  obtain ⟨c1, c2, c3, c4, c5, c6, c7, c8, c9, c10⟩ := h
  refine ⟨?_, ?_, ?_, ?_, ?_, ?_, ?_⟩ <;> intro x
  · exact ⟨fun g => (g.scalingTarget.symm.trans c2), fun g => by subst g; exact h'⟩
  · exact ⟨fun g => (g.scalingProjectile.symm.trans c3), fun g => by subst g; exact h'⟩
  · exact ⟨fun g => (g.morphologyScaling.symm.trans c9), fun g => by subst g; exact h'⟩
  · exact ⟨fun g => (g.morphologySurface.symm.trans c7), fun g => by subst g; exact h'⟩
  · exact ⟨fun g => (g.morphologyCounting.symm.trans c8), fun g => by subst g; exact h'⟩
  · exact ⟨fun g => Option.some.inj (g.countingMorphology.symm.trans c6), fun g => by subst g; exact h'⟩
  · constructor
    · intro g
      rcases g.morphologyProduction with e | e
      · exact Or.inr e
      · rcases c10 with d | d
        · exact Or.inr d
        · exact Or.inl (Option.some.inj (e.symm.trans d))
    · rintro (rfl | g)
      · exact h'
      · exact ⟨c1, c2, c3, c4, c5, c6, c7, c8, c9, Or.inl g⟩

/-- A world in which a simulation was made from names, and a second surface (object 9) for its target. -/
def exWorld : World := ⟨10, fun _ => 0, fun _ => 0, fun _ => 3, fun _ => 0, fun _ => 5, fun _ => some 7, fun _ => 5, fun _ => 6, fun _ => 4,
  fun _ => some 1⟩

example : Coherent exWorld ⟨0, 1, 3, 4, 5, 6, 7⟩ ∧ Exists exWorld ⟨some 0, some 1, some 3, some 4, some 5, some 6, some 7, true, false⟩ ∧
    Fits exWorld ⟨some 0, some 1, some 3, some 4, some 5, some 6, some 7, true, false⟩ :=
  ⟨⟨rfl, rfl, rfl, rfl, rfl, rfl, rfl, rfl, rfl, Or.inr rfl⟩,
   ⟨by simp [exWorld], by simp [exWorld], by simp [exWorld], by simp [exWorld], by simp [exWorld], by simp [exWorld], by simp [exWorld]⟩,
   ⟨by simp [exWorld], by simp [exWorld], by simp [exWorld], by simp [exWorld]⟩⟩

/-- The craters of a simulation made with another surface and the old morphology model are formed on the old surface. -/
example : Exists exWorld ⟨some 0, none, none, none, some 9, none, some 7, true, false⟩ ∧
    cratered (build exWorld ⟨some 0, none, none, none, some 9, none, some 7, true, false⟩).1
      (build exWorld ⟨some 0, none, none, none, some 9, none, some 7, true, false⟩).2 = 5 ∧
    saved (build exWorld ⟨some 0, none, none, none, some 9, none, some 7, true, false⟩).2 = 9 :=
  ⟨⟨by simp [exWorld], by simp [exWorld], by simp [exWorld], by simp [exWorld], by simp [exWorld], by simp [exWorld], by simp [exWorld]⟩,
   rfl, rfl⟩

example : Exists exWorld ⟨none, none, none, none, none, none, none, true, false⟩ :=
  ⟨by simp, by simp, by simp, by simp, by simp, by simp, by simp⟩

end Verif.Wiring
