import Verif.Model.Bodies

/-! Properties C32, C33, C94: projectiles and targets. -/

namespace Verif.Bodies

/-! ### C33 -/

theorem positive_some {v w : ℝ} (h : positive v = some w) : w = v ∧ 0 < v := by
  unfold positive at h
  split_ifs at h with hv
  cases h
  exact ⟨rfl, not_le.mp hv⟩

theorem through_some {α : Type} {set : α → Option α} {v old r : Option α} (h : through set v old = some r) :
    (v = none ∧ r = old) ∨ ∃ a b, v = some a ∧ set a = some b ∧ r = some b := by
  unfold through at h
  rcases v with _ | a
  · simp at h; exact Or.inl ⟨rfl, h.symm⟩
  · simp only [Option.map_eq_some_iff] at h
    obtain ⟨b, hb, rfl⟩ := h
    exact Or.inr ⟨a, b, rfl, hb, rfl⟩

theorem setAll_some {t u : Target} {r m mat sc d} (h : setAll t r m mat sc d = some u) :
    through positive r t.radius = some u.radius ∧ through positive m t.mass = some u.mass ∧
    through okScale sc t.scale = some u.scale ∧ through positive d t.density = some u.density ∧
    u.material = mat.or t.material := by
  unfold setAll at h
  rcases h1 : through positive r t.radius with _ | a <;> rcases h2 : through positive m t.mass with _ | b <;>
    rcases h3 : through okScale sc t.scale with _ | c <;>
    rcases h4 : through positive d t.density with _ | e <;> rw [h1, h2, h3, h4] at h <;>
    simp only [reduceCtorEq, Option.some.injEq] at h
  subst h
  exact ⟨rfl, rfl, rfl, rfl, rfl⟩

/-- The value a constructor argument leads to: itself if given, else the catalogue's. -/
def orElse {α : Type} (explicit fromCat : Option α) : Option α :=
  match explicit with
  | some v => some v
  | none => fromCat

/-- What `through positive` leaves: the explicit value if given, else the old one; positive if it
changed. -/
theorem through_positive {v old r : Option ℝ} (h : through positive v old = some r) :
    r = orElse v old ∧ ∀ x, v = some x → 0 < x := by
  rcases through_some h with ⟨rfl, rfl⟩ | ⟨a, b, rfl, hb, rfl⟩
  · exact ⟨rfl, by simp⟩
  · obtain ⟨rfl, hp⟩ := positive_some hb
    exact ⟨rfl, by rintro x hx; cases hx; exact hp⟩

theorem through_scale {v old r : Option String} (h : through okScale v old = some r) :
    r = orElse v old ∧ ∀ x, v = some x → x = "silicate" ∨ x = "ice" := by
  rcases through_some h with ⟨rfl, rfl⟩ | ⟨a, b, rfl, hb, rfl⟩
  · exact ⟨rfl, by simp⟩
  · unfold okScale at hb
    split_ifs at hb with hs
    cases hb
    exact ⟨rfl, by rintro x hx; cases hx; exact hs⟩

/-- Every target that is constructed has a positive radius and mass and one of the two transition scale
types.  Explicit arguments win over the catalogue, and radius and diameter together are rejected. -/
theorem C33_target (cat : String → Option Entry) (dens : String → Option ℝ) (a : TargetArgs) (t : Target)
    (h : makeTarget cat dens a = some t) :
    (∃ r m s, t.radius = some r ∧ t.mass = some m ∧ t.scale = some s ∧ 0 < r ∧ 0 < m ∧
      (s = "silicate" ∨ s = "ice")) ∧
    ¬ (a.radius.isSome ∧ a.diameter.isSome) ∧
    (∀ r, a.radius = some r → t.radius = some r) ∧
    (∀ d, a.diameter = some d → ∃ r, t.radius = some r ∧ diameter r = d) ∧
    (a.radius = none → a.diameter = none → t.radius = (cat a.name).map (·.radius)) ∧
    t.mass = orElse a.mass ((cat a.name).map (·.mass)) ∧
    t.material = orElse a.material ((cat a.name).bind (·.material)) ∧
    t.scale = orElse a.scale ((cat a.name).bind (·.scale)) ∧
    t.density = orElse a.density (t.material.bind dens) ∧ (∀ d, a.density = some d → 0 < d) := by
  unfold makeTarget at h
  by_cases hboth : (a.radius.isSome && a.diameter.isSome) = true
  · rw [if_pos hboth] at h; cases h
  rw [if_neg hboth] at h
  obtain ⟨radius, hradius⟩ : ∃ r : Option ℝ, r = radiusArg a := ⟨_, rfl⟩
  rw [← hradius] at h
  rcases hb : fromCatalogue cat a.name with _ | base
  · rw [hb] at h; cases h
  rw [hb] at h
  simp only at h
  unfold fromCatalogue at hb
  unfold radiusArg at hradius
  have hbase : base.radius = (cat a.name).map (·.radius) ∧ base.mass = (cat a.name).map (·.mass) ∧
      base.material = (cat a.name).bind (·.material) ∧ base.scale = (cat a.name).bind (·.scale) ∧
      base.density = none ∧ (∀ x, base.radius = some x → 0 < x) ∧ (∀ x, base.mass = some x → 0 < x) ∧
      (∀ x, base.scale = some x → x = "silicate" ∨ x = "ice") := by
    rcases hc : cat a.name with _ | e
    · rw [hc] at hb
      simp only [Option.some.injEq] at hb
      subst hb
      simp
    · rw [hc] at hb
      simp only at hb
      obtain ⟨b1, b2, b3, b4, b5⟩ := setAll_some hb
      obtain ⟨c1, c1'⟩ := through_positive b1
      obtain ⟨c2, c2'⟩ := through_positive b2
      obtain ⟨c3, c3'⟩ := through_scale b3
      obtain ⟨c4, _⟩ := through_positive b4
      have c3e : base.scale = e.scale := by rw [c3]; cases e.scale <;> rfl
      refine ⟨c1, c2, ?_, ?_, c4, ?_, ?_, ?_⟩
      · rw [b5]; simp
      · rw [c3e]; rfl
      · intro x hx
        rw [c1] at hx
        exact c1' x hx
      · intro x hx
        rw [c2] at hx
        exact c2' x hx
      · intro x hx
        rw [c3e] at hx
        exact c3' x hx
  obtain ⟨p1, p2, p3, p4, p5, p6, p7, p8⟩ := hbase
  rcases hu : setAll base radius a.mass a.material a.scale a.density with _ | u
  · rw [hu] at h; cases h
  rw [hu] at h
  simp only at h
  by_cases hn : (u.radius.isNone || u.mass.isNone || u.scale.isNone) = true
  · rw [if_pos hn] at h; cases h
  rw [if_neg hn] at h
  simp only [Bool.or_eq_true, Option.isNone_iff_eq_none, not_or] at hn
  obtain ⟨⟨n1, n2⟩, n3⟩ := hn
  obtain ⟨r, hr⟩ := Option.ne_none_iff_exists'.mp n1
  obtain ⟨m, hm⟩ := Option.ne_none_iff_exists'.mp n2
  obtain ⟨s, hs⟩ := Option.ne_none_iff_exists'.mp n3
  obtain ⟨q1, q2, q3, q4, q5⟩ := setAll_some hu
  obtain ⟨q1, q1'⟩ := through_positive q1
  obtain ⟨q2, q2'⟩ := through_positive q2
  obtain ⟨q3, q3'⟩ := through_scale q3
  obtain ⟨q4, q4'⟩ := through_positive q4
  have hrpos : 0 < r := by
    rw [hr] at q1
    rcases hv : radius with _ | v
    · rw [hv] at q1; exact p6 r q1.symm
    · rw [hv] at q1
      simp only [orElse, Option.some.injEq] at q1
      rw [q1]; exact q1' v hv
  have hmpos : 0 < m := by
    rw [hm] at q2
    rcases hv : a.mass with _ | v
    · rw [hv] at q2; exact p7 m q2.symm
    · rw [hv] at q2
      simp only [orElse, Option.some.injEq] at q2
      rw [q2]; exact q2' v hv
  have hsok : s = "silicate" ∨ s = "ice" := by
    rw [hs] at q3
    rcases hv : a.scale with _ | v
    · rw [hv] at q3; exact p8 s q3.symm
    · rw [hv] at q3
      simp only [orElse, Option.some.injEq] at q3
      rw [q3]; exact q3' v hv
  have ht : t.radius = u.radius ∧ t.mass = u.mass ∧ t.scale = u.scale ∧ t.material = u.material ∧
      t.density = orElse a.density (u.material.bind dens) := by
    rcases hd : a.density with _ | d
    · rw [hd, p5] at q4
      have q4 : u.density = none := q4
      rw [q4] at h
      simp only [Option.some.injEq] at h
      subst h
      exact ⟨rfl, rfl, rfl, rfl, rfl⟩
    · rw [hd] at q4
      have q4 : u.density = some d := q4
      rw [q4] at h
      simp only [Option.some.injEq] at h
      subst h
      exact ⟨rfl, rfl, rfl, rfl, q4⟩
  obtain ⟨t1, t2, t3, t4, t5⟩ := ht
  have hmat : u.material = orElse a.material ((cat a.name).bind (·.material)) := by
    rw [q5, p3]; cases a.material <;> rfl
  refine ⟨⟨r, m, s, t1.trans hr, t2.trans hm, t3.trans hs, hrpos, hmpos, hsok⟩, ?_, ?_, ?_, ?_, ?_, ?_, ?_, ?_, q4'⟩
  · intro hx
    exact hboth (by rw [hx.1, hx.2]; rfl)
  · intro x hx
    have hd : a.diameter = none := by
      rcases hd : a.diameter with _ | d
      · rfl
      · rw [hx, hd] at hboth; simp at hboth
    rw [t1, q1, hradius, hd, hx]
    rfl
  · intro d hd
    refine ⟨d / 2, ?_, by unfold diameter; ring⟩
    rw [t1, q1, hradius, hd]
    rfl
  · intro h1 h2
    rw [t1, q1, hradius, h2, h1, ← p1]
    rfl
  · rw [t2, q2, p2]
  · rw [t4, hmat]
  · rw [t3, q3, p4]
  · rw [t5, t4]

/-- The escape velocity `v` of a body of mass `m` and radius `r` satisfies `v² = 2 G m / r`; it and the
gravity are positive. -/
theorem C33_escape (G m r : ℝ) (hG : 0 < G) (hm : 0 < m) (hr : 0 < r) :
    escapeVelocity G m r ^ 2 = 2 * G * m / r ∧ 0 < escapeVelocity G m r ∧ 0 < gravity G m r ∧
    gravity G m r * r ^ 2 = G * m := by
  have hg : 0 < gravity G m r := by unfold gravity; positivity
  have hx : 0 < 2 * r * gravity G m r := by positivity
  refine ⟨?_, Real.sqrt_pos.mpr hx, hg, ?_⟩
  · unfold escapeVelocity
    rw [Real.sq_sqrt hx.le]
    unfold gravity
    field_simp
  · unfold gravity
    field_simp

/-- A catalogue with one body. -/
noncomputable def moonCat : String → Option Entry := fun n =>
  if n = "Moon" then some ⟨1737530, 7.345789e22, some "Soft Rock", some "silicate"⟩ else none

example : (makeTarget moonCat (fun _ => some 2250) ⟨"Moon", none, some 4000000, none, none, none, none⟩).isSome := by
  norm_num [makeTarget, fromCatalogue, radiusArg, moonCat, setAll, through, positive, okScale]

/-! ### C32 -/

theorem nonneg_some {v w : ℝ} (h : nonneg v = some w) : w = v ∧ 0 ≤ v := by
  unfold nonneg at h
  split_ifs at h with hv
  cases h
  exact ⟨rfl, not_lt.mp hv⟩

theorem pick_some {α : Type} {set : α → Option α} {given : Option α} {sample : Bool} {draw : α}
    {stored fallback r : Option α} (h : pick set given sample draw stored fallback = some r) :
    (∀ v, given = some v → ∃ w, set v = some w ∧ r = some w) ∧
    (given = none → sample = true → r = some draw) ∧
    (given = none → sample = false → r = stored.or fallback) := by
  unfold pick at h
  rcases given with _ | v
  · cases sample <;> simp at h <;> subst h <;> simp
  · simp only [Option.map_eq_some_iff] at h
    obtain ⟨w, hw, rfl⟩ := h
    refine ⟨?_, by simp, by simp⟩
    rintro v' hv'
    cases hv'
    exact ⟨w, hw, rfl⟩

theorem check_some {Loc : Type} {p q : Proj Loc} (h : check p = some q) : q = p := by
  unfold check at h
  split_ifs at h <;> (cases h; try rfl)

theorem make_generic {Loc : Type} {zero : Loc} {dens : ℝ} {p c : Proj Loc} (hk : p.kind = .generic)
    (h : make zero dens p = some c) : c = { p with
      density := some (p.density.getD 1000)
      angle := some (p.angle.getD 90)
      direction := some (p.direction.getD 0)
      location := some (p.location.getD zero) } := by
  unfold make at h
  rw [hk] at h
  have := check_some h
  rw [this, hk]

theorem make_common {Loc : Type} {zero : Loc} {dens : ℝ} {p c : Proj Loc} (h : make zero dens p = some c) :
    c.sample = p.sample ∧ c.kind = p.kind ∧ (∀ x, p.angle = some x → c.angle = some x) ∧
    (∀ x, p.direction = some x → c.direction = some x) ∧
    (∀ x, p.location = some x → c.location = some x) ∧
    (∀ x, p.density = some x → c.density = some x) ∧
    (p.kind = .generic → c.velocity = p.velocity) ∧
    (∀ v, p.kind = .catalogued v → c.velocity = some v) ∧
    (p.sample = false → c.angle.isSome ∧ c.direction.isSome ∧ c.location.isSome ∧ c.velocity.isSome) := by
  have hsome : p.sample = false → c.angle.isSome ∧ c.direction.isSome ∧ c.location.isSome ∧
      c.velocity.isSome := by
    intro hs
    unfold make at h
    rcases hk : p.kind with _ | v <;> rw [hk] at h <;> simp only [check, hs] at h <;>
      simp at h <;> obtain ⟨hh, rfl⟩ := h <;> simp_all [Option.isSome_iff_ne_none]
  unfold make at h
  rcases hk : p.kind with _ | v <;> rw [hk] at h <;> have e := check_some h <;> subst e
  · refine ⟨rfl, rfl, ?_, ?_, ?_, ?_, fun _ => rfl, by simp, hsome⟩ <;> intro x hx <;> simp [hx]
  · refine ⟨rfl, rfl, ?_, ?_, ?_, ?_, by simp, ?_, hsome⟩ <;> intro x hx <;> simp_all

/-- Each property of a new projectile is the explicit value if one was given (after normalisation for
locations), else the random draw when sampling; explicit values are never negative. -/
theorem C32_explicit_or_sampled {Loc : Type} (norm : Loc → Option Loc) (zero : Loc) (dens : ℝ) (p : Proj Loc)
    (g : Given Loc) (w : Draws Loc) (n : Proj Loc) (h : newProjectile norm zero dens p g w = some n) :
    (∀ v, g.velocity = some v → n.velocity = some v ∧ 0 ≤ v) ∧
    (∀ v, g.angle = some v → n.angle = some v ∧ 0 ≤ v) ∧
    (∀ v, g.direction = some v → n.direction = some v ∧ 0 ≤ v) ∧
    (∀ v, g.location = some v → n.location = norm v ∧ (norm v).isSome) ∧
    (∀ v, g.density = some v → n.density = some v ∧ 0 ≤ v) ∧
    (p.sample = true →
      (g.velocity = none → n.velocity = some w.velocity) ∧ (g.angle = none → n.angle = some w.angle) ∧
      (g.direction = none → n.direction = some w.direction) ∧
      (g.location = none → n.location = some w.location)) ∧
    (g.density = none → ∀ x, p.density = some x → n.density = some x) := by
  unfold newProjectile at h
  rcases hc : make zero dens p with _ | c
  · rw [hc] at h; cases h
  rw [hc] at h
  simp only at h
  obtain ⟨c1, c2, c3, c4, c5, c6, c7, c8, c9⟩ := make_common hc
  rcases h1 : pick nonneg g.velocity c.sample w.velocity c.velocity c.meanVelocity with _ | v
  · rw [h1] at h; cases h
  rcases h2 : pick nonneg g.angle c.sample w.angle c.angle (some 90) with _ | a
  · rw [h1, h2] at h; cases h
  rcases h3 : pick nonneg g.direction c.sample w.direction c.direction (some 0) with _ | d
  · rw [h1, h2, h3] at h; cases h
  rcases h4 : pick norm g.location c.sample w.location c.location (some zero) with _ | l
  · rw [h1, h2, h3, h4] at h; cases h
  rcases h5 : through nonneg g.density c.density with _ | r
  · rw [h1, h2, h3, h4, h5] at h; cases h
  rw [h1, h2, h3, h4, h5] at h
  simp only [Option.some.injEq] at h
  subst h
  have num : ∀ {given : Option ℝ} {draw : ℝ} {st fb r : Option ℝ},
      pick nonneg given c.sample draw st fb = some r → ∀ v, given = some v → r = some v ∧ 0 ≤ v := by
    intro given draw st fb r hp v hv
    obtain ⟨w, hw, hr⟩ := (pick_some hp).1 v hv
    obtain ⟨rfl, h0⟩ := nonneg_some hw
    exact ⟨hr, h0⟩
  refine ⟨num h1, num h2, num h3, ?_, ?_, ?_, ?_⟩
  · intro v hv
    obtain ⟨w', hw, hr⟩ := (pick_some h4).1 v hv
    simp [hr, hw]
  · intro v hv
    rcases through_some h5 with ⟨e, _⟩ | ⟨a', b, e, hb, hr⟩
    · rw [hv] at e; cases e
    · rw [hv] at e; cases e
      obtain ⟨rfl, h0⟩ := nonneg_some hb
      exact ⟨hr, h0⟩
  · intro hs
    rw [hs] at c1
    exact ⟨fun e => (pick_some h1).2.1 e c1, fun e => (pick_some h2).2.1 e c1,
      fun e => (pick_some h3).2.1 e c1, fun e => (pick_some h4).2.1 e c1⟩
  · intro e x hx
    rcases through_some h5 with ⟨_, hr⟩ | ⟨a', b, e', _, _⟩
    · simp only [hr]; exact c6 x hx
    · rw [e] at e'; cases e'

/-- Without sampling, generic projectiles keep every stored value that is not given explicitly. -/
theorem C32_stored_partial {Loc : Type} (norm : Loc → Option Loc) (zero : Loc) (dens : ℝ) (p : Proj Loc)
    (hs : p.sample = false) (g : Given Loc) (w : Draws Loc) (n : Proj Loc)
    (h : newProjectile norm zero dens p g w = some n) :
    (g.angle = none → ∀ x, p.angle = some x → n.angle = some x) ∧
    (g.direction = none → ∀ x, p.direction = some x → n.direction = some x) ∧
    (g.location = none → ∀ x, p.location = some x → n.location = some x) ∧
    (p.kind = .generic → g.velocity = none → n.velocity = p.velocity ∧ p.velocity.isSome) := by
  unfold newProjectile at h
  rcases hc : make zero dens p with _ | c
  · rw [hc] at h; cases h
  rw [hc] at h
  simp only at h
  obtain ⟨c1, c2, c3, c4, c5, c6, c7, c8, c9⟩ := make_common hc
  rw [hs] at c1
  rcases h1 : pick nonneg g.velocity c.sample w.velocity c.velocity c.meanVelocity with _ | v
  · rw [h1] at h; cases h
  rcases h2 : pick nonneg g.angle c.sample w.angle c.angle (some 90) with _ | a
  · rw [h1, h2] at h; cases h
  rcases h3 : pick nonneg g.direction c.sample w.direction c.direction (some 0) with _ | d
  · rw [h1, h2, h3] at h; cases h
  rcases h4 : pick norm g.location c.sample w.location c.location (some zero) with _ | l
  · rw [h1, h2, h3, h4] at h; cases h
  rcases h5 : through nonneg g.density c.density with _ | r
  · rw [h1, h2, h3, h4, h5] at h; cases h
  rw [h1, h2, h3, h4, h5] at h
  simp only [Option.some.injEq] at h
  subst h
  refine ⟨?_, ?_, ?_, ?_⟩
  · intro e x hx
    simp [(pick_some h2).2.2 e c1, c3 x hx]
  · intro e x hx
    simp [(pick_some h3).2.2 e c1, c4 x hx]
  · intro e x hx
    simp [(pick_some h4).2.2 e c1, c5 x hx]
  · intro hk e
    have hv := c7 hk
    have hsome := (c9 hs).2.2.2
    obtain ⟨x, hx⟩ := Option.isSome_iff_exists.mp hsome
    have hpx : p.velocity = some x := hv ▸ hx
    simp [(pick_some h1).2.2 e c1, hx, hpx]

/-- **C32 fails** for every asteroid or comet: whatever mean velocity was assigned to it, the next `new_projectile` has the mean
velocity of the catalogue, and velocities are drawn for that; without sampling, whatever velocity was stored, the next one has the
mean velocity of the catalogue unless a velocity is given. -/
theorem C32_catalogued_fails {Loc : Type} (norm : Loc → Option Loc) (zero : Loc) (dens : ℝ) (p : Proj Loc) (v : ℝ)
    (hk : p.kind = .catalogued v) (g : Given Loc) (w : Draws Loc) (n : Proj Loc)
    (h : newProjectile norm zero dens p g w = some n) :
    n.meanVelocity = some v ∧ (p.sample = false → g.velocity = none → n.velocity = some v) := by
  unfold newProjectile at h
  rcases hc : make zero dens p with _ | c
  · rw [hc] at h; cases h
  rw [hc] at h
  simp only at h
  have hm : c.meanVelocity = some v ∧ c.velocity = some v ∧ c.sample = p.sample := by
    simp only [make, hk, check] at hc
    split_ifs at hc <;> first | (cases hc; done) | (simp only [Option.some.injEq] at hc; subst hc; simp)
  rcases h1 : pick nonneg g.velocity c.sample w.velocity c.velocity c.meanVelocity with _ | u
  · rw [h1] at h; cases h
  rcases h2 : pick nonneg g.angle c.sample w.angle c.angle (some 90) with _ | a
  · rw [h1, h2] at h; cases h
  rcases h3 : pick nonneg g.direction c.sample w.direction c.direction (some 0) with _ | d
  · rw [h1, h2, h3] at h; cases h
  rcases h4 : pick norm g.location c.sample w.location c.location (some zero) with _ | l
  · rw [h1, h2, h3, h4] at h; cases h
  rcases h5 : through nonneg g.density c.density with _ | r
  · rw [h1, h2, h3, h4, h5] at h; cases h
  rw [h1, h2, h3, h4, h5] at h
  simp only [Option.some.injEq] at h
  subst h
  refine ⟨hm.1, fun hs e => ?_⟩
  have := (pick_some h1).2.2 e (by rw [hm.2.2, hs])
  simp [this, hm.2.1]

/-- An asteroid or comet projectile made without sampling with an explicit velocity forgets it in the
next `new_projectile`, which falls back to the catalogue's mean velocity. -/
theorem C32_velocity_lost_fails {Loc : Type} (zero : Loc) (w : Draws Loc) :
    ∃ p n : Proj Loc, newProjectile some zero 2250
        ⟨.catalogued 22100, false, none, none, some 45, some 0, some zero, none⟩
        ⟨some 5000, none, none, none, none⟩ w = some p ∧ p.velocity = some 5000 ∧
      newProjectile some zero 2250 p ⟨none, none, none, none, none⟩ w = some n ∧
      n.velocity = some 22100 := by
  refine ⟨⟨.catalogued 22100, false, some 22100, some 5000, some 45, some 0, some zero, some 2250⟩,
    ⟨.catalogued 22100, false, some 22100, some 22100, some 45, some 0, some zero, some 2250⟩, ?_, rfl, ?_, rfl⟩
  · norm_num [newProjectile, make, check, pick, nonneg, through]
  · norm_num [newProjectile, make, check, pick, nonneg, through]

example : ∃ n : Proj ℕ, newProjectile some 0 2250
    ⟨.generic, false, none, some 5000, some 45, some 0, some 1, none⟩ ⟨none, some 30, none, none, none⟩
    ⟨1, 2, 3, 4⟩ = some n := by
  refine ⟨⟨.generic, false, none, some 5000, some 30, some 0, some 1, some 1000⟩, ?_⟩
  norm_num [newProjectile, make, check, pick, nonneg, through]

/-! ### C94 -/

/-- Without sampling, a generic projectile that is made at all gets for each of angle, direction and location that is
neither stored nor given the documented default: a vertical impact towards north at the origin; and it is made whenever
a velocity is stored and nothing is given. -/
theorem C94_defaults_partial {Loc : Type} (norm : Loc → Option Loc) (zero : Loc) (dens : ℝ) (p : Proj Loc)
    (hk : p.kind = .generic) (hs : p.sample = false) (g : Given Loc) (w : Draws Loc) :
    (∀ n, newProjectile norm zero dens p g w = some n →
      (p.angle = none → g.angle = none → n.angle = some 90) ∧
      (p.direction = none → g.direction = none → n.direction = some 0) ∧
      (p.location = none → g.location = none → n.location = some zero)) ∧
    (p.velocity.isSome → g = ⟨none, none, none, none, none⟩ → (newProjectile norm zero dens p g w).isSome) := by
  rcases p with ⟨k, smp, mv, vel, ang, dir, loc, den⟩
  dsimp only at hk hs
  subst hk hs
  rcases g with ⟨gv, ga, gd, gl, gr⟩
  constructor
  · intro n h
    simp only [newProjectile, make, check] at h
    split at h
    · cases h
    · next c hc =>
      rw [if_neg (by simp)] at hc
      split_ifs at hc
      cases hc
      split at h
      · next v a d l r hv ha hd hl hr =>
        cases h
        refine ⟨?_, ?_, ?_⟩
        · intro e1 e2; dsimp only at e1 e2 ⊢; subst e1 e2; simp [pick] at ha; exact ha.symm
        · intro e1 e2; dsimp only at e1 e2 ⊢; subst e1 e2; simp [pick] at hd; exact hd.symm
        · intro e1 e2; dsimp only at e1 e2 ⊢; subst e1 e2; simp [pick] at hl; exact hl.symm
      · cases h
  · intro hv hg
    cases hg
    dsimp only at hv
    obtain ⟨v, rfl⟩ := Option.isSome_iff_exists.1 hv
    simp [newProjectile, make, check, pick, through]

example : ∃ n : Proj ℕ, newProjectile some 0 2250 ⟨.generic, false, none, some 5000, some 30, none, none, none⟩
      ⟨none, none, none, none, none⟩ ⟨1, 2, 3, 4⟩ = some n ∧ n.angle = some 30 ∧ n.direction = some 0 :=
  ⟨⟨.generic, false, none, some 5000, some 30, some 0, some 0, some 1000⟩,
    by simp [newProjectile, make, check, pick, through], rfl, rfl⟩

/-- Asteroid and comet projectiles cannot be made without sampling unless angle, direction and location
are all given: the documented defaults are never used. -/
theorem C94_defaults_fails {Loc : Type} (norm : Loc → Option Loc) (zero : Loc) (dens v : ℝ)
    (p : Proj Loc) (hk : p.kind = .catalogued v) (hs : p.sample = false)
    (hmiss : p.angle = none ∨ p.direction = none ∨ p.location = none) (g : Given Loc) (w : Draws Loc) :
    make zero dens p = none ∧ newProjectile norm zero dens p g w = none := by
  have hm : make zero dens p = none := by
    unfold make
    rw [hk]
    rcases hmiss with h | h | h <;> simp [check, hs, h]
  exact ⟨hm, by unfold newProjectile; rw [hm]⟩

example : (⟨.catalogued 22100, false, none, none, some 45, none, none, none⟩ : Proj ℕ).direction = none := rfl

end Verif.Bodies
