import Verif.Model.Crater

/-! Properties C19-C23, C68, C81, C82, C84-C87, C90 on crater objects. -/

namespace Verif.Crater

/-! ### C19: a measured size reads back -/

/-- Exactly when a positive radius reads back: the old semiminor axis must not be larger. -/
theorem C19_radius_iff (s : Axes) (v : ℝ) (hv : 0 < v) :
    (∃ s', setRadius s (some v) = some s' ∧ radius s' = some v) ↔ ∀ m, s.minor = some m → m ≤ v := by
  obtain ⟨M, m⟩ := s
  have hv' : ¬ v ≤ 0 := not_le.mpr hv
  have hsq : Real.sqrt (v * v) = v := Real.sqrt_mul_self hv.le
  rcases m with _ | m
  · simp [setRadius, setMajor, setMinor, hv', radius, hsq]
  · by_cases h : v < m
    · have h2 : ¬ m < v := not_lt.mpr h.le
      have hne : Real.sqrt (m * v) ≠ v := by
        intro e
        have := Real.mul_self_sqrt (mul_nonneg (hv.trans h).le hv.le)
        rw [e] at this
        nlinarith
      simp [setRadius, setMajor, setMinor, hv', h, h2, radius, hne]
    · have h2 : m ≤ v := not_lt.mp h
      simp [setRadius, setMajor, setMinor, hv', h, radius, hsq, h2]

/-- Growing or first assignment: the radius and the diameter read back, and the crater is a circle. -/
theorem C19_reads_back_partial (s : Axes) (v : ℝ) (hv : 0 < v) (h : ∀ m, s.minor = some m → m ≤ v) :
    (∃ s', setRadius s (some v) = some s' ∧ radius s' = some v ∧ s'.major = some v ∧ s'.minor = some v) ∧
    (∃ s', setDiameter s (some (2 * v)) = some s' ∧ diameter s' = some (2 * v)) := by
  obtain ⟨M, m⟩ := s
  have hv' : ¬ v ≤ 0 := not_le.mpr hv
  have hsq : Real.sqrt (v * v) = v := Real.sqrt_mul_self hv.le
  have e : 2 * v / 2 = v := by ring
  rcases m with _ | m
  · simp [setDiameter, setRadius, setMajor, setMinor, hv', radius, diameter, hsq, mul_comm]
  · have h2 : ¬ v < m := not_lt.mpr (h m rfl)
    simp [setDiameter, setRadius, setMajor, setMinor, hv', h2, radius, diameter, hsq, mul_comm]

example : ∀ m, (⟨some 4, some 3⟩ : Axes).minor = some m → m ≤ (5 : ℝ) := by
  intro m h; cases h; norm_num

/-- Full statement fails: shrinking a circle always leaves an ellipse with the old semimajor axis, and another radius is read back. -/
theorem C19_shrink_fails (r v : ℝ) (hv : 0 < v) (hr : v < r) :
    setRadius ⟨some r, some r⟩ (some v) = some ⟨some r, some v⟩ ∧ radius ⟨some r, some v⟩ ≠ some v := by
  constructor
  · simp [setRadius, setMajor, setMinor, hr, not_le.mpr hv, not_lt.mpr hr.le]
  · simp only [radius, ne_eq, Option.some.injEq]
    intro e
    have := Real.mul_self_sqrt (show (0:ℝ) ≤ r * v by nlinarith)
    rw [e] at this
    nlinarith

/-- Non-vacuity: from 10 to 9. -/
example : (0 : ℝ) < 9 ∧ (9 : ℝ) < 10 := by norm_num

/-! ### C20: the axes stay ordered and positive -/

/-- Both axes, where present, are positive and in order. -/
def Ordered (s : Axes) : Prop :=
  (∀ M, s.major = some M → 0 < M) ∧ (∀ m, s.minor = some m → 0 < m) ∧
  ∀ M m, s.major = some M → s.minor = some m → m ≤ M

theorem setMajor_ordered {s s' : Axes} {v} (h : Ordered s) (e : setMajor s v = some s') : Ordered s' := by
  obtain ⟨M, m⟩ := s
  obtain ⟨h1, h2, h3⟩ := h
  rcases v with _ | v
  · simp [setMajor] at e; subst e; exact ⟨by simp, h2, by simp⟩
  · simp only [setMajor] at e
    split_ifs at e with hv
    rcases m with _ | m
    · simp at e; subst e
      refine ⟨by simp; linarith, by simp, by simp⟩
    · have := h2 m rfl
      simp only at e
      split_ifs at e with hm <;> cases e
      · refine ⟨by simpa using this, by simp; linarith, ?_⟩
        rintro _ _ ⟨⟩ ⟨⟩; exact hm.le
      · refine ⟨by simp; linarith, by simpa using this, ?_⟩
        rintro _ _ ⟨⟩ ⟨⟩; exact not_lt.mp hm

theorem setMinor_ordered {s s' : Axes} {v} (h : Ordered s) (e : setMinor s v = some s') : Ordered s' := by
  obtain ⟨M, m⟩ := s
  obtain ⟨h1, h2, h3⟩ := h
  rcases v with _ | v
  · simp [setMinor] at e; subst e; exact ⟨h1, by simp, by simp⟩
  · simp only [setMinor] at e
    split_ifs at e with hv
    rcases M with _ | M
    · simp at e; subst e
      refine ⟨by simp, by simp; linarith, by simp⟩
    · have := h1 M rfl
      simp only at e
      split_ifs at e with hm <;> cases e
      · refine ⟨by simp; linarith, by simpa using this, ?_⟩
        rintro _ _ ⟨⟩ ⟨⟩; exact hm.le
      · refine ⟨by simpa using this, by simp; linarith, ?_⟩
        rintro _ _ ⟨⟩ ⟨⟩; exact not_lt.mp hm

theorem setRadius_ordered {s s' : Axes} {v} (h : Ordered s) (e : setRadius s v = some s') : Ordered s' := by
  unfold setRadius at e
  obtain ⟨t, h1, h2⟩ := Option.bind_eq_some_iff.mp e
  exact setMinor_ordered (setMajor_ordered h h1) h2

theorem assign_ordered {s s' : Axes} {a} (h : Ordered s) (e : assign s a = some s') : Ordered s' := by
  rcases a with v | v | v | v
  · exact setMajor_ordered h e
  · exact setMinor_ordered h e
  · exact setRadius_ordered h e
  · rcases v with _ | v
    · exact setRadius_ordered (v := none) h e
    · exact setRadius_ordered (v := some (v / 2)) h e

/-- After every history of assignments, accepted and rejected, on a new crater the axes are positive
and ordered. -/
theorem C20_history (as : List Assign) : Ordered (history ⟨none, none⟩ as) := by
  have gen : ∀ (as : List Assign) (s : Axes), Ordered s → Ordered (history s as) := by
    intro as
    induction as with
    | nil => intro s h; exact h
    | cons a as ih =>
      intro s h
      apply ih
      rcases e : assign s a with _ | s'
      · exact h
      · exact assign_ordered h e
  exact gen as _ ⟨by simp, by simp, by simp⟩

/-- An assignment is rejected exactly for a value that is not positive. -/
theorem C20_rejects_iff (s : Axes) (v : ℝ) :
    (setMajor s (some v) = none ↔ v ≤ 0) ∧ (setMinor s (some v) = none ↔ v ≤ 0) ∧
    (setRadius s (some v) = none ↔ v ≤ 0) ∧ (setDiameter s (some v) = none ↔ v ≤ 0) := by
  have h1 : ∀ (s : Axes) v, setMajor s (some v) = none ↔ v ≤ 0 := by
    intro s v
    obtain ⟨M, m⟩ := s
    rcases m with _ | m
    · by_cases h : v ≤ 0 <;> simp [setMajor, h]
    · by_cases h : v ≤ 0
      · simp [setMajor, h]
      · by_cases h' : v < m <;> simp [setMajor, h, h']
  have h2 : ∀ (s : Axes) v, setMinor s (some v) = none ↔ v ≤ 0 := by
    intro s v
    obtain ⟨M, m⟩ := s
    rcases M with _ | M
    · by_cases h : v ≤ 0 <;> simp [setMinor, h]
    · by_cases h : v ≤ 0
      · simp [setMinor, h]
      · by_cases h' : M < v <;> simp [setMinor, h, h']
  have h3 : ∀ (s : Axes) v, setRadius s (some v) = none ↔ v ≤ 0 := by
    intro s v
    unfold setRadius
    rcases e : setMajor s (some v) with _ | t
    · simpa using (h1 s v).mp e
    · simpa using h2 t v
  refine ⟨h1 s v, h2 s v, h3 s v, ?_⟩
  show setRadius s (some (v / 2)) = none ↔ _
  rw [h3]
  constructor <;> intro h <;> linarith

/-- Assigning one axis leaves the pair of the new value and the other axis, sorted. -/
theorem C20_sorted_pair (M m v : ℝ) (hv : 0 < v) :
    setMajor ⟨some M, some m⟩ (some v) = some ⟨some (max v m), some (min v m)⟩ ∧
    setMinor ⟨some M, some m⟩ (some v) = some ⟨some (max v M), some (min v M)⟩ := by
  have hv' : ¬ v ≤ 0 := not_le.mpr hv
  constructor
  · by_cases h : v < m
    · simp [setMajor, hv', h, max_eq_right h.le, min_eq_left h.le]
    · simp [setMajor, hv', h, max_eq_left (not_lt.mp h), min_eq_right (not_lt.mp h)]
  · by_cases h : M < v
    · simp [setMinor, hv', h, max_eq_left h.le, min_eq_right h.le]
    · simp [setMinor, hv', h, max_eq_right (not_lt.mp h), min_eq_left (not_lt.mp h)]

example : setMajor ⟨some 10, some 6⟩ (some 4) = some ⟨some 6, some 4⟩ := by
  rw [(C20_sorted_pair 10 6 4 (by norm_num)).1]
  norm_num

/-! ### C88: a rim fit is stored -/

/-- The fitted axes are stored exactly when the new semimajor axis is not smaller than the old
semiminor axis. -/
theorem C88_fit_partial (s : Axes) (ap bp : ℝ) (h0 : 0 < bp) (h1 : bp ≤ ap)
    (h : ∀ m, s.minor = some m → m ≤ ap) : storeFit s ap bp = some ⟨some ap, some bp⟩ := by
  obtain ⟨M, m⟩ := s
  have ha : ¬ ap ≤ 0 := by linarith
  have hb : ¬ bp ≤ 0 := by linarith
  have hc : ¬ ap < bp := not_lt.mpr h1
  rcases m with _ | m
  · simp [storeFit, setMajor, setMinor, ha, hb, hc]
  · have h2 : ¬ ap < m := not_lt.mpr (h m rfl)
    simp [storeFit, setMajor, setMinor, ha, hb, hc, h2]

example : storeFit ⟨some 100, some 70⟩ 90 80 = some ⟨some 90, some 80⟩ :=
  C88_fit_partial _ _ _ (by norm_num) (by norm_num) (by intro m hm; cases hm; norm_num)

/-- Full statement fails: whenever the fit is smaller than the old semiminor axis, the old semiminor
axis is kept as the new semimajor axis. -/
theorem C88_shrinking_fit_fails (M m ap bp : ℝ) (h0 : 0 < bp) (h1 : bp ≤ ap) (h : ap < m) :
    storeFit ⟨some M, some m⟩ ap bp = some ⟨some m, some bp⟩ ∧ m ≠ ap := by
  have ha : ¬ ap ≤ 0 := by linarith
  have hb : ¬ bp ≤ 0 := by linarith
  have hc : ¬ m < bp := by linarith
  exact ⟨by simp [storeFit, setMajor, setMinor, ha, hb, hc, h], h.ne'⟩

example : (0:ℝ) < 80 ∧ (80:ℝ) ≤ 90 ∧ (90:ℝ) < 100 := by norm_num

/-! ### C21: exactly one size -/

/-- The sizes a user can give, aliases counted once: final diameter, final radius, the axes,
transient diameter or radius, projectile diameter or radius, projectile mass. -/
def sizesGiven (s : SizeArgs) : List Bool :=
  [s.diameter.isSome || s.finalDiameter.isSome, s.radius.isSome || s.finalRadius.isSome,
   s.major.isSome || s.minor.isSome,
   s.transientDiameter.isSome, s.transientRadius.isSome, s.projectileDiameter.isSome,
   s.projectileRadius.isSome, s.projectileMass.isSome]

theorem resolveAxes_cases (s : SizeArgs) :
    (resolveAxes s = none ∧ ((s.major.isSome ≠ s.minor.isSome) ∨
      ((sizesGiven s).take 3).count true ≠ 1 ∧ ((sizesGiven s).take 3).count true ≠ 0)) ∨
    ∃ a b, resolveAxes s = some (a, b) ∧ a.isSome = b.isSome ∧ s.major.isSome = s.minor.isSome ∧
      ((sizesGiven s).take 3).count true = a.isSome.toNat := by
  obtain ⟨d, r, fd, fr, td, tr, a, b, pd, pr, pm⟩ := s
  rcases a with _ | a <;> rcases b with _ | b <;> rcases d with _ | d <;> rcases fd with _ | fd <;>
    rcases r with _ | r <;> rcases fr with _ | fr <;> simp [resolveAxes, sizesGiven]

theorem resolveSize_isSome (s : SizeArgs) (a b : Option ℝ) (h : resolveAxes s = some (a, b))
    (hab : a.isSome = b.isSome) : (resolveSize s).isSome ↔ countSizes a s = 1 := by
  unfold resolveSize
  rw [h]
  simp only
  by_cases hc : countSizes a s = 1
  · simp only [hc, ne_eq, not_true_eq_false, if_false, iff_true]
    rcases a with _ | a <;> rcases b with _ | b
    · revert hc
      unfold countSizes
      rcases s.transientRadius with _ | _ <;> rcases s.transientDiameter with _ | _ <;>
        rcases s.projectileRadius with _ | _ <;> rcases s.projectileDiameter with _ | _ <;>
        rcases s.projectileMass with _ | _ <;> simp
    · simp at hab
    · simp at hab
    · simp
  · simp [hc]

theorem countSizes_eq (a : Option ℝ) (s : SizeArgs) :
    countSizes a s = a.isSome.toNat + ((sizesGiven s).drop 3).count true := by
  unfold countSizes sizesGiven
  rcases a with _ | _ <;> rcases s.transientRadius with _ | _ <;> rcases s.transientDiameter with _ | _ <;>
    rcases s.projectileRadius with _ | _ <;> rcases s.projectileDiameter with _ | _ <;>
    rcases s.projectileMass with _ | _ <;> simp

/-- The arguments are accepted exactly when one of the sizes is given, the axes counting only as a
pair. -/
theorem C21_accepts_iff (s : SizeArgs) :
    (resolveSize s).isSome ↔
      (sizesGiven s).count true = 1 ∧ (s.major.isSome ↔ s.minor.isSome) := by
  have hsum : (sizesGiven s).count true =
      ((sizesGiven s).take 3).count true + ((sizesGiven s).drop 3).count true := by
    rw [← List.count_append, List.take_append_drop]
  rcases resolveAxes_cases s with ⟨h, h'⟩ | ⟨a, b, h, hab, hm, hc⟩
  · have : resolveSize s = none := by unfold resolveSize; rw [h]
    rw [this]
    simp only [Option.isSome_none, Bool.false_eq_true, false_iff, not_and]
    intro h1 h2
    rcases h' with h' | h'
    · exact h' (Bool.eq_iff_iff.mpr h2)
    · omega
  · rw [resolveSize_isSome s a b h hab, countSizes_eq, hsum, hc]
    simp [hm]

/-- What each size means: the accepted size is the one given. -/
theorem C21_meaning (x y : ℝ) :
    resolveSize { diameter := some x } = some (.axes (x / 2) (x / 2)) ∧
    resolveSize { finalDiameter := some x } = some (.axes (x / 2) (x / 2)) ∧
    resolveSize { radius := some x } = some (.axes x x) ∧
    resolveSize { finalRadius := some x } = some (.axes x x) ∧
    resolveSize { major := some x, minor := some y } = some (.axes x y) ∧
    resolveSize { transientDiameter := some x } = some (.transient x) ∧
    resolveSize { transientRadius := some x } = some (.transient (2 * x)) ∧
    resolveSize { projectileDiameter := some x } = some (.projectile x) ∧
    resolveSize { projectileRadius := some x } = some (.projectile (2 * x)) ∧
    resolveSize { projectileMass := some x } = some (.mass x) := by
  refine ⟨?_, ?_, ?_, ?_, ?_, ?_, ?_, ?_, ?_, ?_⟩ <;>
    simp [resolveSize, resolveAxes, countSizes]

/-- Full statement fails: two different final diameters are accepted when one of them is given under
the old name, which then wins in silence, whatever the two diameters are. -/
theorem C21_alias_fails (x y : ℝ) :
    resolveSize { diameter := some x, finalDiameter := some y } = some (.axes (y / 2) (y / 2)) := by
  simp [resolveSize, resolveAxes, countSizes]

/-- A single axis is always rejected, although the code announces that it is taken as a circle. -/
theorem C21_single_axis_fails (s : SizeArgs) (h : s.major.isSome ≠ s.minor.isSome) :
    resolveSize s = none := by
  by_contra hne
  have h2 := (C21_accepts_iff s).mp (Option.isSome_iff_ne_none.mpr hne)
  apply h
  have := h2.2
  cases e1 : s.major.isSome <;> cases e2 : s.minor.isSome <;> simp_all

example : (⟨none, none, none, none, none, none, some 1, none, none, none, none⟩ : SizeArgs).major.isSome ≠
  (⟨none, none, none, none, none, none, some 1, none, none, none, none⟩ : SizeArgs).minor.isSome := by simp

/-! ### C22: geometry and mass are consistent -/

/-- The radius is the geometric mean of the axes, half the diameter; a circle of the same radius has
the same area as the ellipse. -/
theorem C22_geometry (f : Fixed) (ha : 0 ≤ f.major) (hb : 0 ≤ f.minor) :
    f.diameter = 2 * f.radius ∧ 0 ≤ f.radius ∧ f.radius ^ 2 = f.major * f.minor ∧
    Real.pi * f.radius ^ 2 = Real.pi * f.major * f.minor := by
  have h : f.radius ^ 2 = f.major * f.minor := Real.sq_sqrt (mul_nonneg ha hb)
  refine ⟨by unfold Fixed.diameter; ring, Real.sqrt_nonneg _, h, by rw [h]; ring⟩

theorem sqrt_half (x : ℝ) (h : 0 ≤ x) : Real.sqrt (x / 2 * (x / 2)) * 2 = x := by
  rw [Real.sqrt_mul_self (by linarith)]; ring

/-- A new crater has the density, velocity, transient and projectile diameter it was made from, and
its diameter is the final diameter that the scaling relations used. -/
theorem C22_new_crater (S : ScalingFns) (rho vel ang : ℝ) (s : Size) (f : Fixed)
    (h : makeFixed S rho vel ang s = some f) (hp : (diameters S rho s).2.2 ≠ 0) :
    f.projectileDensity = rho ∧ f.projectileVelocity = vel ∧
    f.diameter = (diameters S rho s).1 ∧ f.transientDiameter = (diameters S rho s).2.1 ∧
    f.projectileDiameter = (diameters S rho s).2.2 ∧
    f.projectileMass = f.projectileDensity * (4 / 3 * Real.pi * (f.projectileDiameter / 2) ^ 3) := by
  simp only [makeFixed] at h
  split_ifs at h with hc
  push Not at hc
  cases h
  have hd : ∀ rho : ℝ, ∀ p : ℝ, p ≠ 0 →
      3 * (4 / 3 * Real.pi * (p / 2) ^ 3 * rho) / (4 * Real.pi * (p / 2) ^ 3) = rho := by
    intro rho p hp
    have := Real.pi_ne_zero
    field_simp
  refine ⟨hd rho _ hp, rfl, ?_, rfl, rfl, ?_⟩
  · simp only [Fixed.diameter, Fixed.radius]
    rcases s with ⟨a, b⟩ | td | pd | m
    · simp only [axesOf, diameters]; ring
    all_goals
      simp only [axesOf] at hc ⊢
      exact sqrt_half _ (by linarith [hc.2.1])
  · show _ = 3 * (4 / 3 * Real.pi * (_ / 2) ^ 3 * rho) / (4 * Real.pi * (_ / 2) ^ 3) * _
    rw [hd rho _ hp]; ring

/-- The three sizes of a new crater follow from the one that was given by the scaling relations, and none of its attributes is
negative. -/
theorem C22_sizes (S : ScalingFns) (rho vel ang : ℝ) (s : Size) (f : Fixed) (h : makeFixed S rho vel ang s = some f) :
    (∀ a b, s = .axes a b → f.major = a ∧ f.minor = b ∧ f.transientDiameter = S.finalToTransient f.diameter ∧
      f.projectileDiameter = S.transientToProjectile f.transientDiameter) ∧
    (∀ td, s = .transient td → f.transientDiameter = td ∧ f.diameter = S.transientToFinal td ∧
      f.projectileDiameter = S.transientToProjectile td) ∧
    (∀ pd, s = .projectile pd → f.projectileDiameter = pd ∧ f.transientDiameter = S.projectileToTransient pd ∧
      f.diameter = S.transientToFinal f.transientDiameter) ∧
    (0 ≤ f.major ∧ 0 ≤ f.minor ∧ 0 ≤ f.transientDiameter ∧ 0 ≤ f.projectileDiameter ∧ 0 ≤ f.projectileVelocity ∧ 0 ≤ rho) := by
  simp only [makeFixed] at h
  split_ifs at h with hc
  push Not at hc
  cases h
  obtain ⟨_, h1, h2, h3, h4, h5, h6⟩ := hc
  refine ⟨?_, ?_, ?_, h1, h2, h3, h4, h5, h6⟩
  · rintro a b rfl
    refine ⟨rfl, rfl, ?_, rfl⟩
    show S.finalToTransient (2 * Real.sqrt (a * b)) = S.finalToTransient (Real.sqrt (a * b) * 2)
    rw [mul_comm]
  · rintro td rfl
    exact ⟨rfl, sqrt_half _ (by simp only [axesOf] at h1; linarith), rfl⟩
  · rintro pd rfl
    exact ⟨rfl, rfl, sqrt_half _ (by simp only [axesOf] at h1; linarith)⟩

/-- A crater defined by its projectile's mass has that mass. -/
theorem C22_mass (S : ScalingFns) (rho vel ang m : ℝ) (f : Fixed) (hr : 0 < rho) (hm : 0 ≤ m)
    (h : makeFixed S rho vel ang (.mass m) = some f) : f.projectileMass = m := by
  simp only [makeFixed] at h
  split_ifs at h with hc
  cases h
  show 4 / 3 * Real.pi * (2 * radiusOfMass m rho / 2) ^ 3 * rho = m
  have hb : 0 ≤ 3 * m / (4 * Real.pi * rho) := by positivity
  have e : radiusOfMass m rho ^ 3 = 3 * m / (4 * Real.pi * rho) := by
    unfold radiusOfMass
    rw [← Real.rpow_natCast, ← Real.rpow_mul hb]; norm_num
  have e2 : 2 * radiusOfMass m rho / 2 = radiusOfMass m rho := by ring
  rw [e2, e]
  have := Real.pi_ne_zero
  field_simp

/-- Non-vacuous: with scaling functions that keep sizes positive, a crater of 100 m is made. -/
example : ∃ f, makeFixed ⟨fun x => x / 2, fun x => x * 2, fun x => x / 10, fun x => x * 10⟩ 3000 20000 45
    (.axes 50 50) = some f ∧ f.projectileDiameter ≠ 0 := by
  have e : Real.sqrt (50 * 50) = 50 := Real.sqrt_mul_self (by norm_num)
  simp only [makeFixed, axesOf, diameters, e]
  rw [if_neg (by norm_num)]
  exact ⟨_, rfl, by norm_num⟩

/-- The vertical velocity is nothing at grazing incidence, all of the velocity at vertical incidence, grows with the angle
from the horizontal in between, and together with the horizontal part makes up the velocity. -/
theorem C22_vertical (f : Fixed) (hv : 0 < f.projectileVelocity) :
    (f.projectileAngle = 0 → f.verticalVelocity = 0) ∧
    (f.projectileAngle = 90 → f.verticalVelocity = f.projectileVelocity) ∧
    (∀ g : Fixed, g.projectileVelocity = f.projectileVelocity → 0 ≤ f.projectileAngle →
      f.projectileAngle < g.projectileAngle → g.projectileAngle ≤ 90 → f.verticalVelocity < g.verticalVelocity) ∧
    f.verticalVelocity ^ 2 + (f.projectileVelocity * Real.cos (f.projectileAngle * Real.pi / 180)) ^ 2 =
      f.projectileVelocity ^ 2 := by
  unfold Fixed.verticalVelocity
  have hpi := Real.pi_pos
  refine ⟨?_, ?_, ?_, ?_⟩
  · intro h; simp [h]
  · intro h
    rw [h, show (90 : ℝ) * Real.pi / 180 = Real.pi / 2 by ring, Real.sin_pi_div_two, mul_one]
  · intro g hg h0 hlt h90
    rw [hg]
    apply mul_lt_mul_of_pos_left _ hv
    apply Real.sin_lt_sin_of_lt_of_le_pi_div_two
    · have : 0 ≤ f.projectileAngle * Real.pi / 180 := by positivity
      linarith
    · have := mul_le_mul_of_nonneg_right h90 hpi.le
      linarith
    · have := mul_lt_mul_of_pos_right hlt hpi
      linarith
  · have := Real.sin_sq_add_cos_sq (f.projectileAngle * Real.pi / 180)
    calc _ = f.projectileVelocity ^ 2 * (Real.sin (f.projectileAngle * Real.pi / 180) ^ 2 +
          Real.cos (f.projectileAngle * Real.pi / 180) ^ 2) := by ring
      _ = _ := by rw [this, mul_one]

example : (0 : ℝ) < (⟨50, 50, 25, 2, 20000, 45, 3000⟩ : Fixed).projectileVelocity := by norm_num

/-! ### C85: the axes of a crater are in order -/

/-- The axes are in order, unless a pair of axes was given in the wrong order. -/
theorem C85_circle_partial (S : ScalingFns) (rho vel ang : ℝ) (s : Size) (f : Fixed)
    (h : makeFixed S rho vel ang s = some f) (hs : ∀ a b, s = .axes a b → b ≤ a) :
    f.minor ≤ f.major := by
  simp only [makeFixed] at h
  split_ifs at h with hc
  cases h
  rcases s with ⟨a, b⟩ | td | pd | m
  · exact hs a b rfl
  all_goals exact le_rfl

/-- Exactly when the axes are in order: unless a pair of axes was given in the wrong order.  Sizes other than a pair of axes give a
circle. -/
theorem C85_order_iff_partial (S : ScalingFns) (rho vel ang : ℝ) (s : Size) (f : Fixed) (h : makeFixed S rho vel ang s = some f) :
    (f.minor ≤ f.major ↔ ∀ a b, s = .axes a b → b ≤ a) ∧ ((∀ a b, s ≠ .axes a b) → f.minor = f.major) := by
  refine ⟨⟨?_, C85_circle_partial S rho vel ang s f h⟩, ?_⟩
  · rintro hf a b rfl
    simp only [makeFixed] at h
    split_ifs at h with hc
    cases h
    exact hf
  · intro hs
    simp only [makeFixed] at h
    split_ifs at h with hc
    cases h
    rcases s with ⟨a, b⟩ | td | pd | m
    · exact absurd rfl (hs a b)
    all_goals rfl

/-- A crater 8 m by 2 m meets the hypotheses. -/
example : ∃ f, makeFixed ⟨fun x => x / 2, fun x => x * 2, fun x => x / 10, fun x => x * 10⟩ 3000 20000 45
    (.axes 4 1) = some f := by
  simp [makeFixed, diameters, axesOf]
  positivity

/-- A crater is made exactly if none of its sizes, its velocity and its density is negative. -/
theorem C22_accepts_iff (S : ScalingFns) (rho vel ang : ℝ) (s : Size) :
    (makeFixed S rho vel ang s).isSome ↔
      (∀ a b, s = .axes a b → 0 ≤ a ∧ 0 ≤ b) ∧ 0 ≤ (diameters S rho s).1 ∧ 0 ≤ (diameters S rho s).2.1 ∧
      0 ≤ (diameters S rho s).2.2 ∧ 0 ≤ vel ∧ 0 ≤ rho := by
  have key : (makeFixed S rho vel ang s).isSome ↔
      ¬ ((axesOf S rho s).1 * (axesOf S rho s).2 < 0 ∨ (axesOf S rho s).1 < 0 ∨ (axesOf S rho s).2 < 0 ∨
        (diameters S rho s).2.1 < 0 ∨ (diameters S rho s).2.2 < 0 ∨ vel < 0 ∨ rho < 0) := by
    simp only [makeFixed]
    split_ifs with hc <;> simp [hc]
  rw [key]
  push Not
  constructor
  · rintro ⟨h1, h2, h3, h4⟩
    rcases s with ⟨a, b⟩ | td | pd | m
    · refine ⟨fun a' b' e => by cases e; exact ⟨h2, h3⟩, ?_, h4⟩
      show 0 ≤ 2 * Real.sqrt (a * b)
      positivity
    all_goals
      refine ⟨fun a' b' e => (by cases e), ?_, h4⟩
      simp only [axesOf] at h2
      linarith
  · rintro ⟨h1, h2, h3⟩
    rcases s with ⟨a, b⟩ | td | pd | m
    · obtain ⟨ha, hb⟩ := h1 a b rfl
      exact ⟨mul_nonneg ha hb, ha, hb, h3⟩
    all_goals
      simp only [axesOf]
      exact ⟨mul_self_nonneg _, by linarith, by linarith, h3⟩

/-- Full statement fails: axes given in the wrong order stay in the wrong order. -/
theorem C85_order_fails :
    ∃ S f, makeFixed S 3000 20000 45 (.axes 1 4) = some f ∧ f.major < f.minor := by
  have e : Real.sqrt (1 * 4) = 2 := by
    rw [show (1:ℝ) * 4 = 2 * 2 by norm_num]; exact Real.sqrt_mul_self (by norm_num)
  refine ⟨⟨fun x => x / 2, fun x => x * 2, fun x => x / 10, fun x => x * 10⟩, ?_⟩
  simp only [makeFixed, axesOf, diameters, e]
  rw [if_neg (by norm_num)]
  exact ⟨_, rfl, by norm_num⟩

/-! ### C90: a copy with a new size has that size -/

/-- A copy that is given a new final size has the diameter of that size. -/
theorem C90_final_size_partial (S : ScalingFns) (rho vel ang oldMinor a b : ℝ) (f : Fixed)
    (h : makeFixedCopy S rho vel ang oldMinor (.axes a b) = some f) :
    f.major = a ∧ f.minor = b ∧ f.diameter = 2 * Real.sqrt (a * b) := by
  simp only [makeFixedCopy] at h
  split_ifs at h with hc
  cases h
  refine ⟨rfl, rfl, ?_⟩
  simp only [Fixed.diameter, Fixed.radius, axesOfCopy]; ring

example : ∃ f, makeFixedCopy ⟨fun x => x / 2, fun x => x * 2, fun x => x / 10, fun x => x * 10⟩ 3000 20000 45
    500 (.axes 60 40) = some f := by
  simp [makeFixedCopy, diameters, axesOfCopy]
  positivity

/-- A copy with a new final size is made exactly if the axes, the sizes that the scaling gives for them, the velocity and the density
are not negative. -/
theorem C90_accepts_iff (S : ScalingFns) (rho vel ang oldMinor a b : ℝ) :
    (makeFixedCopy S rho vel ang oldMinor (.axes a b)).isSome ↔
      0 ≤ a ∧ 0 ≤ b ∧ 0 ≤ S.finalToTransient (2 * Real.sqrt (a * b)) ∧
      0 ≤ S.transientToProjectile (S.finalToTransient (2 * Real.sqrt (a * b))) ∧ 0 ≤ vel ∧ 0 ≤ rho := by
  have key : (makeFixedCopy S rho vel ang oldMinor (.axes a b)).isSome ↔
      ¬ (a * b < 0 ∨ a < 0 ∨ b < 0 ∨ S.finalToTransient (2 * Real.sqrt (a * b)) < 0 ∨
        S.transientToProjectile (S.finalToTransient (2 * Real.sqrt (a * b))) < 0 ∨ vel < 0 ∨ rho < 0) := by
    simp only [makeFixedCopy]
    split_ifs with hc
    · exact iff_of_false (by simp) (fun h => h hc)
    · exact iff_of_true rfl hc
  rw [key]
  push Not
  exact ⟨fun h => h.2, fun h => ⟨mul_nonneg h.1 h.2.1, h⟩⟩

/-- Full statement fails for every other size (transient diameter, projectile diameter or mass): unless the old semiminor axis
happened to be the new radius, the copy is an ellipse with the old semiminor axis and a diameter other than the one that belongs to
the new size. -/
theorem C90_other_size_fails (S : ScalingFns) (rho vel ang oldMinor : ℝ) (sz : Size) (hsz : ∀ a b, sz ≠ .axes a b) (f : Fixed)
    (h : makeFixedCopy S rho vel ang oldMinor sz = some f)
    (hp : 0 < (diameters S rho sz).1) (hne : oldMinor ≠ (diameters S rho sz).1 / 2) :
    f.minor = oldMinor ∧ f.major = (diameters S rho sz).1 / 2 ∧ f.diameter ≠ (diameters S rho sz).1 := by
  have hax : axesOfCopy S rho oldMinor sz = ((diameters S rho sz).1 / 2, oldMinor) := by
    cases sz with
    | axes a b => exact absurd rfl (hsz a b)
    | _ => rfl
  simp only [makeFixedCopy, hax] at h
  split_ifs at h with hc
  push Not at hc
  cases h
  refine ⟨rfl, rfl, ?_⟩
  intro e
  simp only [Fixed.diameter, Fixed.radius] at e
  have h1 := Real.sq_sqrt hc.1
  have h2 : Real.sqrt ((diameters S rho sz).1 / 2 * oldMinor) = (diameters S rho sz).1 / 2 := by linarith
  rw [h2] at h1
  apply hne
  have h3 : (diameters S rho sz).1 / 2 ≠ 0 := by positivity
  have h4 : (diameters S rho sz).1 / 2 * (oldMinor - (diameters S rho sz).1 / 2) = 0 := by linarith
  rcases mul_eq_zero.mp h4 with h5 | h5
  · exact absurd h5 h3
  · linarith

example : ∃ f, makeFixedCopy ⟨fun x => x / 2, fun x => x * 2, fun x => x / 10, fun x => x * 10⟩ 3000 20000 45
    500 (.transient 50) = some f := by
  have h : ¬ ((50:ℝ) * 2 / 2 * 500 < 0 ∨ (50:ℝ) * 2 / 2 < 0 ∨ (500:ℝ) < 0 ∨ (50:ℝ) < 0 ∨
      (50:ℝ) / 10 < 0 ∨ (20000:ℝ) < 0 ∨ (3000:ℝ) < 0) := by norm_num
  exact ⟨_, if_neg h⟩

/-! ### C81: copies keep all attributes -/

/-- A copy without arguments equals the original; given attributes other than the name replace the old
ones and nothing else changes. -/
theorem C81_copy_partial {K V : Type} (old new : Record K V) (h : new.name = none) :
    (copyWith old new).name = old.name ∧
    (∀ k v, new.f k = some v → (copyWith old new).f k = some v) ∧
    (∀ k, new.f k = none → (copyWith old new).f k = old.f k) := by
  refine ⟨by simp [copyWith, h], ?_, ?_⟩
  · intro k v e; simp [copyWith, e]
  · intro k e; simp [copyWith, e]

example : (⟨fun k => if k = 0 then some 5 else none, none⟩ : Record ℕ ℕ).name = none := rfl

/-- Full statement fails: a new name given to a copy is lost together with the old one, and a crater
loaded from a file has no name. -/
theorem C81_name_fails {K V : Type} (old new : Record K V) (n : V) (h : new.name = some n) :
    (copyWith old new).name = none ∧ (loadRecord new).name = none ∧
      (copyWith old new).name ≠ new.name := by
  simp [copyWith, loadRecord, h]

/-! ### C82: different craters have different identities -/

/-- Two lists of attributes with the same lengths of the formatted values give the same text only if
they are equal: collisions need values of different width. -/
theorem C82_same_width_partial (p q : List (List Char)) (hl : p.map List.length = q.map List.length)
    (h : idText (p.map some) = idText (q.map some)) : p = q := by
  have e : ∀ l : List (List Char), idText (l.map some) = l.flatten := by
    intro l; simp [idText]
  rw [e, e] at h
  exact List.eq_iff_flatten_eq.mpr ⟨h, hl⟩

example : ["3000.0".toList, "12.5".toList].map List.length = ["4000.0".toList, "13.5".toList].map List.length := by
  decide

/-- Full statement fails: the time 1.0 with semimajor axis 12.0 and the time 1.01 with semimajor axis
2.0 give the same text, whatever follows, so these two craters have the same id for every hash. -/
theorem C82_text_fails (rest : List (Option (List Char))) (hash : List Char → ℕ) :
    idText (some "1.0".toList :: some "12.0".toList :: rest) =
      idText (some "1.01".toList :: some "2.0".toList :: rest) ∧
    hash (idText (some "1.0".toList :: some "12.0".toList :: rest)) =
      hash (idText (some "1.01".toList :: some "2.0".toList :: rest)) := by
  have : idText (some "1.0".toList :: some "12.0".toList :: rest) =
      idText (some "1.01".toList :: some "2.0".toList :: rest) := by
    simp [idText]
  exact ⟨this, by rw [this]⟩

/-! ### C87: a crater keeps its id when saved and loaded -/

/-- If the text of every attribute is the same before and after (as for floats, which are written
exactly), the id is the same, however many attributes are missing. -/
theorem C87_same_text_partial {A : Type} (before after : A → List Char) (l : List (Option A))
    (h : ∀ a, some a ∈ l → before a = after a) (hash : List Char → ℕ) :
    hash (idText (l.map (Option.map before))) = hash (idText (l.map (Option.map after))) := by
  congr 2
  apply List.map_congr_left
  intro o ho
  rcases o with _ | a
  · rfl
  · simp [h a ho]

example : ∀ a : ℕ, some a ∈ [some 1, none, some 2] → Nat.repr a = toString a := by
  intro a _; rfl

/-- Full statement fails: a time given as the integer 3000 is read back as the float 3000.0, and the
text of the id differs. -/
theorem C87_integer_time_fails (rest : List (Option (List Char))) :
    idText (some "3000".toList :: rest) ≠ idText (some "3000.0".toList :: rest) := by
  intro h
  have := congrArg List.length h
  simp [idText] at this

/-! ### C68: identity is immutable -/

/-- Whatever is assigned, the fixed attributes stay, and an assignment to one of them raises. -/
theorem C68_fixed {V : Type} (fixedNames settable : List String) (setter) (c : Obj V)
    (as : List (String × V)) :
    (setattrs fixedNames settable setter c as).fixed = c.fixed ∧
    ∀ n ∈ fixedNames, ∀ v, setattr fixedNames settable setter c n v = none := by
  constructor
  · induction as generalizing c with
    | nil => rfl
    | cons a as ih =>
      obtain ⟨n, v⟩ := a
      simp only [setattrs]
      rw [ih]
      unfold setattr
      split_ifs
      · rfl
      · rcases e : setter c.var n v with _ | w <;> simp
      · rfl
  · intro n hn v
    simp [setattr, hn]

/-- A measured attribute can be set, and only it changes. -/
theorem C68_variable {V : Type} (fixedNames settable : List String) (c : Obj V) (n : String) (v : V)
    (h1 : n ∉ fixedNames) (h2 : n ∈ settable) :
    ∃ c', setattr fixedNames settable (fun d k v => some (Function.update d k (some v))) c n v = some c' ∧
      c'.var n = some v ∧ ∀ k ≠ n, c'.var k = c.var k := by
  refine ⟨⟨c.fixed, Function.update c.var n (some v)⟩, by simp [setattr, h1, h2], by simp, ?_⟩
  intro k hk
  simp [Function.update_of_ne hk]

example : "measured_radius" ∉ ["id", "radius", "diameter"] ∧ "measured_radius" ∈ ["name", "measured_radius"] := by
  decide

/-- Assigning to a name that is neither fixed nor variable is ignored without an error. -/
theorem C68_unknown_ignored {V : Type} (fixedNames settable : List String) (setter) (c : Obj V)
    (n : String) (v : V) (h1 : n ∉ fixedNames) (h2 : n ∉ settable) :
    setattr fixedNames settable setter c n v = some c := by
  simp [setattr, h1, h2]

example : "colour" ∉ ["id", "radius", "diameter"] ∧ "colour" ∉ ["name", "measured_radius"] := by decide

/-! ### C23: tuples and columns -/

/-- Column names made from tuples. -/
def columns : List String :=
  ["longitude", "latitude", "measured_longitude", "measured_latitude", "production_D", "production_N",
   "production_N_stdev", "production_time_stdev"]

/-- The names of the tuple attributes. -/
def tuples : List String := ["location", "measured_location", "production_ND", "production_time"]

/-- A crater dictionary: no columns, and every tuple attribute is absent or a tuple of numbers of the
right length. -/
structure WellFormed (d : Dict) : Prop where
  noColumns : ∀ k ∈ columns, d k = none
  location : d "location" = none ∨ ∃ x y, d "location" = some (.tup [.num x, .num y])
  measured : d "measured_location" = none ∨ ∃ x y, d "measured_location" = some (.tup [.num x, .num y])
  nd : d "production_ND" = none ∨ ∃ x y z, d "production_ND" = some (.tup [.num x, .num y, .num z])
  time : d "production_time" = none ∨ ∃ x y, d "production_time" = some (.tup [.num x, .num y])

theorem fillCols_other (input : Dict) (t k : String) (hk : k ≠ t) (cols : List String) :
    ∀ (new : Dict) (i : ℕ), fillCols input t new i cols k = new k := by
  induction cols with
  | nil => intro new i; rfl
  | cons c cs ih =>
    intro new i
    simp only [fillCols]
    rw [ih]
    split_ifs
    · split
      · rfl
      · rfl
      · simp [Dict.set, hk]
      · rfl
    · rfl

theorem joinLoop_other (input : Dict) (k : String) (l : List (String × List String))
    (h : ∀ e ∈ l, k ≠ e.1) : ∀ new : Dict, joinLoop input new l k = new k := by
  induction l with
  | nil => intro new; rfl
  | cons e l ih =>
    intro new
    obtain ⟨t, cols⟩ := e
    have hk : k ≠ t := h (t, cols) (by simp)
    simp only [joinLoop]
    rw [ih (fun e he => h e (by simp [he]))]
    split_ifs
    · rw [fillCols_other _ _ _ hk]; simp [Dict.set, hk]
    · rw [fillCols_other _ _ _ hk]
    · rfl

theorem join_other (d : Dict) (k : String) (h : k ∉ tuples) : join d k = d.present k := by
  simp only [tuples, List.mem_cons, List.not_mem_nil, or_false, not_or] at h
  obtain ⟨k1, k2, k3, k4⟩ := h
  unfold join
  rw [joinLoop_other]
  · have e1 : (joinND (d, d.present)).2 k = d.present k := by
      unfold joinND; split <;> simp [Dict.set, k3]
    rw [← e1]
    unfold joinTime; split <;> simp [Dict.set, k4]
  · intro e he
    simp only [tupleMap, List.mem_cons, List.not_mem_nil, or_false] at he
    rcases he with rfl | rfl | rfl | rfl <;> assumption

theorem setCols_other (k : String) (cols : List String) (h : k ∉ cols) :
    ∀ (d f : Dict) (l : List Val), setCols d cols l = some f → f k = d k := by
  induction cols with
  | nil => intro d f l e; simp [setCols] at e; rw [e]
  | cons c cs ih =>
    intro d f l e
    rcases l with _ | ⟨v, vs⟩
    · simp [setCols] at e
    · simp only [setCols] at e
      rw [ih (fun hh => h (by simp [hh])) _ _ _ e]
      have : k ≠ c := fun e => h (by simp [e])
      simp [Dict.set, this]

theorem splitLoop_other (input : Dict) (k : String) (l : List (String × List String))
    (h : ∀ e ∈ l, k ≠ e.1 ∧ k ∉ e.2) : ∀ new f : Dict, splitLoop input new l = some f → f k = new k := by
  induction l with
  | nil => intro new f e; simp [splitLoop] at e; rw [e]
  | cons e l ih =>
    intro new f hf
    obtain ⟨t, cols⟩ := e
    obtain ⟨hk, hc⟩ := h (t, cols) (by simp)
    have ih' := ih (fun e he => h e (by simp [he]))
    simp only [splitLoop] at hf
    split at hf
    · exact ih' _ _ hf
    · obtain ⟨g, h1, h2⟩ := Option.bind_eq_some_iff.mp hf
      rw [ih' _ _ h2, setCols_other _ _ hc _ _ _ h1]
      simp [Dict.del, hk]
    · cases hf

theorem split_other (d f : Dict) (k : String) (h : k ∉ tuples) (h' : k ∉ columns) (hf : split d = some f) :
    f k = d.present k := by
  apply splitLoop_other d k tupleMap _ _ _ hf
  simp only [tuples, columns, List.mem_cons, List.not_mem_nil, or_false, not_or] at h h'
  intro e he
  simp only [tupleMap, List.mem_cons, List.not_mem_nil, or_false] at he
  rcases he with rfl | rfl | rfl | rfl <;> simp [*]

theorem present_present (d : Dict) (k : String) (f : Dict) (h : f k = d.present k) :
    f.present k = d.present k := by
  unfold Dict.present at *
  rw [h]
  rcases d k with _ | v
  · rfl
  · cases v <;> rfl

set_option maxHeartbeats 1000000 in
theorem round_trip (d : Dict) (h : WellFormed d) :
    ∃ f, split d = some f ∧ (∀ t ∈ tuples, t ≠ "production_time" → f t = none) ∧
      ∀ k, k ∉ columns → join f k = d.present k := by
  have key : ∃ f, split d = some f ∧ (∀ t ∈ tuples, t ≠ "production_time" → f t = none) ∧
      ∀ k ∈ tuples, join f k = d.present k := by
    obtain ⟨h0, h1, h2, h3, h4⟩ := h
    have c1 : d "longitude" = none := h0 _ (by decide)
    have c2 : d "latitude" = none := h0 _ (by decide)
    have c3 : d "measured_longitude" = none := h0 _ (by decide)
    have c4 : d "measured_latitude" = none := h0 _ (by decide)
    have c5 : d "production_D" = none := h0 _ (by decide)
    have c6 : d "production_N" = none := h0 _ (by decide)
    have c7 : d "production_N_stdev" = none := h0 _ (by decide)
    have c8 : d "production_time_stdev" = none := h0 _ (by decide)
    rcases h1 with h1 | ⟨x1, y1, h1⟩ <;> rcases h2 with h2 | ⟨x2, y2, h2⟩ <;>
      rcases h3 with h3 | ⟨x3, y3, z3, h3⟩ <;> rcases h4 with h4 | ⟨x4, y4, h4⟩ <;>
    · simp only [split, splitLoop, tupleMap, h1, h2, h3, h4, setCols, Option.bind_some]
      refine ⟨_, rfl, ?_, ?_⟩
      · intro t ht
        simp only [tuples, List.mem_cons, List.not_mem_nil, or_false] at ht
        rcases ht with rfl | rfl | rfl | rfl <;>
          simp [Dict.set, Dict.del, Dict.present, h1, h2, h3, h4]
      · intro k hk
        simp only [tuples, List.mem_cons, List.not_mem_nil, or_false] at hk
        rcases hk with rfl | rfl | rfl | rfl <;>
        simp [join, joinTime, joinND, joinLoop, tupleMap, fillCols, Dict.set, Dict.del, Dict.present, orZero,
          Val.setAt, h1, h2, h3, h4, c1, c2, c3, c4, c5, c6, c7, c8]
  obtain ⟨f, hf, h1, h2⟩ := key
  refine ⟨f, hf, h1, ?_⟩
  intro k hk
  by_cases ht : k ∈ tuples
  · exact h2 k ht
  · rw [join_other f k ht]
    exact present_present d k f (split_other d f k ht hk hf)

/-- Splitting always succeeds and leaves no tuple but a production time, and joining the columns again gives back every attribute that was
not None, and no others. -/
theorem C23_round_trip (d : Dict) (h : WellFormed d) :
    ∃ f, split d = some f ∧ (∀ t ∈ tuples, t ≠ "production_time" → f t = none) ∧
      ∀ k, k ∉ columns → (∀ v, v ≠ Val.none → d k = some v → join f k = some v) ∧
        (d k = none ∨ d k = some Val.none → join f k = none) := by
  obtain ⟨f, h1, h2, h3⟩ := round_trip d h
  refine ⟨f, h1, h2, fun k hk => ?_⟩
  rw [h3 k hk]
  refine ⟨fun v hv hd => ?_, ?_⟩
  · unfold Dict.present
    rw [hd]
    cases v <;> first | rfl | exact absurd rfl hv
  · rintro (hd | hd) <;> simp [Dict.present, hd]

/-- A crater with a location and a production time, and nothing else but a diameter. -/
def sampleDict : Dict := fun k =>
  if k = "location" then some (.tup [.num 10, .num (-20)])
  else if k = "production_time" then some (.tup [.num 3000, .num 50])
  else if k = "diameter" then some (.num 1000) else none

example : WellFormed sampleDict := by
  refine ⟨?_, Or.inr ⟨10, -20, rfl⟩, Or.inl rfl, Or.inl rfl, Or.inr ⟨3000, 50, rfl⟩⟩
  intro k hk
  simp only [columns, List.mem_cons, List.not_mem_nil, or_false] at hk
  rcases hk with rfl | rfl | rfl | rfl | rfl | rfl | rfl | rfl <;> rfl

/-! ### C84: a CSV row holds the whole crater -/

/-- Every attribute that the first crater of the list has is written for every crater, in the column of that name: the row has as many
entries as the header, and two craters with equal rows agree in all of these attributes. -/
theorem C84_columns_partial (header : List String) (d d' : String → Option ℝ) :
    (csvRow header d).length = header.length ∧ (∀ (i : ℕ) k, header[i]? = some k → (csvRow header d)[i]? = some (d k)) ∧
    (csvRow header d = csvRow header d' ↔ ∀ k ∈ header, d k = d' k) := by
  refine ⟨by simp [csvRow], fun i k h => by simp [csvRow, h], ?_⟩
  unfold csvRow
  exact List.map_inj_left

example : "diameter" ∈ ["id", "diameter"] := by decide

/-- Full statement fails: two craters that differ only in an attribute that the first crater of the
list does not have get the same row. -/
theorem C84_lost_fails (header : List String) (d : String → Option ℝ) (k : String) (x y : ℝ)
    (hk : k ∉ header) :
    csvRow header (Function.update d k (some x)) = csvRow header (Function.update d k (some y)) := by
  unfold csvRow
  apply List.map_congr_left
  intro j hj
  have : j ≠ k := fun e => hk (e ▸ hj)
  rw [Function.update_of_ne this, Function.update_of_ne this]

/-- For example after a circular crater, which has the column `diameter` in place of the axes. -/
example : "semimajor_axis" ∉ ["id", "diameter", "measured_diameter", "time", "longitude", "latitude"] := by
  decide

/-! ### C86: exported craters can be loaded -/

/-- Without an id among the leftover columns a crater is made, with all attributes and leftover columns, and an id computed from its
attributes alone. -/
theorem C86_without_id_partial {V : Type} (hash) (args kwargs : List (String × V))
    (h : ∀ a ∈ args, ∀ b ∈ kwargs, a.1 ≠ b.1) (hid : ∀ b ∈ kwargs, b.1 ≠ "id") :
    ∃ r, finish hash args kwargs = some r ∧ (∀ a ∈ args, a ∈ r) ∧ (∀ b ∈ kwargs, b ∈ r) ∧ ("id", hash args) ∈ r := by
  unfold finish callKw
  rw [if_neg]
  · exact ⟨_, rfl, fun a ha => by simp [ha], fun b hb => by simp [hb], by simp⟩
  · simp only [List.any_append, List.any_cons, List.any_nil, Bool.or_false, Bool.or_eq_true,
      List.any_eq_true, decide_eq_true_eq, not_or, not_exists, not_and]
    constructor
    · intro a ha b hb; exact h a ha b hb
    · intro b hb e; exact hid b hb e.symm

example : ∀ b ∈ [("morphology_type", 1)], b.1 ≠ "id" := by simp

/-- Full statement fails: a row with an id column, which every exported file has, always raises. -/
theorem C86_id_fails {V : Type} (hash) (args kwargs : List (String × V)) (v : V)
    (h : ("id", v) ∈ kwargs) : finish hash args kwargs = none := by
  unfold finish callKw
  rw [if_pos]
  simp only [List.any_append, List.any_cons, List.any_nil, Bool.or_false, Bool.or_eq_true,
    List.any_eq_true, decide_eq_true_eq]
  right
  exact ⟨_, h, rfl⟩

end Verif.Crater
