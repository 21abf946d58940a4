import Mathlib.Data.Fin.VecNotation
import Verif.Model.Defaults

/-! Properties C140, C141: production function and projectiles of a target body. -/

namespace Verif.Defaults

/-! ### C140 -/

/-- The production function of a body, as documented for `Simulation`: the crater function of Neukum for the Moon
and Mars, the projectile function of Neukum for Mercury, Venus and Earth, and a power law otherwise. -/
def documented (target : String) : Prod :=
  if target = "Moon" ∨ target = "Mars" then .neukum target
  else if target = "Mercury" ∨ target = "Venus" ∨ target = "Earth" then .neukum "Projectile"
  else .powerlaw

theorem title_names : title "Moon" = "Moon" ∧ title "Mars" = "Mars" ∧ title "projectile" = "Projectile" ∧
    title "Projectile" = "Projectile" := by decide +kernel

/-- Asked for by the name `neukum` (in any case) and without a version, the documented function of the body is used,
whatever the body.  What is missing: the default, see `C140_default_fails`. -/
theorem C140_named_partial (n : String) (hn : lower n = "neukum") (t : String) :
    makeProduction (some n) none (some t) = .ok (documented t) := by
  obtain ⟨t1, t2, t3, _⟩ := title_names
  unfold makeProduction
  dsimp only
  rw [if_pos hn]
  have hv : (none : Option String) ≠ some "projectile" := by simp
  have ht : targetName (some t) none = t := rfl
  rw [ht, if_pos hv]
  by_cases h1 : t = "Moon"
  · subst h1; simp [inner, component, neukum, documented, t1]
  by_cases h2 : t = "Mars"
  · subst h2; simp [inner, component, neukum, documented, t2]
  have h12 : ¬ (t = "Moon" ∨ t = "Mars") := by tauto
  unfold documented
  rw [if_neg h12, if_neg h12]
  by_cases h3 : t = "Mercury" ∨ t = "Venus" ∨ t = "Earth"
  · have hi : t ∈ inner := by simp only [inner, List.mem_cons]; tauto
    rw [if_pos hi, if_pos h3]; simp [component, neukum, t3]
  · have hi : t ∉ inner := by simp only [inner, List.mem_cons, List.not_mem_nil]; tauto
    rw [if_neg hi, if_neg h3]; simp [component]

/-- Without a production function the lunar one of Neukum is used for every target body, also for Mars, for the bodies
documented to have a function of projectiles, and for those documented to have a power law. -/
theorem C140_default_fails :
    (∀ t, makeProduction none none t = .ok (.neukum "Moon")) ∧
    documented "Mars" ≠ .neukum "Moon" ∧ documented "Earth" ≠ .neukum "Moon" ∧ documented "Ceres" ≠ .neukum "Moon" := by
  refine ⟨fun t => ?_, by decide, by decide, by decide⟩
  have h := title_names.1
  simp [makeProduction, component, neukum, h]

/-- The user guide promises Neukum's function for Vesta and Ceres as well; they never get it, whatever is asked for by this name: always a
power law. -/
theorem C140_guide_fails (n : String) (hn : lower n = "neukum") (version : Option String) (t : String) (ht : t = "Vesta" ∨ t = "Ceres") :
    makeProduction (some n) version (some t) = .ok .powerlaw := by
  unfold makeProduction
  dsimp only
  rw [if_pos hn]
  have hi : t ∉ inner := by rcases ht with rfl | rfl <;> decide
  have htn : targetName (some t) version = t := rfl
  rw [htn, if_neg hi]
  simp [component]

/-- A version given with the default production function is an error. -/
theorem C140_version_default_fails (v : String) (t : Option String) :
    makeProduction none (some v) t = .typeError := rfl

/-- The version is not obeyed: for every target body, any version other than the exact word `projectile` is ignored, also if it names another body or is
the documented spelling `Projectile`; and without a target, any version other than this word and the names of the two bodies gives the lunar function. -/
theorem C140_version_fails (n v : String) (hn : lower n = "neukum") (hv : v ≠ "projectile") :
    (∀ t, makeProduction (some n) (some v) (some t) = makeProduction (some n) none (some t)) ∧
    (v ≠ "Moon" → v ≠ "Mars" → makeProduction (some n) (some v) none = .ok (.neukum "Moon")) := by
  have h : (some v ≠ some "projectile") := by simpa using hv
  have key : ∀ (w target : Option String) (t : String), targetName target w = t → w ≠ some "projectile" →
      makeProduction (some n) w target =
        if t ∈ inner then neukum (some (if t = "Moon" ∨ t = "Mars" then t else "projectile")) else .ok .powerlaw := by
    rintro w target t rfl hw
    simp only [makeProduction]
    rw [if_pos hn, if_pos hw]
    split_ifs <;> rfl
  constructor
  · intro t
    rw [key (some v) (some t) t rfl h, key none (some t) t rfl (by decide)]
  · intro h1 h2
    rw [key (some v) none "Moon" (by simp [targetName, h1, h2]) h]
    decide +kernel

/-- The documented spelling, and the name of another body. -/
example : makeProduction (some "neukum") (some "Projectile") (some "Mars") = .ok (.neukum "Mars") ∧
    makeProduction (some "neukum") (some "Projectile") none = .ok (.neukum "Moon") ∧
    makeProduction (some "neukum") (some "Mars") (some "Moon") = .ok (.neukum "Moon") ∧
    makeProduction (some "neukum") (some "Mars") (some "Vesta") = .ok .powerlaw := by decide +kernel

theorem of_lower (c d : Char) (h : c.toLower = d) : c = d ∨ c.val.toNat + 32 = d.val.toNat := by
  unfold Char.toLower at h
  split_ifs at h with hc
  · right
    have h2 : c.val.toNat ≤ 90 := UInt32.le_iff_toNat_le.1 hc.2
    have h3 : (('a' : Char).val - ('A' : Char).val).toNat = 32 := by decide
    rw [← h]
    show c.val.toNat + 32 = (c.val + (('a' : Char).val - ('A' : Char).val)).toNat
    rw [UInt32.toNat_add, h3]
    omega
  · exact .inl h

theorem title_eq (v : String) (c : Char) (cs : List Char) (h : lower v = String.ofList (c :: cs)) (d : Char)
    (hd : ∀ x : Char, x = c ∨ x.val.toNat + 32 = c.val.toNat → x.toUpper = d) : title v = String.ofList (d :: cs) := by
  unfold lower at h
  have h := congrArg String.toList h
  rw [String.toList_ofList, String.toList_ofList] at h
  unfold title
  cases hv : v.toList with
  | nil => rw [hv] at h; cases h
  | cons a l =>
    rw [hv, List.map_cons, List.cons.injEq] at h
    simp only
    rw [hd a (of_lower a c h.1), h.2]

theorem char_eq {x y : Char} (h : x.val.toNat = y.val.toNat) : x = y := Char.ext (UInt32.toNat_inj.1 h)

/-- The versions are accepted in any mixture of small and capital letters. -/
theorem C140_case (v : String) (w : String) (hw : w = "Moon" ∨ w = "Mars" ∨ w = "Projectile") (h : lower v = lower w) :
    neukum (some v) = .ok (.neukum w) := by
  have hm : ∀ x : Char, x = 'm' ∨ x.val.toNat + 32 = ('m' : Char).val.toNat → x.toUpper = 'M' := by
    rintro x (rfl | hx)
    · decide
    · have : x = 'M' := char_eq (by have : ('m' : Char).val.toNat = ('M' : Char).val.toNat + 32 := by decide
                                    omega)
      subst this; decide
  have hp : ∀ x : Char, x = 'p' ∨ x.val.toNat + 32 = ('p' : Char).val.toNat → x.toUpper = 'P' := by
    rintro x (rfl | hx)
    · decide
    · have : x = 'P' := char_eq (by have : ('p' : Char).val.toNat = ('P' : Char).val.toNat + 32 := by decide
                                    omega)
      subst this; decide
  have ht : title v = w := by
    rcases hw with rfl | rfl | rfl
    · exact title_eq v 'm' ['o', 'o', 'n'] (h.trans (by decide +kernel)) 'M' hm
    · exact title_eq v 'm' ['a', 'r', 's'] (h.trans (by decide +kernel)) 'M' hm
    · exact title_eq v 'p' ['r', 'o', 'j', 'e', 'c', 't', 'i', 'l', 'e'] (h.trans (by decide +kernel)) 'P' hp
  unfold neukum
  simp only [Option.getD_some, ht]
  rw [if_pos hw]

example : lower "mOON" = lower "Moon" := by decide +kernel

/-- The version is obeyed when it is `projectile` and the body one of the five, and when it is `Moon` or `Mars` and no
target is given. -/
theorem C140_version_partial (n : String) (hn : lower n = "neukum") :
    (∀ t ∈ inner, makeProduction (some n) (some "projectile") (some t) = .ok (.neukum "Projectile")) ∧
    makeProduction (some n) (some "projectile") none = .ok (.neukum "Projectile") ∧
    makeProduction (some n) (some "Moon") none = .ok (.neukum "Moon") ∧
    makeProduction (some n) (some "Mars") none = .ok (.neukum "Mars") := by
  obtain ⟨t1, t2, t3, _⟩ := title_names
  refine ⟨fun t ht => ?_, ?_, ?_, ?_⟩
  · unfold makeProduction
    dsimp only
    rw [if_pos hn]
    have e : targetName (some t) (some "projectile") = t := rfl
    rw [e, if_pos ht]
    simp [component, neukum, t3]
  · simp [makeProduction, hn, targetName, component, neukum, t3, inner]
  · simp [makeProduction, hn, targetName, component, neukum, t1, inner]
  · simp [makeProduction, hn, targetName, component, neukum, t2, inner]

/-- Whatever the arguments, the result is one of the three versions of Neukum or a power law, or an error; a power law
asked for by name is used on every body, and an unknown name is an error. -/
theorem C140_valid (name version target : Option String) :
    (∀ p, makeProduction name version target = .ok p →
      p ∈ [Prod.neukum "Moon", .neukum "Mars", .neukum "Projectile", .powerlaw]) ∧
    (name.map lower = some "powerlaw" → version = none → makeProduction name version target = .ok .powerlaw) ∧
    (∀ n, name = some n → lower n ≠ "neukum" → lower n ≠ "powerlaw" → version = none →
      makeProduction name version target = .keyError) := by
  have hk : ∀ v p, neukum v = .ok p → p ∈ [Prod.neukum "Moon", .neukum "Mars", .neukum "Projectile", .powerlaw] := by
    intro v p h
    unfold neukum at h
    dsimp only at h
    split_ifs at h with hv
    simp only [Out.ok.injEq] at h
    subst h
    rcases hv with hv | hv | hv <;> rw [hv] <;> simp
  have hc : ∀ n v a p, component n v a = .ok p →
      p ∈ [Prod.neukum "Moon", .neukum "Mars", .neukum "Projectile", .powerlaw] := by
    intro n v a p h
    unfold component at h
    rcases a with _ | a
    · rcases n with _ | n
      · exact hk v p h
      · dsimp only at h
        split_ifs at h
        · exact hk v p h
        · simp only [Out.ok.injEq] at h
          subst h
          simp
    · cases h
  refine ⟨fun p h => ?_, fun h hv => ?_, fun n h1 h2 h3 h4 => ?_⟩
  · unfold makeProduction at h
    rcases name with _ | n
    · exact hc _ _ _ p h
    · dsimp only at h
      split_ifs at h <;> exact hc _ _ _ p h
  · rcases name with _ | n
    · cases h
    · simp only [Option.map_some, Option.some.injEq] at h
      subst hv
      have hne : ¬ lower n = "neukum" := by rw [h]; decide
      unfold makeProduction
      dsimp only
      rw [if_neg hne, h]
      decide
  · subst h1 h4
    unfold makeProduction
    dsimp only
    rw [if_neg h2]
    unfold component
    dsimp only
    rw [if_neg h2, if_neg h3]

example : lower "NEUKUM" = "neukum" ∧ makeProduction (some "NEUKUM") none (some "Mars") = .ok (.neukum "Mars") ∧
    makeProduction (some "PowerLaw") none (some "Moon") = .ok .powerlaw ∧
    makeProduction (some "lunar") none (some "Moon") = .keyError := by decide +kernel

/-! ### C141 -/

/-- The bodies documented to be hit by asteroids by default. -/
def rocky : List String := ["Mercury", "Venus", "Earth", "Moon", "Mars", "Ceres", "Vesta"]

theorem lookup_isSome {α : Type} (l : List (String × α)) (k : String) :
    (l.lookup k).isSome = true ↔ k ∈ l.map Prod.fst := by
  induction l with
  | nil => simp
  | cons a l ih =>
    rw [List.lookup_cons, List.map_cons, List.mem_cons]
    by_cases h : k = a.1
    · simp [h]
    · have : (k == a.1) = false := by simpa using h
      rw [this]
      simp only [ih]
      tauto

/-- Without a projectile model, asteroids are used for the documented rocky bodies, and comets for every other body
that the comets know.  What is missing: bodies of neither list, see `C141_default_fails`. -/
theorem C141_default_partial (t : String) :
    (t ∈ rocky → chooseProjectile none t = .asteroids) ∧
    (t ∉ rocky → t ≠ "MBA" → t ∈ cometVelocities.map Prod.fst → chooseProjectile none t = .comets) := by
  have ha : asteroidVelocities.map Prod.fst = rocky ++ ["MBA"] := rfl
  constructor
  · intro h
    unfold chooseProjectile
    dsimp only
    rw [if_pos]
    rw [lookup_isSome, ha]
    exact List.mem_append_left _ h
  · intro h1 h2 h3
    unfold chooseProjectile
    dsimp only
    rw [if_neg, if_pos]
    · rw [lookup_isSome]; exact h3
    · rw [lookup_isSome, ha, List.mem_append, List.mem_singleton]
      tauto

/-- For Phobos, Deimos and Arrokoth, which are in the catalogue of targets, neither asteroids nor comets are used but
generic projectiles of 20 km/s. -/
theorem C141_default_fails : ∀ t ∈ ["Phobos", "Deimos", "Arrokoth"], t ∉ rocky ∧
    makeProjectile none none t = some ⟨.generic, 20000⟩ := by decide +kernel

/-- The mean velocity of asteroids (comets) is the one listed for the target and, for a target that is not listed, the
one listed for the Moon (for Kuiper belt objects); an argument does not change it.  It is always positive. -/
theorem C141_velocity (t : String) (v : Option ℚ) :
    (∃ w, makeProjectile (some .asteroids) v t = some ⟨.asteroids, w⟩ ∧ 0 < w ∧
      (asteroidVelocities.lookup t = some w ∨ (t ∉ asteroidVelocities.map Prod.fst ∧ w = 22100))) ∧
    (∃ w, makeProjectile (some .comets) v t = some ⟨.comets, w⟩ ∧ 0 < w ∧
      (cometVelocities.lookup t = some w ∨ (t ∉ cometVelocities.map Prod.fst ∧ w = 1800))) := by
  have key : ∀ (l : List (String × ℚ)) (f : String) (w0 : ℚ), l.lookup f = some w0 → (∀ p ∈ l, 0 < p.2) → 0 < w0 →
      0 < meanVelocity l f t ∧ (l.lookup t = some (meanVelocity l f t) ∨
        (t ∉ l.map Prod.fst ∧ meanVelocity l f t = w0)) := by
    intro l f w0 h0 hp hw
    unfold meanVelocity
    rcases h : l.lookup t with _ | w
    · refine ⟨by rw [h0]; simpa using hw, Or.inr ⟨?_, by rw [h0]; simp⟩⟩
      rw [← lookup_isSome, h]
      simp
    · refine ⟨?_, Or.inl (by simp)⟩
      simp only [Option.some_or, Option.getD_some]
      have : ∀ (l : List (String × ℚ)), (∀ p ∈ l, 0 < p.2) → l.lookup t = some w → 0 < w := by
        intro l hp h
        induction l with
        | nil => simp at h
        | cons a l ih =>
          rw [List.lookup_cons] at h
          split at h
          · simp only [Option.some.injEq] at h
            rw [← h]
            exact hp a List.mem_cons_self
          · exact ih (fun p hm => hp p (List.mem_cons_of_mem _ hm)) h
      exact this l hp h
  have pa : ∀ p ∈ asteroidVelocities, (0 : ℚ) < p.2 := by decide +kernel
  have pc : ∀ p ∈ cometVelocities, (0 : ℚ) < p.2 := by decide +kernel
  obtain ⟨a1, a2⟩ := key asteroidVelocities "Moon" 22100 (by decide +kernel) pa (by norm_num)
  obtain ⟨b1, b2⟩ := key cometVelocities "KBO" 1800 (by decide +kernel) pc (by norm_num)
  exact ⟨⟨_, rfl, a1, a2⟩, ⟨_, rfl, b1, b2⟩⟩

/-- Ceres, Vesta and the main belt in general are hit by asteroids of 5.3 km/s, every planet and the Moon by faster
ones, and by the faster the nearer the planet is to the Sun. -/
theorem C141_main_belt (v : Option ℚ) :
    (∀ t ∈ ["Ceres", "Vesta", "MBA"], makeProjectile (some .asteroids) v t = some ⟨.asteroids, 5300⟩) ∧
    ∃ w : Fin 4 → ℚ, 5300 < w 3 ∧ w 3 < w 2 ∧ w 2 < w 1 ∧ w 1 < w 0 ∧
      ∀ i, makeProjectile (some .asteroids) v (["Mercury", "Venus", "Earth", "Mars"].get i) = some ⟨.asteroids, w i⟩ := by
  refine ⟨?_, ![41100, 29100, 24600, 10700], by decide +kernel, by decide +kernel, by decide +kernel,
    by decide +kernel, ?_⟩
  · have : ∀ t ∈ ["Ceres", "Vesta", "MBA"], makeProjectile (some .asteroids) none t = some ⟨.asteroids, 5300⟩ := by
      decide +kernel
    exact this
  · have : ∀ i : Fin 4, makeProjectile (some .asteroids) none (["Mercury", "Venus", "Earth", "Mars"].get i) =
        some ⟨.asteroids, (![41100, 29100, 24600, 10700] : Fin 4 → ℚ) i⟩ := by decide +kernel
    exact this

/-- Generic projectiles have the velocity given; without one they are an error if asked for by name. -/
theorem C141_generic (t : String) :
    (∀ v, makeProjectile (some .generic) (some v) t = some ⟨.generic, v⟩) ∧
    makeProjectile (some .generic) none t = none := ⟨fun _ => rfl, rfl⟩

example : makeProjectile none none "Europa" = some ⟨.comets, 26000⟩ ∧
    makeProjectile (some .asteroids) (some 5) "Pluto" = some ⟨.asteroids, 22100⟩ ∧ "Europa" ∉ rocky := by decide +kernel

end Verif.Defaults
