import Verif.Model.Settings
import Mathlib.Tactic.NormNum
import Mathlib.Tactic.Linarith
import Mathlib.Analysis.SpecialFunctions.Pow.Real

/-!
# C242  A resumed simulation has the settings of the session that was saved
-/

namespace Verif.Settings

variable {K V : Type} [DecidableEq K]

/-! ## Specification -/

/-- The value of a setting in a session: the one assigned last, otherwise the one given, otherwise the default. -/
def Last (assigned : List (K × Option V)) (k : K) (start : Option V) : Option V :=
  ((assigned.filter (fun kv => kv.1 = k)).map Prod.snd).getLast?.getD start

/-- Whether some assignment sets `k`. -/
def Assigned (assigned : List (K × Option V)) (k : K) : Prop := ∃ v, (k, v) ∈ assigned

/-! ## Lemmas -/

theorem value_foldl (c : Class K V) (l : List (K × Option V)) (s : Comp K V) (k : K) :
    (l.foldl c.assign s).value k = Last l k (s.value k) := by
  induction l generalizing s with
  | nil => simp [Last]
  | cons kv l ih =>
    rw [List.foldl_cons, ih]
    simp only [Last, Class.assign]
    by_cases h : kv.1 = k
    · subst h
      simp only [if_true, List.filter_cons, decide_true, List.map_cons]
      rw [List.getLast?_cons]
      simp
    · have h' : ¬ k = kv.1 := fun e => h e.symm
      simp [h, h']

theorem user_foldl (c : Class K V) (l : List (K × Option V)) (s : Comp K V) (k : K) :
    (l.foldl c.assign s).user k = true ↔ s.user k = true ∨ (c.later k = true ∧ Assigned l k) := by
  induction l generalizing s with
  | nil => simp [Assigned]
  | cons kv l ih =>
    rw [List.foldl_cons, ih]
    simp only [Class.assign, Assigned, List.mem_cons]
    by_cases h : k = kv.1
    · subst h
      simp only [if_true, Bool.or_eq_true]
      constructor
      · rintro ((h | h) | ⟨h, v, hv⟩)
        · exact Or.inl h
        · exact Or.inr ⟨h, kv.2, Or.inl rfl⟩
        · exact Or.inr ⟨h, v, Or.inr hv⟩
      · rintro (h | ⟨h, _⟩)
        · exact Or.inl (Or.inl h)
        · exact Or.inl (Or.inr h)
    · simp only [if_neg h]
      constructor
      · rintro (h | ⟨h, v, hv⟩)
        · exact Or.inl h
        · exact Or.inr ⟨h, v, Or.inr hv⟩
      · rintro (h' | ⟨h', v, hv | hv⟩)
        · exact Or.inl h'
        · exact absurd (congrArg Prod.fst hv) h
        · exact Or.inr ⟨h', v, hv⟩

/-- Whether a setting has been recorded in a session. -/
def Recorded (c : Class K V) (args : K → Option V) (assigned : List (K × Option V)) (k : K) : Prop :=
  c.made k = .always ∨ (c.made k = .given ∧ args k ≠ none) ∨ (c.later k = true ∧ Assigned assigned k)

theorem user_session (c : Class K V) (args : K → Option V) (l : List (K × Option V)) (k : K) :
    (c.session args l).user k = true ↔ Recorded c args l k := by
  rw [Class.session, user_foldl, Recorded]
  have : (c.construct args).user k = true ↔ c.made k = .always ∨ (c.made k = .given ∧ args k ≠ none) := by
    simp only [Class.construct]
    cases h : c.made k <;> simp [Option.isSome_iff_ne_none]
  rw [this, or_assoc]

/-! ## Theorems -/

/-- A session has the settings that were given or assigned: the last assigned value, else the argument, else the default. -/
theorem C242_session (c : Class K V) (args : K → Option V) (l : List (K × Option V)) (k : K) (v : V) (hi : c.ignored k = false)
    (ha : args k = some v) : (c.session args l).value k = Last l k (some v) := by
  rw [Class.session, value_foldl]
  congr 1
  by_cases hk : k = c.lead
  · subst hk; simp [Class.construct, Class.leading, Class.used, hi, ha, either]
  · simp [Class.construct, Class.used, hi, ha, either, hk]

/-- **C242, part.**  A setting that the component records, at construction or when it is assigned, is in the resumed simulation what
it was in the saved session, after every history of assignments, unless it is given again.  Missing: settings that are not recorded
and settings assigned `None`. -/
theorem C242_recorded_partial (c : Class K V) (args : K → Option V) (l : List (K × Option V)) (again : K → Option V) (k : K)
    (hi : c.ignored k = false) (hr : Recorded c args l k) (ha : again k = none) (hv : (c.session args l).value k ≠ none) :
    (c.resume (c.session args l) again).value k = (c.session args l).value k := by
  have hu := (user_session c args l k).2 hr
  obtain ⟨v, hv⟩ := Option.ne_none_iff_exists'.1 hv
  by_cases hk : k = c.lead
  · subst hk
    simp [Class.resume, Class.construct, Class.leading, Class.used, hi, ha, either, Comp.config, hu, hv]
  · simp [Class.resume, Class.construct, Class.used, hi, ha, either, Comp.config, hu, hv, hk]

/-- A setting that is given again has the value given again, unless the component ignores it. -/
theorem C242_again (c : Class K V) (s : Comp K V) (again : K → Option V) (k : K) (v : V) (hi : c.ignored k = false)
    (ha : again k = some v) : (c.resume s again).value k = some v := by
  by_cases hk : k = c.lead
  · subst hk; simp [Class.resume, Class.construct, Class.leading, Class.used, hi, ha, either]
  · simp [Class.resume, Class.construct, Class.used, hi, ha, either, hk]

/-- **C242, part**, exactly: when the leading setting is kept, a setting that is not given again is in the resumed simulation what it
was if and only if it was recorded (and not ignored, and not `None`) or happens to be the default. -/
theorem C242_exact_partial (c : Class K V) (args : K → Option V) (l : List (K × Option V)) (again : K → Option V) (k : K)
    (hk : k ≠ c.lead) (hl : (c.resume (c.session args l) again).value c.lead = (c.session args l).value c.lead)
    (ha : again k = none) :
    (c.resume (c.session args l) again).value k = (c.session args l).value k ↔
      (Recorded c args l k ∧ c.ignored k = false ∧ (c.session args l).value k ≠ none) ∨
        (c.session args l).value k = c.default ((c.session args l).value c.lead) k := by
  have hlead : c.leading (fun k => either (again k) ((c.session args l).config k)) = (c.session args l).value c.lead := by
    rw [← hl]; simp [Class.resume, Class.construct]
  have e : (c.resume (c.session args l) again).value k =
      either (c.used (fun k => either (again k) ((c.session args l).config k)) k)
        (c.default ((c.session args l).value c.lead) k) := by
    rw [← hlead]; simp [Class.resume, Class.construct, hk]
  rw [e, ← user_session]
  simp only [Class.used, ha, either, Comp.config]
  generalize (c.session args l).value k = x
  generalize c.default _ k = d
  cases c.ignored k <;> cases (c.session args l).user k <;> cases x <;> simp [eq_comm]

/-- **C242 fails**: a setting that neither construction nor assignment records is lost, whatever was given and assigned; the resumed
simulation has the default of the resumed leading setting. -/
theorem C242_unrecorded_fails (c : Class K V) (args : K → Option V) (l : List (K × Option V)) (again : K → Option V) (k : K)
    (hk : k ≠ c.lead) (hm : c.made k = .never) (hl : c.later k = false ∨ ¬ Assigned l k) (ha : again k = none) :
    (c.resume (c.session args l) again).value k =
      c.default ((c.resume (c.session args l) again).value c.lead) k := by
  have hu : (c.session args l).user k = false := by
    rw [Bool.eq_false_iff]
    intro h
    rcases (user_session c args l k).1 h with h | ⟨h, _⟩ | ⟨h1, h2⟩
    · rw [hm] at h; cases h
    · rw [hm] at h; cases h
    · rcases hl with h | h
      · rw [h] at h1; cases h1
      · exact h h2
  have : (c.resume (c.session args l) again).value c.lead =
      c.leading (fun k => either (again k) ((c.session args l).config k)) := by simp [Class.resume, Class.construct]
  rw [this]
  simp [Class.resume, Class.construct, hk, Class.used, ha, Comp.config, hu, either]

/-- **C242, part**, the settings that are kept whatever they are: the kind of generator of a power law, and the density of projectiles
of every population that was given or assigned. -/
theorem C242_kept_partial :
    (∀ args l, (powerLaw.session args l).value .generator ≠ none →
      (powerLaw.resume (powerLaw.session args l) (fun _ => none)).value .generator = (powerLaw.session args l).value .generator) ∧
    (∀ p args l, args ProjKey.density ≠ none ∨ Assigned l .density → ((projectile p).session args l).value .density ≠ none →
      ((projectile p).resume ((projectile p).session args l) (fun _ => none)).value .density =
        ((projectile p).session args l).value .density) := by
  refine ⟨fun args l hv => C242_recorded_partial powerLaw args l _ _ rfl (Or.inl rfl) rfl hv, fun p args l h hv => ?_⟩
  refine C242_recorded_partial (projectile p) args l _ _ rfl (Or.inr ?_) rfl hv
  rcases h with h | h
  · exact Or.inl ⟨rfl, h⟩
  · exact Or.inr ⟨rfl, h⟩

/-- **C242 fails** for a power law production: whatever coefficient and slope were given, a simulation that is resumed has those of
the Moon, for the kind of generator that was saved; in particular the density of craters larger than a metre after a million years
is 0.007883 per square metre, whatever it was. -/
theorem C242_power_law_fails (args : PowerKey → Option Val) (l : List (PowerKey × Option Val)) (again : PowerKey → Option Val)
    (h1 : again .n1 = none) (h2 : again .slope = none) :
    (powerLaw.resume (powerLaw.session args l) again).value .n1 =
        powerLaw.default ((powerLaw.resume (powerLaw.session args l) again).value .generator) .n1 ∧
    (powerLaw.resume (powerLaw.session args l) again).value .slope =
        powerLaw.default ((powerLaw.resume (powerLaw.session args l) again).value .generator) .slope ∧
    (args .generator = none → l = [] → again .generator = none → ∀ n b, args .n1 = some (.num n) → args .slope = some (.num b) → 0 ≤ n →
      ∃ p q, powerObject (powerLaw.session args l) = some p ∧
        powerObject (powerLaw.resume (powerLaw.session args l) again) = some q ∧ p.function 1 1 0 = n ∧ q.function 1 1 0 = 7.883e-3) := by
  refine ⟨C242_unrecorded_fails powerLaw args l again .n1 (by decide) rfl (Or.inl rfl) h1,
    C242_unrecorded_fails powerLaw args l again .slope (by decide) rfl (Or.inl rfl) h2, ?_⟩
  intro hg hl hg' n b hn hb h0
  subst hl
  refine ⟨⟨n, if b > 0 then b * -1 else b⟩, ⟨7.883e-3, -3.328⟩, ?_, ?_, ?_, ?_⟩
  · have : ¬ n < 0 := not_lt.2 h0
    simp [powerObject, Class.session, Class.construct, powerLaw, Class.used, either, hn, hb, Verif.Production.PowerLaw.make, this]
  · have e1 : (powerLaw.resume (powerLaw.session args []) again).value .generator = some (.text "crater") := by
      simp [Class.resume, Class.session, Class.construct, powerLaw, Class.used, Class.leading, either, hg, hg', Comp.config]
    have e2 := C242_unrecorded_fails powerLaw args [] again .n1 (by decide) rfl (Or.inl rfl) h1
    have e3 := C242_unrecorded_fails powerLaw args [] again .slope (by decide) rfl (Or.inl rfl) h2
    have e1' : (powerLaw.resume (powerLaw.session args []) again).value powerLaw.lead = some (.text "crater") := e1
    rw [e1'] at e2 e3
    simp only [powerObject, e2, e3]
    have hp : isProjectile (some (.text "crater")) = false := by decide
    simp only [powerLaw, hp, Verif.Production.PowerLaw.make]
    norm_num
  · simp [Verif.Production.PowerLaw.function, Verif.Production.PowerLaw.csfd]
  · simp [Verif.Production.PowerLaw.function, Verif.Production.PowerLaw.csfd]

/-- **C242 fails** for Monte Carlo scaling: switched off with the argument, it is on again in the resumed simulation; switched off by
assignment it stays off.  The constants of the material are kept in both cases. -/
theorem C242_monte_carlo_fails (K1 mu Ybar : ℝ) :
    (∀ args, args ScaleKey.monteCarlo = some (Val.flag false) →
      ((scaling K1 mu Ybar).session args []).value .monteCarlo = some (.flag false) ∧
      ((scaling K1 mu Ybar).resume ((scaling K1 mu Ybar).session args []) (fun _ => none)).value .monteCarlo = some (.flag true)) ∧
    (∀ args, ((scaling K1 mu Ybar).resume ((scaling K1 mu Ybar).session args [(.monteCarlo, some (.flag false))])
      (fun _ => none)).value .monteCarlo = some (.flag false)) ∧
    (∀ args l, ∀ k, k ≠ .monteCarlo → ((scaling K1 mu Ybar).session args l).value k ≠ none →
      ((scaling K1 mu Ybar).resume ((scaling K1 mu Ybar).session args l) (fun _ => none)).value k =
        ((scaling K1 mu Ybar).session args l).value k) := by
  refine ⟨fun args h => ⟨?_, ?_⟩, fun args => ?_, fun args l k hk hv => ?_⟩
  · have := C242_session (scaling K1 mu Ybar) args [] .monteCarlo _ rfl h
    simpa [Last] using this
  · exact C242_unrecorded_fails (scaling K1 mu Ybar) args [] (fun _ => none) .monteCarlo (by simp [scaling]) rfl
      (Or.inr (by simp [Assigned])) rfl
  · have hs : ((scaling K1 mu Ybar).session args [(.monteCarlo, some (.flag false))]).value .monteCarlo = some (.flag false) := by
      simp [Class.session, Class.assign]
    rw [C242_recorded_partial (scaling K1 mu Ybar) args _ (fun _ => none) .monteCarlo rfl
      (Or.inr (Or.inr ⟨rfl, some (.flag false), by simp⟩)) rfl (by rw [hs]; simp), hs]
  · refine C242_recorded_partial (scaling K1 mu Ybar) args l _ k rfl (Or.inl ?_) rfl hv
    cases k <;> simp_all [scaling]

/-- **C242 fails** for the mass and kind of transition of a target: in the resumed simulation they are those of the catalogue.  A body
that is not in the catalogue cannot be resumed at all; radius and material are kept. -/
theorem C242_target_fails (e : Entry) (args : TargetKey → Option Val) (l : List (TargetKey × Option Val)) :
    ((target e).resume ((target e).session args l) (fun _ => none)).value .mass = e.mass.map .num ∧
    ((target e).resume ((target e).session args l) (fun _ => none)).value .transition = e.transition.map .text ∧
    (e.mass = none → targetValid ((target e).resume ((target e).session args l) (fun _ => none)) = false) ∧
    (∀ k, k = .radius ∨ k = .material → ((target e).session args l).value k ≠ none →
      ((target e).resume ((target e).session args l) (fun _ => none)).value k = ((target e).session args l).value k) := by
  have hm : ((target e).resume ((target e).session args l) (fun _ => none)).value .mass = e.mass.map .num :=
    C242_unrecorded_fails (target e) args l (fun _ => none) .mass (by simp [target]) rfl (Or.inl rfl) rfl
  refine ⟨hm, C242_unrecorded_fails (target e) args l (fun _ => none) .transition (by simp [target]) rfl (Or.inl rfl) rfl, ?_, ?_⟩
  · intro h
    simp [targetValid, hm, h]
  · rintro k (rfl | rfl) hv <;> exact C242_recorded_partial (target e) args l _ _ rfl (Or.inl rfl) rfl hv

/-- **C242 fails** for projectiles of a body that is in neither catalogue of velocities: made without naming projectiles, with any
arguments that let velocities be drawn, they have a mean velocity, but the resumed simulation has none and an error is raised,
unless the mean velocity was assigned later or is given again. -/
theorem C242_generic_fails (args : ProjKey → Option Val) (l : List (ProjKey × Option Val)) (h : args .sample = none)
    (hl : ¬ Assigned l .sample) (again : ProjKey → Option Val) (hs : again .sample = none) :
    projectileValid ((projectile none).session (unnamed args) []) = true ∧
    (projectileValid ((projectile none).resume ((projectile none).session (unnamed args) l) again) = true ↔
      again .meanVelocity ≠ none ∨
        (Assigned l .meanVelocity ∧ ((projectile none).session (unnamed args) l).value .meanVelocity ≠ none)) := by
  constructor
  · cases e : args .meanVelocity <;>
      simp [projectileValid, Class.session, Class.construct, projectile, Class.leading, Class.used, either, unnamed, h, e]
  · have hu : ((projectile none).session (unnamed args) l).user .sample = false := by
      rw [Bool.eq_false_iff]
      intro hh
      rcases (user_session _ _ _ _).1 hh with h1 | ⟨h1, _⟩ | ⟨_, h2⟩
      · simp [projectile] at h1
      · simp [projectile] at h1
      · exact hl h2
    have h1 : ((projectile none).resume ((projectile none).session (unnamed args) l) again).value .sample = some (.flag true) := by
      have hc : ((projectile none).session (unnamed args) l).config .sample = none := by simp [Comp.config, hu]
      have hlead : (projectile none).lead = .sample := rfl
      have hi : (projectile none).ignored .sample = false := rfl
      have hd : ∀ x, (projectile none).default x .sample = some (.flag true) := fun x => rfl
      simp only [Class.resume, Class.construct, hlead, if_true, Class.leading, Class.used, hi, hd, hs, hc, either]
      rfl
    simp only [projectileValid, h1]
    cases ha : again .meanVelocity with
    | some v =>
      rw [C242_again (projectile none) _ again .meanVelocity v (by simp [projectile]) ha]
      simp
    | none =>
      have hrec : ((projectile none).session (unnamed args) l).user .meanVelocity = true ↔ Assigned l .meanVelocity := by
        rw [user_session, Recorded]
        simp [projectile]
      have e : ((projectile none).resume ((projectile none).session (unnamed args) l) again).value .meanVelocity =
          ((projectile none).session (unnamed args) l).config .meanVelocity := by
        have hne : ProjKey.meanVelocity ≠ (projectile none).lead := by simp [projectile]
        have hi : (projectile none).ignored .meanVelocity = false := by simp [projectile]
        have hd : ∀ x, (projectile none).default x .meanVelocity = none := by intro x; simp [projectile]
        simp only [Class.resume, Class.construct, if_neg hne, Class.used, hi, ha, hd]
        cases ((projectile none).session (unnamed args) l).config .meanVelocity <;> simp [either]
      rw [e, Comp.config]
      by_cases hA : Assigned l .meanVelocity
      · simp [hrec.2 hA, hA, Option.isSome_iff_ne_none]
      · have : ((projectile none).session (unnamed args) l).user .meanVelocity = false := by
          rw [Bool.eq_false_iff]; exact fun h => hA (hrec.1 h)
        simp [this, hA]

/-- **C242 fails** for projectiles of a catalogued population: a mean velocity that was assigned is written to the configuration file,
but the resumed simulation has the catalogue's; and `sample=False` given as an argument is lost, so that velocities are drawn. -/
theorem C242_population_fails (v d : ℝ) (args : ProjKey → Option Val) (l : List (ProjKey × Option Val)) (again : ProjKey → Option Val) :
    ((projectile (some (v, d))).resume ((projectile (some (v, d))).session args l) again).value .meanVelocity = some (.num v) ∧
    (¬ Assigned l .sample → again .sample = none →
      ((projectile (some (v, d))).resume ((projectile (some (v, d))).session args l) again).value .sample = some (.flag true)) := by
  constructor
  · have hne : ProjKey.meanVelocity ≠ (projectile (some (v, d))).lead := by simp [projectile]
    have hi : (projectile (some (v, d))).ignored .meanVelocity = true := by simp [projectile]
    have hd : ∀ x, (projectile (some (v, d))).default x .meanVelocity = some (.num v) := by intro x; simp [projectile]
    simp only [Class.resume, Class.construct, if_neg hne, Class.used, hi, hd, if_true, either]
  · intro hl hs
    have hu : ((projectile (some (v, d))).session args l).user .sample = false := by
      rw [Bool.eq_false_iff]
      intro hh
      rcases (user_session _ _ _ _).1 hh with h1 | ⟨h1, _⟩ | ⟨_, h2⟩
      · simp [projectile] at h1
      · simp [projectile] at h1
      · exact hl h2
    have hc : ((projectile (some (v, d))).session args l).config .sample = none := by simp [Comp.config, hu]
    have hlead : (projectile (some (v, d))).lead = .sample := rfl
    have hi : (projectile (some (v, d))).ignored .sample = false := rfl
    have hd : ∀ x, (projectile (some (v, d))).default x .sample = some (.flag true) := fun x => rfl
    simp only [Class.resume, Class.construct, hlead, if_true, Class.leading, Class.used, hi, hd, hs, hc, either]
    rfl

/-! ## Concrete cases -/

/-- A steeper power law, twice as many craters: lost when resumed, kept when given again. -/
example : ∃ args : PowerKey → Option Val, args .generator = none ∧ args .n1 = some (.num 0.016) ∧ args .slope = some (.num (-3.8)) ∧
    (0 : ℝ) ≤ 0.016 := ⟨fun k => match k with | .generator => none | .n1 => some (.num 0.016) | .slope => some (.num (-3.8)),
      rfl, rfl, rfl, by norm_num⟩

/-- A generator type that is given is recorded and kept. -/
example : (powerLaw.resume (powerLaw.session (fun k => if k = .generator then some (.text "projectile") else none) [])
    (fun _ => none)).value .generator = some (.text "projectile") := by
  rw [C242_recorded_partial powerLaw _ [] _ .generator rfl (Or.inl rfl) rfl
    (by simp [Class.session, Class.construct, powerLaw, Class.leading, Class.used, either])]
  simp [Class.session, Class.construct, powerLaw, Class.leading, Class.used, either]

/-- A body of one's own, valid when it is made. -/
example : targetValid ((target ⟨none, none, none, none⟩).session (fun k => match k with
    | .radius => some (.num 1e5) | .mass => some (.num 1e19) | .transition => some (.text "ice") | .material => some (.text "Ice")) [])
    = true := by
  simp [targetValid, Class.session, Class.construct, target, Class.leading, Class.used, either]

/-- No argument, nothing assigned: the projectiles of a body in neither catalogue. -/
example : ¬ Assigned ([] : List (ProjKey × Option Val)) .sample := by simp [Assigned]

end Verif.Settings
