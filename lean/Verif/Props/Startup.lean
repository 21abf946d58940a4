import Verif.Model.Startup
import Mathlib.Tactic.Common

/-! Properties C106, C107, C108: starting and resuming a simulation. -/

namespace Verif.Startup

open Verif.Base

variable {V : Type}

/-! ### C106: settings of the components of a resumed simulation -/

theorem lookup_over (d e : List (String × V)) (k : String) : (over d e).lookup k = (e.lookup k).or (d.lookup k) := by
  unfold over
  rw [List.lookup_append]

/-- A keyword argument given to the simulation reaches every component, whatever the file says about that component. -/
theorem C106_keyword_partial (s : Option (Saved V)) (a : Args V) (common : List (String × V)) (c : Comp) (k : String) (v : V)
    (hk : a.kwargs.lookup k = some v) (hcommon : common.lookup k = none) (hextra : ∀ s', s = some s' → s'.extra.lookup k = none) :
    (componentArgs s a common c).lookup k = some v := by
  rcases s with _ | s
  · simp [componentArgs, lookup_over, hcommon, hk]
  · simp [componentArgs, lookup_over, hcommon, hk, hextra s rfl]

/-- Without one, the component keeps its saved settings, and a component not named by the user keeps its kind. -/
theorem C106_saved_partial (s : Saved V) (a : Args V) (common : List (String × V)) (c : Comp) (k : String)
    (hk : a.kwargs.lookup k = none) (hcommon : common.lookup k = none) (hextra : s.extra.lookup k = none) (hn : a.name c = none) :
    nameOf (some s) a c = s.name c ∧ (componentArgs (some s) a common c).lookup k = ((s.config c).getD []).lookup k := by
  refine ⟨by simp [nameOf, hn], ?_⟩
  simp [componentArgs, lookup_over, hcommon, hk, hextra, configOverride, attributesThen]

/-- A component that the user replaces when resuming still receives every setting of the old one which is not overridden,
although the code says that these are to be dropped. -/
theorem C106_replaced_fails (s : Saved V) (a : Args V) (common : List (String × V)) (c : Comp) (new old : String) (hne : new ≠ old)
    (hnew : a.name c = some new) (hold : s.name c = some old) (cfg : List (String × V)) (hcfg : s.config c = some cfg)
    (k : String) (v : V) (hv : cfg.lookup k = some v) (hk : a.kwargs.lookup k = none) (hcommon : common.lookup k = none)
    (hextra : s.extra.lookup k = none) :
    nameOf (some s) a c = some new ∧ nameOf (some s) a c ≠ s.name c ∧ (componentArgs (some s) a common c).lookup k = some v := by
  refine ⟨by simp [nameOf, hnew], by simp [nameOf, hnew, hold, hne], ?_⟩
  simp [componentArgs, lookup_over, hcommon, hk, hextra, configOverride, attributesThen, hcfg, hv]

/-- A top-level entry of the file wins over the same keyword argument. -/
theorem C106_top_level_fails (s : Saved V) (a : Args V) (common : List (String × V)) (c : Comp) (k : String) (v w : V)
    (hk : a.kwargs.lookup k = some v) (hextra : s.extra.lookup k = some w) (hcommon : common.lookup k = none) :
    (componentArgs (some s) a common c).lookup k = some w := by
  simp [componentArgs, lookup_over, hcommon, hk, hextra]

/-- A saved power law production function with slope −3, resumed as Neukum's: the slope is still passed. -/
example : nameOf (some ⟨fun _ => some "powerlaw", fun _ => some [("slope", (-3 : Int))], []⟩) ⟨fun _ => some "neukum", []⟩ .production
      = some "neukum" ∧
    (componentArgs (some ⟨fun _ => some "powerlaw", fun _ => some [("slope", (-3 : Int))], []⟩) ⟨fun _ => some "neukum", []⟩ []
      .production).lookup "slope" = some (-3) := by
  decide

/-- The hypotheses of the two positive statements are met together. -/
example : (componentArgs (some ⟨fun _ => some "icosphere", fun _ => some [("gridlevel", (8 : Int)), ("x", 1)], []⟩)
      ⟨fun _ => none, [("gridlevel", 6)]⟩ [("simdir", 0)] .surface).lookup "gridlevel" = some 6 ∧
    (componentArgs (some ⟨fun _ => some "icosphere", fun _ => some [("gridlevel", (8 : Int)), ("x", 1)], []⟩)
      ⟨fun _ => none, [("gridlevel", 6)]⟩ [("simdir", 0)] .surface).lookup "x" = some 1 := by
  decide

/-! ### C107: random numbers of a resumed simulation -/

variable {State Seed Dict : Type}

theorem apply_rng (np : Numpy State Seed Dict) (fresh : State) (es : List (Entry State Seed Dict)) (o : RngObj State Seed)
    (h : ∀ e ∈ es, (∃ s, e = .seed s) ∨ (∃ d, e = .state d) ∨ e = .rng o.rng) :
    ∃ o', es.foldlM (applyEntry np fresh) o = some o' ∧ o'.rng = o.rng := by
  induction es generalizing o with
  | nil => exact ⟨o, rfl, rfl⟩
  | cons e es ih =>
    have key : ∃ o1, applyEntry np fresh o e = some o1 ∧ o1.rng = o.rng := by
      rcases h e (by simp) with ⟨s, rfl⟩ | ⟨d, rfl⟩ | rfl
      · exact ⟨_, rfl, rfl⟩
      · exact ⟨_, rfl, rfl⟩
      · exact ⟨_, rfl, rfl⟩
    obtain ⟨o1, h1, h2⟩ := key
    obtain ⟨o', h3, h4⟩ := ih o1 (fun e' he' => by rw [h2]; exact h e' (by simp [he']))
    refine ⟨o', ?_, h4.trans h2⟩
    rw [List.foldlM_cons, h1]
    exact h3

/-- The generator of a resumed simulation is the one a new simulation with the same arguments has: nothing in the
configuration file can change it. -/
theorem C107_ignores_file_fails (np : Numpy State Seed Dict) (toDict : State → Dict) (fresh : State) (rng : Arg State)
    (seed : Option Seed) (state : Arg Dict) (fileSeed : Option Seed) (fileState : Option Dict) :
    (resumeRng np toDict fresh rng seed state fileSeed fileState).map (·.getState) = rngInit np fresh rng seed state := by
  unfold resumeRng initRng
  rcases rngInit np fresh rng seed state with _ | g
  · rfl
  · obtain ⟨o', h1, h2⟩ := apply_rng np fresh
      (mergedEntries toDict ⟨g, seed, g⟩ fileSeed fileState ++ commonEntries toDict ⟨g, seed, g⟩)
      (⟨g, seed, g⟩ : RngObj State Seed) (by
        intro e he
        unfold mergedEntries commonEntries at he
        rcases seed with _ | s <;> rcases fileSeed with _ | fs <;>
          simp only [List.mem_append, List.mem_cons, List.not_mem_nil, or_false, false_or] at he <;> aesop)
    change Option.map _ (List.foldlM _ _ _) = some g
    rw [h1]
    exact congrArg some h2

/-- So a script with a fixed seed that is run again to resume draws the same numbers again from the start, rather than
continuing from the state that was saved. -/
theorem C107_repeats_fails (np : Numpy State Seed Dict) (toDict : State → Dict) (f₁ f₂ : State) (s : Seed) (g : State)
    (hs : np.fromSeed s = some g) (later : State) (hlater : later ≠ g) (fileSeed : Option Seed) :
    (initRng np f₁ .absent (some s) .absent).map (·.getState) = some g ∧
    (resumeRng np toDict f₂ .absent (some s) .absent fileSeed (some (toDict later))).map (·.getState) = some g ∧
    (resumeRng np toDict f₂ .absent (some s) .absent fileSeed (some (toDict later))).map (·.getState) ≠ some later := by
  have h : (resumeRng np toDict f₂ .absent (some s) .absent fileSeed (some (toDict later))).map (·.getState) = some g := by
    rw [C107_ignores_file_fails]
    exact hs
  refine ⟨?_, h, by rw [h]; simpa using hlater.symm⟩
  simp [initRng, rngInit, hs, RngObj.getState]

/-- What does work: giving the saved state (and no seed) as an argument restores it. -/
theorem C107_argument_partial (np : Numpy State Seed Dict) (toDict : State → Dict) (hinv : ∀ g, np.fromDict (toDict g) = some g)
    (fresh later : State) (fileSeed : Option Seed) (fileState : Option Dict) :
    (resumeRng np toDict fresh .absent none (.good (toDict later)) fileSeed fileState).map (·.getState) = some later := by
  rw [C107_ignores_file_fails]
  exact hinv later

/-- The seed that a resumed simulation reports, and writes back into its configuration file, is the one given as an argument, and otherwise the one of
the file. -/
theorem C107_seed (np : Numpy State Seed Dict) (toDict : State → Dict) (fresh : State) (rng : Arg State) (seed : Option Seed) (state : Arg Dict)
    (fileSeed : Option Seed) (fileState : Option Dict) (o : RngObj State Seed)
    (h : resumeRng np toDict fresh rng seed state fileSeed fileState = some o) :
    (∀ s, seed = some s → o.seed = some s) ∧ (seed = none → o.seed = fileSeed) := by
  unfold resumeRng at h
  obtain ⟨o₀, h0, h1⟩ := Option.bind_eq_some_iff.1 h
  have hs : o₀.seed = seed := by
    unfold initRng at h0
    obtain ⟨g, _, rfl⟩ := Option.map_eq_some_iff.1 h0
    rfl
  have step : ∀ (es : List (Entry State Seed Dict)) (a b : RngObj State Seed), es.foldlM (applyEntry np fresh) a = some b →
      b.seed = es.foldl (fun acc e => match e with | .seed s => some s | _ => acc) a.seed := by
    intro es
    induction es with
    | nil => intro a b hb; simp at hb; rw [← hb]; rfl
    | cons e es ih =>
      intro a b hb
      rw [List.foldlM_cons] at hb
      obtain ⟨c, hc, hb⟩ := Option.bind_eq_some_iff.1 hb
      rw [ih c b hb, List.foldl_cons]
      congr 1
      cases e with
      | rng g => simp only [applyEntry] at hc; obtain ⟨_, _, rfl⟩ := Option.map_eq_some_iff.1 hc; rfl
      | seed s => simp only [applyEntry, Option.some.injEq] at hc; rw [← hc]
      | state d =>
        simp only [applyEntry, RngObj.setState] at hc
        obtain ⟨_, _, rfl⟩ := Option.map_eq_some_iff.1 hc
        rfl
  have h2 := step _ _ _ h1
  rw [h2]
  unfold mergedEntries commonEntries
  constructor
  · intro s he
    rw [hs, he]
    cases fileSeed <;> simp
  · intro he
    rw [hs, he]
    cases fileSeed <;> simp

example : (resumeRng (⟨some, some⟩ : Numpy Nat Nat Nat) id 3 .absent none .absent (some 7) (some 99)).map (·.seed) = some (some 7) := by decide

example : (resumeRng (⟨some, some⟩ : Numpy Nat Nat Nat) id 3 .absent (some 7) .absent (some 7) (some 99)).map (·.getState)
    = some 7 := by
  rw [C107_ignores_file_fails]; rfl

/-! ### C108: consent to starting anew -/

/-- With prompting on and no explicit choice, an existing run is only discarded after an affirmative answer. -/
theorem C108_consent (ans : Answer) (exists_ : Bool) (h : (decideReset none true exists_ ans).1 = true) :
    exists_ = true ∧ (ans = .y ∨ ans = .a) := by
  rcases exists_ <;> rcases ans <;> simp [decideReset] at h ⊢

/-- Without prompting, or without an existing run, nothing is discarded unless asked for explicitly; an explicit choice is
followed without asking. -/
theorem C108_explicit (r : Option Bool) (ask exists_ : Bool) (ans : Answer) :
    (r = none → ask = false ∨ exists_ = false → (decideReset r ask exists_ ans).1 = false) ∧
    (∀ b, r = some b → decideReset r ask exists_ ans = (b, ask)) := by
  refine ⟨?_, ?_⟩
  · rintro rfl (rfl | rfl) <;> simp [decideReset]
  · rintro b rfl; rfl

example : (decideReset none true true .y).1 = true ∧ (decideReset none false true .y).1 = false := by decide

end Verif.Startup
