import Verif.Model.RngShare
import Mathlib.Logic.Function.Iterate

/-! Property C210: a generator, seed or state that is assigned is used from then on, and the parts of a simulation draw from one sequence. -/

namespace Verif.RngShare

open Verif.Base

/-- The numbers of a generator that is in a state: the first `n`. -/
def stream {State Out : Type} (next : State → Out × State) (s : State) : ℕ → List Out
  | 0 => []
  | n + 1 => (next s).1 :: stream next (next s).2 n

/-- Objects that share a generator draw one sequence: whatever objects draw and in whatever order, the numbers that come from a generator are, in the
order of the draws, the numbers of this generator from the state it had, none twice and none left out. -/
theorem C210_one_sequence {State Seed Out : Type} (next : State → Out × State) (h : Heap State) (os : List (Owner Seed)) (g : ℕ) :
    ((draws next h os).1.filter (fun d => d.1 = g)).map Prod.snd = stream next (h.state g) (os.countP fun o => o.gen = g) := by
  induction os generalizing h with
  | nil => rfl
  | cons o os ih =>
    simp only [draws]
    by_cases e : o.gen = g
    · have hih := ih (draw next h o).2
      have hs : (draw next h o).2.state g = (next (h.state g)).2 := by simp [draw, e]
      rw [hs] at hih
      rw [List.filter_cons_of_pos (by simpa using e), List.map_cons, hih, List.countP_cons_of_pos (by simpa using e), stream]
      simp [draw, e]
    · have hih := ih (draw next h o).2
      have hs : (draw next h o).2.state g = h.state g := by
        simp only [draw]
        exact Function.update_of_ne (Ne.symm e) _ _
      rw [hs] at hih
      rw [List.filter_cons_of_neg (by simpa using e), hih, List.countP_cons_of_neg (by simpa using e)]

/-- After any history of draws each generator has made as many steps as there were draws from it, so that what is drawn later continues its
sequence. -/
theorem C210_continues {State Seed Out : Type} (next : State → Out × State) (h : Heap State) (os later : List (Owner Seed)) (g : ℕ) :
    (draws next h os).2.state g = (fun s => (next s).2)^[os.countP fun o => o.gen = g] (h.state g) ∧
    (draws next h (os ++ later)).1 = (draws next h os).1 ++ (draws next (draws next h os).2 later).1 := by
  constructor
  · induction os generalizing h with
    | nil => rfl
    | cons o os ih =>
      simp only [draws]
      rw [ih]
      by_cases e : o.gen = g
      · rw [List.countP_cons_of_pos (by simpa using e), Function.iterate_succ_apply]
        simp [draw, e]
      · rw [List.countP_cons_of_neg (by simpa using e)]
        congr 1
        simp only [draw]
        exact Function.update_of_ne (Ne.symm e) _ _
  · induction os generalizing h with
    | nil => rfl
    | cons o os ih => simp only [List.cons_append, draws, ih]

/-- Every object made with the common arguments of another one shares its generator, and so does each object made in turn by that one. -/
theorem C210_parts {State Seed Dict : Type} (np : Numpy State Seed Dict) (toDict : State → Dict) (fresh : State) (h : Heap State) (o : Owner Seed) :
    ∃ p, makePart np toDict fresh h o = some (h, p) ∧ p.gen = o.gen ∧ p.seed = o.seed := ⟨⟨o.gen, o.seed⟩, rfl, rfl, rfl⟩

/-- An object that is assigned a generator draws from it, and so does every object it makes afterwards.  Missing: objects it made before keep the old
one, see `C210_parts_fails`; seeds and states are not used, see `C210_seed_fails` and `C210_state_fails`. -/
theorem C210_generator_partial {State Seed Dict Out : Type} (np : Numpy State Seed Dict) (toDict : State → Dict) (fresh : State) (next : State → Out × State)
    (h : Heap State) (o : Owner Seed) (g : ℕ) :
    ∃ o', setRng np toDict fresh h o (.good g) = some (h, o') ∧ o'.gen = g ∧ (draw next h o').1 = (next (h.state g)).1 ∧
      ∃ p, makePart np toDict fresh h o' = some (h, p) ∧ p.gen = g :=
  ⟨{ o with gen := g }, rfl, rfl, rfl, ⟨g, o.seed⟩, rfl, rfl⟩

/-- Assigning a seed changes no later draw of any object. -/
theorem C210_seed_fails {State Seed Out : Type} (next : State → Out × State) (h : Heap State) (o : Owner Seed) (s : Option Seed) (before after : List (Owner Seed)) :
    (setSeed h o s).2.seed = s ∧ (draws next (setSeed h o s).1 (before ++ (setSeed h o s).2 :: after)).1 = (draws next h (before ++ o :: after)).1 := by
  refine ⟨rfl, ?_⟩
  simp only [setSeed]
  induction before generalizing h with
  | nil => rfl
  | cons b before ih => simp only [List.cons_append, draws, ih]

/-- Assigning a state changes nothing: it is accepted without an error, whatever it is, the state that is read back is the old one, and all objects draw
what they would have drawn. -/
theorem C210_state_fails {State Seed Dict Out : Type} (np : Numpy State Seed Dict) (fresh : State) (next : State → Out × State) (h : Heap State) (o : Owner Seed)
    (v : Arg Dict) : ∃ h' o', setState np fresh h o v = some (h', o') ∧ h'.state o'.gen = h.state o.gen ∧
      ∀ before after : List (Owner Seed), (draws next h' (before ++ o' :: after)).1 = (draws next h (before ++ o :: after)).1 :=
  ⟨h, o, rfl, rfl, fun _ _ => rfl⟩

/-- Assigning a generator to a simulation leaves its parts with the old one: the part goes on with the sequence the simulation had before. -/
theorem C210_parts_fails {State Seed Dict Out : Type} (np : Numpy State Seed Dict) (toDict : State → Dict) (fresh : State) (next : State → Out × State)
    (h : Heap State) (o : Owner Seed) (g : ℕ) (hg : o.gen ≠ g) :
    ∃ p o', makePart np toDict fresh h o = some (h, p) ∧ setRng np toDict fresh h o (.good g) = some (h, o') ∧ o'.gen ≠ p.gen ∧
      (draw next h p).1 = (next (h.state o.gen)).1 := ⟨⟨o.gen, o.seed⟩, { o with gen := g }, rfl, rfl, hg.symm, rfl⟩

/-- Assigning None asks, as documented, for a new generator from the seed.  With a seed it raises ValueError. -/
theorem C210_none_seed_fails {State Seed Dict : Type} (np : Numpy State Seed Dict) (toDict : State → Dict) (fresh : State) (h : Heap State)
    (o : Owner Seed) (s : Seed) (hs : o.seed = some s) : setRng np toDict fresh h o .absent = none := by
  simp [setRng, init, rngInit, hs]

/-- Without a seed the new generator is a twin of the old one: the object draws the same numbers as the parts that have the old one, as long as
both go on. -/
theorem C210_none_fails {State Seed Dict Out : Type} (np : Numpy State Seed Dict) (toDict : State → Dict) (hinv : ∀ s, np.fromDict (toDict s) = some s)
    (fresh : State) (next : State → Out × State) (h : Heap State) (o : Owner Seed) (hs : o.seed = none) (ho : o.gen < h.count) (n : ℕ) :
    ∃ h' o', setRng np toDict fresh h o .absent = some (h', o') ∧ o'.gen ≠ o.gen ∧
      (draws next h' (List.replicate n o')).1.map Prod.snd = (draws next h' (List.replicate n o)).1.map Prod.snd := by
  refine ⟨⟨Function.update h.state h.count (h.state o.gen), h.count + 1⟩, { o with gen := h.count }, ?_, ?_, ?_⟩
  · simp [setRng, init, rngInit, hs, hinv]
  · exact (Nat.ne_of_lt ho).symm
  · have key : ∀ (h' : Heap State) (p : Owner Seed) (n : ℕ), (draws next h' (List.replicate n p)).1.map Prod.snd = stream next (h'.state p.gen) n := by
      intro h' p n
      induction n generalizing h' with
      | zero => rfl
      | succ n ih =>
        simp only [List.replicate_succ, draws, List.map_cons, ih, stream]
        simp [draw]
    rw [key, key]
    simp [Function.update_of_ne (Nat.ne_of_lt ho)]

/-- Two objects with one generator and a third with another, drawing in turn. -/
example : (draws (fun s : ℕ => (s, s + 1)) ⟨fun g => 100 * g, 2⟩ [(⟨0, none⟩ : Owner ℕ), ⟨1, none⟩, ⟨0, some 3⟩, ⟨0, none⟩]).1 =
    [(0, 0), (1, 100), (0, 1), (0, 2)] := by decide

end Verif.RngShare
