import Verif.Model.GridId
import Mathlib.Tactic.Linarith
import Mathlib.Tactic.FieldSimp
import Mathlib.Tactic.Ring
import Mathlib.Tactic.NormNum
import Mathlib.Tactic.Tauto

/-! Properties C128 and C129: recognising a saved mesh. -/

namespace Verif.GridId

variable {Fl File H : Type}

/-- Printing is faithful: different values print differently, and numbers and pairs contain no colon. -/
structure Faithful (s : Show Fl File) : Prop where
  num : Function.Injective s.num
  int : Function.Injective s.int
  pair : Function.Injective s.pair
  files : Function.Injective s.files
  numColon : ∀ x, ':' ∉ s.num x
  intColon : ∀ x, ':' ∉ s.int x
  pairColon : ∀ x, ':' ∉ s.pair x

/-- The name of the target. -/
def Params.name : Params Fl File → List Char
  | .ico n _ _ => n
  | .arb n _ _ => n
  | .hires n _ _ _ _ _ => n
  | .data n _ _ _ _ _ _ => n

/-- Up to the first colon. -/
theorem cut {a b x y : List Char} (ha : ':' ∉ a) (hb : ':' ∉ b) (h : a ++ ':' :: x = b ++ ':' :: y) : a = b ∧ x = y := by
  induction a generalizing b with
  | nil =>
    cases b with
    | nil => simpa using h
    | cons c b =>
      simp only [List.nil_append, List.cons_append, List.cons.injEq] at h
      exact absurd (by rw [← h.1]; simp) hb
  | cons c a ih =>
    cases b with
    | nil =>
      simp only [List.nil_append, List.cons_append, List.cons.injEq] at h
      exact absurd (by rw [h.1]; simp) ha
    | cons d b =>
      simp only [List.cons_append, List.cons.injEq] at h
      obtain ⟨h1, h2⟩ := ih (fun hm => ha (by simp [hm])) (fun hm => hb (by simp [hm])) h.2
      exact ⟨by rw [h.1, h1], h2⟩

theorem first_ne {a b x y : List Char} (ha : ':' ∉ a) (hb : ':' ∉ b) (hne : a ≠ b) : a ++ ':' :: x ≠ b ++ ':' :: y :=
  fun h => hne (cut ha hb h).1

/-- **C128.**  Two sets of settings have the same identity only if they are the same: same kind of mesh, same target name and
radius, and the same settings of that kind.  It is required that printing is faithful, the hash has no collision and target names
contain no colon. -/
theorem C128_injective_partial (s : Show Fl File) (hs : Faithful s) (sha : List Char → H) (hsha : Function.Injective sha)
    (p q : Params Fl File) (hp : ':' ∉ p.name) (hq : ':' ∉ q.name) : id s sha p = id s sha q ↔ p = q := by
  refine ⟨fun h => ?_, fun h => by rw [h]⟩
  have h1 := hsha h
  unfold combined at h1
  have h2 := List.append_cancel_right h1
  have k1 : ':' ∉ "icosphere".toList := by decide
  have k2 : ':' ∉ "arbitrary_resolution".toList := by decide
  have k3 : ':' ∉ "hireslocal".toList := by decide
  have k4 : ':' ∉ "datasurface".toList := by decide
  cases p with
  | ico n r l =>
    cases q with
    | ico n' r' l' =>
      simp only [fields, join, Params.name] at h2 hp hq
      have e := (cut k1 k1 h2).2
      obtain ⟨e1, e⟩ := cut hp hq e
      obtain ⟨e2, e⟩ := cut (hs.numColon _) (hs.numColon _) e
      rw [e1, hs.num e2, hs.int e]
    | arb => exact absurd h2 (by simp only [fields, join]; exact first_ne k1 k2 (by decide))
    | hires => exact absurd h2 (by simp only [fields, join]; exact first_ne k1 k3 (by decide))
    | data => exact absurd h2 (by simp only [fields, join]; exact first_ne k1 k4 (by decide))
  | arb n r l =>
    cases q with
    | ico => exact absurd h2 (by simp only [fields, join]; exact first_ne k2 k1 (by decide))
    | arb n' r' l' =>
      simp only [fields, join, Params.name] at h2 hp hq
      have e := (cut k2 k2 h2).2
      obtain ⟨e1, e⟩ := cut hp hq e
      obtain ⟨e2, e⟩ := cut (hs.numColon _) (hs.numColon _) e
      rw [e1, hs.num e2, hs.num e]
    | hires => exact absurd h2 (by simp only [fields, join]; exact first_ne k2 k3 (by decide))
    | data => exact absurd h2 (by simp only [fields, join]; exact first_ne k2 k4 (by decide))
  | hires n r p lr loc f =>
    cases q with
    | ico => exact absurd h2 (by simp only [fields, join]; exact first_ne k3 k1 (by decide))
    | arb => exact absurd h2 (by simp only [fields, join]; exact first_ne k3 k2 (by decide))
    | hires n' r' p' lr' loc' f' =>
      simp only [fields, join, Params.name] at h2 hp hq
      have e := (cut k3 k3 h2).2
      obtain ⟨e1, e⟩ := cut hp hq e
      obtain ⟨e2, e⟩ := cut (hs.numColon _) (hs.numColon _) e
      obtain ⟨e3, e⟩ := cut (hs.numColon _) (hs.numColon _) e
      obtain ⟨e4, e⟩ := cut (hs.numColon _) (hs.numColon _) e
      obtain ⟨e5, e⟩ := cut (hs.pairColon _) (hs.pairColon _) e
      rw [e1, hs.num e2, hs.num e3, hs.num e4, hs.pair e5, hs.num e]
    | data => exact absurd h2 (by simp only [fields, join]; exact first_ne k3 k4 (by decide))
  | data n r p lr loc f d =>
    cases q with
    | ico => exact absurd h2 (by simp only [fields, join]; exact first_ne k4 k1 (by decide))
    | arb => exact absurd h2 (by simp only [fields, join]; exact first_ne k4 k2 (by decide))
    | hires => exact absurd h2 (by simp only [fields, join]; exact first_ne k4 k3 (by decide))
    | data n' r' p' lr' loc' f' d' =>
      simp only [fields, join, Params.name] at h2 hp hq
      have e := (cut k4 k4 h2).2
      obtain ⟨e1, e⟩ := cut hp hq e
      obtain ⟨e2, e⟩ := cut (hs.numColon _) (hs.numColon _) e
      obtain ⟨e3, e⟩ := cut (hs.numColon _) (hs.numColon _) e
      obtain ⟨e4, e⟩ := cut (hs.numColon _) (hs.numColon _) e
      obtain ⟨e5, e⟩ := cut (hs.pairColon _) (hs.pairColon _) e
      obtain ⟨e6, e⟩ := cut (hs.numColon _) (hs.numColon _) e
      rw [e1, hs.num e2, hs.num e3, hs.num e4, hs.pair e5, hs.num e6, hs.files e]

/-- A faithful way of printing, for natural numbers in place of floats. -/
def unary (n : ℕ) : List Char := List.replicate n 'x'

def unaryInt : ℤ → List Char
  | .ofNat n => unary n
  | .negSucc n => '-' :: unary n

def unaryPair (p : ℕ × ℕ) : List Char := unary p.1 ++ ',' :: unary p.2

theorem unary_inj : Function.Injective unary := by
  intro a b h
  have := congrArg List.length h
  simpa [unary] using this

theorem unary_noColon (n : ℕ) : ':' ∉ unary n := by simp [unary, List.mem_replicate]

theorem unaryInt_noColon (n : ℤ) : ':' ∉ unaryInt n := by
  cases n <;> simp [unaryInt, unary, List.mem_replicate]

theorem unaryInt_inj : Function.Injective unaryInt := by
  intro a b h
  have hx : ∀ n, '-' ∉ unary n := fun n => by simp [unary, List.mem_replicate]
  cases a with
  | ofNat a =>
    cases b with
    | ofNat b => exact congrArg _ (unary_inj h)
    | negSucc b => exact absurd (show '-' ∈ unary a by rw [show unary a = '-' :: unary b from h]; simp) (hx a)
  | negSucc a =>
    cases b with
    | ofNat b => exact absurd (show '-' ∈ unary b by rw [← show '-' :: unary a = unary b from h]; simp) (hx b)
    | negSucc b => simpa [unaryInt] using unary_inj (List.cons.inj h).2

theorem unaryPair_inj : Function.Injective unaryPair := by
  intro a b h
  have hc : ∀ l : List Char, ∀ n, (unary n ++ ',' :: l).takeWhile (· == 'x') = unary n := by
    intro l n
    induction n with
    | zero => simp [unary]
    | succ n ih => simpa [unary, List.replicate_succ] using ih
  have h1 : unary a.1 = unary b.1 := by
    have := congrArg (List.takeWhile (· == 'x')) h
    unfold unaryPair at this
    rwa [hc, hc] at this
  have h2 : unary a.2 = unary b.2 := by
    unfold unaryPair at h
    rw [h1] at h
    simpa using h
  exact Prod.ext (unary_inj h1) (unary_inj h2)

example : ∃ s : Show ℕ Unit, Faithful s := by
  refine ⟨⟨unary, unaryInt, unaryPair, fun l => unary l.length⟩, unary_inj, unaryInt_inj, unaryPair_inj, ?_, unary_noColon,
    unaryInt_noColon, ?_⟩
  · intro a b h
    have : a.length = b.length := unary_inj h
    exact List.ext_getElem this (fun i _ _ => rfl)
  · intro p
    simp [unaryPair, unary_noColon]

/-- **C128 fails** for what is not part of the identity: every mesh whose superdomain was laid out automatically carries the same factor into
the identity as one that was given this factor, but near the antipode the cells of the latter are larger by more than the size of
the local cells in metres. -/
theorem C128_layout_fails (pix localRadius far a : ℚ) (b : ℕ) (hp : 1 < pix) (hl : 0 < localRadius) (hf : 2 * localRadius < far)
    (ha : 0 < a) :
    ∃ f, storedFactor pix localRadius far (.given f) = storedFactor pix localRadius far (.automatic a b) ∧
      pix * cellSize pix localRadius far (.automatic a b) far < cellSize pix localRadius far (.given f) far := by
  refine ⟨_, rfl, ?_⟩
  simp only [cellSize]
  have hd : 0 < far - localRadius := by linarith
  have h1 : 0 < a * (far - localRadius) ^ b := mul_pos ha (pow_pos hd b)
  set F := pix + a * (far - localRadius) ^ b with hF
  have hF1 : 1 < F := by linarith
  have h2 : 0 < far - localRadius - localRadius := by linarith
  have h3 : 0 < pix * F - pix := by nlinarith
  have h4 : pix * F - pix < (pix * F - pix) / (far - localRadius - localRadius) * (far - localRadius) := by
    rw [div_mul_eq_mul_div, lt_div_iff₀ h2]
    exact mul_lt_mul_of_pos_left (by linarith) h3
  linarith

/-- Local cells of 100 m in a region of 1 km. -/
example : (1 : ℚ) < 100 ∧ (0 : ℚ) < 1000 ∧ 2 * (1000 : ℚ) < 101000 ∧ (0 : ℚ) < 1 := by norm_num

/-- With a given factor the cells grow at a constant rate from the local size at the edge of the local region to the factor times
that size at one local radius before the antipode (see C50). -/
theorem C128_given (pix localRadius far f r : ℚ) (h : 2 * localRadius < far) :
    cellSize pix localRadius far (.given f) localRadius = pix ∧
    cellSize pix localRadius far (.given f) (far - localRadius) = pix * f ∧
    cellSize pix localRadius far (.given f) r - pix = (pix * f - pix) * ((r - localRadius) / (far - 2 * localRadius)) := by
  have hne : far - localRadius - localRadius ≠ 0 := by
    intro h0
    linarith
  refine ⟨by simp [cellSize], ?_, ?_⟩
  · simp only [cellSize]
    rw [div_mul_cancel₀ _ hne]
    ring
  · simp only [cellSize]
    rw [show far - 2 * localRadius = far - localRadius - localRadius by ring]
    field_simp
    ring

example : cellSize 100 1000 101000 (.given 5) 51000 = 100 + 400 * (50000 / 99000) := by
  unfold cellSize
  norm_num

/-- **C129.**  Without being forced, a new mesh is made exactly when the grid file does not hold a mesh with the present identity;
in that case the saved file stays as it is, otherwise the file afterwards holds a mesh with the present identity; so in every
case the mesh used is one of the present settings. -/
theorem C129_regrid [DecidableEq H] (s : Show Fl File) (sha : List Char → H) (p : Params Fl File) (force : Bool) (d : Disk H) :
    ((regridIfNeeded s sha p force d).1 = true ↔ force = true ∨ d ≠ .grid (some (id s sha p))) ∧
    ((regridIfNeeded s sha p force d).1 = false → (regridIfNeeded s sha p force d).2 = d) ∧
    (regridIfNeeded s sha p force d).2 = .grid (some (id s sha p)) := by
  cases force <;> cases d with
  | missing => simp [regridIfNeeded]
  | broken => simp [regridIfNeeded, isSame]
  | grid i =>
    cases i with
    | none => simp [regridIfNeeded, isSame]
    | some i => by_cases h : i = id s sha p <;> simp [regridIfNeeded, isSame, h]

/-- **C129.**  With faithful printing and no collisions, opening a run with settings `p` when the mesh on disk was made with `q`
keeps the mesh if and only if the settings are the same; data surfaces in addition need their elevations, in memory or in a file
that fits. -/
theorem C129_settings [DecidableEq H] (s : Show Fl File) (hs : Faithful s) (sha : List Char → H) (hsha : Function.Injective sha)
    (p q : Params Fl File) (hp : ':' ∉ p.name) (hq : ':' ∉ q.name) :
    ((regridIfNeeded s sha p false (.grid (some (id s sha q)))).1 = false ↔ p = q) ∧
    ∀ t : DemState, ((regridData s sha p false t (.grid (some (id s sha q)))).1 = false ↔
      p = q ∧ (t.inMemory = true ∨ t.fileExists = true ∧ (t.meshLoaded = true → t.fits = true))) := by
  have key := C128_injective_partial s hs sha hsha q p hq hp
  have hr : ∀ force, ((regridIfNeeded s sha p force (.grid (some (id s sha q)))).1 = false ↔ p = q ∧ force = false) := by
    intro force
    have h := (C129_regrid s sha p force (.grid (some (id s sha q)))).1
    have hb : (regridIfNeeded s sha p force (.grid (some (id s sha q)))).1 = false ↔
        ¬ (regridIfNeeded s sha p force (.grid (some (id s sha q)))).1 = true := by simp
    rw [hb, h]
    simp only [ne_eq, Disk.grid.injEq, Option.some.injEq, not_or, not_not, key]
    constructor
    · rintro ⟨h1, h2⟩; exact ⟨h2.symm, by simpa using h1⟩
    · rintro ⟨h1, h2⟩; exact ⟨by simp [h2], h1.symm⟩
  refine ⟨by rw [hr]; simp, ?_⟩
  intro t
  unfold regridData
  rw [hr]
  refine and_congr_right fun _ => ?_
  unfold demForce
  cases t.inMemory <;> cases t.fileExists <;> cases t.meshLoaded <;> cases t.fits <;> simp

example : regridIfNeeded (⟨unary, unaryInt, unaryPair, fun l => unary l.length⟩ : Show ℕ Unit) (fun l => l) (.ico "Moon".toList 3 5) false
    (.grid (some (id (⟨unary, unaryInt, unaryPair, fun l => unary l.length⟩ : Show ℕ Unit) (fun l => l) (.ico "Moon".toList 3 6)))) =
    (true, .grid (some "icosphere:Moon:xxx:xxxxxv2026.2.0".toList)) := by decide

end Verif.GridId
