import Verif.Model.Crash
import Mathlib.Tactic.Ring
import Mathlib.Data.List.Basic

/-! Properties C47, C48, C49, C52, C102: crashes while files are written, and what happens at the next start. -/

namespace Verif.Crash

variable {G V X K : Type}

/-- The files a user cares about, as opposed to temporary ones. -/
def Path.kept : Path → Bool
  | .temp _ => false
  | _ => true

theorem put_same {C : Type} (d : Disk C) (p : Path) (b : Option (Blob C)) : put d p b p = b := by simp [put]

theorem put_other {C : Type} (d : Disk C) {p q : Path} (b : Option (Blob C)) (h : q ≠ p) : put d p b q = d q := by
  simp [put, h]

/-- Taking a prefix of a list with four elements. -/
theorem take_cases4 {α : Type} (n : ℕ) (a b c e : α) :
    [a, b, c, e].take n = [] ∨ [a, b, c, e].take n = [a] ∨ [a, b, c, e].take n = [a, b] ∨
    [a, b, c, e].take n = [a, b, c] ∨ ([a, b, c, e].take n = [a, b, c, e] ∧ 4 ≤ n) := by
  match n with
  | 0 => simp
  | 1 => simp
  | 2 => simp
  | 3 => simp
  | n + 4 => simp

theorem take_cases3 {α : Type} (n : ℕ) (a b c : α) :
    [a, b, c].take n = [] ∨ [a, b, c].take n = [a] ∨ [a, b, c].take n = [a, b] ∨
    ([a, b, c].take n = [a, b, c] ∧ 3 ≤ n) := by
  match n with
  | 0 => simp
  | 1 => simp
  | 2 => simp
  | n + 3 => simp

/-- The content a completed save leaves: the new value of every variable it mentions, the old value of every other.
`old` is what the file held before (nothing, if it did not exist). -/
def MergeOf (new old c : V → Option X) : Prop :=
  (∀ v x, new v = some x → c v = some x) ∧ (∀ v, new v = none → c v = old v)

/-- A file of surface data that can be read. -/
def Readable (d : Disk (Content G V X K)) (k : ℕ) (old : V → Option X) : Prop :=
  d (.data k) = some (.whole (.vars old)) ∨ (d (.data k) = none ∧ ∀ v, old v = none)

theorem savedContent_spec {d : Disk (Content G V X K)} {k : ℕ} {old : V → Option X} (h : Readable d k old)
    (new : V → Option X) : ∃ c, savedContent d k new = some c ∧ MergeOf new old c := by
  rcases h with h | ⟨h, h0⟩
  · refine ⟨merge new old, by unfold savedContent; rw [h], ?_, ?_⟩
    · intro v x e; simp [merge, e]
    · intro v e; simp [merge, e]
  · refine ⟨new, by unfold savedContent; rw [h], fun v x e => e, fun v e => by rw [e, h0]⟩

/-- With the temporary folder on the same device as the simulation, a crash at any point of saving surface data leaves
every file as it was, except that the file being saved may already be the complete new one; a completed save
is the complete new one.  Missing: temporary folders on another device, see `C47_other_device_fails`. -/
theorem C47_crash_partial (d : Disk (Content G V X K)) (tmp k : ℕ) (old new : V → Option X) (h : Readable d k old) :
    ∃ c, MergeOf new old c ∧
      (∀ (n : ℕ) (p : Path), p.kept = true →
        crash n d (saveOps true d tmp k new) p = d p ∨
        (p = .data k ∧ crash n d (saveOps true d tmp k new) p = some (.whole (.vars c)))) ∧
      run d (saveOps true d tmp k new) (.data k) = some (.whole (.vars c)) := by
  obtain ⟨c, hc, hm⟩ := savedContent_spec h new
  refine ⟨c, hm, ?_, ?_⟩
  · intro n p hp
    have hpt : p ≠ .temp tmp := by rintro rfl; simp [Path.kept] at hp
    unfold crash saveOps
    rw [hc]
    simp only [move, if_true, List.cons_append, List.nil_append]
    rcases take_cases3 n (Op.create (Path.temp tmp)) (Op.finish (Path.temp tmp) (Content.vars c : Content G V X K))
      (Op.rename (Path.temp tmp) (Path.data k)) with e | e | e | ⟨e, _⟩ <;> rw [e]
    · left; rfl
    · left; simp [run, step, put, hpt]
    · left; simp [run, step, put, hpt]
    · by_cases hpk : p = .data k
      · right; subst hpk; simp [run, step, put]
      · left; simp [run, step, put, hpt, hpk]
  · unfold saveOps
    rw [hc]
    simp [move, run, step, put]

/-- On whatever device, a save that is not interrupted leaves the new values plus the older variables it did not
mention, touches no other file that is kept, and leaves no temporary file behind. -/
theorem C47_complete (dev : Bool) (d : Disk (Content G V X K)) (tmp k : ℕ) (old new : V → Option X) (h : Readable d k old) :
    ∃ c, MergeOf new old c ∧ run d (saveOps dev d tmp k new) (.data k) = some (.whole (.vars c)) ∧
      (∀ p : Path, p.kept = true → p ≠ .data k → run d (saveOps dev d tmp k new) p = d p) ∧
      run d (saveOps dev d tmp k new) (.temp tmp) = none := by
  obtain ⟨c, hc, hm⟩ := savedContent_spec h new
  refine ⟨c, hm, ?_, ?_, ?_⟩
  · unfold saveOps
    rw [hc]
    cases dev <;> simp [move, run, step, put]
  · intro p hp hpk
    have hpt : p ≠ .temp tmp := by rintro rfl; simp [Path.kept] at hp
    unfold saveOps
    rw [hc]
    cases dev <;> simp [move, run, step, put, hpt, hpk]
  · unfold saveOps
    rw [hc]
    cases dev <;> simp [move, run, step, put]

/-- If the temporary folder is on another device, the move is a copy, and a crash during the copy leaves a torn file in
place of the saved state: for every readable file there is such a crash point. -/
theorem C47_other_device_fails (d : Disk (Content G V X K)) (tmp k : ℕ) (old new : V → Option X) (h : Readable d k old) :
    ∃ n, crash n d (saveOps false d tmp k new) (.data k) = some .torn := by
  obtain ⟨c, hc, _⟩ := savedContent_spec h new
  refine ⟨3, ?_⟩
  unfold crash saveOps
  rw [hc]
  simp [move, run, step, put]

example : ∃ (d : Disk (Content ℕ ℕ ℕ ℕ)) (old : ℕ → Option ℕ), Readable d 3 old ∧ old 1 = some 5 :=
  ⟨fun p => if p = .data 3 then some (.whole (.vars fun v => if v = 1 then some 5 else none)) else none,
    fun v => if v = 1 then some 5 else none, Or.inl (by simp), by simp⟩

/-! ### The grid file -/

/-- The next start with grid `g` keeps the surface data that is on disk. -/
def Keeps [DecidableEq G] (d : Disk (Content G V X K)) (g : G) : Prop :=
  ∀ (ask index agree : Bool) (init : V → Option X) (k : ℕ),
    (load ⟨d, ask, index⟩ g init false false agree).disk (.data k) = d (.data k)

theorem regrid_same [DecidableEq G] (s : State G V X K) (g : G) (h : sameGrid s.disk g = true) :
    regridIfNeeded s g false = (s, false) := by
  unfold regridIfNeeded
  rw [if_neg (by simp [h])]

theorem regrid_other [DecidableEq G] (s : State G V X K) (g : G) (regrid : Bool)
    (h : regrid = true ∨ sameGrid s.disk g = false) :
    regridIfNeeded s g regrid = ({ s with disk := run s.disk (gridOps true 0 g) }, true) := by
  unfold regridIfNeeded
  rw [if_pos h]

theorem regrid_ask [DecidableEq G] (s : State G V X K) (g : G) (regrid : Bool) :
    (regridIfNeeded s g regrid).1.ask = s.ask ∧ (regridIfNeeded s g regrid).1.index = s.index := by
  unfold regridIfNeeded
  split_ifs <;> simp

theorem load_ask [DecidableEq G] (s : State G V X K) (g : G) (init : V → Option X) (reset regrid agree : Bool) :
    (load s g init reset regrid agree).ask = s.ask ∧ (load s g init reset regrid agree).index = s.index := by
  obtain ⟨a, b⟩ := regrid_ask s g regrid
  simp only [load]
  generalize regridIfNeeded s g regrid = r at a b ⊢
  rcases r with ⟨t, f⟩
  simp only at a b ⊢
  cases f <;> cases reset <;> simp [resetSurface, a, b]

theorem load_same [DecidableEq G] (s : State G V X K) (g : G) (init : V → Option X) (agree : Bool)
    (h : sameGrid s.disk g = true) : load s g init false false agree = s := by
  simp only [load, regrid_same s g h]
  simp

theorem load_other [DecidableEq G] (s : State G V X K) (g : G) (init : V → Option X) (agree : Bool)
    (h : sameGrid s.disk g = false) (k : ℕ) (hk : k ≠ 0) :
    (load s g init false false agree).disk (.data k) = none := by
  simp only [load, regrid_other s g false (Or.inr h), Bool.or_true, if_true, resetSurface, Bool.false_eq_true,
    false_and, if_false]
  unfold saveOps savedContent
  simp [dropData, run, step, put, move, hk]

/-- A crash at any point of writing the grid leaves all surface data on disk, and the next start keeps that data
exactly if the grid file on disk is then complete and has the identifier asked for (or there is no data to lose).
If the temporary folder is on the same device, the grid file is, at every crash point, the old one, absent, or the
complete new one.  Missing: the grid is absent after some crashes, see `C48_crash_fails`. -/
theorem C48_crash_partial [DecidableEq G] (dev : Bool) (d : Disk (Content G V X K)) (tmp : ℕ) (g : G) (n : ℕ) :
    (∀ k, crash n d (gridOps dev tmp g) (.data k) = d (.data k)) ∧
    (∀ h : G, crash n d (gridOps dev tmp g) .grid = some (.whole (.grid h)) → Keeps (crash n d (gridOps dev tmp g)) h) ∧
    (dev = true → crash n d (gridOps dev tmp g) .grid = d .grid ∨ crash n d (gridOps dev tmp g) .grid = none ∨
      crash n d (gridOps dev tmp g) .grid = some (.whole (.grid g))) ∧
    run d (gridOps dev tmp g) .grid = some (.whole (.grid g)) := by
  refine ⟨?_, ?_, ?_, ?_⟩
  · intro k
    unfold crash
    have key : ∀ ops : List (Op (Content G V X K)), (∀ o ∈ ops, o ∈ gridOps dev tmp g) →
        ∀ d : Disk (Content G V X K), run d ops (.data k) = d (.data k) := by
      intro ops
      induction ops with
      | nil => intro _ d; rfl
      | cons o os ih =>
        intro hmem d
        have ho := hmem o (by simp)
        have : run d (o :: os) = run (step d o) os := rfl
        rw [this, ih (fun o' ho' => hmem o' (by simp [ho']))]
        cases dev
        · simp [gridOps, move] at ho
          rcases ho with ho | ho | ho | ho | ho | ho <;> subst ho <;> simp [step, put]
        · simp [gridOps, move] at ho
          rcases ho with ho | ho | ho | ho <;> subst ho <;> simp [step, put]
    exact key _ (fun o ho => List.mem_of_mem_take ho) d
  · intro h hh ask index agree init k
    rw [load_same]
    unfold sameGrid
    simp only [hh]
    simp
  · rintro rfl
    unfold crash gridOps
    simp only [move, if_true, List.cons_append, List.nil_append]
    rcases take_cases4 n (Op.unlink Path.grid) (Op.create (Path.temp tmp))
      (Op.finish (Path.temp tmp) (Content.grid g : Content G V X K)) (Op.rename (Path.temp tmp) Path.grid) with
      e | e | e | e | ⟨e, _⟩ <;> rw [e]
    · left; rfl
    · right; left; simp [run, step, put]
    · right; left; simp [run, step, put]
    · right; left; simp [run, step, put]
    · right; right; simp [run, step, put]
  · cases dev <;> simp [gridOps, move, run, step, put]

/-- The old grid is removed before the new one is written: on every disk and for every grid there is a crash point at
which no grid is left, and the next start then discards the saved data of every interval but the first, without
asking, even if the old grid is asked for (the data of the first interval is replaced by the initial state). -/
theorem C48_crash_fails [DecidableEq G] (dev : Bool) (d : Disk (Content G V X K)) (tmp : ℕ) (g : G) :
    ∃ n, crash n d (gridOps dev tmp g) .grid = none ∧
      ∀ (h : G) (ask index agree : Bool) (init : V → Option X) (k : ℕ), k ≠ 0 →
        (load ⟨crash n d (gridOps dev tmp g), ask, index⟩ h init false false agree).disk (.data k) = none := by
  have e : crash 1 d (gridOps dev tmp g) .grid = none := by
    simp [crash, gridOps, run, step, put]
  refine ⟨1, e, ?_⟩
  intro h ask index agree init k hk
  apply load_other _ _ _ _ _ _ hk
  unfold sameGrid
  simp only [e]

/-! ### Crater lists -/

/-- A completed save of the crater lists: every non-empty list is in its file, the file of an empty list is as
before, and no other file is touched. Missing: crash safety, see `C49_crash_fails`. -/
theorem C49_complete_partial (d : Disk (Content G V X K)) (k : ℕ) (obs emp : List K) :
    (obs ≠ [] → run d (countOps d k obs emp) (.observed k) = some (.whole (.craters obs))) ∧
    (emp ≠ [] → run d (countOps d k obs emp) (.emplaced k) = some (.whole (.craters emp))) ∧
    (∀ (n : ℕ) (p : Path), (p = .observed k → obs = []) → (p = .emplaced k → emp = []) →
      crash n d (countOps d k obs emp) p = d p) := by
  have gen : ∀ (ops : List (Op (Content G V X K))) (p : Path) (d : Disk (Content G V X K)),
      (∀ o ∈ ops, ∀ d' : Disk (Content G V X K), step d' o p = d' p) → run d ops p = d p := by
    intro ops p
    induction ops with
    | nil => intro d _; rfl
    | cons o os ih =>
      intro d h
      have : run d (o :: os) = run (step d o) os := rfl
      rw [this, ih _ (fun o' ho' => h o' (by simp [ho'])), h o (by simp)]
  have runapp : ∀ (a b : List (Op (Content G V X K))) (d : Disk (Content G V X K)), run d (a ++ b) = run (run d a) b := by
    intro a b d; simp [run, List.foldl_append]
  have listmem : ∀ (p : Path) (l : List K) (o : Op (Content G V X K)), o ∈ listOps d p l →
      l ≠ [] ∧ ∀ q, q ≠ p → ∀ d' : Disk (Content G V X K), step d' o q = d' q := by
    intro p l o ho
    unfold listOps at ho
    by_cases hl : l = []
    · rw [if_pos hl] at ho; simp at ho
    · rw [if_neg hl] at ho
      refine ⟨hl, ?_⟩
      intro q hq d'
      rw [List.mem_append] at ho
      rcases ho with ho | ho
      · split_ifs at ho with hs
        · simp at ho; subst ho; simp [step, put, hq]
        · simp at ho
      · simp at ho
        rcases ho with ho | ho <;> subst ho <;> simp [step, put, hq]
  have last : ∀ (p : Path) (l : List K) (d' : Disk (Content G V X K)), l ≠ [] →
      run d' (listOps d p l) p = some (.whole (.craters l)) := by
    intro p l d' hl
    unfold listOps
    rw [if_neg hl]
    split_ifs <;> simp [run, step, put]
  refine ⟨?_, ?_, ?_⟩
  · intro h
    unfold countOps
    rw [runapp, gen, last _ _ _ h]
    intro o ho d'
    exact (listmem _ _ o ho).2 _ (by simp) d'
  · intro h
    unfold countOps
    rw [runapp, last _ _ _ h]
  · intro n p h1 h2
    unfold crash
    apply gen
    intro o ho d'
    have ho := List.mem_of_mem_take ho
    unfold countOps at ho
    rw [List.mem_append] at ho
    rcases ho with ho | ho
    · have := listmem _ _ o ho
      exact this.2 p (fun e => this.1 (h1 e)) d'
    · have := listmem _ _ o ho
      exact this.2 p (fun e => this.1 (h2 e)) d'

/-- Saving a crater list over an existing file removes the old file first and writes the new one in place: there is
always a crash point at which the list is gone, and one at which the file is torn. -/
theorem C49_crash_fails (d : Disk (Content G V X K)) (k : ℕ) (old obs emp : List K) (h : obs ≠ [])
    (hold : d (.observed k) = some (.whole (.craters old))) :
    (∃ n, crash n d (countOps d k obs emp) (.observed k) = none) ∧
    (∃ n, crash n d (countOps d k obs emp) (.observed k) = some .torn) := by
  constructor
  · exact ⟨1, by simp [crash, countOps, listOps, h, hold, run, step, put]⟩
  · exact ⟨2, by simp [crash, countOps, listOps, h, hold, run, step, put]⟩

example : ∃ (d : Disk (Content ℕ ℕ ℕ ℕ)) (old : List ℕ), d (.observed 2) = some (.whole (.craters old)) ∧ old ≠ [] :=
  ⟨fun p => if p = .observed 2 then some (.whole (.craters [1, 2])) else none, [1, 2], by simp, by simp⟩

/-! ### Asking before overwriting -/

/-- Loading a surface that is not a high-resolution one leaves the asking mode as it was; so does loading a
high-resolution one with a reset, or with the grid and index files in place.  Missing: a high-resolution surface
whose files are not in place, see `C52_asking_fails`. -/
theorem C52_asking_partial [DecidableEq G] (s : State G V X K) (g : G) (init : V → Option X)
    (reset regrid agree agree2 : Bool) :
    (load s g init reset regrid agree).ask = s.ask ∧
    (reset = true ∨ (sameGrid s.disk g = true ∧ s.index = true) →
      (loadHiRes s g init reset regrid agree agree2).ask = s.ask) := by
  have hload : ∀ r : Bool, (load s g init r regrid agree).ask = s.ask ∧ (load s g init r regrid agree).index = s.index :=
    fun r => load_ask s g init r regrid agree
  refine ⟨(hload reset).1, ?_⟩
  intro h
  unfold loadHiRes
  cases reset
  · simp only [Bool.false_eq_true, false_or] at h
    simp [h.1, h.2, (hload false).1, (hload false).2]
  · simp

/-- Loading a high-resolution surface without a reset, when its grid or index file is not in place (as on its first
construction), turns asking off for the rest of the session. -/
theorem C52_asking_fails [DecidableEq G] (s : State G V X K) (g : G) (init : V → Option X) (regrid agree agree2 : Bool)
    (h : sameGrid s.disk g = false ∨ s.index = false) :
    (loadHiRes s g init false regrid agree agree2).ask = false := by
  have hload : (load s g init false regrid agree).index = s.index := (load_ask s g init false regrid agree).2
  unfold loadHiRes
  have : ¬ (sameGrid s.disk g = true ∧ (load s g init false regrid agree).index = true) := by
    rw [hload]
    rcases h with h | h <;> simp [h]
  simp [this]

/-! ### Removal of saved states at start -/

theorem run_saveOps_other (d : Disk (Content G V X K)) (tmp k j : ℕ) (new : V → Option X) (h : j ≠ k) :
    run d (saveOps true d tmp k new) (.data j) = d (.data j) := by
  unfold saveOps
  rcases savedContent d k new with _ | c
  · rfl
  · simp [move, run, step, put, h]

/-- A user who is asked and declines keeps the saved states of every interval but the first, provided the grid is the
same and no new grid is requested (and, for a high-resolution surface, the index file is in place); and without
reset nothing is removed.  Missing: the other cases, see the `_fails` theorems. -/
theorem C102_declined_partial [DecidableEq G] (s : State G V X K) (g : G) (init : V → Option X)
    (hs : sameGrid s.disk g = true) (hask : s.ask = true) (k : ℕ) (hk : k ≠ 0) :
    (load s g init true false false).disk (.data k) = s.disk (.data k) ∧
    (s.index = true → (loadHiRes s g init true false false false).disk (.data k) = s.disk (.data k)) ∧
    (∀ (j : ℕ) (agree : Bool), (load s g init false false agree).disk (.data j) = s.disk (.data j)) := by
  have h1 : (load s g init true false false).disk (.data k) = s.disk (.data k) ∧
      (load s g init true false false).ask = true ∧ (load s g init true false false).index = s.index := by
    refine ⟨?_, (load_ask s g init true false false).1.trans hask, (load_ask s g init true false false).2⟩
    simp only [load, regrid_same s g hs, Bool.or_false, if_true, resetSurface, Bool.false_eq_true, if_false, hask,
      and_self]
    rw [run_saveOps_other _ _ _ _ _ hk]
    simp [run, step, put, hk]
  refine ⟨h1.1, ?_, ?_⟩
  · intro hi
    unfold loadHiRes
    simp only [hs, true_and, if_true]
    rw [h1.2.2, hi]
    simp only [if_true]
    unfold resetSurface
    simp only [h1.2.1, and_self, if_true]
    rw [run_saveOps_other _ _ _ _ _ hk, h1.1]
  · intro j agree
    rw [load_same _ _ _ _ hs]

/-- On a reset the file of the first interval is removed before the user is asked, and the initial state written in its
place even if they decline. -/
theorem C102_first_interval_fails [DecidableEq G] (s : State G V X K) (g : G) (init : V → Option X)
    (hs : sameGrid s.disk g = true) (hask : s.ask = true) :
    (load s g init true false false).disk (.data 0) = some (.whole (.vars init)) := by
  simp only [load, regrid_same s g hs, Bool.or_false, if_true, resetSurface, Bool.false_eq_true, if_false, hask,
    and_self]
  unfold saveOps savedContent
  simp [run, step, put, move]

/-- If the grid file does not match, all saved states are removed without asking, even without a reset. -/
theorem C102_other_grid_fails [DecidableEq G] (s : State G V X K) (g : G) (init : V → Option X) (agree : Bool)
    (hs : sameGrid s.disk g = false) (k : ℕ) (hk : k ≠ 0) :
    (load s g init false false agree).disk (.data k) = none := load_other s g init agree hs k hk

/-- A high-resolution surface whose index file is missing: the user is asked, declines, and the saved states are
removed all the same. -/
theorem C102_hires_fails [DecidableEq G] (s : State G V X K) (g : G) (init : V → Option X)
    (hi : s.index = false) (k : ℕ) (hk : k ≠ 0) :
    (loadHiRes s g init true false false false).disk (.data k) = none := by
  have hload : (load s g init true false false).index = s.index := (load_ask s g init true false false).2
  unfold loadHiRes
  simp only [hload, hi, Bool.false_eq_true, and_false, if_false, if_true]
  unfold resetSurface
  simp only [Bool.false_eq_true, false_and, if_false]
  rw [run_saveOps_other _ _ _ _ _ hk]
  rfl

example : ∃ (s : State ℕ ℕ ℕ ℕ), sameGrid s.disk 7 = true ∧ s.ask = true ∧ s.index = true ∧
    s.disk (.data 3) = some (.whole (.vars fun _ => some 1)) :=
  ⟨⟨fun p => if p = .grid then some (.whole (.grid 7)) else if p = .data 3 then some (.whole (.vars fun _ => some 1))
    else none, true, true⟩, by simp [sameGrid], rfl, rfl, by simp⟩

end Verif.Crash
