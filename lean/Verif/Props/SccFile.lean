import Verif.Model.SccFile
import Verif.Props.Location
import Mathlib.Tactic.Linarith
import Mathlib.Tactic.NormNum
import Mathlib.Tactic.FieldSimp

/-!
# Files of spatial crater counts: C186
-/

namespace Verif.SccFile

open Location

/-! ### Specification -/

/-- A crater that has been measured. -/
def Measured (c : Crater) (d : ℝ) (p : ℝ × ℝ) : Prop := c.measuredDiameter = some d ∧ c.measuredLocation = some p

/-- The areas of a region are those of figures: the common part is part of the outline, and all of it for a circle that ends within the region. -/
structure Region.Sound (r : Region) : Prop where
  pos : ∀ c, 0 < r.outline c
  nonneg : ∀ c, 0 ≤ r.overlap c
  part : ∀ c, r.overlap c ≤ r.outline c
  inside : ∀ c d p, Measured c d p → r.distance p + d / 2 ≤ r.radius → r.overlap c = r.outline c

/-! ### Theorems -/

theorem rows_measured (region : Option Region) (cs : List Crater) (h : ∀ c ∈ cs, ∃ d p, Measured c d p) :
    (rows region cs).2 = true ∧ (rows region cs).1.map some = cs.map (row region) := by
  induction cs with
  | nil => exact ⟨rfl, rfl⟩
  | cons c cs ih =>
    obtain ⟨d, p, hd, hp⟩ := h c (by simp)
    have ih' := ih fun c hc => h c (by simp [hc])
    have hr : row region c = some ⟨d * (1 / 1000), overlapFraction region c d, p.1, p.2⟩ := by
      unfold row
      rw [hd, hp]
    simp only [rows, hr, List.map_cons]
    exact ⟨ih'.1, by rw [ih'.2]⟩

/-- Every measured crater gets one line, in order, and reading the file gives the measured diameters and places back. -/
theorem C186_readback_partial (region : Option Region) (cs : List Crater)
    (h : ∀ c ∈ cs, ∃ d p, Measured c d p ∧ LonInRange p.1 ∧ LatInRange p.2) :
    (rows region cs).2 = true ∧
      (fromRows (rows region cs).1).map (fun q => (some q.1, some q.2)) = cs.map fun c => (c.measuredDiameter, c.measuredLocation) := by
  refine ⟨(rows_measured region cs fun c hc => by obtain ⟨d, p, hm, _⟩ := h c hc; exact ⟨d, p, hm⟩).1, ?_⟩
  induction cs with
  | nil => rfl
  | cons c cs ih =>
    obtain ⟨d, p, ⟨hd, hp⟩, hlon, hlat⟩ := h c (by simp)
    have ih' := ih fun c hc => h c (by simp [hc])
    have hr : row region c = some ⟨d * (1 / 1000), overlapFraction region c d, p.1, p.2⟩ := by
      unfold row
      rw [hd, hp]
    have hn : normalizeCoords (p.1, p.2) = p := by
      have h1 : clip p.2 (-90) 90 = p.2 := clip_id hlat
      unfold normalizeCoords
      have hlat' := hlat
      unfold LatInRange at hlat'
      unfold LonInRange at hlon
      have hm : pymod (p.1 + 180) 360 = p.1 + 180 := pymod_eq_self (by norm_num) (by linarith [hlon.1]) (by linarith [hlon.2])
      ext <;> dsimp only
      · rw [if_neg (by linarith [hlat'.2]), if_neg (by linarith [hlat'.1])]
        dsimp only
        rw [hm]
        ring
      · rw [if_neg (by linarith [hlat'.2]), if_neg (by linarith [hlat'.1])]
        exact h1
    unfold fromRows at ih' ⊢
    simp only [rows, hr, List.map_cons, hn]
    rw [ih', hd, hp]
    congr 3
    ring_nf

/-- The fraction written lies between zero and one; on a surface without a local region it is one for every crater. -/
theorem C186_fraction (region : Option Region) (hs : ∀ r, region = some r → r.Sound) (cs : List Crater) :
    ∀ r ∈ (rows region cs).1, 0 ≤ r.fraction ∧ r.fraction ≤ 1 ∧ (region = none → r.fraction = 1) := by
  induction cs with
  | nil => simp [rows]
  | cons c cs ih =>
    intro r hr
    rcases hrow : row region c with _ | q
    · simp [rows, hrow] at hr
    · simp only [rows, hrow, List.mem_cons] at hr
      rcases hr with rfl | hr
      · unfold row at hrow
        split at hrow
        · simp only [Option.some.injEq] at hrow
          subst hrow
          dsimp only
          unfold overlapFraction
          rcases region with _ | g
          · simp
          · have := hs g rfl
            dsimp only
            split_ifs
            · refine ⟨div_nonneg (this.nonneg c) (this.pos c).le, ?_, by simp⟩
              rw [div_le_one (this.pos c)]
              exact this.part c
            · simp
        · simp at hrow
      · exact ih r hr

/-- For a crater that was measured where it was made, the fraction is the share of its outline that lies within the region. -/
theorem C186_share_partial (r : Region) (hs : r.Sound) (c : Crater) (d : ℝ) (p : ℝ × ℝ) (hm : Measured c d p) (hp : c.location = p) :
    ∃ q, row (some r) c = some q ∧ q.fraction * r.outline c = r.overlap c := by
  obtain ⟨hd, hl⟩ := hm
  refine ⟨_, by unfold row; rw [hd, hl], ?_⟩
  dsimp only
  unfold overlapFraction
  dsimp only
  split_ifs with h
  · exact div_mul_cancel₀ _ (hs.pos c).ne'
  · rw [hp] at h
    rw [hs.inside c d p ⟨hd, hl⟩ (not_lt.mp h), one_mul]

/-- The line regions and counts refer to: the area written is that of the local region where there is one, otherwise that of the surface. -/
theorem C186_area (whole : ℝ) (r : Region) : totalArea none whole * 1000000 = whole ∧ totalArea (some r) whole * 1000000 = r.area := by
  unfold totalArea
  constructor <;> ring

/-- A region on a line, within which an outline lies wholly, by half or not at all. -/
noncomputable def exRegion : Region where
  radius := 10
  distance p := |p.1|
  overlap c :=
    match c.measuredDiameter, c.measuredLocation with
    | some d, some p => open Classical in if |p.1| + d / 2 ≤ 10 then 2 else if 10 ≤ |p.1| - d / 2 then 0 else 1
    | _, _ => 1
  outline _ := 2
  area := 300

/-- A crater is tested against the region by where it was made, but measured and written where it was found: every crater that was made far enough inside
is written as lying wholly in the region, wherever it was found and whatever the share of its outline. -/
theorem C186_moved_fails (r : Region) (c : Crater) (d : ℝ) (p : ℝ × ℝ) (hm : Measured c d p) (hin : r.distance c.location + d / 2 ≤ r.radius) :
    ∃ q, row (some r) c = some q ∧ (q.lon, q.lat) = p ∧ q.fraction = 1 := by
  obtain ⟨hd, hl⟩ := hm
  refine ⟨_, by unfold row; rw [hd, hl], rfl, ?_⟩
  dsimp only
  unfold overlapFraction
  dsimp only
  rw [if_neg (not_lt.mpr hin)]

/-- Made in the middle, found outside. -/
example : exRegion.overlap ⟨(0, 0), some (12, 0), some 2⟩ = 0 ∧
    ∃ q, row (some exRegion) ⟨(0, 0), some (12, 0), some 2⟩ = some q ∧ (q.lon, q.lat) = (12, 0) ∧ q.fraction = 1 := by
  refine ⟨by norm_num [exRegion, abs_of_pos], C186_moved_fails _ _ 2 (12, 0) ⟨rfl, rfl⟩ (by norm_num [exRegion])⟩

/-- A crater without a measured diameter or place ends the export with an error; the lines of the craters before it stay in the file, those after
it are not written. -/
theorem C186_unmeasured_fails (region : Option Region) (cs cs' : List Crater) (c : Crater) (h : ∀ c ∈ cs, ∃ d p, Measured c d p)
    (hc : c.measuredDiameter = none ∨ c.measuredLocation = none) :
    (rows region (cs ++ c :: cs')).2 = false ∧ (rows region (cs ++ c :: cs')).1 = (rows region cs).1 ∧ (rows region cs).1.length = cs.length := by
  induction cs with
  | nil =>
    have : row region c = none := by
      unfold row
      rcases hc with hc | hc <;> rw [hc]
      rcases c.measuredDiameter with _ | _ <;> rfl
    simp [rows, this]
  | cons a cs ih =>
    obtain ⟨d, p, hd, hp⟩ := h a (by simp)
    have ih' := ih fun c hc => h c (by simp [hc])
    have hr : row region a = some ⟨d * (1 / 1000), overlapFraction region a d, p.1, p.2⟩ := by
      unfold row
      rw [hd, hp]
    simp only [List.cons_append, rows, hr, List.length_cons]
    exact ⟨ih'.1, by rw [ih'.2.1], by rw [ih'.2.2]⟩

/-! ### A concrete case -/

/-- Three craters: within, across the boundary, and outside. -/
noncomputable def exCraters : List Crater :=
  [⟨(3, 1), some (3, 1), some 2⟩, ⟨(10, 0), some (10, 0), some 2⟩, ⟨(40, 0), some (40, 0), some 2⟩]

example : ∀ c ∈ exCraters, ∃ d p, Measured c d p ∧ LonInRange p.1 ∧ LatInRange p.2 := by
  intro c hc
  simp only [exCraters, List.mem_cons, List.not_mem_nil, or_false] at hc
  rcases hc with rfl | rfl | rfl
  all_goals refine ⟨_, _, ⟨rfl, rfl⟩, ?_, ?_⟩ <;> norm_num [LonInRange, LatInRange]

example : (rows (some exRegion) exCraters).1.map (·.fraction) = [1, 1 / 2, 0] := by
  norm_num [rows, row, exCraters, overlapFraction, exRegion]

example : exRegion.Sound where
  pos c := by norm_num [exRegion]
  nonneg c := by
    simp only [exRegion]
    split
    · split_ifs <;> norm_num
    · norm_num
  part c := by
    simp only [exRegion]
    split
    · split_ifs <;> norm_num
    · norm_num
  inside c d p hm h := by
    simp only [exRegion] at h ⊢
    rw [hm.1, hm.2]
    dsimp only
    rw [if_pos h]

example : (rows (some exRegion) [⟨(3, 1), none, some 2⟩]).2 = false := rfl

end Verif.SccFile
