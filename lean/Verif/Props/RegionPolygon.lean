import Verif.Model.RegionPolygon

/-! The outline of a local region as a file (C207). -/

namespace Verif.RegionPolygon

/-- **C207 fails**: for every local region and every driver a ValueError is raised and nothing is written, because the table is given one
row and two row numbers. -/
theorem C207_region_fails {G : Type} (extension : String → Option String) (outline : ℝ × ℝ × ℝ → G) (view : View) (driver : String)
    (h : view.region.isSome) : exportPolygon extension outline view driver = none := by
  unfold exportPolygon
  cases extension driver.toUpper with
  | none => rfl
  | some e =>
    obtain ⟨r, hr⟩ := Option.isSome_iff_exists.1 h
    simp [hr, dataFrame, polygonColumns, polygonIndex]

example : (⟨some (5000, 0, 0), 1⟩ : View).region.isSome := rfl

/-- **C207, part.**  For the whole surface nothing is written; an unknown driver is refused with ValueError.  Missing: local regions, see
`C207_region_fails`. -/
theorem C207_whole_partial {G : Type} (extension : String → Option String) (outline : ℝ × ℝ × ℝ → G) (area : ℝ) (driver : String) :
    exportPolygon extension outline ⟨none, area⟩ driver = if (extension driver.toUpper).isSome then some none else none := by
  unfold exportPolygon
  cases extension driver.toUpper <;> rfl

end Verif.RegionPolygon
