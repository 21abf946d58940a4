import Verif.Model.DataSurface
import Mathlib.Data.List.Infix
import Mathlib.Tactic.Linarith
import Mathlib.Tactic.NormNum

/-! Properties C130 and C131: elevations of a data surface outside the local region, missing pixels and units. -/

namespace Verif.DataSurface

variable {File : Type}

/-- **C130, part.**  When the scale factor is left open at first and found later, and no elevations were saved before or a new
mesh is made, the elevations outside the local region come from the file the user named.  Missing: every other way of building the
surface, see `C130_ignored_fails` and `C130_reused_fails`. -/
theorem C130_deferred_partial (default : ℝ → File) (auto : ℝ) (m1 m2 : Bool) (user : File) (saved : Option File)
    (h : m2 = true ∨ saved = none) :
    (setSuperdomain default auto m2 (construct default auto m1 (some user) none saved)).exterior = some user := by
  rcases h with rfl | rfl
  · rfl
  · cases m2 <;> rfl

example : (setSuperdomain (fun _ => "LDEM_128") 2 false (construct (fun _ => "LDEM_128") 2 false (some "mars.tif") none none)).exterior =
    some "mars.tif" := rfl

/-- When no file is named, the elevations outside the local region come from the file the documentation gives for the scale factor that
was found, and that factor is kept. -/
theorem C130_unnamed (default : ℝ → File) (auto : ℝ) (m1 m2 : Bool) (saved : Option File) (h : m2 = true ∨ saved = none) :
    (setSuperdomain default auto m2 (construct default auto m1 none none saved)).exterior = some (default auto) ∧
      (setSuperdomain default auto m2 (construct default auto m1 none none saved)).factor = some auto := by
  rcases h with rfl | rfl
  · exact ⟨rfl, rfl⟩
  · cases m2 <;> exact ⟨rfl, rfl⟩

example : (setSuperdomain (fun f => if f < 3 then "LDEM_128" else "LDEM_4") 5 true
    (construct (fun f => if f < 3 then "LDEM_128" else "LDEM_4") 5 false none none none)).exterior = some "LDEM_4" := by
  rw [(C130_unnamed _ 5 false true none (.inl rfl)).1]
  norm_num

/-- **C130 fails.**  When the scale factor is given, or found automatically at once (the default), a new mesh gets the elevations of
the default file outside the local region, whatever file the user named. -/
theorem C130_ignored_fails (default : ℝ → File) (auto factor : ℝ) (user : Option File) (saved : Option File) :
    (construct default auto true user (some factor) saved).exterior =
      some (default (if factor < 0 then auto else factor)) := by
  unfold construct baseInit
  simp only
  split_ifs with h
  · rfl
  · rfl

/-- **C130 fails** also when a saved mesh is used again: the saved elevations stay, whatever file is named now. -/
theorem C130_reused_fails (default : ℝ → File) (auto factor : ℝ) (user : Option File) (old : File) :
    (construct default auto false user (some factor) (some old)).exterior = some old := by
  unfold construct baseInit
  simp only
  split_ifs with h
  · rfl
  · rfl

/-! ### Missing pixels -/

/-- A reading is missing: NaN or the marker of the file. -/
def Missing (nodata : Option ℝ) (x : Option ℝ) : Prop := x = none ∨ x = nodata

open Classical in
/-- The readings that are not missing, in metres. -/
noncomputable def good (nodata : Option ℝ) (factor : ℝ) (raw : List (Option ℝ)) : List ℝ :=
  raw.filterMap fun x => if x = nodata then none else x.map (· * factor)

/-- `out` is `raw` in metres with every missing reading replaced by the mean of the others. -/
def Filled (nodata : Option ℝ) (factor : ℝ) (raw out : List (Option ℝ)) : Prop :=
  out.length = raw.length ∧ ∀ (i : ℕ) (x y : Option ℝ), raw[i]? = some x → out[i]? = some y →
    (Missing nodata x → y = some ((good nodata factor raw).sum / (good nodata factor raw).length)) ∧
    (∀ v, x = some v → ¬ Missing nodata x → y = some (v * factor))

theorem scaled_one (x : Option ℝ) : scaled 1 x = x := by cases x <;> simp [scaled]

theorem valid_iff (nodata x : Option ℝ) : valid nodata x = true ↔ ¬ Missing nodata x := by
  cases x with
  | none => simp [valid, Missing]
  | some v => simp [valid, Missing]

theorem good_eq (nodata : Option ℝ) (raw : List (Option ℝ)) : (raw.filter (valid nodata)).reduceOption = good nodata 1 raw := by
  induction raw with
  | nil => rfl
  | cons x raw ih =>
    unfold good List.reduceOption at ih ⊢
    cases x with
    | none =>
      rw [List.filter_cons_of_neg (by simp [valid]), List.filterMap_cons, ih]
      have : (if (none : Option ℝ) = nodata then none else Option.map (fun x => x * 1) none) = (none : Option ℝ) := by
        split_ifs <;> rfl
      rw [this]
    | some v =>
      by_cases h : some v = nodata
      · rw [List.filter_cons_of_neg (by simp [valid, h]), List.filterMap_cons, ih]
        simp [h]
      · rw [List.filter_cons_of_pos (by simp [valid, h]), List.filterMap_cons, List.filterMap_cons, ih]
        simp [h]

/-- **C131, part.**  In files in metres every missing pixel gets the mean of the others, which stay as they are, provided there is
at least one pixel that is not missing.  Missing: files in kilometres, see `C131_kilometres_fails`. -/
theorem C131_metres_partial (nodata : ℝ) (raw : List (Option ℝ)) (h : good (some nodata) 1 raw ≠ []) :
    Filled (some nodata) 1 raw (localFill nodata 1 raw) := by
  unfold localFill Filled
  simp only [List.length_map, true_and]
  have hs : raw.map (scaled 1) = raw := by
    rw [show scaled 1 = fun x => x from funext scaled_one]
    simp
  rw [hs, good_eq]
  intro i x y hx hy
  rw [List.getElem?_map, hx] at hy
  simp only [Option.map_some, Option.some.injEq] at hy
  constructor
  · intro hm
    have : ¬ valid (some nodata) x = true := by rw [valid_iff]; exact not_not.mpr hm
    rw [← hy, if_neg this]
    unfold mean
    rw [if_neg h]
  · intro v hv hm
    rw [← hy, if_pos ((valid_iff _ _).mpr hm), hv]
    simp

/-- The same for the elevations outside the local region, with or without marker. -/
theorem C131_exterior_partial (nodata : Option ℝ) (raw : List (Option ℝ)) (h : good nodata 1 raw ≠ []) :
    Filled nodata 1 raw (globalFill nodata 1 raw) := by
  unfold globalFill Filled
  simp only [List.length_map, true_and]
  have hs : raw.map (scaled 1) = raw := by
    rw [show scaled 1 = fun x => x from funext scaled_one]
    simp
  rw [hs, good_eq]
  intro i x y hx hy
  rw [List.getElem?_map, hx] at hy
  simp only [Option.map_some, Option.some.injEq] at hy
  constructor
  · intro hm
    have : ¬ valid nodata x = true := by rw [valid_iff]; exact not_not.mpr hm
    rw [← hy, if_neg this]
    unfold mean
    rw [if_neg h]
    rfl
  · intro v hv hm
    rw [← hy, if_pos ((valid_iff _ _).mpr hm), hv]
    simp

example : good (some (-9999)) 1 [some 5, some (-9999), none, some 7] = [5, 7] := by
  unfold good
  norm_num [List.filterMap_cons]

/-- Without a single valid reading the surface outside the local region is flat at zero, in any unit, while inside the local region
there is no number at all. -/
theorem C131_no_reading (nodata : Option ℝ) (marker factor : ℝ) (raw : List (Option ℝ)) :
    ((∀ x ∈ raw, scaled factor x = none ∨ scaled factor x = nodata) →
      globalFill nodata factor raw = raw.map fun _ => some 0) ∧
    ((∀ x ∈ raw, scaled factor x = none ∨ scaled factor x = some marker) →
      localFill marker factor raw = raw.map fun _ => none) := by
  have key : ∀ nd : Option ℝ, (∀ x ∈ raw, scaled factor x = none ∨ scaled factor x = nd) →
      ∀ x ∈ raw, valid nd (scaled factor x) = false := by
    intro nd h x hx
    rw [Bool.eq_false_iff, Ne, valid_iff, not_not]
    exact h x hx
  have hf : ∀ nd : Option ℝ, (∀ x ∈ raw, valid nd (scaled factor x) = false) →
      (raw.map (scaled factor)).filter (valid nd) = [] := by
    intro nd h
    rw [List.filter_eq_nil_iff]
    intro y hy
    obtain ⟨x, hx, rfl⟩ := List.mem_map.mp hy
    simp [h x hx]
  constructor
  · intro h
    have hv := key nodata h
    unfold globalFill
    simp only [hf nodata hv, List.map_map]
    apply List.map_congr_left
    intro x hx
    simp [Function.comp, hv x hx, mean, List.reduceOption]
  · intro h
    have hv := key (some marker) h
    unfold localFill
    simp only [hf _ hv, List.map_map]
    apply List.map_congr_left
    intro x hx
    simp [Function.comp, hv x hx, mean, List.reduceOption]

example : globalFill (some (-9999)) 1 [none, some (-9999)] = [some 0, some 0] := by
  rw [(C131_no_reading (some (-9999)) 0 1 _).1]
  · rfl
  · simp [scaled]

/-- **C131 fails** for files in kilometres: the marker is compared after the conversion to metres, so that a missing pixel comes out
as 1000 times the marker, for every marker other than zero; inside and outside the local region. -/
theorem C131_kilometres_fails (nodata : ℝ) (h : nodata ≠ 0) (raw : List (Option ℝ)) (i : ℕ) (hi : raw[i]? = some (some nodata)) :
    (localFill nodata 1000 raw)[i]? = some (some (nodata * 1000)) ∧
    (globalFill (some nodata) 1000 raw)[i]? = some (some (nodata * 1000)) := by
  have hne : nodata * 1000 ≠ nodata := by
    intro he
    apply h
    linarith
  have hv : valid (some nodata) (some (nodata * 1000)) = true := by simp [valid, hne]
  constructor
  · unfold localFill
    simp only [List.getElem?_map, hi, Option.map_some, scaled, hv, if_true]
  · unfold globalFill
    simp only [List.getElem?_map, hi, Option.map_some, scaled, hv, if_true]

/-- **C131 fails** for the units: whenever the unit of the file's only band, in any case, contains the word for kilometres but is not this very word in
capitals, the elevations are converted to metres outside the local region but not inside. -/
theorem C131_units_fails (unit : String) (hu : "KILOMETER".toList <:+: unit.toUpper.toList) (hn : unit ≠ "KILOMETER") :
    localScale [unit] = 1 ∧ globalScale [unit] = 1000 := by
  constructor
  · unfold localScale
    rw [if_neg]
    simpa using fun h => hn h.symm
  · simp only [globalScale]
    rw [if_pos]
    unfold mentions
    rw [List.any_eq_true]
    obtain ⟨a, b, h⟩ := hu
    refine ⟨"KILOMETER".toList ++ b, (List.mem_tails _ _).mpr ⟨a, by rw [← h, List.append_assoc]⟩, ?_⟩
    rw [List.isPrefixOf_iff_prefix]
    exact List.prefix_append _ _

/-- Small letters and the plural; and the one spelling that works. -/
example : "KILOMETER".toList <:+: "kilometers".toUpper.toList ∧ "kilometers" ≠ "KILOMETER" ∧
    localScale ["KILOMETER"] = 1000 ∧ globalScale ["KILOMETER"] = 1000 := by
  refine ⟨⟨[], ['S'], by decide +kernel⟩, by decide, by decide +kernel, by decide +kernel⟩

end Verif.DataSurface
