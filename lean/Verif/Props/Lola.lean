import Verif.Model.Lola
import Verif.Props.Dem
import Verif.Props.Extents

/-! Property C174: populating a surface with lunar elevation data. -/

namespace Verif.Lola

open Verif.Dem Verif.Sphere Real

/-- Pixels per degree on the Moon of a pixel size in metres. -/
noncomputable def perDegree (pix : ℝ) : ℝ := π / 180 * 1737530 / pix

theorem polar_north (pix : ℝ) : ∃ m r, polar pix (60, -60) = some [.polar true m r] ∧ m ≤ 60 ∧ 45 ≤ m := by
  unfold polar polarTable
  norm_num [List.filter]
  unfold argmin
  split_ifs <;> unfold argmin <;> split_ifs <;> unfold argmin <;> split_ifs <;> unfold argmin <;> split_ifs <;>
    unfold argmin <;> split_ifs <;> simp [argmin] <;> norm_num

theorem polar_south (pix : ℝ) : ∃ m r, polar pix (-60, 60) = some [.polar false m r] ∧ m ≤ 60 ∧ 45 ≤ m := by
  unfold polar polarTable
  norm_num [List.filter]
  unfold argmin
  split_ifs <;> unfold argmin <;> split_ifs <;> unfold argmin <;> split_ifs <;> unfold argmin <;> split_ifs <;>
    unfold argmin <;> split_ifs <;> simp [argmin] <;> norm_num

theorem cylRes_coarse {x : ℝ} (h : x ≤ 192) : cylRes x = 4 ∨ cylRes x = 16 ∨ cylRes x = 64 ∨ cylRes x = 128 := by
  rcases eq_or_lt_of_le h with rfl | h
  · right; right; right
    unfold cylRes argmin
    norm_num [argmin, abs_of_pos, abs_of_neg]
  · have hm := argmin_mem (fun r : ℕ => |x - r|) 4 [16, 64, 128, 256, 512]
    have hle := argmin_le (fun r : ℕ => |x - r|) 4 [16, 64, 128, 256, 512] 128 (by simp)
    change cylRes x ∈ _ at hm
    change |x - (cylRes x : ℕ)| ≤ |x - ((128 : ℕ) : ℝ)| at hle
    simp only [List.mem_cons, List.not_mem_nil, or_false] at hm
    have far : ∀ b : ℝ, 256 ≤ b → |x - 128| < |x - b| := by
      intro b hb
      rw [abs_of_neg (a := x - b) (by linarith), abs_lt]
      constructor <;> linarith
    rcases hm with h1 | h1 | h1 | h1 | h1 | h1
    · simp [h1]
    · simp [h1]
    · simp [h1]
    · simp [h1]
    · rw [h1] at hle
      exact absurd hle (not_le.mpr (by simpa using far 256 (by norm_num)))
    · rw [h1] at hle
      exact absurd hle (not_le.mpr (by simpa using far 512 (by norm_num)))

theorem cylRes_fine {x : ℝ} (h : 192 < x) : cylRes x = 256 ∨ cylRes x = 512 := by
  have hm := argmin_mem (fun r : ℕ => |x - r|) 4 [16, 64, 128, 256, 512]
  have hle := argmin_le (fun r : ℕ => |x - r|) 4 [16, 64, 128, 256, 512] 256 (by simp)
  change cylRes x ∈ _ at hm
  change |x - (cylRes x : ℕ)| ≤ |x - ((256 : ℕ) : ℝ)| at hle
  simp only [List.mem_cons, List.not_mem_nil, or_false] at hm
  rcases hm with h1 | h1 | h1 | h1 | h1 | h1
  all_goals first
    | (left; exact h1; done)
    | (right; exact h1; done)
    | (exfalso
       rw [h1] at hle
       push_cast at hle
       have ha := abs_le.mp (le_refl |x - 256|)
       rcases abs_cases (x - 256) with ⟨e, _⟩ | ⟨e, _⟩ <;> rw [e] at hle <;>
         have := le_abs_self (x - 4) <;> have := le_abs_self (x - 16) <;> have := le_abs_self (x - 64) <;>
         have := le_abs_self (x - 128) <;> linarith)

theorem latRow_nonneg (d : ℤ) (hd : 0 < d) (lat : ℝ) (h : lat ≤ 0) : 0 ≤ latRow d lat := by
  unfold latRow
  rw [if_neg (not_lt.mpr h)]
  have : 1 ≤ ⌊|lat / d| + 1⌋ := Int.le_floor.mpr (by push_cast; linarith [abs_nonneg (lat / d)])
  nlinarith

theorem populate_none (pix : ℝ) : ∃ n s m r m' r', n = DemFile.polar true m r ∧ s = DemFile.polar false m' r' ∧
    m ≤ 60 ∧ 45 ≤ m ∧ m' ≤ 60 ∧ 45 ≤ m' ∧
    populateFiles pix none = some (cylindrical (perDegree pix) (-60, 60) (-180, 180) ++ [n] ++ [s]) := by
  obtain ⟨m, r, h1, h2, h3⟩ := polar_north pix
  obtain ⟨m', r', g1, g2, g3⟩ := polar_south pix
  refine ⟨_, _, m, r, m', r', rfl, rfl, h2, h3, g2, g3, ?_⟩
  have hd : demFiles pix (-60, 60) (-180, 180) = some (cylindrical (perDegree pix) (-60, 60) (-180, 180)) := by
    unfold demFiles perDegree
    simp only
    rw [if_neg (by norm_num)]
  simp only [populateFiles, hd, h1, g1]

/-- On a global surface, at most 192 pixels per degree (pixels of at least 158 m): the files added all exist, and every point
of the Moon is covered by one of them.  Missing: finer resolutions, see `C174_fine_fails`. -/
theorem C174_global_partial (pix : ℝ) (hcoarse : perDegree pix ≤ 192) :
    ∃ fs, populateFiles pix none = some fs ∧ (∀ f ∈ fs, f.Published) ∧
      ∀ lon lat : ℝ, -90 ≤ lat → lat ≤ 90 → Covered fs lon lat := by
  obtain ⟨n, s, m, r, m', r', rfl, rfl, h1, h2, h3, h4, hp⟩ := populate_none pix
  refine ⟨_, hp, ?_, ?_⟩
  all_goals
    have hres : cylRes (perDegree pix) < 256 := by rcases cylRes_coarse hcoarse with h | h | h | h <;> omega
    have hc : cylindrical (perDegree pix) (-60, 60) (-180, 180) =
        [cylindricalFile (cylRes (perDegree pix)) ((-180 + 180) / 2) ((-60 + 60) / 2)] := by
      unfold cylindrical
      simp only
      rw [if_pos hres]
    have hcf : ∀ a b, cylindricalFile (cylRes (perDegree pix)) a b = .sldem128 ∨
        ∃ k, cylindricalFile (cylRes (perDegree pix)) a b = .ldem k := by
      intro a b
      unfold cylindricalFile
      rw [if_neg (by omega)]
      split_ifs
      · exact Or.inl rfl
      · exact Or.inr ⟨_, rfl⟩
    rw [hc]
  · intro f hf
    simp only [List.cons_append, List.nil_append, List.mem_cons, List.not_mem_nil, or_false] at hf
    rcases hf with rfl | rfl | rfl
    · rcases hcf ((-180 + 180) / 2) ((-60 + 60) / 2) with h | ⟨k, h⟩ <;> rw [h] <;> trivial
    · trivial
    · trivial
  · intro lon lat hl hu
    by_cases hn : 60 ≤ lat
    · exact ⟨DemFile.polar true m r, by simp, trivial, by
        show m ≤ towards true lat
        simp only [towards, if_true]; linarith⟩
    · by_cases hs : lat ≤ -60
      · exact ⟨DemFile.polar false m' r', by simp, trivial, by
          show m' ≤ towards false lat
          simp only [towards, Bool.false_eq_true, if_false]; linarith⟩
      · refine ⟨cylindricalFile (cylRes (perDegree pix)) ((-180 + 180) / 2) ((-60 + 60) / 2), by simp, ?_⟩
        push Not at hn hs
        rcases hcf ((-180 + 180) / 2) ((-60 + 60) / 2) with h | ⟨k, h⟩ <;> rw [h]
        · exact ⟨trivial, hs.le, hn.le⟩
        · exact ⟨trivial, trivial⟩

/-- At finer resolutions, for every such pixel size, the point 10° N, 90° E is in none of the files, and one of the files
does not exist. -/
theorem C174_fine_fails (pix : ℝ) (hfine : 192 < perDegree pix) :
    ∃ fs, populateFiles pix none = some fs ∧ ¬ Covered fs 90 10 ∧ ∃ f ∈ fs, ¬ f.Published := by
  obtain ⟨n, s, m, r, m', r', rfl, rfl, h1, h2, h3, h4, hp⟩ := populate_none pix
  have hres : ¬ cylRes (perDegree pix) < 256 := by rcases cylRes_fine hfine with h | h <;> omega
  refine ⟨_, hp, ?_, ?_⟩
  · rintro ⟨f, hf, hpub, hcov⟩
    simp only [List.mem_append, List.mem_cons, List.not_mem_nil, or_false] at hf
    rcases hf with (hf | rfl) | rfl
    · unfold cylindrical at hf
      simp only at hf
      rw [if_neg hres] at hf
      have e1 : ((-180 : ℝ) + 180) / 2 = 0 := by norm_num
      have e2 : ((-60 : ℝ) + 60) / 2 = 0 := by norm_num
      rw [e1, e2] at hf
      have hcf : ∀ a b, cylindricalFile (cylRes (perDegree pix)) a b =
          .tile (cylRes (perDegree pix)) (tileOf (cylRes (perDegree pix)) a b) := by
        intro a b; unfold cylindricalFile; rw [if_pos (by omega)]
      simp only [hcf, List.mem_cons, List.not_mem_nil, or_false] at hf
      have south : ∀ a b : ℝ, b ≤ 0 → ¬ (DemFile.tile (cylRes (perDegree pix)) (tileOf (cylRes (perDegree pix)) a b)).Covers 90 10 := by
        intro a b hb hc
        obtain ⟨c1, _, _⟩ := hc
        have hn : (tileOf (cylRes (perDegree pix)) a b).north = false := by
          unfold tileOf
          simp only
          split_ifs <;> simp [not_lt.mpr hb]
        have hlo : 0 ≤ (tileOf (cylRes (perDegree pix)) a b).latLo := by
          unfold tileOf
          simp only
          have hd : 0 < (tileSize (cylRes (perDegree pix))).2 ∧ (tileSize (cylRes (perDegree pix))).2 ≤ 90 := by
            rcases tileSize_cases (cylRes (perDegree pix)) with h | h <;> rw [h] <;> norm_num
          have := latRow_nonneg _ hd.1 b hb
          split_ifs <;> simp only <;> omega
        rw [hn] at c1
        simp only [towards, Bool.false_eq_true, if_false] at c1
        have : (0 : ℝ) ≤ (tileOf (cylRes (perDegree pix)) a b).latLo := by exact_mod_cast hlo
        linarith
      have north : ∀ a : ℝ, a = 180 ∨ a = -180 →
          ¬ (DemFile.tile (cylRes (perDegree pix)) (tileOf (cylRes (perDegree pix)) a 60)).Covers 90 10 := by
        intro a ha hc
        have hval : (if a < 0 then a + 360 else a) = 180 := by rcases ha with rfl | rfl <;> norm_num
        obtain ⟨c1, c2, k, c3, c4⟩ := hc
        have f1 : ⌊(3 / 2 : ℝ)⌋ = 1 := by norm_num
        rcases cylRes_fine hfine with h | h <;> rw [h] at c1 c2 c3 c4
        · have ht : tileOf 256 a 60 = ⟨true, 0, 60, 120, 240⟩ := by
            unfold tileOf
            simp only [hval, tileSize]
            have hr : latRow 60 60 = 0 := by unfold latRow; norm_num
            norm_num [hr, abs_of_pos, f1]
          rw [ht] at c3 c4
          simp only at c3 c4
          push_cast at c3 c4
          have k1 : (0 : ℝ) < k := by linarith
          have k2 : (k : ℝ) < 1 := by linarith
          have k1' : (0 : ℤ) < k := by exact_mod_cast k1
          have k2' : k < (1 : ℤ) := by exact_mod_cast k2
          omega
        · have ht : tileOf 512 a 60 = ⟨true, 30, 60, 180, 225⟩ := by
            unfold tileOf
            simp only [hval, tileSize, if_true]
            have hr : latRow 30 60 = 30 := by unfold latRow; norm_num
            norm_num [hr, abs_of_pos]
          rw [ht] at c1
          norm_num [towards] at c1
      rcases hf with rfl | rfl | rfl | rfl | rfl
      · exact south _ _ (by norm_num) hcov
      · exact south _ _ (by norm_num) hcov
      · exact north _ (by norm_num) hcov
      · exact south _ _ (by norm_num) hcov
      · exact north _ (by norm_num) hcov
    · have : m ≤ towards true 10 := hcov
      simp only [towards, if_true] at this; linarith
    · have : m' ≤ towards false 10 := hcov
      simp only [towards, Bool.false_eq_true, if_false] at this; linarith
  · refine ⟨cylindricalFile (cylRes (perDegree pix)) (-180) (-60), ?_, ?_⟩
    · unfold cylindrical
      simp only
      rw [if_neg hres]
      simp
    · rcases cylRes_fine hfine with h | h <;> rw [h]
      · unfold cylindricalFile
        rw [if_pos (by norm_num)]
        unfold DemFile.Published tileOf
        simp only [tileSize]
        have hr : latRow 60 (-60) = 60 := by unfold latRow; norm_num [abs_of_neg]
        norm_num [hr]
      · unfold cylindricalFile
        rw [if_pos (by norm_num)]
        unfold DemFile.Published tileOf
        simp only [tileSize, if_true]
        have hr : latRow 30 (-60) = 60 := by unfold latRow; norm_num [abs_of_neg]
        rw [hr]
        norm_num

theorem covered_turn (fs : List DemFile) (lon lat : ℝ) (k : ℤ) (h : Covered fs (lon + 360 * k) lat) : Covered fs lon lat := by
  obtain ⟨f, hf, hp, hc⟩ := h
  refine ⟨f, hf, hp, ?_⟩
  cases f with
  | tile res t =>
    obtain ⟨h1, h2, j, h3, h4⟩ := hc
    refine ⟨h1, h2, k + j, ?_⟩
    push_cast
    constructor <;> linarith
  | sldem128 => exact hc
  | ldem r => exact hc
  | polar n m r => exact hc

/-- For a local region of at most 15° around a point of the equator, or one that contains a pole and lies beyond 60° (but does
not lie within 2.5° of the pole), every point of the region is in one of the files.  Missing: other regions, the longitudes of
which are underestimated, see `C64_longitude_fails`; regions across 60°, see `C53_straddle_fails`. -/
theorem C174_region_partial (pix : ℝ) (hpix : 0 < pix) (hfine : pix < 3000) (c : Circle) (hR : 0 < c.body)
    (hr0 : 0 ≤ c.radius) (hlat0 : -90 ≤ c.lat ∧ c.lat ≤ 90) (hlon : -180 ≤ c.lon ∧ c.lon ≤ 360)
    (hc : (c.lat = 0 ∧ deg (c.radius / c.body) ≤ 15) ∨
      (90 ≤ |c.lat| + deg (c.radius / c.body) ∧ 60 < |c.lat| - deg (c.radius / c.body) ∧
        |c.lat| - deg (c.radius / c.body) < 87.5)) :
    ∃ fs, populateFiles pix (some c) = some fs ∧ ∀ lon lat : ℝ, -90 ≤ lat → lat ≤ 90 →
      InRegion c.body c.lon c.lat c.radius lon lat → Covered fs lon lat := by
  have hpi := pi_pos
  have hα0 : 0 ≤ deg (c.radius / c.body) := by unfold deg; positivity
  have hα : deg (c.radius / c.body) ≤ 30 := by
    rcases hc with h | ⟨h1, h2, h3⟩
    · linarith [h.2]
    · have : |c.lat| ≤ 90 := abs_le.mpr hlat0
      linarith
  have hr : c.radius ≤ π * c.body := by
    have h1 : deg (c.radius / c.body) * (π / 180) = c.radius / c.body := by unfold deg; field_simp
    have h2 : c.radius / c.body ≤ π := by rw [← h1]; nlinarith
    exact (div_le_iff₀ hR).mp h2
  rcases hc with ⟨h0, h15⟩ | ⟨h1, h2, h3⟩
  · have hn : ¬ 90 ≤ |c.lat| + deg (c.radius / c.body) := by rw [h0]; norm_num; linarith
    have hmin : min (deg (c.radius / c.body) / cos (rad c.lat)) 180 = deg (c.radius / c.body) := by
      have : rad c.lat = 0 := by rw [h0]; simp [rad]
      rw [this, cos_zero, div_one, min_eq_left (by linarith)]
    have he : extents c.body c.lon c.lat c.radius =
        ⟨c.lon - deg (c.radius / c.body), c.lon + deg (c.radius / c.body), -deg (c.radius / c.body), deg (c.radius / c.body)⟩ := by
      unfold extents
      simp only
      rw [if_neg hn, hmin, h0, zero_sub, zero_add, max_eq_right (by linarith), min_eq_right (by linarith)]
    have hp : populateFiles pix (some c) = demFiles pix (-deg (c.radius / c.body), deg (c.radius / c.body))
        (c.lon - deg (c.radius / c.body), c.lon + deg (c.radius / c.body)) := by
      simp only [populateFiles, he]
    obtain ⟨fs, hfs, hcov⟩ := C53_selection_partial pix hpix hfine (-deg (c.radius / c.body), deg (c.radius / c.body))
        (c.lon - deg (c.radius / c.body), c.lon + deg (c.radius / c.body)) (by simp only; linarith) (by simp only; linarith)
        (by simp only; linarith) (by simp only; linarith) (Or.inl ⟨by simp only; linarith, by simp only; linarith⟩)
    refine ⟨fs, hp.trans hfs, ?_⟩
    intro lon lat hl hu hin
    obtain ⟨c1, c2, k, c3, c4⟩ := (C64_extents_partial c.body c.lon c.lat c.radius lon lat hR hr0 hr hlat0 ⟨hl, hu⟩ hin).2 (Or.inr h0)
    rw [he] at c1 c2 c3 c4
    exact covered_turn fs lon lat k (hcov _ _ c1 c2 c3 c4)
  · have hne : c.lat ≠ 0 := by
      intro h; rw [h, abs_zero] at h2; linarith
    have he : extents c.body c.lon c.lat c.radius =
        ⟨-180, 180, max (-90) (c.lat - deg (c.radius / c.body)), min 90 (c.lat + deg (c.radius / c.body))⟩ := by
      unfold extents
      simp only
      rw [if_pos h1]
    set latR : ℝ × ℝ := (max (-90) (c.lat - deg (c.radius / c.body)), min 90 (c.lat + deg (c.radius / c.body))) with hlatR
    have hp : populateFiles pix (some c) = demFiles pix latR (-180, 180) := by
      simp only [populateFiles, he, hlatR]
    have htar : 10 < π / 180 * 1737530 / pix := by
      rw [lt_div_iff₀ hpix]
      nlinarith [pi_gt_d2]
    have hle : latR.1 ≤ latR.2 := by
      rw [hlatR]
      simp only
      apply max_le <;> apply le_min <;> linarith [hlat0.1, hlat0.2]
    have hside : (60 < latR.1 ∧ latR.1 < 87.5 ∧ -87.5 < latR.2) ∨ (latR.2 < -60 ∧ latR.1 < 87.5 ∧ -87.5 < latR.2) := by
      rcases lt_or_gt_of_ne hne with hs | hs
      · rw [abs_of_neg hs] at h1 h2 h3
        right
        have e2 : latR.2 = c.lat + deg (c.radius / c.body) := min_eq_right (by linarith)
        have e1 : latR.1 ≤ latR.2 := hle
        refine ⟨?_, ?_, ?_⟩ <;> linarith
      · rw [abs_of_pos hs] at h1 h2 h3
        left
        have e2 : latR.1 = c.lat - deg (c.radius / c.body) := max_eq_right (by linarith)
        have e1 : latR.1 ≤ latR.2 := hle
        refine ⟨?_, ?_, ?_⟩ <;> linarith
    have hpole : 60 < latR.1 ∨ latR.2 < -60 := hside.imp (fun x => x.1) (fun x => x.1)
    have hd : demFiles pix latR (-180, 180) = polar pix latR := by
      unfold demFiles
      simp only
      rw [if_pos ⟨htar, hpole⟩]
    obtain ⟨p1, p2⟩ := C53_polar_partial pix latR hpole hle
    have hs : (polar pix latR).isSome := by
      rcases hside with h | h <;> exact p2 h.2.1 h.2.2
    obtain ⟨fs, hfs⟩ := Option.isSome_iff_exists.mp hs
    refine ⟨fs, by rw [hp, hd, hfs], ?_⟩
    intro lon lat hl hu hin
    obtain ⟨c1, c2⟩ := (C64_extents_partial c.body c.lon c.lat c.radius lon lat hR hr0 hr hlat0 ⟨hl, hu⟩ hin).1
    rw [he] at c1 c2
    exact p1 fs hfs lon lat c1 c2

example : perDegree 1000 ≤ 192 ∧ 192 < perDegree 100 := by
  unfold perDegree
  have h1 := pi_lt_d2
  have h2 := pi_gt_d2
  constructor <;> [skip; skip] <;> linarith

example : ∃ c : Circle, 0 < c.body ∧ 0 ≤ c.radius ∧ (-90 ≤ c.lat ∧ c.lat ≤ 90) ∧ (-180 ≤ c.lon ∧ c.lon ≤ 360) ∧
    90 ≤ |c.lat| + deg (c.radius / c.body) ∧ 60 < |c.lat| - deg (c.radius / c.body) ∧
    |c.lat| - deg (c.radius / c.body) < 87.5 := by
  have hpi := pi_pos
  have hd : deg ((π / 18) / 1) = 10 := by unfold deg; field_simp; norm_num
  refine ⟨⟨1, 0, 85, π / 18⟩, by norm_num, by positivity, by norm_num, by norm_num, ?_⟩
  simp only [hd]
  norm_num

end Verif.Lola
