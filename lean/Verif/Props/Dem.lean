import Verif.Model.Dem
import Verif.Model.Sphere
import Verif.Props.Sphere
import Mathlib.Analysis.Real.Pi.Bounds

/-! Properties C53 and C65: elevation data. -/

namespace Verif.Dem

open Real

/-! ### Coverage -/

/-- Absolute latitude towards the given pole. -/
def towards (north : Bool) (lat : ℝ) : ℝ := if north then lat else -lat

/-- What the name of a file promises to cover. -/
def DemFile.Covers : DemFile → ℝ → ℝ → Prop
  | .tile _ t, lon, lat => (t.latLo : ℝ) ≤ towards t.north lat ∧ towards t.north lat ≤ t.latHi ∧
      ∃ k : ℤ, (t.lonLo : ℝ) ≤ lon + 360 * k ∧ lon + 360 * k ≤ t.lonHi
  | .sldem128, _, lat => -60 ≤ lat ∧ lat ≤ 60
  | .ldem _, _, _ => True
  | .polar north minLat _, _, lat => minLat ≤ towards north lat

/-- The tiled data only exists between 60° S and 60° N. -/
def DemFile.Published : DemFile → Prop
  | .tile _ t => t.latHi ≤ 60
  | _ => True

/-- A point is covered by one of the files. -/
def Covered (fs : List DemFile) (lon lat : ℝ) : Prop := ∃ f ∈ fs, f.Published ∧ f.Covers lon lat

/-- The signed row index of a latitude: the row is `[d * i, d * (i + 1)]`. -/
noncomputable def rowIdx (d : ℤ) (lat : ℝ) : ℤ := ⌈lat / d⌉ - 1

theorem latRow_eq (d : ℤ) (hd : 0 < d) (lat : ℝ) :
    latRow d lat = if 0 < lat then rowIdx d lat * d else -(rowIdx d lat + 1) * d := by
  have hd' : (0 : ℝ) < d := by exact_mod_cast hd
  unfold latRow rowIdx
  split_ifs with h
  · rw [abs_of_pos (by positivity), Int.ceil_sub_one]
  · push Not at h
    have : lat / d ≤ 0 := div_nonpos_of_nonpos_of_nonneg h hd'.le
    rw [abs_of_nonpos this, Int.floor_add_one, Int.floor_neg]
    ring

theorem rowIdx_bounds (d : ℤ) (hd : 0 < d) (lat : ℝ) :
    (rowIdx d lat * d : ℝ) < lat ∧ lat ≤ (rowIdx d lat + 1) * d := by
  have hd' : (0 : ℝ) < d := by exact_mod_cast hd
  unfold rowIdx
  have h1 := Int.le_ceil (lat / d)
  have h2 := Int.ceil_lt_add_one (lat / d)
  push_cast
  constructor
  · rw [← lt_div_iff₀ hd']; linarith
  · rw [← div_le_iff₀ hd']; linarith

theorem rowIdx_between (d : ℤ) (hd : 0 < d) (lo hi lat : ℝ) (h1 : lo ≤ lat) (h2 : lat ≤ hi) (hspan : hi - lo ≤ d) :
    ((rowIdx d lo * d : ℝ) ≤ lat ∧ lat ≤ (rowIdx d lo + 1) * d) ∨ ((rowIdx d hi * d : ℝ) ≤ lat ∧ lat ≤ (rowIdx d hi + 1) * d) := by
  have hd' : (0 : ℝ) < d := by exact_mod_cast hd
  obtain ⟨a1, a2⟩ := rowIdx_bounds d hd lo
  obtain ⟨b1, b2⟩ := rowIdx_bounds d hd hi
  by_cases h : lat ≤ (rowIdx d lo + 1) * d
  · left; exact ⟨by linarith, h⟩
  · right
    push Not at h
    refine ⟨?_, by linarith⟩
    have hidx : rowIdx d hi ≤ rowIdx d lo + 1 := by
      by_contra hc
      push Not at hc
      have hc' : rowIdx d lo + 2 ≤ rowIdx d hi := by omega
      have : (rowIdx d lo + 2 : ℝ) ≤ rowIdx d hi := by exact_mod_cast hc'
      nlinarith
    have : (rowIdx d hi : ℝ) ≤ rowIdx d lo + 1 := by exact_mod_cast hidx
    nlinarith

/-- Longitudes: the column index without reduction to one turn. -/
noncomputable def colIdx (d : ℤ) (lon : ℝ) : ℤ := ⌊lon / d⌋

theorem colIdx_between (d : ℤ) (hd : 0 < d) (lo hi lon : ℝ) (h1 : lo ≤ lon) (h2 : lon ≤ hi) (hspan : hi - lo ≤ d) :
    ((colIdx d lo * d : ℝ) ≤ lon ∧ lon ≤ (colIdx d lo + 1) * d) ∨ ((colIdx d hi * d : ℝ) ≤ lon ∧ lon ≤ (colIdx d hi + 1) * d) := by
  have hd' : (0 : ℝ) < d := by exact_mod_cast hd
  have bounds : ∀ x : ℝ, (colIdx d x * d : ℝ) ≤ x ∧ x < (colIdx d x + 1) * d := by
    intro x
    unfold colIdx
    exact ⟨(le_div_iff₀ hd').mp (Int.floor_le _), (div_lt_iff₀ hd').mp (Int.lt_floor_add_one _)⟩
  obtain ⟨a1, a2⟩ := bounds lo
  obtain ⟨b1, b2⟩ := bounds hi
  by_cases h : lon ≤ (colIdx d lo + 1) * d
  · left; exact ⟨by linarith, h⟩
  · right
    push Not at h
    refine ⟨?_, by linarith⟩
    have hidx : colIdx d hi ≤ colIdx d lo + 1 := by
      by_contra hc
      push Not at hc
      have hc' : colIdx d lo + 2 ≤ colIdx d hi := by omega
      have : (colIdx d lo + 2 : ℝ) ≤ colIdx d hi := by exact_mod_cast hc'
      nlinarith
    have : (colIdx d hi : ℝ) ≤ colIdx d lo + 1 := by exact_mod_cast hidx
    nlinarith

theorem tileSize_cases (res : ℕ) : tileSize res = (45, 30) ∨ tileSize res = (120, 60) := by
  unfold tileSize; split_ifs <;> simp

/-- The tile of a location that is not beyond 60° in latitude. -/
theorem tileOf_spec (res : ℕ) (lon lat : ℝ) (hlon : -360 ≤ lon) (h1 : -60 < lat) (h2 : lat ≤ 60) :
    (tileOf res lon lat).latHi ≤ 60 ∧
    (∀ x : ℝ, (rowIdx (tileSize res).2 lat * (tileSize res).2 : ℝ) ≤ x → x ≤ (rowIdx (tileSize res).2 lat + 1) * (tileSize res).2 →
      ((tileOf res lon lat).latLo : ℝ) ≤ towards (tileOf res lon lat).north x ∧
      towards (tileOf res lon lat).north x ≤ (tileOf res lon lat).latHi) ∧
    (∀ x : ℝ, (colIdx (tileSize res).1 lon * (tileSize res).1 : ℝ) ≤ x → x ≤ (colIdx (tileSize res).1 lon + 1) * (tileSize res).1 →
      ∃ k : ℤ, ((tileOf res lon lat).lonLo : ℝ) ≤ x + 360 * k ∧ x + 360 * k ≤ (tileOf res lon lat).lonHi) := by
  obtain ⟨dlon, dlat, hts, hdl, hdt, hN, hM⟩ : ∃ dlon dlat : ℤ, tileSize res = (dlon, dlat) ∧ 0 < dlon ∧ 0 < dlat ∧
      (∃ N : ℤ, 360 = N * dlon) ∧ (∃ M : ℤ, 60 = M * dlat) := by
    rcases tileSize_cases res with h | h
    · exact ⟨45, 30, h, by norm_num, by norm_num, ⟨8, by norm_num⟩, ⟨2, by norm_num⟩⟩
    · exact ⟨120, 60, h, by norm_num, by norm_num, ⟨3, by norm_num⟩, ⟨1, by norm_num⟩⟩
  obtain ⟨N, hN⟩ := hN
  obtain ⟨M, hM⟩ := hM
  have hdl' : (0 : ℝ) < dlon := by exact_mod_cast hdl
  have hdt' : (0 : ℝ) < dlat := by exact_mod_cast hdt
  obtain ⟨r1, r2⟩ := rowIdx_bounds dlat hdt lat
  have hMr : (60 : ℝ) = M * dlat := by exact_mod_cast hM
  -- the row is within ±60
  have hlatHi : latRow dlat lat + dlat ≤ 60 := by
    rw [latRow_eq dlat hdt]
    split_ifs with h
    · have : (rowIdx dlat lat : ℝ) < M := by
        by_contra hc
        push Not at hc
        nlinarith
      have : rowIdx dlat lat < M := by exact_mod_cast this
      nlinarith
    · have : (-M : ℝ) < rowIdx dlat lat + 1 := by
        by_contra hc
        push Not at hc
        nlinarith
      have : -M < rowIdx dlat lat + 1 := by exact_mod_cast this
      nlinarith
  have hno : ¬ (90 < latRow dlat lat + dlat ∨ 90 < latRow dlat lat) := by
    push Not; constructor <;> linarith
  -- the column
  have hcol : ∃ j : ℤ, ⌊|(if lon < 0 then lon + 360 else lon) / dlon|⌋ = colIdx dlon lon + N * j := by
    have hNr : (360 : ℝ) = N * dlon := by exact_mod_cast hN
    split_ifs with h
    · refine ⟨1, ?_⟩
      rw [abs_of_nonneg (div_nonneg (by linarith) hdl'.le)]
      have : (lon + 360) / dlon = lon / dlon + N := by rw [hNr]; field_simp
      rw [this, Int.floor_add_intCast]
      unfold colIdx; ring
    · push Not at h
      refine ⟨0, ?_⟩
      rw [abs_of_nonneg (by positivity)]
      unfold colIdx; ring
  obtain ⟨j, hj⟩ := hcol
  have htile : tileOf res lon lat = ⟨0 < lat, latRow dlat lat, latRow dlat lat + dlat,
      ((colIdx dlon lon + N * j) * dlon) % 360, ((colIdx dlon lon + N * j) * dlon) % 360 + dlon⟩ := by
    unfold tileOf
    simp only [hts]
    rw [if_neg hno, hj]
  rw [htile, hts]
  refine ⟨hlatHi, ?_, ?_⟩
  · intro x hx1 hx2
    simp only at hx1 hx2 ⊢
    rw [latRow_eq dlat hdt]
    by_cases h : 0 < lat
    · simp only [h, if_true, decide_true, towards]
      push_cast
      constructor <;> linarith
    · simp only [h, if_false, decide_false, towards, Bool.false_eq_true]
      push_cast
      constructor <;> linarith
  · intro x hx1 hx2
    simp only at hx1 hx2 ⊢
    have hmod := Int.emod_add_mul_ediv ((colIdx dlon lon + N * j) * dlon) 360
    set q := ((colIdx dlon lon + N * j) * dlon) / 360 with hq
    have hmod' : ((((colIdx dlon lon + N * j) * dlon) % 360 : ℤ) : ℝ) + 360 * q = (colIdx dlon lon + N * j) * dlon := by
      exact_mod_cast hmod
    have hNr : (360 : ℝ) = N * dlon := by exact_mod_cast hN
    refine ⟨j - q, ?_⟩
    push_cast
    have e : (360 : ℝ) * (j - q) = N * j * dlon - 360 * q := by rw [mul_sub]; conv_lhs => rw [show (360 : ℝ) * j = N * dlon * j by rw [hNr]]
                                                                ring
    constructor
    · have : ((((colIdx dlon lon + N * j) * dlon) % 360 : ℤ) : ℝ) = colIdx dlon lon * dlon + N * j * dlon - 360 * q := by linarith
      push_cast at this ⊢
      linarith
    · have : ((((colIdx dlon lon + N * j) * dlon) % 360 : ℤ) : ℝ) = colIdx dlon lon * dlon + N * j * dlon - 360 * q := by linarith
      push_cast at this ⊢
      linarith

theorem argmin_mem {α : Type} (f : α → ℝ) (a : α) (l : List α) : argmin f a l ∈ a :: l := by
  induction l generalizing a with
  | nil => simp [argmin]
  | cons b bs ih =>
    unfold argmin
    split_ifs
    · have := ih b; simp only [List.mem_cons] at this ⊢; tauto
    · have := ih a; simp only [List.mem_cons] at this ⊢; tauto

theorem argmin_le {α : Type} (f : α → ℝ) (a : α) (l : List α) : ∀ x ∈ a :: l, f (argmin f a l) ≤ f x := by
  induction l generalizing a with
  | nil => intro x hx; simp at hx; subst hx; simp [argmin]
  | cons b bs ih =>
    intro x hx
    unfold argmin
    split_ifs with h
    · have hb := ih b
      rcases List.mem_cons.mp hx with rfl | hx
      · have := hb b (by simp); linarith
      · exact hb x hx
    · push Not at h
      have ha := ih a
      rcases List.mem_cons.mp hx with rfl | hx
      · exact ha x (by simp)
      · rcases List.mem_cons.mp hx with rfl | hx
        · have := ha a (by simp); linarith
        · exact ha x (by simp [hx])

/-- Between 60° S (exclusive) and 60° N, a region that is no larger than 45° by 30° is covered by the files selected, all
of which exist.  Missing: larger or more extreme regions, see the `_fails` theorems. -/
theorem C53_cylindrical_partial (resolution : ℝ) (latR lonR : ℝ × ℝ) (h1 : -60 < latR.1) (h2 : latR.2 ≤ 60)
    (hlon : -360 ≤ lonR.1) (hspanLat : latR.2 - latR.1 ≤ 30) (hspanLon : lonR.2 - lonR.1 ≤ 45)
    (lon lat : ℝ) (hlat : latR.1 ≤ lat ∧ lat ≤ latR.2) (hlon' : lonR.1 ≤ lon ∧ lon ≤ lonR.2) :
    Covered (cylindrical resolution latR lonR) lon lat := by
  unfold cylindrical
  simp only
  by_cases hres : cylRes resolution < 256
  · rw [if_pos hres]
    refine ⟨_, List.mem_singleton.mpr rfl, ?_⟩
    unfold cylindricalFile
    rw [if_neg (by omega)]
    split_ifs
    · exact ⟨trivial, by linarith [hlat.1], by linarith [hlat.2]⟩
    · exact ⟨trivial, trivial⟩
  · rw [if_neg hres]
    have hcf : ∀ a b, cylindricalFile (cylRes resolution) a b = .tile (cylRes resolution) (tileOf (cylRes resolution) a b) := by
      intro a b; unfold cylindricalFile; rw [if_pos (by omega)]
    have hs : 0 < (tileSize (cylRes resolution)).1 ∧ 0 < (tileSize (cylRes resolution)).2 ∧
        (45 : ℝ) ≤ (tileSize (cylRes resolution)).1 ∧ (30 : ℝ) ≤ (tileSize (cylRes resolution)).2 := by
      rcases tileSize_cases (cylRes resolution) with h | h <;> rw [h] <;> norm_num
    have hr := rowIdx_between _ hs.2.1 latR.1 latR.2 lat hlat.1 hlat.2 (by linarith [hs.2.2.2])
    have hc := colIdx_between _ hs.1 lonR.1 lonR.2 lon hlon'.1 hlon'.2 (by linarith [hs.2.2.1])
    have cov : ∀ a b : ℝ, -360 ≤ a → -60 < b → b ≤ 60 →
        (rowIdx (tileSize (cylRes resolution)).2 b * (tileSize (cylRes resolution)).2 : ℝ) ≤ lat ∧
          lat ≤ (rowIdx (tileSize (cylRes resolution)).2 b + 1) * (tileSize (cylRes resolution)).2 →
        (colIdx (tileSize (cylRes resolution)).1 a * (tileSize (cylRes resolution)).1 : ℝ) ≤ lon ∧
          lon ≤ (colIdx (tileSize (cylRes resolution)).1 a + 1) * (tileSize (cylRes resolution)).1 →
        (cylindricalFile (cylRes resolution) a b).Published ∧ (cylindricalFile (cylRes resolution) a b).Covers lon lat := by
      intro a b ha hb1 hb2 hrow hcol
      obtain ⟨t1, t2, t3⟩ := tileOf_spec (cylRes resolution) a b ha hb1 hb2
      rw [hcf]
      exact ⟨t1, (t2 lat hrow.1 hrow.2).1, (t2 lat hrow.1 hrow.2).2, t3 lon hcol.1 hcol.2⟩
    have hlon2 : -360 ≤ lonR.2 := by linarith [hlon'.1, hlon'.2]
    have h2' : latR.1 ≤ 60 := by linarith [hlat.1, hlat.2]
    have h1' : -60 < latR.2 := by linarith [hlat.1, hlat.2]
    rcases hr with hr | hr <;> rcases hc with hc | hc
    · exact ⟨_, by simp, cov lonR.1 latR.1 hlon h1 h2' hr hc⟩
    · exact ⟨cylindricalFile (cylRes resolution) lonR.2 latR.1, by simp, cov lonR.2 latR.1 hlon2 h1 h2' hr hc⟩
    · exact ⟨cylindricalFile (cylRes resolution) lonR.1 latR.2, by simp, cov lonR.1 latR.2 hlon h1' h2 hr hc⟩
    · exact ⟨cylindricalFile (cylRes resolution) lonR.2 latR.2, by simp, cov lonR.2 latR.2 hlon2 h1' h2 hr hc⟩

/-- Polar files, if selected, cover the latitudes asked for; they are selected for every region beyond 60° that
does not reach within 2.5° of the pole on its equatorward side.  Missing: see `C53_polar_fails`. -/
theorem C53_polar_partial (pix : ℝ) (latR : ℝ × ℝ) (hpole : 60 < latR.1 ∨ latR.2 < -60) (hle : latR.1 ≤ latR.2) :
    (∀ fs, polar pix latR = some fs → ∀ lon lat : ℝ, latR.1 ≤ lat → lat ≤ latR.2 → Covered fs lon lat) ∧
    (latR.1 < 87.5 → -87.5 < latR.2 → (polar pix latR).isSome) := by
  set bound := if 0 < latR.1 then |latR.1| else |latR.2| with hb
  set P := fun p : Polar => decide (p.minLat ≤ bound) with hP
  have hdef : polar pix latR = match polarTable.filter P with
      | [] => none
      | p :: ps =>
        if (argmin (fun q : Polar => |pix - q.res|) p ps).isInt then
          some [.polar (0 < latR.1) (argmin (fun q : Polar => |pix - q.res|) p ps).minLat
            (argmin (fun q : Polar => |pix - q.res|) p ps).res] else none := rfl
  constructor
  · intro fs hfs lon lat hl1 hl2
    rw [hdef] at hfs
    rcases hf : polarTable.filter P with _ | ⟨p, ps⟩
    · rw [hf] at hfs; simp at hfs
    · rw [hf] at hfs
      simp only at hfs
      split_ifs at hfs with hi
      · simp only [Option.some.injEq] at hfs
        subst hfs
        have hm := argmin_mem (fun q : Polar => |pix - q.res|) p ps
        rw [← hf, List.mem_filter] at hm
        have hmin := hm.2
        simp only [hP, decide_eq_true_eq] at hmin
        refine ⟨_, List.mem_singleton.mpr rfl, trivial, ?_⟩
        unfold DemFile.Covers towards
        by_cases h0 : 0 < latR.1
        · rw [hb, if_pos h0, abs_of_pos h0] at hmin
          simp only [h0, decide_true, if_true]
          linarith
        · rw [hb, if_neg h0] at hmin
          have hneg : latR.2 < -60 := by rcases hpole with h | h <;> linarith
          rw [abs_of_neg (by linarith)] at hmin
          simp only [h0, decide_false, Bool.false_eq_true, if_false]
          linarith
  · intro hn hs
    have hb1 : 60 < bound ∧ bound < 87.5 := by
      rw [hb]
      split_ifs with h0
      · rw [abs_of_pos h0]
        rcases hpole with h | h
        · exact ⟨h, hn⟩
        · linarith
      · have hneg : latR.2 < -60 := by rcases hpole with h | h <;> linarith
        rw [abs_of_neg (by linarith)]
        exact ⟨by linarith, by linarith⟩
    have hmem : (⟨400, 45, true⟩ : Polar) ∈ polarTable.filter P := by
      rw [List.mem_filter]
      refine ⟨by simp [polarTable], ?_⟩
      simp only [hP, decide_eq_true_eq]
      linarith
    have hint : ∀ q ∈ polarTable.filter P, q.isInt = true := by
      intro q hq
      rw [List.mem_filter] at hq
      obtain ⟨hq1, hq2⟩ := hq
      simp only [hP, decide_eq_true_eq] at hq2
      simp only [polarTable, List.mem_cons, List.not_mem_nil, or_false] at hq1
      rcases hq1 with h | h | h | h | h | h | h | h | h | h | h | h <;> subst h <;> try rfl
      exfalso
      simp only at hq2
      linarith [hb1.2]
    rw [hdef]
    rcases hf : polarTable.filter P with _ | ⟨p, ps⟩
    · rw [hf] at hmem; simp at hmem
    · simp only
      have hm := argmin_mem (fun q : Polar => |pix - q.res|) p ps
      rw [← hf] at hm
      rw [if_pos (hint _ hm)]
      rfl

/-- Which files the whole selection uses for a region on one side of the equator. -/
theorem demFiles_cases (pix : ℝ) (latR lonR : ℝ × ℝ) :
    demFiles pix latR lonR = polar pix latR ∨ demFiles pix latR lonR = some (cylindrical (π / 180 * 1737530 / pix) latR lonR) := by
  unfold demFiles
  simp only
  split_ifs <;> simp

/-- The selection as a whole, for regions of at most 45° by 30° that are within 60° of the equator, or beyond 60° and not
within 2.5° of the pole, at a resolution for which polar files are used. -/
theorem C53_selection_partial (pix : ℝ) (hpix : 0 < pix) (hfine : pix < 3000) (latR lonR : ℝ × ℝ) (hle : latR.1 ≤ latR.2)
    (hlon : -360 ≤ lonR.1) (hspanLat : latR.2 - latR.1 ≤ 30) (hspanLon : lonR.2 - lonR.1 ≤ 45)
    (hregion : (-60 < latR.1 ∧ latR.2 ≤ 60) ∨ (60 < latR.1 ∧ latR.1 < 87.5) ∨ (latR.2 < -60 ∧ -87.5 < latR.2)) :
    ∃ fs, demFiles pix latR lonR = some fs ∧ ∀ lon lat : ℝ, latR.1 ≤ lat → lat ≤ latR.2 → lonR.1 ≤ lon → lon ≤ lonR.2 →
      Covered fs lon lat := by
  have htar : 10 < π / 180 * 1737530 / pix := by
    rw [lt_div_iff₀ hpix]
    nlinarith [pi_gt_d2]
  rcases hregion with h | h
  · refine ⟨cylindrical (π / 180 * 1737530 / pix) latR lonR, ?_, ?_⟩
    · unfold demFiles
      simp only
      rw [if_neg]
      rintro ⟨_, hc | hc⟩ <;> linarith [h.1, h.2]
    · intro lon lat a b c e
      exact C53_cylindrical_partial _ latR lonR h.1 h.2 hlon hspanLat hspanLon lon lat ⟨a, b⟩ ⟨c, e⟩
  · have hpole : 60 < latR.1 ∨ latR.2 < -60 := h.imp (fun x => x.1) (fun x => x.1)
    have hd : demFiles pix latR lonR = polar pix latR := by
      unfold demFiles
      simp only
      rw [if_pos ⟨htar, hpole⟩]
    obtain ⟨p1, p2⟩ := C53_polar_partial pix latR hpole hle
    have hs : (polar pix latR).isSome := by
      apply p2
      · rcases h with h | h <;> linarith [h.1, h.2]
      · rcases h with h | h <;> linarith [h.1, h.2]
    obtain ⟨fs, hfs⟩ := Option.isSome_iff_exists.mp hs
    exact ⟨fs, by rw [hd, hfs], fun lon lat a b _ _ => p1 fs hfs lon lat a b⟩

theorem cylRes_512 : cylRes 512 = 512 := by
  unfold cylRes argmin
  norm_num [argmin, abs_of_pos, abs_of_neg]

theorem latRow_nonneg (lat : ℝ) (d : ℤ) (hd : 0 < d) (h : lat ≤ 0) : 0 ≤ latRow d lat := by
  unfold latRow
  rw [if_neg (not_lt.mpr h)]
  have : 1 ≤ ⌊|lat / d| + 1⌋ := Int.le_floor.mpr (by push_cast; linarith [abs_nonneg (lat / d)])
  nlinarith

/-- A tile of the southern hemisphere has no point north of the equator, and the other way round. -/
theorem tileOf_south (res : ℕ) (lon lat : ℝ) (h : lat ≤ 0) : (tileOf res lon lat).north = false ∧ 0 ≤ (tileOf res lon lat).latLo := by
  have hd : 0 < (tileSize res).2 ∧ (tileSize res).2 ≤ 90 := by unfold tileSize; split_ifs <;> simp
  unfold tileOf
  dsimp only
  have hrow := latRow_nonneg lat _ hd.1 h
  split_ifs <;> refine ⟨by simp [h], ?_⟩ <;> first | exact hrow | (dsimp only; omega)

/-- Regions wider than a tile are not covered: of a region from `b` south to `b` north, with `b` between 30° and 60°, no point between the equator and 30°
north is in one of the files selected at 512 pixels per degree, whatever the longitudes. -/
theorem C53_span_fails (b : ℝ) (hb : 30 < b) (hb' : b ≤ 60) (lonR : ℝ × ℝ) (lon lat : ℝ) (h0 : 0 < lat) (h30 : lat < 30) :
    ¬ Covered (cylindrical 512 (-b, b) lonR) lon lat := by
  rintro ⟨f, hf, _, hc⟩
  unfold cylindrical at hf
  simp only [cylRes_512] at hf
  rw [if_neg (by norm_num)] at hf
  have hts : tileSize 512 = (45, 30) := by simp [tileSize]
  have key : ∀ x y : ℝ, (y ≤ 0 ∨ y = b) → ¬ (cylindricalFile 512 x y).Covers lon lat := by
    intro x y hy hcov
    unfold cylindricalFile at hcov
    rw [if_pos (by norm_num)] at hcov
    unfold DemFile.Covers at hcov
    obtain ⟨h1, h2, _⟩ := hcov
    rcases hy with hy | rfl
    · obtain ⟨e1, e2⟩ := tileOf_south 512 x y hy
      rw [e1] at h1
      have : (0 : ℝ) ≤ (tileOf 512 x y).latLo := by exact_mod_cast e2
      simp only [towards, Bool.false_eq_true, if_false] at h1
      linarith
    · have hr : latRow 30 y = 30 := by
        unfold latRow
        rw [if_pos (by linarith)]
        have : ⌈|y / (30 : ℤ)| - 1⌉ = 1 := by
          rw [Int.ceil_eq_iff]
          push_cast
          rw [abs_of_pos (by positivity)]
          constructor
          · rw [lt_sub_iff_add_lt, lt_div_iff₀ (by norm_num)]; linarith
          · rw [sub_le_iff_le_add, div_le_iff₀ (by norm_num)]; linarith
        rw [this]
        norm_num
      unfold tileOf at h1
      simp only [hts, hr] at h1
      have hy0 : 0 < y := by linarith
      norm_num [towards, hy0] at h1
      linarith
  simp only [List.mem_cons, List.not_mem_nil, or_false] at hf
  rcases hf with rfl | rfl | rfl | rfl | rfl
  · exact key _ _ (.inl (by norm_num)) hc
  · exact key _ _ (.inl (by linarith)) hc
  · exact key _ _ (.inr rfl) hc
  · exact key _ _ (.inl (by linarith)) hc
  · exact key _ _ (.inr rfl) hc

theorem tileOf_north (res : ℕ) (lon lat : ℝ) (h : 0 < lat) : (tileOf res lon lat).north = true ∧ 0 ≤ (tileOf res lon lat).latLo := by
  have hd : 0 < (tileSize res).2 ∧ (tileSize res).2 ≤ 90 := by unfold tileSize; split_ifs <;> simp
  have hrow : 0 ≤ latRow (tileSize res).2 lat := by
    unfold latRow
    rw [if_pos h]
    have hpos : 0 < |lat / ((tileSize res).2 : ℝ)| := abs_pos.mpr (div_pos h (by exact_mod_cast hd.1)).ne'
    have : 0 ≤ ⌈|lat / ((tileSize res).2 : ℝ)| - 1⌉ := by
      have : (-1 : ℤ) < ⌈|lat / ((tileSize res).2 : ℝ)| - 1⌉ := Int.lt_ceil.mpr (by push_cast; linarith)
      omega
    exact mul_nonneg this hd.1.le
  unfold tileOf
  dsimp only
  split_ifs <;> refine ⟨by simp [h], ?_⟩ <;> first | exact hrow | (dsimp only; omega)

/-- No published file of the cylindrical data finer than 64 pixels per degree has a point beyond 60°. -/
theorem cylindricalFile_beyond (res : ℕ) (hres : 128 ≤ res) (hr : res = 128 ∨ 256 ≤ res) (x y lon lat : ℝ) (hl : 60 < |lat|)
    (hp : (cylindricalFile res x y).Published) : ¬ (cylindricalFile res x y).Covers lon lat := by
  intro hc
  unfold cylindricalFile at hc hp
  by_cases h256 : 256 ≤ res
  · rw [if_pos h256] at hc hp
    unfold DemFile.Covers at hc
    unfold DemFile.Published at hp
    obtain ⟨h1, h2, _⟩ := hc
    have hp' : ((tileOf res x y).latHi : ℝ) ≤ 60 := by exact_mod_cast hp
    have hlo : (0 : ℝ) ≤ (tileOf res x y).latLo := by
      rcases le_or_gt y 0 with hy | hy
      · exact_mod_cast (tileOf_south res x y hy).2
      · exact_mod_cast (tileOf_north res x y hy).2
    have : |lat| = towards (tileOf res x y).north lat := by
      have h0 : 0 ≤ towards (tileOf res x y).north lat := hlo.trans h1
      rw [← abs_of_nonneg h0]
      unfold towards
      split_ifs
      · rfl
      · rw [abs_neg]
    linarith
  · rw [if_neg h256] at hc
    have : res = 128 := by omega
    rw [if_pos this] at hc
    unfold DemFile.Covers at hc
    have := abs_le.mpr ⟨by linarith [hc.1], hc.2⟩
    linarith

theorem cylRes_fine (t : ℝ) (h : 96 < t) : cylRes t = 128 ∨ 256 ≤ cylRes t := by
  unfold cylRes
  simp only [argmin]
  have key : ∀ a b : ℝ, a < b → a + b < 2 * t → |t - b| < |t - a| := by
    intro a b hab h2
    have ha : |t - a| = t - a := abs_of_pos (by linarith)
    rw [ha, abs_lt]
    constructor <;> linarith
  have h1 : |t - ((16 : ℕ) : ℝ)| < |t - ((4 : ℕ) : ℝ)| := key _ _ (by norm_num) (by push_cast; linarith)
  have h2 : |t - ((64 : ℕ) : ℝ)| < |t - ((16 : ℕ) : ℝ)| := key _ _ (by norm_num) (by push_cast; linarith)
  have h3 : |t - ((128 : ℕ) : ℝ)| < |t - ((64 : ℕ) : ℝ)| := key _ _ (by norm_num) (by push_cast; linarith)
  rw [if_pos h1, if_pos h2, if_pos h3]
  split_ifs <;> simp

/-- Regions that reach across 60° at a resolution of more than 96 pixels per degree: no existing file with a point beyond 60° is selected, although polar
files from 45° on are available.  (At coarser resolutions the files are global.) -/
theorem C53_straddle_fails (pix : ℝ) (hfine : 96 < π / 180 * 1737530 / pix) (latR lonR : ℝ × ℝ) (hs : latR.1 ≤ 60) (hn : -60 ≤ latR.2) :
    ∃ fs, demFiles pix latR lonR = some fs ∧ ∀ lon lat : ℝ, 60 < |lat| → ¬ Covered fs lon lat := by
  refine ⟨cylindrical (π / 180 * 1737530 / pix) latR lonR, ?_, ?_⟩
  · unfold demFiles
    dsimp only
    rw [if_neg]
    rintro ⟨-, h | h⟩ <;> linarith
  · rintro lon lat hl ⟨f, hf, hp, hc⟩
    have hres := cylRes_fine _ hfine
    have hle : 128 ≤ cylRes (π / 180 * 1737530 / pix) := by omega
    unfold cylindrical at hf
    dsimp only at hf
    split_ifs at hf with h
    · rw [List.mem_singleton] at hf
      subst hf
      exact cylindricalFile_beyond _ hle hres _ _ lon lat hl hp hc
    · simp only [List.mem_cons, List.not_mem_nil, or_false] at hf
      rcases hf with rfl | rfl | rfl | rfl | rfl <;> exact cylindricalFile_beyond _ hle hres _ _ lon lat hl hp hc

/-- The region from 55° to 65° north at 512 pixels per degree; a polar file that has the point at 65° exists. -/
example : (∃ fs, demFiles (π / 180 * 1737530 / 512) (55, 65) (1, 20) = some fs ∧ ¬ Covered fs 10 65) ∧
    (DemFile.polar true 45 100).Covers 10 65 ∧ (⟨100, 45, true⟩ : Polar) ∈ polarTable := by
  refine ⟨?_, by norm_num [DemFile.Covers, towards], by simp [polarTable]⟩
  have hq : π / 180 * 1737530 / (π / 180 * 1737530 / 512) = 512 := by
    have := pi_pos
    field_simp
  obtain ⟨fs, h1, h2⟩ := C53_straddle_fails (π / 180 * 1737530 / 512) (by rw [hq]; norm_num) (55, 65) (1, 20) (by norm_num) (by norm_num)
  exact ⟨fs, h1, h2 10 65 (by norm_num)⟩

/-- The edge 60° S itself is looked for in a tile that does not exist, at every longitude. -/
theorem C53_edge_fails (lon : ℝ) : ¬ (cylindricalFile 512 lon (-60)).Published ∧ ¬ (cylindricalFile 256 lon (-60)).Published := by
  constructor
  · unfold cylindricalFile
    rw [if_pos (by norm_num)]
    unfold DemFile.Published tileOf
    simp only [tileSize, if_true]
    have hr : latRow 30 (-60) = 60 := by unfold latRow; norm_num [abs_of_neg]
    rw [hr]
    norm_num
  · unfold cylindricalFile
    rw [if_pos (by norm_num)]
    unfold DemFile.Published tileOf
    simp only [tileSize]
    have hr : latRow 60 (-60) = 60 := by unfold latRow; norm_num [abs_of_neg]
    norm_num [hr]

/-- Close to the north pole at pixels of less than 7.5 m, the selection raises although the file with a resolution of 5 m covers the region. -/
theorem C53_polar_fails (pix : ℝ) (hpix : pix < 7.5) (latR : ℝ × ℝ) (h : 87.5 ≤ latR.1) :
    polar pix latR = none ∧ (⟨5, 87.5, false⟩ : Polar) ∈ polarTable ∧
    ∀ lon lat : ℝ, latR.1 ≤ lat → (DemFile.polar true 87.5 5).Covers lon lat := by
  refine ⟨?_, by simp [polarTable], ?_⟩
  · have h0 : 0 < latR.1 := by linarith
    have key : ∀ a b : ℝ, b < a → 2 * pix < a + b → |pix - b| < |pix - a| := by
      intro a b hab h2
      rw [abs_sub_comm pix a, abs_of_pos (show 0 < a - pix by linarith), abs_lt]
      constructor <;> linarith
    have hall : polarTable.filter (fun p => decide (p.minLat ≤ |latR.1|)) = polarTable := by
      rw [List.filter_eq_self]
      intro q hq
      rw [abs_of_pos h0, decide_eq_true_eq]
      simp only [polarTable, List.mem_cons, List.not_mem_nil, or_false] at hq
      rcases hq with rfl | rfl | rfl | rfl | rfl | rfl | rfl | rfl | rfl | rfl | rfl | rfl <;> norm_num at h ⊢ <;> linarith
    have hbest : argmin (fun q : Polar => |pix - q.res|) ⟨400, 45, true⟩ polarTable.tail = ⟨5, 87.5, false⟩ := by
      unfold polarTable
      simp only [argmin, List.tail_cons]
      rw [if_pos (key _ _ (by norm_num) (by push_cast; linarith)), if_pos (key _ _ (by norm_num) (by push_cast; linarith)),
        if_pos (key _ _ (by norm_num) (by push_cast; linarith)), if_pos (key _ _ (by norm_num) (by push_cast; linarith)),
        if_pos (key _ _ (by norm_num) (by push_cast; linarith)), if_pos (key _ _ (by norm_num) (by push_cast; linarith)),
        if_pos (key _ _ (by norm_num) (by push_cast; linarith)), if_pos (key _ _ (by norm_num) (by push_cast; linarith)),
        if_pos (key _ _ (by norm_num) (by push_cast; linarith)), if_pos (key _ _ (by norm_num) (by push_cast; linarith)),
        if_pos (key _ _ (by norm_num) (by push_cast; linarith))]
    have hcons : polarTable = ⟨400, 45, true⟩ :: polarTable.tail := rfl
    unfold polar
    simp only [if_pos h0, hall]
    rw [hcons]
    simp only [hbest]
    simp
  · intro lon lat hlat
    simp only [DemFile.Covers, towards, if_true]
    linarith

example : polar 5 (88, 90) = none := (C53_polar_fails 5 (by norm_num) (88, 90) (by norm_num)).1

example : ∃ (pix : ℝ) (latR lonR : ℝ × ℝ), 0 < pix ∧ pix < 3000 ∧ latR.1 < latR.2 ∧ -360 ≤ lonR.1 ∧ latR.2 - latR.1 ≤ 30 ∧
    lonR.2 - lonR.1 ≤ 45 ∧ (60 < latR.1 ∧ latR.1 < 87.5) := ⟨100, (70, 80), (0, 40), by norm_num⟩

/-! ### Composition -/

/-- The composed elevation is that of a data set that covers the point if there is one, and zero otherwise; if
only one covers the point, it is that one.  Missing: with several, not necessarily the nearest, see
`C65_nearest_fails`. -/
theorem C65_composed_partial (lon lat : ℝ) (rs : List Reading) :
    ((∀ r ∈ rs, r = none) → composed lon lat rs = 0) ∧
    ((∃ r ∈ rs, r ≠ none) → ∃ p e, some (p, e) ∈ rs ∧ composed lon lat rs = e ∧
      ∀ p' e', some (p', e') ∈ rs → orderable lon lat p.1 p.2 ≤ orderable lon lat p'.1 p'.2) := by
  have bmem : ∀ (a : Reading) (l : List Reading), best lon lat a l ∈ a :: l := by
    intro a l
    induction l generalizing a with
    | nil => simp [best]
    | cons b bs ih =>
      unfold best
      split_ifs
      · have := ih b; simp only [List.mem_cons] at this ⊢; tauto
      · have := ih a; simp only [List.mem_cons] at this ⊢; tauto
  have bmin : ∀ (a : Reading) (l : List Reading), ∀ x ∈ a :: l, readingDist lon lat (best lon lat a l) ≤ readingDist lon lat x := by
    intro a l
    induction l generalizing a with
    | nil => intro x hx; simp at hx; subst hx; simp [best]
    | cons b bs ih =>
      intro x hx
      unfold best
      split_ifs with h
      · rcases List.mem_cons.mp hx with rfl | hx
        · exact le_trans (ih b b (by simp)) h.le
        · exact ih b x hx
      · push Not at h
        rcases List.mem_cons.mp hx with rfl | hx
        · exact ih x x (by simp)
        · rcases List.mem_cons.mp hx with rfl | hx
          · exact le_trans (ih a a (by simp)) h
          · exact ih a x (by simp [hx])
  cases rs with
  | nil => simp [composed]
  | cons a as =>
    have h1 := bmem a as
    have h2 := bmin a as
    constructor
    · intro hall
      have := hall _ h1
      simp only [composed, this]
    · rintro ⟨r, hr, hne⟩
      rcases hb : best lon lat a as with _ | ⟨p, e⟩
      · have := h2 r hr
        rw [hb] at this
        obtain ⟨⟨p, e⟩, rfl⟩ := Option.ne_none_iff_exists'.mp hne
        simp [readingDist] at this
      · refine ⟨p, e, ?_, ?_, ?_⟩
        · rw [← hb]; exact h1
        · simp only [composed, hb]
        · intro p' e' hm
          have := h2 _ hm
          rw [hb] at this
          simp only [readingDist] at this
          exact WithTop.coe_le_coe.mp this

theorem orderable_eq (lon1 lat1 lon2 lat2 : ℝ) : orderable lon1 lat1 lon2 lat2 =
    (1 - cos (InnerProductGeometry.angle (Verif.Sphere.unit (lon1 - π) (lat1 * (π / 180)))
      (Verif.Sphere.unit (lon2 * (π / 180)) (lat2 * (π / 180))))) / 2 := by
  have half : ∀ x : ℝ, sin (x / 2) ^ 2 = (1 - cos x) / 2 := by
    intro x
    have := cos_sq (x / 2)
    have h2 := sin_sq_add_cos_sq (x / 2)
    rw [show 2 * (x / 2) = x by ring] at this
    linarith
  rw [InnerProductGeometry.cos_angle, Verif.Sphere.norm_unit, Verif.Sphere.norm_unit, Verif.Sphere.inner_unit]
  unfold orderable
  simp only
  rw [half, half, cos_sub (lat2 * (π / 180)), cos_sub_int_mul_two_pi]
  rw [show lon2 * (π / 180) - (lon1 - π) = lon2 * (π / 180) - lon1 + π by ring]
  ring

/-- Exact extent of the defect: the data set that is used is the one whose pixel is nearest, in great-circle distance, to the
point of the same latitude whose longitude in radians is the number of degrees of the point's longitude, less half a turn. -/
theorem C65_nearest_to (lon lat : ℝ) (rs : List Reading) (h : ∃ r ∈ rs, r ≠ none) :
    ∃ p e, some (p, e) ∈ rs ∧ composed lon lat rs = e ∧ ∀ p' e', some (p', e') ∈ rs →
      Verif.Sphere.distance (lon - π) (lat * (π / 180)) (p.1 * (π / 180)) (p.2 * (π / 180)) 1 ≤
        Verif.Sphere.distance (lon - π) (lat * (π / 180)) (p'.1 * (π / 180)) (p'.2 * (π / 180)) 1 := by
  obtain ⟨p, e, hm, hc, hmin⟩ := (C65_composed_partial lon lat rs).2 h
  refine ⟨p, e, hm, hc, fun p' e' hm' => ?_⟩
  have := hmin p' e' hm'
  rw [orderable_eq, orderable_eq] at this
  rw [Verif.Sphere.C41_great_circle, Verif.Sphere.C41_great_circle, one_mul, one_mul]
  by_contra hlt
  push Not at hlt
  have := cos_lt_cos_of_nonneg_of_le_pi (InnerProductGeometry.angle_nonneg _ _) (InnerProductGeometry.angle_le_pi _ _) hlt
  linarith

example : ∃ r ∈ ([none, some ((0, 0), 5), some ((90, 0), 7)] : List Reading), r ≠ none := ⟨some ((0, 0), 5), by simp, by simp⟩

/-- Of two data sets, one with a pixel exactly at the point and one with a pixel 90° away, the second is used. -/
theorem C65_nearest_fails (e₁ e₂ : ℝ) :
    composed 0 0 [some ((0, 0), e₁), some ((90, 0), e₂)] = e₂ ∧
    Verif.Sphere.distance 0 0 0 0 1 < Verif.Sphere.distance 0 0 (90 * (π / 180)) 0 1 := by
  have hpi := pi_pos
  have o1 : orderable 0 0 0 0 = 1 := by
    unfold orderable
    simp only
    have hfl : ⌊(0 * (π / 180) - 0 + π) / (2 * π)⌋ = 0 := by
      have : (0 * (π / 180) - 0 + π) / (2 * π) = 1 / 2 := by field_simp; ring
      rw [this]; norm_num
    rw [hfl]
    simp
  have o2 : orderable 0 0 90 0 = 1 / 2 := by
    unfold orderable
    simp only
    have hfl : ⌊(90 * (π / 180) - 0 + π) / (2 * π)⌋ = 0 := by
      have : (90 * (π / 180) - 0 + π) / (2 * π) = 3 / 4 := by field_simp; ring
      rw [this]; norm_num
    rw [hfl]
    have e : (90 * (π / 180) - 0 + π - ((0 : ℤ) : ℝ) * (2 * π)) / 2 = π / 2 + π / 4 := by push_cast; ring
    rw [e, sin_add, sin_pi_div_two, cos_pi_div_two, cos_pi_div_four]
    simp
    rw [div_pow, sq_sqrt (by norm_num)]
    norm_num
  constructor
  · have hlt : readingDist 0 0 (some (((90 : ℝ), (0 : ℝ)), e₂)) < readingDist 0 0 (some (((0 : ℝ), (0 : ℝ)), e₁)) := by
      simp only [readingDist, o1, o2]
      exact WithTop.coe_lt_coe.mpr (by norm_num)
    simp only [composed, best]
    rw [if_pos hlt]
  · rw [Verif.Sphere.C41_great_circle, Verif.Sphere.C41_great_circle]
    have e : (90 : ℝ) * (π / 180) = π / 2 := by ring
    rw [e]
    unfold InnerProductGeometry.angle
    rw [Verif.Sphere.norm_unit, Verif.Sphere.norm_unit, Verif.Sphere.inner_unit, Verif.Sphere.inner_unit]
    simp
    exact hpi

/-- Whatever is called on a composer, data is applied to the surface at most once, never after a cancel, and when it is
applied it is all the data added and the composer is finished. -/
theorem C65_once {D : Type} (l : List (Call D)) :
    (calls (fresh : Composer D) l).applied.length ≤ 1 ∧
    ((calls (fresh : Composer D) l).applied ≠ [] → (calls (fresh : Composer D) l).finished = true) ∧
    (∀ l₁ l₂, l = l₁ ++ Call.cancel :: l₂ → (calls (fresh : Composer D) l).applied = (calls (fresh : Composer D) l₁).applied) ∧
    (∀ l₁ l₂, l = l₁ ++ Call.finish true :: l₂ → (calls (fresh : Composer D) l₁).finished = false →
      (calls (fresh : Composer D) l).applied = [(calls (fresh : Composer D) l₁).data]) := by
  have inv : ∀ (l : List (Call D)) (c : Composer D), (c.applied ≠ [] → c.finished = true) → c.applied.length ≤ 1 →
      ((calls c l).applied ≠ [] → (calls c l).finished = true) ∧ (calls c l).applied.length ≤ 1 := by
    intro l
    induction l with
    | nil => intro c h1 h2; exact ⟨h1, h2⟩
    | cons a t ih =>
      intro c h1 h2
      have hfin : ∀ ok, ((doFinish c ok).applied ≠ [] → (doFinish c ok).finished = true) ∧ (doFinish c ok).applied.length ≤ 1 := by
        intro ok
        unfold doFinish
        split_ifs with hf hok
        · exact ⟨h1, h2⟩
        · have : c.applied = [] := by
            by_contra hc; exact hf (h1 hc)
          simp [this]
        · exact ⟨h1, h2⟩
      have hcan : ((doCancel c).applied ≠ [] → (doCancel c).finished = true) ∧ (doCancel c).applied.length ≤ 1 :=
        ⟨fun _ => rfl, h2⟩
      have hstep : ((call c a).applied ≠ [] → (call c a).finished = true) ∧ (call c a).applied.length ≤ 1 := by
        cases a with
        | add ds => unfold call; split_ifs <;> exact ⟨h1, h2⟩
        | cancel => exact hcan
        | finish ok => exact hfin ok
        | exit exc ok =>
          simp only [call]
          split_ifs
          · exact ⟨h1, h2⟩
          · exact hcan
          · exact hfin ok
      exact ih (call c a) hstep.1 hstep.2
  have stuck : ∀ (l : List (Call D)) (c : Composer D), c.finished = true → (calls c l).applied = c.applied := by
    intro l
    induction l with
    | nil => intro c _; rfl
    | cons a t ih =>
      intro c h
      have hs : (call c a).finished = true ∧ (call c a).applied = c.applied := by
        cases a with
        | add ds => simp [call, h]
        | cancel => simp [call, doCancel]
        | finish ok => simp [call, doFinish, h]
        | exit exc ok => simp [call, h]
      have : calls c (a :: t) = calls (call c a) t := rfl
      rw [this, ih _ hs.1, hs.2]
  have app : ∀ (l₁ l₂ : List (Call D)) (c : Composer D), calls c (l₁ ++ l₂) = calls (calls c l₁) l₂ := by
    intro l₁ l₂ c; simp [calls, List.foldl_append]
  obtain ⟨i1, i2⟩ := inv l fresh (by simp [fresh]) (by simp [fresh])
  refine ⟨i2, i1, ?_, ?_⟩
  · rintro l₁ l₂ rfl
    rw [app]
    have : calls (calls (fresh : Composer D) l₁) (Call.cancel :: l₂) = calls (doCancel (calls (fresh : Composer D) l₁)) l₂ := rfl
    rw [this, stuck _ _ rfl]
    rfl
  · rintro l₁ l₂ rfl hf
    obtain ⟨j1, _⟩ := inv l₁ fresh (by simp [fresh]) (by simp [fresh])
    have hempty : (calls (fresh : Composer D) l₁).applied = [] := by
      by_contra hc; rw [j1 hc] at hf; simp at hf
    rw [app]
    have : calls (calls (fresh : Composer D) l₁) (Call.finish true :: l₂) = calls (doFinish (calls (fresh : Composer D) l₁) true) l₂ := rfl
    rw [this, stuck]
    · simp [doFinish, hf, hempty]
    · simp [doFinish, hf]

example : (calls (fresh : Composer ℕ) [.add [1], .add [2, 3]]).finished = false ∧
    (calls (fresh : Composer ℕ) [.add [1], .add [2, 3]]).data = [1, 2, 3] := by
  simp [calls, call, fresh]

/-- A composer stays open while data are only added: all data are kept in their order, and finishing then applies all of them. -/
theorem C65_open {D : Type} (ls : List (List D)) :
    (calls (fresh : Composer D) (ls.map Call.add)).finished = false ∧
      (calls (fresh : Composer D) (ls.map Call.add)).data = ls.flatten ∧
      (calls (fresh : Composer D) (ls.map Call.add ++ [Call.finish true])).applied = [ls.flatten] ∧
      (calls (fresh : Composer D) (ls.map Call.add ++ [Call.exit false true])).applied = [ls.flatten] := by
  have h : ∀ (ls : List (List D)) (c : Composer D), c.finished = false →
      calls c (ls.map Call.add) = { c with data := c.data ++ ls.flatten } := by
    intro ls
    induction ls with
    | nil => intro c _; simp [calls]
    | cons a as ih =>
      intro c hc
      have h1 : calls c ((a :: as).map Call.add) = calls (call c (Call.add a)) (as.map Call.add) := rfl
      have h2 : call c (Call.add a) = { c with data := c.data ++ a } := by simp [call, hc]
      rw [h1, h2, ih { c with data := c.data ++ a } hc]
      simp
  have hf := h ls fresh rfl
  have happ : ∀ x, calls (fresh : Composer D) (ls.map Call.add ++ [x]) = call (calls fresh (ls.map Call.add)) x := by
    intro x; simp [calls]
  refine ⟨by rw [hf]; rfl, by rw [hf]; simp [fresh], ?_, ?_⟩
  · rw [happ, hf]; simp [call, doFinish, fresh]
  · rw [happ, hf]; simp [call, doFinish, fresh]

/-- C65 (a finished composer is empty): after a composer has finished or was cancelled it holds no data, whatever calls follow, and
calls that add data leave it so. -/
theorem C65_released {D : Type} (l : List (Call D)) (h : (calls (fresh : Composer D) l).finished = true) :
    (calls (fresh : Composer D) l).data = [] ∧
    ∀ ds, (calls (fresh : Composer D) (l ++ [Call.add ds])).data = [] := by
  have inv : ∀ (l : List (Call D)) (c : Composer D), (c.finished = true → c.data = []) →
      ((calls c l).finished = true → (calls c l).data = []) := by
    intro l
    induction l with
    | nil => intro c h; exact h
    | cons a t ih =>
      intro c h
      apply ih (call c a)
      have hfin : ∀ ok, (doFinish c ok).finished = true → (doFinish c ok).data = [] := by
        intro ok
        unfold doFinish
        split_ifs
        · exact h
        · intro _; rfl
        · exact h
      cases a with
      | add ds =>
        unfold call
        split_ifs with hc
        · exact h
        · intro hf
          exact absurd hf hc
      | cancel => intro _; rfl
      | finish ok => exact hfin ok
      | exit exc ok =>
        simp only [call]
        split_ifs
        · exact h
        · intro _; rfl
        · exact hfin ok
  refine ⟨inv l fresh (by simp [fresh]) h, fun ds => ?_⟩
  have happ : calls (fresh : Composer D) (l ++ [Call.add ds]) = call (calls (fresh : Composer D) l) (Call.add ds) := by
    simp [calls, List.foldl_append]
  rw [happ]
  simp only [call, h, if_true]
  exact inv l fresh (by simp [fresh]) h

example : (calls (fresh : Composer ℕ) [.add [1], .finish true]).finished = true := by simp [calls, call, fresh, doFinish]

end Verif.Dem
