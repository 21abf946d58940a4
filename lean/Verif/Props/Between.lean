import Verif.Props.Sample

/-! Sizes between the diameters of the table: the numbers that sampled craters follow (properties C151 and C203). -/

namespace Verif.Sampling

/-- `N` continues the numbers of the table by power laws: between two neighbouring diameters of the table it is the power law through the two
numbers. -/
def ByPowerLaws (F : ℝ → ℝ) (lo hi : ℝ) (N : ℝ → ℝ) : Prop :=
  ∀ j < 49, ∀ d, sizeGrid lo hi j ≤ d → d ≤ sizeGrid lo hi (j + 1) →
    N d = F (sizeGrid lo hi j) * (d / sizeGrid lo hi j) ^
      (Real.log (F (sizeGrid lo hi (j + 1)) / F (sizeGrid lo hi j)) / Real.log (sizeGrid lo hi (j + 1) / sizeGrid lo hi j))

/-- Every diameter of the range lies between two neighbouring ones of the table. -/
theorem between_grid {lo hi : ℝ} (h0 : 0 < lo) (h : lo < hi) (d : ℝ) (h1 : lo ≤ d) (h2 : d ≤ hi) :
    ∃ j < 49, sizeGrid lo hi j ≤ d ∧ d ≤ sizeGrid lo hi (j + 1) := by
  have key : ∀ n, d ≤ sizeGrid lo hi (n + 1) → ∃ j ≤ n, sizeGrid lo hi j ≤ d ∧ d ≤ sizeGrid lo hi (j + 1) := by
    intro n
    induction n with
    | zero => exact fun hn => ⟨0, le_rfl, by rw [sizeGrid_lo lo hi h0]; exact h1, hn⟩
    | succ n ih =>
      intro hn
      rcases le_total d (sizeGrid lo hi (n + 1)) with hc | hc
      · obtain ⟨j, hj, q⟩ := ih hc
        exact ⟨j, by omega, q⟩
      · exact ⟨n + 1, le_rfl, hc, hn⟩
  obtain ⟨j, hj, q⟩ := key 48 (by rw [show 48 + 1 = 49 from rfl, sizeGrid_hi lo hi (h0.trans h)]; exact h2)
  exact ⟨j, by omega, q⟩

variable {F N : ℝ → ℝ} {lo hi : ℝ}

theorem Population.grid_pos (p : Population F lo hi) (j : ℕ) (hj : j ≤ 49) : 0 < F (sizeGrid lo hi j) := by
  have hm := sizeGrid_mem lo hi p.lo_pos p.lo_lt j hj
  exact lt_of_lt_of_le p.pos (p.anti hm ⟨p.lo_lt.le, le_rfl⟩ hm.2)

/-- The logarithm of the number, a straight line between the entries of the table. -/
theorem log_between (p : Population F lo hi) (hN : ByPowerLaws F lo hi N) (j : ℕ) (hj : j < 49) (d : ℝ) (h1 : sizeGrid lo hi j ≤ d)
    (h2 : d ≤ sizeGrid lo hi (j + 1)) :
    0 < N d ∧ Real.log (N d) = Real.log (F (sizeGrid lo hi j)) +
      (Real.log d - Real.log (sizeGrid lo hi j)) *
        ((Real.log (F (sizeGrid lo hi (j + 1))) - Real.log (F (sizeGrid lo hi j))) /
          (Real.log (sizeGrid lo hi (j + 1)) - Real.log (sizeGrid lo hi j))) := by
  have g0 : 0 < sizeGrid lo hi j := Real.exp_pos _
  have g1 : 0 < sizeGrid lo hi (j + 1) := Real.exp_pos _
  have f0 := p.grid_pos j (by omega)
  have f1 := p.grid_pos (j + 1) (by omega)
  have hd : 0 < d := lt_of_lt_of_le g0 h1
  rw [hN j hj d h1 h2]
  have hp : 0 < (d / sizeGrid lo hi j) ^ (Real.log (F (sizeGrid lo hi (j + 1)) / F (sizeGrid lo hi j)) /
      Real.log (sizeGrid lo hi (j + 1) / sizeGrid lo hi j)) := Real.rpow_pos_of_pos (div_pos hd g0) _
  refine ⟨mul_pos f0 hp, ?_⟩
  rw [Real.log_mul f0.ne' hp.ne', Real.log_rpow (div_pos hd g0), Real.log_div hd.ne' g0.ne', Real.log_div f1.ne' f0.ne',
    Real.log_div g1.ne' g0.ne']
  ring

theorem between_bounds (p : Population F lo hi) (hN : ByPowerLaws F lo hi N) (j : ℕ) (hj : j < 49) (d : ℝ) (h1 : sizeGrid lo hi j ≤ d)
    (h2 : d ≤ sizeGrid lo hi (j + 1)) : F (sizeGrid lo hi (j + 1)) ≤ N d ∧ N d ≤ F (sizeGrid lo hi j) := by
  obtain ⟨hp, hl⟩ := log_between p hN j hj d h1 h2
  have g0 : 0 < sizeGrid lo hi j := Real.exp_pos _
  have f0 := p.grid_pos j (by omega)
  have f1 := p.grid_pos (j + 1) (by omega)
  have hs := sizeGrid_strict lo hi p.lo_pos p.lo_lt (Nat.lt_succ_self j)
  have ha : Real.log (F (sizeGrid lo hi (j + 1))) ≤ Real.log (F (sizeGrid lo hi j)) :=
    Real.log_le_log f1 (p.anti (sizeGrid_mem lo hi p.lo_pos p.lo_lt j (by omega)) (sizeGrid_mem lo hi p.lo_pos p.lo_lt (j + 1) (by omega)) hs.le)
  have hw : 0 < Real.log (sizeGrid lo hi (j + 1)) - Real.log (sizeGrid lo hi j) := by linarith [Real.log_lt_log g0 hs]
  have hx0 : 0 ≤ Real.log d - Real.log (sizeGrid lo hi j) := by linarith [Real.log_le_log g0 h1]
  have hx1 : Real.log d - Real.log (sizeGrid lo hi j) ≤ Real.log (sizeGrid lo hi (j + 1)) - Real.log (sizeGrid lo hi j) := by
    linarith [Real.log_le_log (lt_of_lt_of_le g0 h1) h2]
  set w := Real.log (sizeGrid lo hi (j + 1)) - Real.log (sizeGrid lo hi j)
  set x := Real.log d - Real.log (sizeGrid lo hi j)
  set y := Real.log (F (sizeGrid lo hi (j + 1))) - Real.log (F (sizeGrid lo hi j)) with hy
  have hy0 : y ≤ 0 := by linarith
  have e : x * (y / w) = y * (x / w) := by ring
  have q0 : 0 ≤ x / w := div_nonneg hx0 hw.le
  have q1 : x / w ≤ 1 := (div_le_one hw).2 hx1
  rw [e] at hl
  constructor
  · rw [← Real.log_le_log_iff f1 hp, hl]; nlinarith
  · rw [← Real.log_le_log_iff hp f0, hl]; nlinarith

/-- Which draws give a crater larger than a diameter of the range: a fraction of them that is given by the number of craters. -/
theorem drawSize_between (p : Population F lo hi) (hN : ByPowerLaws F lo hi N) (t : ℝ) (ht0 : 0 ≤ t) (ht1 : t < 1) (d : ℝ) (h1 : lo ≤ d)
    (h2 : d ≤ hi) (D : ℝ) (hD : drawSize (sizeTable F lo hi) t 0 = .ok D) :
    d < D ↔ t < (N d - F hi) / (F lo - F hi) := by
  obtain ⟨c0, c1⟩ := p.frac
  have hlp : 0 < F lo := p.pos.trans p.more
  have hsub : 0 < F lo - F hi := by linarith [p.more]
  have hu : ∀ x : ℝ, (F hi / F lo + (1 - F hi / F lo) * t < x / F lo ↔ t < (x - F hi) / (F lo - F hi)) := by
    intro x
    rw [lt_div_iff₀ hsub, lt_div_iff₀ hlp]
    have : (F hi / F lo + (1 - F hi / F lo) * t) * F lo = F hi + (F lo - F hi) * t := by field_simp
    rw [this]
    constructor <;> intro h <;> linarith
  have hu0 : F hi / F lo ≤ F hi / F lo + (1 - F hi / F lo) * t := by nlinarith
  have hu1 : F hi / F lo + (1 - F hi / F lo) * t < 1 := by nlinarith
  have T := p.table
  obtain ⟨D', hD', -, -, hs⟩ := drawSize_spec p t 0 ht0 ht1 le_rfl one_pos
  rw [hD] at hD'
  cases hD'
  simp only [mul_zero, add_zero, mul_one] at hs
  rw [← hu (N d)]
  unfold drawSize at hD
  rw [p.lowest] at hD
  generalize F hi / F lo + (1 - F hi / F lo) * t = u at *
  have hup : 0 < u := lt_of_lt_of_le c0 hu0
  obtain ⟨j, hj, j1, j2⟩ := between_grid p.lo_pos p.lo_lt d h1 h2
  obtain ⟨b1, b2⟩ := between_bounds p hN j hj d j1 j2
  rcases lt_or_ge u (F (sizeGrid lo hi (j + 1)) / F lo) with hc | hc
  · exact ⟨fun _ => lt_of_lt_of_le hc (div_le_div_of_nonneg_right b1 hlp.le), fun _ => lt_of_le_of_lt j2 ((hs (j + 1) (by omega)).1 hc)⟩
  rcases le_or_gt (F (sizeGrid lo hi j) / F lo) u with hc' | hc'
  · constructor
    · intro h
      have := (hs j (by omega)).2 hc'
      linarith
    · intro h
      have := div_le_div_of_nonneg_right b2 hlp.le
      linarith
  -- the draw falls between the same two entries
  obtain ⟨k, e0, e1, q0, q1, a0, a1, -, hr⟩ := size_segment (u := u) T hu0 hu1 0
  have hlen : (sizeTable F lo hi).length = 50 := by simp [sizeTable]
  have hk50 : k + 1 < 50 := by
    obtain ⟨h, _⟩ := List.getElem?_eq_some_iff.mp q1
    omega
  rw [sizeTable_get _ _ _ _ (by omega)] at q0 q1
  have hmono := (sizeGrid_strict lo hi p.lo_pos p.lo_lt).monotone
  have hanti : ∀ a b, a ≤ b → b ≤ 49 → F (sizeGrid lo hi b) / F lo ≤ F (sizeGrid lo hi a) / F lo := fun a b hab hb =>
    div_le_div_of_nonneg_right (p.anti (sizeGrid_mem lo hi p.lo_pos p.lo_lt a (by omega)) (sizeGrid_mem lo hi p.lo_pos p.lo_lt b hb) (hmono hab))
      hlp.le
  have he0 := Option.some.inj q0
  have he1 := Option.some.inj q1
  rw [← he0] at a0
  rw [← he1] at a1
  simp only at a0 a1
  have hkj : 49 - (k + 1) = j := by
    by_contra hne
    rcases Nat.lt_or_gt_of_ne hne with h | h
    · have := hanti (49 - k) j (by omega) (by omega)
      linarith
    · have := hanti (j + 1) (49 - (k + 1)) (by omega) (by omega)
      linarith
  have hkj' : 49 - k = j + 1 := by omega
  rw [hkj] at he1
  rw [hkj'] at he0
  rw [hD, ← he0, ← he1] at hr
  injection hr with hr
  obtain ⟨hNp, hNl⟩ := log_between p hN j hj d j1 j2
  have g0 : 0 < sizeGrid lo hi j := Real.exp_pos _
  have f0 := p.grid_pos j (by omega)
  have f1 := p.grid_pos (j + 1) (by omega)
  have hs' := sizeGrid_strict lo hi p.lo_pos p.lo_lt (Nat.lt_succ_self j)
  have hd : 0 < d := lt_of_lt_of_le g0 j1
  have hw : 0 < Real.log (sizeGrid lo hi (j + 1)) - Real.log (sizeGrid lo hi j) := by linarith [Real.log_lt_log g0 hs']
  have hy : Real.log (F (sizeGrid lo hi (j + 1))) < Real.log (F (sizeGrid lo hi j)) := by
    apply Real.log_lt_log f1
    have := lt_of_le_of_lt hc hc'
    rwa [div_lt_div_iff_of_pos_right hlp] at this
  simp only [interpolate, mul_zero, add_zero, mul_one] at hr
  rw [← Real.log_lt_log_iff hup (div_pos hNp hlp), Real.log_div hNp.ne' hlp.ne', hNl, hr, ← Real.log_lt_iff_lt_exp hd,
    Real.log_div f0.ne' hlp.ne', Real.log_div f1.ne' hlp.ne']
  set a := Real.log (sizeGrid lo hi j)
  set b := Real.log (sizeGrid lo hi (j + 1))
  set y0 := Real.log (F (sizeGrid lo hi j))
  set y1 := Real.log (F (sizeGrid lo hi (j + 1)))
  set v := Real.log u
  set c := Real.log (F lo)
  set x := Real.log d
  have hy' : 0 < y0 - y1 := by linarith
  have e1 : y0 - c - (y1 - c) = y0 - y1 := by ring
  rw [e1]
  have hw' : b - a ≠ 0 := hw.ne'
  have hy'' : y0 - y1 ≠ 0 := hy'.ne'
  have e2 : b + (v - (y1 - c)) / (y0 - y1) * (a - b) = (b * (y0 - y1) + (v - (y1 - c)) * (a - b)) / (y0 - y1) := by
    field_simp
  have e3 : y0 + (x - a) * ((y1 - y0) / (b - a)) - c = ((y0 - c) * (b - a) + (x - a) * (y1 - y0)) / (b - a) := by
    field_simp
    ring
  rw [e2, e3, lt_div_iff₀ hy', lt_div_iff₀ hw]
  constructor <;> intro h <;> nlinarith

/-- The continuation agrees with the numbers of the table at its diameters. -/
theorem ByPowerLaws.at_grid (p : Population F lo hi) (hN : ByPowerLaws F lo hi N) (j : ℕ) (hj : j ≤ 49) :
    N (sizeGrid lo hi j) = F (sizeGrid lo hi j) := by
  have hm := (sizeGrid_strict lo hi p.lo_pos p.lo_lt).monotone
  rcases Nat.lt_or_ge j 49 with h | h
  · have hg : sizeGrid lo hi j ≠ 0 := (Real.exp_pos _).ne'
    rw [hN j h _ le_rfl (hm (Nat.le_succ j)), div_self hg, Real.one_rpow, mul_one]
  · obtain rfl : j = 48 + 1 := by omega
    obtain ⟨hp, hl⟩ := log_between p hN 48 (by omega) (sizeGrid lo hi (48 + 1)) (hm (by omega)) le_rfl
    apply Real.log_injOn_pos (Set.mem_Ioi.2 hp) (Set.mem_Ioi.2 (p.grid_pos (48 + 1) (by omega)))
    have hw : Real.log (sizeGrid lo hi (48 + 1)) - Real.log (sizeGrid lo hi 48) ≠ 0 := by
      have := Real.log_lt_log (Real.exp_pos _) (sizeGrid_strict lo hi p.lo_pos p.lo_lt (Nat.lt_succ_self 48))
      unfold sizeGrid at *
      linarith
    rw [hl]
    field_simp
    ring

/-- The continuation stays between the numbers of the ends and falls. -/
theorem ByPowerLaws.range (hN : ByPowerLaws F lo hi N) (p : Population F lo hi) (d : ℝ) (h1 : lo ≤ d) (h2 : d ≤ hi) : F hi ≤ N d ∧ N d ≤ F lo := by
  obtain ⟨j, hj, j1, j2⟩ := between_grid p.lo_pos p.lo_lt d h1 h2
  obtain ⟨b1, b2⟩ := between_bounds p hN j hj d j1 j2
  have m0 := sizeGrid_mem lo hi p.lo_pos p.lo_lt j (by omega)
  have m1 := sizeGrid_mem lo hi p.lo_pos p.lo_lt (j + 1) (by omega)
  exact ⟨(p.anti m1 ⟨p.lo_lt.le, le_rfl⟩ m1.2).trans b1, b2.trans (p.anti ⟨le_rfl, p.lo_lt.le⟩ m0 m0.1)⟩

theorem ByPowerLaws.anti (hN : ByPowerLaws F lo hi N) (p : Population F lo hi) (a b : ℝ) (h1 : lo ≤ a) (hab : a ≤ b) (h2 : b ≤ hi) : N b ≤ N a := by
  have hsub : 0 < F lo - F hi := by linarith [p.more]
  by_contra hc
  push Not at hc
  have ra := hN.range p a h1 (hab.trans h2)
  have rb := hN.range p b (h1.trans hab) h2
  -- a draw between the two numbers
  have t0 : 0 ≤ (N a - F hi) / (F lo - F hi) := div_nonneg (by linarith [ra.1]) hsub.le
  have tlt : (N a - F hi) / (F lo - F hi) < (N b - F hi) / (F lo - F hi) := div_lt_div_of_pos_right (by linarith) hsub
  have t1 : (N a - F hi) / (F lo - F hi) < 1 := lt_of_lt_of_le tlt ((div_le_one hsub).2 (by linarith [rb.2]))
  obtain ⟨D, hD, -⟩ := drawSize_spec p _ 0 t0 t1 le_rfl one_pos
  have q1 := (drawSize_between p hN _ t0 t1 b (h1.trans hab) h2 D hD).2 tlt
  have q2 := (drawSize_between p hN _ t0 t1 a h1 (hab.trans h2) D hD).1 (lt_of_le_of_lt hab q1)
  exact lt_irrefl _ q2

/-- A power law is its own continuation. -/
theorem byPowerLaws_self (c s : ℝ) (hc : 0 < c) (hlo : 0 < lo) (h : lo < hi) (hF : ∀ d, 0 < d → F d = c * d ^ s) :
    ByPowerLaws F lo hi F := by
  intro j hj d h1 h2
  have g0 : 0 < sizeGrid lo hi j := Real.exp_pos _
  have g1 : 0 < sizeGrid lo hi (j + 1) := Real.exp_pos _
  have hd : 0 < d := lt_of_lt_of_le g0 h1
  have hs := sizeGrid_strict lo hi hlo h (Nat.lt_succ_self j)
  have hw : Real.log (sizeGrid lo hi (j + 1) / sizeGrid lo hi j) ≠ 0 :=
    (Real.log_pos ((one_lt_div g0).2 hs)).ne'
  have e : Real.log (F (sizeGrid lo hi (j + 1)) / F (sizeGrid lo hi j)) / Real.log (sizeGrid lo hi (j + 1) / sizeGrid lo hi j) = s := by
    rw [hF _ g0, hF _ g1, mul_div_mul_left _ _ hc.ne', ← Real.div_rpow g1.le g0.le, Real.log_rpow (div_pos g1 g0)]
    field_simp
  rw [e, hF _ hd, hF _ g0, Real.div_rpow hd.le g0.le]
  have : sizeGrid lo hi j ^ s ≠ 0 := (Real.rpow_pos_of_pos g0 s).ne'
  field_simp

open MeasureTheory in
/-- The law of the sampled diameters at every diameter of the range, for the sizes before the noise of 10⁻⁸: for a uniform draw, the probability of a
crater larger than a diameter is the fraction of the craters in the range that are larger, where the numbers of craters are those of the
production function at the 50 diameters of the table and follow power laws between them. -/
theorem C151_between (p : Population F lo hi) (hN : ByPowerLaws F lo hi N) (d : ℝ) (h1 : lo ≤ d) (h2 : d ≤ hi) :
    (∀ j ≤ 49, N (sizeGrid lo hi j) = F (sizeGrid lo hi j)) ∧
    volume {t : ℝ | 0 ≤ t ∧ t < 1 ∧ ∃ D, drawSize (sizeTable F lo hi) t 0 = .ok D ∧ d < D} =
      ENNReal.ofReal ((N d - F hi) / (F lo - F hi)) := by
  refine ⟨fun j hj => hN.at_grid p j hj, ?_⟩
  have hsub : 0 < F lo - F hi := by linarith [p.more]
  have hr := hN.range p d h1 h2
  have he : {t : ℝ | 0 ≤ t ∧ t < 1 ∧ ∃ D, drawSize (sizeTable F lo hi) t 0 = .ok D ∧ d < D} =
      Set.Ico 0 ((N d - F hi) / (F lo - F hi)) := by
    ext t
    simp only [Set.mem_ofPred_eq, Set.mem_Ico]
    constructor
    · rintro ⟨t0, t1, D, hD, h⟩
      exact ⟨t0, (drawSize_between p hN t t0 t1 d h1 h2 D hD).1 h⟩
    · rintro ⟨t0, h⟩
      have t1 : t < 1 := lt_of_lt_of_le h ((div_le_one hsub).2 (by linarith [hr.2]))
      obtain ⟨D, hD, -⟩ := drawSize_spec p t 0 t0 t1 le_rfl one_pos
      exact ⟨t0, t1, D, hD, (drawSize_between p hN t t0 t1 d h1 h2 D hD).2 h⟩
  rw [he, Real.volume_Ico, sub_zero]

open MeasureTheory in
/-- For a production function that is a power law the fractions are those of the production function at every diameter of the range. -/
theorem C151_power_law (p : Population F lo hi) (c s : ℝ) (hF : ∀ d, 0 < d → F d = c * d ^ s) (d : ℝ) (h1 : lo ≤ d) (h2 : d ≤ hi) :
    volume {t : ℝ | 0 ≤ t ∧ t < 1 ∧ ∃ D, drawSize (sizeTable F lo hi) t 0 = .ok D ∧ d < D} =
      ENNReal.ofReal ((F d - F hi) / (F lo - F hi)) := by
  have hc : 0 < c := by
    have h := p.pos.trans p.more
    rw [hF lo p.lo_pos] at h
    exact pos_of_mul_pos_left h (Real.rpow_pos_of_pos p.lo_pos s).le
  exact (C151_between p (byPowerLaws_self c s hc p.lo_pos p.lo_lt hF) d h1 h2).2

/-- Every production function has such a continuation. -/
theorem exists_byPowerLaws (F : ℝ → ℝ) (p : Population F lo hi) : ∃ N, ByPowerLaws F lo hi N := by
  classical
  let law := fun (j : ℕ) (d : ℝ) => F (sizeGrid lo hi j) * (d / sizeGrid lo hi j) ^
      (Real.log (F (sizeGrid lo hi (j + 1)) / F (sizeGrid lo hi j)) / Real.log (sizeGrid lo hi (j + 1) / sizeGrid lo hi j))
  let In := fun (d : ℝ) (j : ℕ) => sizeGrid lo hi j ≤ d ∧ d ≤ sizeGrid lo hi (j + 1)
  refine ⟨fun d => if h : ∃ j, In d j then law (Nat.find h) d else 0, ?_⟩
  intro j hj d h1 h2
  have hex : ∃ j, In d j := ⟨j, h1, h2⟩
  simp only [dif_pos hex]
  have hle : Nat.find hex ≤ j := Nat.find_min' hex ⟨h1, h2⟩
  have hs := sizeGrid_strict lo hi p.lo_pos p.lo_lt
  rcases Nat.lt_or_ge (Nat.find hex) j with h | h
  · -- the diameter is an entry of the table
    set i := Nat.find hex with hi'
    have hi2 : d ≤ sizeGrid lo hi (i + 1) := (Nat.find_spec hex).2
    have hij : i + 1 = j := by
      by_contra hne
      have := hs (show i + 1 < j by omega)
      linarith
    have hd : d = sizeGrid lo hi j := by rw [hij] at hi2; linarith
    have g0 : 0 < sizeGrid lo hi i := Real.exp_pos _
    have g1 : 0 < sizeGrid lo hi j := Real.exp_pos _
    have f0 := p.grid_pos i (by omega)
    have f1 := p.grid_pos j (by omega)
    have hw : Real.log (sizeGrid lo hi j / sizeGrid lo hi i) ≠ 0 := (Real.log_pos ((one_lt_div g0).2 (hs (by omega)))).ne'
    have e : law i d = F (sizeGrid lo hi j) := by
      simp only [law, hij, hd]
      rw [Real.rpow_def_of_pos (div_pos g1 g0), mul_div_cancel₀ _ hw, Real.exp_log (div_pos f1 f0)]
      field_simp
    rw [e, hd, div_self g1.ne', Real.one_rpow, mul_one]
  · rw [show Nat.find hex = j by omega]

example : ∃ N, ByPowerLaws (fun d => d ^ (-3 : ℝ)) 10 12 N := exists_byPowerLaws _ cubes

end Verif.Sampling
