import Verif.Model.Recompute
import Verif.Props.Scaling

/-! Property C154: the transition factors that the scaling models set. -/

namespace Verif.Scaling

open Verif.Sampling

/-- What the library promises about a truncated normal number: it lies between the bounds asked for. -/
def TruncSound (trunc : ℝ → ℝ → ℝ) : Prop := ∀ a b, a ≤ b → a ≤ trunc a b ∧ trunc a b ≤ b

/-- A bounded normal number lies between its bounds. -/
theorem C154_bounds (trunc : ℝ → ℝ → ℝ) (ht : TruncSound trunc) (loc scale lo hi : ℝ) (hs : 0 < scale) (hlh : lo ≤ hi) :
    lo ≤ boundedNorm trunc loc scale (some lo) (some hi) ∧ boundedNorm trunc loc scale (some lo) (some hi) ≤ hi := by
  unfold boundedNorm normBounds
  simp only [Option.getD_some]
  have hab : (lo - loc) / scale ≤ (hi - loc) / scale := by gcongr
  obtain ⟨h1, h2⟩ := ht _ _ hab
  rw [div_le_iff₀ hs] at h1
  rw [le_div_iff₀ hs] at h2
  constructor <;> nlinarith

/-- Without bounds of its own it lies within one standard deviation of the mean. -/
theorem C154_deviation (trunc : ℝ → ℝ → ℝ) (ht : TruncSound trunc) (loc scale : ℝ) (hs : 0 < scale) :
    |boundedNorm trunc loc scale none none - loc| ≤ scale := by
  have h := C154_bounds trunc ht loc scale (loc - scale) (loc + scale) hs (by linarith)
  have e : boundedNorm trunc loc scale none none = boundedNorm trunc loc scale (some (loc - scale)) (some (loc + scale)) := rfl
  rw [e, abs_le]
  constructor <;> linarith [h.1, h.2]

theorem nominal_pos (k : Crust) (g : ℝ) : 0 < nominal k g := Real.rpow_pos_of_pos (by norm_num) _

/-- Whatever is drawn, the transition factors are in the ranges that the laws need: the simple enlargement between 1/0.88 and
1/0.80, the complex one 1.02, the exponent within 0.0001 of 0.079 and positive transition diameters. -/
theorem C154_recompute (k : Crust) (g : ℝ) (mc : Bool) (t1 t2 normal : ℝ → ℝ → ℝ) (h1 : TruncSound t1) (h2 : TruncSound t2) :
    (recompute k g mc t1 t2 normal).Ok ∧
    1 / 0.88 ≤ (recompute k g mc t1 t2 normal).s ∧ (recompute k g mc t1 t2 normal).s ≤ 1 / 0.8 ∧
    (recompute k g mc t1 t2 normal).c = 1.02 ∧ |(recompute k g mc t1 t2 normal).e - 0.079| ≤ 0.0001 ∧
    (recompute k g mc t1 t2 normal).mc = mc := by
  have b1 := abs_le.mp (C154_deviation t1 h1 0.84 0.04 (by norm_num))
  have b2 := abs_le.mp (C154_deviation t2 h2 0.079 0.0001 (by norm_num))
  have hn := nominal_pos k g
  cases mc
  · simp only [recompute, Bool.false_eq_true, if_false]
    refine ⟨⟨by norm_num, by norm_num, hn, hn, by norm_num, by norm_num⟩, by norm_num, by norm_num, trivial, by norm_num, trivial⟩
  · simp only [recompute, if_true]
    have hl : 0.8 ≤ boundedNorm t1 0.84 0.04 none none := by linarith [b1.1]
    have hu : boundedNorm t1 0.84 0.04 none none ≤ 0.88 := by linarith [b1.2]
    have hp : 0 < boundedNorm t1 0.84 0.04 none none := by linarith
    refine ⟨⟨one_div_pos.mpr hp, by norm_num, Real.rpow_pos_of_pos (by norm_num) _, hn, by linarith [b2.1], by linarith [b2.2]⟩,
      one_div_le_one_div_of_le hp hu, one_div_le_one_div_of_le (by norm_num) hl, trivial, abs_le.mpr b2, trivial⟩

/-- The same of the CTEM model. -/
theorem C154_ctem (k : Crust) (g : ℝ) (hg : 0 < g) :
    (ctemRecompute k g).Ok ∧ (ctemRecompute k g).s = 1 / 0.84 ∧ (ctemRecompute k g).c = 1.02 ∧ (ctemRecompute k g).e ≤ 0.16 ∧
    (ctemRecompute k g).t = (ctemRecompute k g).tn ∧ (ctemRecompute k g).mc = false := by
  have hg' := Real.rpow_pos_of_pos hg (ctemFit k).2.1
  have hf : 0 < (ctemFit k).1 * g ^ (ctemFit k).2.1 := mul_pos (by cases k <;> norm_num [ctemFit]) hg'
  refine ⟨⟨by norm_num [ctemRecompute], by norm_num [ctemRecompute], hf, hf, ?_, ?_⟩, rfl, rfl, ?_, rfl, rfl⟩ <;>
    cases k <;> norm_num [ctemRecompute, ctemFit]

/-- With the random version off every transition factor is the published one, the drawn transition diameter is the nominal one and
no draw is used. -/
theorem C154_off (k : Crust) (g : ℝ) (t1 t2 n t1' t2' n' : ℝ → ℝ → ℝ) :
    recompute k g false t1 t2 n = recompute k g false t1' t2' n' ∧
    (recompute k g false t1 t2 n).t = (recompute k g false t1 t2 n).tn ∧
    (recompute k g false t1 t2 n).s = 1 / 0.84 ∧ (recompute k g false t1 t2 n).e = 0.079 := ⟨rfl, rfl, rfl, rfl⟩

theorem nominal_strictAnti (k : Crust) {g g' : ℝ} (hg : 0 < g) (hlt : g < g') : nominal k g' < nominal k g := by
  unfold nominal
  apply Real.rpow_lt_rpow_of_exponent_lt (by norm_num)
  have := Real.logb_lt_logb (b := 10) (by norm_num) hg hlt
  cases k <;> simp only [transitionFit] <;> nlinarith

/-- The guide says that the CTEM model is the random one with its randomness turned off.  It is another law: on every body the two give the
same transient diameter for exactly one final diameter of a complex crater. -/
theorem C154_same_fails (k : Crust) (g : ℝ) (hg : 0 < g) (t1 t2 n : ℝ → ℝ → ℝ) :
    ∃! d, 0 < d ∧ f2tComplex (recompute k g false t1 t2 n) d = f2tComplex (ctemRecompute k g) d := by
  have hn : 0 < nominal k g := by unfold nominal; positivity
  have hc : 0 < (ctemFit k).1 * g ^ (ctemFit k).2.1 := by cases k <;> simp only [ctemFit] <;> positivity
  have he : (0.079 : ℝ) < (ctemFit k).2.2 := by cases k <;> norm_num [ctemFit]
  have h0 : (ctemFit k).2.2 - 0.079 ≠ 0 := by linarith
  have key : ∀ x, 0 < x → (f2tComplex (recompute k g false t1 t2 n) x = f2tComplex (ctemRecompute k g) x ↔
      ((ctemFit k).2.2 - 0.079) * Real.log x =
        (ctemFit k).2.2 * Real.log ((ctemFit k).1 * g ^ (ctemFit k).2.1) - 0.079 * Real.log (nominal k g)) := by
    intro x hx
    simp only [f2tComplex, recompute, ctemRecompute, Bool.false_eq_true, if_false]
    have hx0 : x / (1 / 0.84 * 1.02) ≠ 0 := by positivity
    have p1 : 0 < (x / nominal k g) ^ (-0.079 : ℝ) := by positivity
    have p2 : 0 < (x / ((ctemFit k).1 * g ^ (ctemFit k).2.1)) ^ (-(ctemFit k).2.2) := Real.rpow_pos_of_pos (div_pos hx hc) _
    rw [mul_right_inj' hx0, ← Real.log_injOn_pos.eq_iff (Set.mem_Ioi.2 p1) (Set.mem_Ioi.2 p2), Real.log_rpow (div_pos hx hn),
      Real.log_rpow (div_pos hx hc), Real.log_div hx.ne' hn.ne', Real.log_div hx.ne' hc.ne']
    constructor <;> intro hl <;> linarith
  refine ⟨Real.exp (((ctemFit k).2.2 * Real.log ((ctemFit k).1 * g ^ (ctemFit k).2.1) - 0.079 * Real.log (nominal k g)) /
    ((ctemFit k).2.2 - 0.079)), ⟨Real.exp_pos _, ?_⟩, fun d hd => ?_⟩
  · rw [key _ (Real.exp_pos _), Real.log_exp]
    field_simp
  · have e := (key d hd.1).1 hd.2
    rw [← e, mul_div_cancel_left₀ _ h0, Real.exp_log hd.1]

/-- On bodies of the same kind the nominal transition diameter falls as gravity rises, in both models. -/
theorem C154_gravity (k : Crust) (g g' : ℝ) (hg : 0 < g) (hlt : g < g') (mc mc' : Bool) (a b c a' b' c' : ℝ → ℝ → ℝ) :
    (recompute k g' mc' a' b' c').tn < (recompute k g mc a b c).tn ∧ (ctemRecompute k g').tn < (ctemRecompute k g).tn := by
  constructor
  · have := nominal_strictAnti k hg hlt
    cases mc <;> cases mc' <;> simpa [recompute] using this
  · simp only [ctemRecompute]
    apply mul_lt_mul_of_pos_left
    · apply Real.rpow_lt_rpow_of_neg hg hlt
      cases k <;> norm_num [ctemFit]
    · cases k <;> norm_num [ctemFit]

/-- The logarithm of the drawn transition diameter is the normal number, whose mean is the logarithm of the nominal diameter. -/
theorem C154_transition (k : Crust) (g : ℝ) (t1 t2 : ℝ → ℝ → ℝ) (z : ℝ) :
    Real.logb 10 (recompute k g true t1 t2 (fun mu sigma => mu + sigma * z)).t =
      Real.logb 10 (recompute k g true t1 t2 (fun mu sigma => mu + sigma * z)).tn + (transitionFit k).2.2 * z := by
  simp only [recompute, if_true, nominal]
  rw [Real.logb_rpow (by norm_num) (by norm_num), Real.logb_rpow (by norm_num) (by norm_num)]

/-- So whatever is drawn, the conversions of a scaling model are increasing and every class has one final diameter for each
transient one. -/
theorem C154_conversions (k : Crust) (g : ℝ) (mc : Bool) (t1 t2 normal : ℝ → ℝ → ℝ) (h1 : TruncSound t1) (h2 : TruncSound t2)
    (d d' : ℝ) (hd : 0 < d) (hlt : d < d') :
    f2tSimple (recompute k g mc t1 t2 normal) d < f2tSimple (recompute k g mc t1 t2 normal) d' ∧
    f2tComplex (recompute k g mc t1 t2 normal) d < f2tComplex (recompute k g mc t1 t2 normal) d' := by
  have h := C29_final_monotone _ (C154_recompute k g mc t1 t2 normal h1 h2).1 d d' hd hlt
  exact ⟨h.1.2, h.2.2⟩

/-- Without random factors the transient crater is smaller than the final one on every body, in both models, for every final
diameter. -/
theorem C154_smaller (k : Crust) (g : ℝ) (hg : 0 < g) (t1 t2 normal : ℝ → ℝ → ℝ) (l : Laws)
    (hl : l = recompute k g false t1 t2 normal ∨ l = ctemRecompute k g) (d u dt : ℝ) (m : Morph)
    (hf : finalToTransient l d none u = some (dt, m)) : dt < d := by
  rcases hl with rfl | rfl
  · refine C93_smaller_partial _ ?_ ?_ ?_ ?_ ?_ d u none (Or.inl rfl) dt m hf
    · have hn := nominal_pos k g
      exact ⟨by norm_num [recompute], by norm_num [recompute], hn, hn, by norm_num [recompute], by norm_num [recompute]⟩
    · norm_num [recompute]
    · norm_num [recompute]
    · norm_num [recompute]
    · exact le_refl _
  · obtain ⟨ho, hs, hc, he, ht, _⟩ := C154_ctem k g hg
    exact C93_smaller_partial _ ho (by rw [hs]; norm_num) (by rw [hc]) he ht.le d u none (Or.inl rfl) dt m hf

/-- The middle of the bounds is a draw that keeps the promise. -/
example : TruncSound (fun a b => (a + b) / 2) := by
  intro a b h
  constructor <;> linarith

end Verif.Scaling
