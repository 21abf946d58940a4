import Verif.Model.Production
import Verif.Props.NeukumSlope
import Verif.Props.Run
import Mathlib.Analysis.Calculus.Deriv.MeanValue
import Mathlib.Analysis.SpecialFunctions.Pow.Continuity
import Mathlib.Analysis.SpecialFunctions.Log.Base

/-! Properties C15, C16, C17, C72, C73: production functions. -/

namespace Verif.Production

/-! ### C15: power law -/

/-- Every constructed power law has a non-negative coefficient and a slope that is not positive. -/
theorem make_spec {c s : ℝ} {p : PowerLaw} (h : PowerLaw.make c s = some p) :
    p.coef = c ∧ 0 ≤ c ∧ p.slope = -|s| := by
  unfold PowerLaw.make at h
  split_ifs at h with h1 h2
  · simp only [Option.some.injEq] at h
    subst h
    exact ⟨rfl, not_lt.mp h1, by simp [abs_of_pos h2]⟩
  · simp only [Option.some.injEq] at h
    subst h
    exact ⟨rfl, not_lt.mp h1, by simp [abs_of_nonpos (not_lt.mp h2)]⟩

/-- A valid cumulative distribution: non-negative, not increasing with the diameter, not decreasing
when the window grows at either end, zero for an empty window. -/
structure ValidDistribution (f : ℝ → ℝ → ℝ → ℝ) : Prop where
  nonneg : ∀ D ts te, 0 < D → te ≤ ts → 0 ≤ f D ts te
  antitone : ∀ D D' ts te, 0 < D → D ≤ D' → te ≤ ts → f D' ts te ≤ f D ts te
  older : ∀ D ts ts' te, 0 < D → te ≤ ts → ts ≤ ts' → f D ts te ≤ f D ts' te
  younger : ∀ D ts te te', 0 < D → te' ≤ te → te ≤ ts → f D ts te ≤ f D ts te'
  empty : ∀ D t, 0 < D → f D t t = 0

theorem valid_of_csfd (n : ℝ → ℝ) (G : ℝ → ℝ) (hn : ∀ D, 0 < D → 0 ≤ n D)
    (hanti : ∀ D D', 0 < D → D ≤ D' → n D' ≤ n D) (hG : Monotone G) :
    ValidDistribution (fun D ts te => n D * (G ts - G te)) where
  nonneg D ts te hD h := mul_nonneg (hn D hD) (sub_nonneg.mpr (hG h))
  antitone D D' ts te hD hDD h :=
    mul_le_mul_of_nonneg_right (hanti D D' hD hDD) (sub_nonneg.mpr (hG h))
  older D ts ts' te hD _ h := mul_le_mul_of_nonneg_left (by have := hG h; linarith) (hn D hD)
  younger D ts te te' hD h _ := mul_le_mul_of_nonneg_left (by have := hG h; linarith) (hn D hD)
  empty D t _ := by simp

/-- Every power law accepted by the constructor is a valid cumulative distribution. -/
theorem C15_valid (c s : ℝ) (p : PowerLaw) (h : PowerLaw.make c s = some p) :
    ValidDistribution p.function := by
  obtain ⟨h1, h2, h3⟩ := make_spec h
  have hs : p.slope ≤ 0 := by rw [h3]; simp
  refine valid_of_csfd p.csfd id ?_ ?_ monotone_id
  · intro D hD
    exact mul_nonneg (h1 ▸ h2) (Real.rpow_nonneg hD.le _)
  · intro D D' hD hDD
    exact mul_le_mul_of_nonneg_left (Real.rpow_le_rpow_of_nonpos hD hDD hs) (h1 ▸ h2)

/-- A slope and its negative mean the same thing, negative coefficients are rejected. -/
theorem C15_sign_convention (c s : ℝ) :
    PowerLaw.make c s = PowerLaw.make c (-s) ∧ (PowerLaw.make c s = none ↔ c < 0) := by
  constructor
  · unfold PowerLaw.make
    rcases lt_trichotomy s 0 with h | h | h
    · simp [h, not_lt.mpr h.le]
    · simp [h]
    · simp [h, not_lt.mpr h.le]
  · unfold PowerLaw.make; split_ifs with h <;> simp [h]

/-- The sign convention does not hold for the setter: for every coefficient, assigning a positive slope, which the
constructor accepts, gives a distribution that increases with diameter. -/
theorem C15_setter_sign_fails (c s : ℝ) (hc : 0 < c) (hs : 0 < s) :
    ∃ p : PowerLaw, PowerLaw.make c s = some p ∧ ValidDistribution p.function ∧ ¬ ValidDistribution (p.setSlope s).function := by
  have hp : PowerLaw.make c s = some ⟨c, s * -1⟩ := by simp [PowerLaw.make, not_lt.mpr hc.le, hs]
  refine ⟨_, hp, C15_valid c s _ hp, fun h => ?_⟩
  have := h.antitone 1 2 1 0 (by norm_num) (by norm_num) (by norm_num)
  simp only [PowerLaw.function, PowerLaw.csfd, PowerLaw.setSlope, Real.one_rpow, sub_zero, mul_one] at this
  have h1 : (1 : ℝ) < 2 ^ s := Real.one_lt_rpow (by norm_num) hs
  nlinarith

example : ∃ p, PowerLaw.make 7.883e-3 (-3.328) = some p := by norm_num [PowerLaw.make]

/-! ### C73: power law chronology -/

/-- Documented (`powerlaw.py:162-166`): the chronology is the ratio of the cumulative number at the
given age to that at 1 My, hence linear in the age.  The code returns a constant that does not
depend on the age at all, so that for every power law the documented value is returned for a single age only: the number of craters of at
least 1 km made per My, read as an age in My. -/
theorem C73_chronology_linear_fails (p : PowerLaw) (hc : 0 < p.coef) (age : ℝ) :
    p.chronology age 0 = p.function 1000 age 0 / p.function 1000 1 0 ↔ age = p.csfd 1000 := by
  have h : 0 < p.csfd 1000 := mul_pos hc (Real.rpow_pos_of_pos (by norm_num) _)
  simp only [PowerLaw.chronology, PowerLaw.function, sub_zero, mul_one]
  rw [mul_div_cancel_left₀ _ h.ne']
  exact eq_comm

/-- What does hold: the number itself is linear in the age. -/
theorem C73_number_linear_partial (p : PowerLaw) (D age : ℝ) :
    p.function D age 0 = age * p.function D 1 0 := by
  simp [PowerLaw.function]; ring

/-- What the constant is: the number of craters of at least 1 km made per My, so that multiplied by the length of the
window it is the number made in the window. -/
theorem C73_rate_partial (p : PowerLaw) (ts te : ℝ) :
    p.chronology ts te * (ts - te) = p.function 1000 ts te := rfl

/-! ### C16: Neukum chronology -/

/-- Constants for which the chronology makes sense. -/
structure Neukum.Ok (p : Neukum) : Prop where
  lin : 0 < p.cLin
  exp : 0 < p.cExp
  tau : 0 < p.tau

theorem moon_ok : moon.Ok :=
  ⟨by simp only [moon]; positivity, by norm_num [moon], by norm_num [moon]⟩
theorem mars_ok : mars.Ok :=
  ⟨by simp only [mars]; positivity, by simp only [mars]; positivity, by norm_num [mars]⟩
theorem projectile_ok : projectile.Ok :=
  ⟨by simp only [projectile]; positivity, by simp only [projectile]; positivity, by norm_num [projectile]⟩

theorem n1_strictMono (p : Neukum) (h : p.Ok) : StrictMono p.n1 := by
  intro a b hab
  unfold Neukum.n1
  have h1 : Real.exp (a * 1e-3 / p.tau) < Real.exp (b * 1e-3 / p.tau) := by
    apply Real.exp_lt_exp.mpr
    have := h.tau
    gcongr
  have h2 := mul_lt_mul_of_pos_left h1 h.exp
  have h3 := mul_lt_mul_of_pos_left hab h.lin
  nlinarith

/-- The chronology vanishes for an empty window (so in particular now), and a longer window always
contains strictly more craters. -/
theorem C16_increasing (p : Neukum) (h : p.Ok) :
    (∀ t, p.chronology t t = 0) ∧
    (∀ a b te, a < b → p.chronology a te < p.chronology b te) ∧
    (∀ ts a b, a < b → p.chronology ts b < p.chronology ts a) := by
  refine ⟨fun t => by simp [Neukum.chronology], fun a b te hab => ?_, fun ts a b hab => ?_⟩
  · have := n1_strictMono p h hab; simp only [Neukum.chronology]; linarith
  · have := n1_strictMono p h hab; simp only [Neukum.chronology]; linarith

/-- Nothing has formed by now, and giving no end time is the same as ending now. -/
theorem C16_zero_now (p : Neukum) :
    p.chronologySince 0 = 0 ∧ ∀ ts, p.chronologySince ts = p.chronology ts 0 := by
  have h0 : p.n1 0 = 0 := by simp [Neukum.n1]
  exact ⟨h0, fun ts => by simp [Neukum.chronologySince, Neukum.chronology, h0]⟩

/-- Older windows contain at least as many craters as younger ones of the same length. -/
theorem C16_older_windows (p : Neukum) (h : p.Ok) (a b len : ℝ) (hab : a ≤ b) (hl : 0 ≤ len) :
    p.chronology (a + len) a ≤ p.chronology (b + len) b := by
  unfold Neukum.chronology Neukum.n1
  have ht := h.tau
  set k : ℝ := 1e-3 / p.tau with hk
  have hk0 : 0 < k := by rw [hk]; positivity
  have e : ∀ x : ℝ, x * 1e-3 / p.tau = x * k := by intro x; rw [hk]; ring
  simp only [e]
  have h1 : ∀ x : ℝ, Real.exp ((x + len) * k) - Real.exp (x * k) =
      Real.exp (x * k) * (Real.exp (len * k) - 1) := by
    intro x; rw [add_mul, Real.exp_add]; ring
  have h2 : Real.exp (a * k) ≤ Real.exp (b * k) := by
    apply Real.exp_le_exp.mpr; exact mul_le_mul_of_nonneg_right hab hk0.le
  have h3 : 0 ≤ Real.exp (len * k) - 1 := by
    have := Real.one_le_exp (mul_nonneg hl hk0.le); linarith
  have h4 := mul_le_mul_of_nonneg_right h2 h3
  rw [← h1, ← h1] at h4
  have h5 := mul_le_mul_of_nonneg_left h4 h.exp.le
  nlinarith

example : moon.Ok ∧ mars.Ok := ⟨moon_ok, mars_ok⟩

/-! ### C72: Neukum size distribution -/

theorem table_pos (p : Neukum) (D : ℝ) : 0 < p.table D := Real.rpow_pos_of_pos (by norm_num) _

/-- The size distribution is positive for every positive diameter. -/
theorem C72_positive (p : Neukum) (hlo : 0 < p.lo) (hhi : 0 < p.hi) (D : ℝ) (hD : 0 < D) :
    0 < p.csfdKm D := by
  unfold Neukum.csfdKm
  have h1 := table_pos p
  split_ifs
  · exact mul_pos (h1 _) (Real.rpow_pos_of_pos (div_pos hD hlo) _)
  · exact mul_pos (h1 _) (Real.rpow_pos_of_pos (div_pos hD hhi) _)
  · exact h1 _

/-- The three branches meet at the ends of the tabulated range: the value of each extrapolation at
the end is the tabulated value. -/
theorem C72_branches_meet (p : Neukum) (hlo : 0 < p.lo) (hhi : 0 < p.hi) :
    p.table p.lo * (p.lo / p.lo) ^ p.exponent p.lo = p.table p.lo ∧
    p.table p.hi * (p.hi / p.hi) ^ (p.exponent p.hi - 5) = p.table p.hi := by
  rw [div_self hlo.ne', div_self hhi.ne']; simp

/-- Sufficient conditions for a strictly decreasing distribution. -/
theorem strictAnti_of (p : Neukum) (a b : ℝ) (hlo : 0 < p.lo) (hhi : p.lo ≤ p.hi)
    (ha : a ≤ Real.logb 10 p.lo) (hb : Real.logb 10 p.hi ≤ b)
    (hslope : ∀ x, a ≤ x → x ≤ b → dEval p.coef x < 0)
    (hplo : p.exponent p.lo < 0) (hphi : p.exponent p.hi < 5)
    (D D' : ℝ) (hD : 0 < D) (hDD : D < D') : p.csfdKm D' < p.csfdKm D := by
  have hhi0 : 0 < p.hi := lt_of_lt_of_le hlo hhi
  have hanti : StrictAntiOn (polyEval p.coef) (Set.Icc a b) := by
    apply strictAntiOn_of_deriv_neg (convex_Icc a b)
    · intro x _; exact (hasDerivAt_polyEval p.coef x).continuousAt.continuousWithinAt
    · intro x hx
      rw [interior_Icc] at hx
      rw [(hasDerivAt_polyEval p.coef x).deriv]
      exact hslope x hx.1.le hx.2.le
  have htab : ∀ E E', p.lo ≤ E → E < E' → E' ≤ p.hi → p.table E' < p.table E := by
    intro E E' h1 h2 h3
    have hE : 0 < E := lt_of_lt_of_le hlo h1
    have hE' : 0 < E' := lt_trans hE h2
    apply Real.rpow_lt_rpow_of_exponent_lt (by norm_num)
    apply hanti
    · exact ⟨le_trans ha ((Real.logb_le_logb (by norm_num) hlo hE).mpr h1),
        le_trans ((Real.logb_le_logb (by norm_num) hE hhi0).mpr (h2.le.trans h3)) hb⟩
    · exact ⟨le_trans ha ((Real.logb_le_logb (by norm_num) hlo hE').mpr (h1.trans h2.le)),
        le_trans ((Real.logb_le_logb (by norm_num) hE' hhi0).mpr h3) hb⟩
    · exact (Real.logb_lt_logb_iff (by norm_num) hE hE').mpr h2
  have hlow : ∀ E E', 0 < E → E < E' → E' ≤ p.lo →
      p.table p.lo * (E' / p.lo) ^ p.exponent p.lo < p.table p.lo * (E / p.lo) ^ p.exponent p.lo := by
    intro E E' h1 h2 _
    apply mul_lt_mul_of_pos_left _ (table_pos p _)
    exact Real.rpow_lt_rpow_of_neg (div_pos h1 hlo) (by gcongr) hplo
  have hupp : ∀ E E', p.hi ≤ E → E < E' →
      p.table p.hi * (E' / p.hi) ^ (p.exponent p.hi - 5) <
        p.table p.hi * (E / p.hi) ^ (p.exponent p.hi - 5) := by
    intro E E' h1 h2
    apply mul_lt_mul_of_pos_left _ (table_pos p _)
    exact Real.rpow_lt_rpow_of_neg (div_pos (by linarith) hhi0) (by gcongr) (by linarith)
  obtain ⟨m1, m2⟩ := C72_branches_meet p hlo hhi0
  -- the value written with closed branches
  have vlo : ∀ E, E ≤ p.lo → p.csfdKm E = p.table p.lo * (E / p.lo) ^ p.exponent p.lo := by
    intro E hE
    rcases lt_or_eq_of_le hE with h | rfl
    · simp [Neukum.csfdKm, h]
    · rw [m1]; simp [Neukum.csfdKm, not_lt.mpr hhi]
  have vmid : ∀ E, p.lo ≤ E → E ≤ p.hi → p.csfdKm E = p.table E := by
    intro E h1 h2; simp [Neukum.csfdKm, not_lt.mpr h1, not_lt.mpr h2]
  have vhi : ∀ E, p.hi ≤ E → p.csfdKm E = p.table p.hi * (E / p.hi) ^ (p.exponent p.hi - 5) := by
    intro E hE
    rcases lt_or_eq_of_le hE with h | rfl
    · simp [Neukum.csfdKm, h, not_lt.mpr (hhi.trans hE)]
    · rw [m2]; exact vmid _ hhi le_rfl
  have s1 : ∀ E E', 0 < E → E < E' → E' ≤ p.lo → p.csfdKm E' < p.csfdKm E := by
    intro E E' h1 h2 h3; rw [vlo E (h2.le.trans h3), vlo E' h3]; exact hlow E E' h1 h2 h3
  have s2 : ∀ E E', p.lo ≤ E → E < E' → E' ≤ p.hi → p.csfdKm E' < p.csfdKm E := by
    intro E E' h1 h2 h3; rw [vmid E h1 (h2.le.trans h3), vmid E' (h1.trans h2.le) h3]
    exact htab E E' h1 h2 h3
  have s3 : ∀ E E', p.hi ≤ E → E < E' → p.csfdKm E' < p.csfdKm E := by
    intro E E' h1 h2; rw [vhi E h1, vhi E' (h1.trans h2.le)]; exact hupp E E' h1 h2
  -- chain over the branches
  have s23 : ∀ E E', p.lo ≤ E → E < E' → p.csfdKm E' < p.csfdKm E := by
    intro E E' h1 h2
    rcases le_total E' p.hi with h3 | h3
    · exact s2 E E' h1 h2 h3
    · rcases le_total p.hi E with h4 | h4
      · exact s3 E E' h4 h2
      · rcases eq_or_lt_of_le h4 with rfl | h4
        · exact s3 _ E' le_rfl h2
        · rcases eq_or_lt_of_le h3 with rfl | h3
          · exact s2 E _ h1 h2 le_rfl
          · exact (s3 p.hi E' le_rfl h3).trans (s2 E p.hi h1 h4 le_rfl)
  rcases le_total D' p.lo with h3 | h3
  · exact s1 D D' hD hDD h3
  · rcases le_total p.lo D with h4 | h4
    · exact s23 D D' h4 hDD
    · rcases eq_or_lt_of_le h4 with rfl | h4
      · exact s23 _ D' le_rfl hDD
      · rcases eq_or_lt_of_le h3 with rfl | h3
        · exact s1 D _ hD hDD le_rfl
        · exact (s23 p.lo D' le_rfl h3).trans (s1 D p.lo hD h4 le_rfl)

theorem log_moon_lo : Real.logb 10 moon.lo = -2 := by
  have : moon.lo = (10 : ℝ) ^ (-2 : ℝ) := by
    rw [Real.rpow_neg (by norm_num)]; norm_num [moon]
  rw [this, Real.logb_rpow (by norm_num) (by norm_num)]

theorem log_moon_hi : Real.logb 10 moon.hi = 3 := by
  have : moon.hi = (10 : ℝ) ^ (3 : ℝ) := by norm_num [moon]
  rw [this, Real.logb_rpow (by norm_num) (by norm_num)]

/-- The lunar size distribution decreases strictly with the diameter, over the tabulated range and
both extrapolations. -/
theorem C72_moon_decreasing (D D' : ℝ) (hD : 0 < D) (hDD : D < D') :
    moon.csfd D' < moon.csfd D := by
  unfold Neukum.csfd
  have := strictAnti_of moon (-2) 3 (by norm_num [moon]) (by norm_num [moon])
    log_moon_lo.ge log_moon_hi.le
    (fun x h1 h2 => by
      have := moonCoef_slope x h1 h2
      simp only [moon]; linarith)
    (by simp only [Neukum.exponent, log_moon_lo]; norm_num [moon, moonCoef, polyEval])
    (by simp only [Neukum.exponent, log_moon_hi]; norm_num [moon, moonCoef, polyEval])
    (D * 1e-3) (D' * 1e-3) (by positivity) (by linarith)
  linarith

example : 0 < moon.lo ∧ 0 < moon.hi ∧ moon.csfd 2000 < moon.csfd 1000 :=
  ⟨by norm_num [moon], by norm_num [moon], C72_moon_decreasing 1000 2000 (by norm_num) (by norm_num)⟩

/-- Hence the lunar production function is a valid cumulative distribution. -/
theorem C72_moon_valid : ValidDistribution moon.function := by
  refine valid_of_csfd moon.csfd moon.n1 ?_ ?_ (n1_strictMono moon moon_ok).monotone
  · intro D hD
    have := C72_positive moon (by norm_num [moon]) (by norm_num [moon]) (D * 1e-3) (by positivity)
    unfold Neukum.csfd; linarith
  · intro D D' hD hDD
    rcases eq_or_lt_of_le hDD with rfl | h
    · exact le_rfl
    · exact (C72_moon_decreasing D D' hD h).le

theorem log_mars_lo : -183/100 ≤ Real.logb 10 mars.lo ∧ Real.logb 10 mars.lo ≤ -182/100 := by
  have hp : 0 < mars.lo := by norm_num [mars]
  constructor
  · rw [Real.le_logb_iff_rpow_le (by norm_num) hp]
    apply le_of_pow_le_pow_left₀ (n := 100) (by norm_num) hp.le
    rw [← Real.rpow_natCast, ← Real.rpow_mul (by norm_num)]
    rw [show (-183/100 : ℝ) * ((100 : ℕ) : ℝ) = ((-183 : ℤ) : ℝ) by norm_num, Real.rpow_intCast]
    norm_num [mars]
  · rw [Real.logb_le_iff_le_rpow (by norm_num) hp]
    apply le_of_pow_le_pow_left₀ (n := 100) (by norm_num) (by positivity)
    rw [← Real.rpow_natCast ((10 : ℝ) ^ (-182/100 : ℝ)), ← Real.rpow_mul (by norm_num)]
    rw [show (-182/100 : ℝ) * ((100 : ℕ) : ℝ) = ((-182 : ℤ) : ℝ) by norm_num, Real.rpow_intCast]
    norm_num [mars]

theorem log_mars_hi : 255/100 ≤ Real.logb 10 mars.hi ∧ Real.logb 10 mars.hi ≤ 256/100 := by
  have hp : 0 < mars.hi := by norm_num [mars]
  constructor
  · rw [Real.le_logb_iff_rpow_le (by norm_num) hp]
    apply le_of_pow_le_pow_left₀ (n := 100) (by norm_num) hp.le
    rw [← Real.rpow_natCast, ← Real.rpow_mul (by norm_num)]
    rw [show (255/100 : ℝ) * ((100 : ℕ) : ℝ) = ((255 : ℕ) : ℝ) by norm_num, Real.rpow_natCast]
    norm_num [mars]
  · rw [Real.logb_le_iff_le_rpow (by norm_num) hp]
    apply le_of_pow_le_pow_left₀ (n := 100) (by norm_num) (by positivity)
    rw [← Real.rpow_natCast ((10 : ℝ) ^ (256/100 : ℝ)), ← Real.rpow_mul (by norm_num)]
    rw [show (256/100 : ℝ) * ((100 : ℕ) : ℝ) = ((256 : ℕ) : ℝ) by norm_num, Real.rpow_natCast]
    norm_num [mars]

/-- The martian size distribution decreases strictly with the diameter. -/
theorem C72_mars_decreasing (D D' : ℝ) (hD : 0 < D) (hDD : D < D') :
    mars.csfd D' < mars.csfd D := by
  unfold Neukum.csfd
  have := strictAnti_of mars (-183/100) (64/25) (by norm_num [mars]) (by norm_num [mars])
    log_mars_lo.1 (by have := log_mars_hi.2; linarith)
    (fun x h1 h2 => by
      have := marsCoef_slope x h1 h2
      simp only [mars]; linarith)
    (by
      have := marsCoef_exponent_lo (Real.logb 10 mars.lo) (by have := log_mars_lo.1; linarith)
        (by have := log_mars_lo.2; linarith)
      simp only [Neukum.exponent]
      have e : mars.coef = marsCoef := rfl
      rw [e]; linarith)
    (by
      have := marsCoef_exponent_hi (Real.logb 10 mars.hi) (by have := log_mars_hi.1; linarith)
        (by have := log_mars_hi.2; linarith)
      simp only [Neukum.exponent]
      have e : mars.coef = marsCoef := rfl
      rw [e]; linarith)
    (D * 1e-3) (D' * 1e-3) (by positivity) (by linarith)
  linarith

/-- Hence the martian production function is a valid cumulative distribution. -/
theorem C72_mars_valid : ValidDistribution mars.function := by
  refine valid_of_csfd mars.csfd mars.n1 ?_ ?_ (n1_strictMono mars mars_ok).monotone
  · intro D hD
    have := C72_positive mars (by norm_num [mars]) (by norm_num [mars]) (D * 1e-3) (by positivity)
    unfold Neukum.csfd; linarith
  · intro D D' hD hDD
    rcases eq_or_lt_of_le hDD with rfl | h
    · exact le_rfl
    · exact (C72_mars_decreasing D D' hD h).le

/-- Documented: outside the range the distribution is extrapolated with its slope at the end of the
range.  The exponent used is the polynomial with the shifted coefficients, without the factors of
differentiation, so it is not the slope: at the lower lunar limit it is -3.3281 where the slope of
the distribution is -3.1554. -/
theorem C72_tangent_slope_fails :
    deriv (polyEval moon.coef) (Real.logb 10 moon.lo) ≠ moon.exponent moon.lo := by
  rw [(hasDerivAt_polyEval moon.coef _).deriv]
  simp only [Neukum.exponent, log_moon_lo]
  norm_num [moon, moonCoef, polyEval, dEval]

/-! ### C17: additivity -/

/-- The expected number over a list of windows. -/
def total (f : ℝ → ℝ → ℝ) : List (ℝ × ℝ) → ℝ
  | [] => 0
  | w :: ws => f w.1 w.2 + total f ws

theorem total_of_tiles (G : ℝ → ℝ) (n : ℝ) (ws : List (ℝ × ℝ)) (a b : ℝ)
    (h : Run.Tiles ws a b) : total (fun ts te => n * (G ts - G te)) ws = n * (G a - G b) := by
  induction ws generalizing a with
  | nil => simp only [Run.Tiles] at h; subst h; simp [total]
  | cons w ws ih =>
    obtain ⟨x, y⟩ := w
    obtain ⟨rfl, _, h⟩ := h
    simp only [total, ih y h]; ring

/-- For both production functions the expected numbers over any sequence of adjacent windows add up
to the expected number over the whole period. -/
theorem C17_additive (ws : List (ℝ × ℝ)) (a b D : ℝ) (h : Run.Tiles ws a b) :
    (∀ p : PowerLaw, total (p.function D) ws = p.function D a b) ∧
    (∀ p : Neukum, total (p.function D) ws = p.function D a b) :=
  ⟨fun p => total_of_tiles id (p.csfd D) ws a b h,
   fun p => total_of_tiles p.n1 (p.csfd D) ws a b h⟩

/-- So a fresh run in any number of time steps expects as many craters as a single step. -/
theorem C17_run (w : Run.World) (s : Run.Spec) (g : Run.Good s) (c : Run.Clock)
    (ht : c.time = none) (hn : c.isNew = true) (p : Neukum) (D : ℝ) :
    ∃ c' evs, Run.runTime w s c = .ok (c', evs) ∧
      total (p.function D) (Run.windows evs) = p.function D s.ts s.te := by
  obtain ⟨c', evs, h1, h2, _⟩ := Run.C08_fresh_run w s g c ht hn
  exact ⟨c', evs, h1, (C17_additive _ _ _ D h2).2 p⟩

example : Run.Tiles [(10, 7), (7, 2), (2, 0)] 10 0 := by norm_num [Run.Tiles]

/-! ### C75: the version of the production function -/

/-- The constants documented for a version. -/
noncomputable def published : Version → Neukum
  | .moon => moon
  | .mars => mars
  | .projectile => projectile

/-- What a user may do with a Neukum object. -/
inductive Use
  | setVersion (v : Version)
  | evaluate

/-- Carry out a history of uses. -/
noncomputable def useAll : NeukumObj → List Use → NeukumObj
  | o, [] => o
  | o, .setVersion v :: us => useAll (o.setVersion v) us
  | o, .evaluate :: us => useAll o.constants.2 us

/-- The kept values are absent or those of version `v`. -/
def Kept (v : Version) (o : NeukumObj) : Prop :=
  (o.lin = none ∨ o.lin = some (published v).cLin) ∧
  (o.exp = none ∨ o.exp = some (published v).cExp)

theorem constants_of_kept (v : Version) (o : NeukumObj) (hv : o.version = v) (h : Kept v o) :
    o.constants.1 = published v ∧ Kept v o.constants.2 ∧ o.constants.2.version = v := by
  obtain ⟨ov, l, e⟩ := o
  simp only at hv
  subst hv
  obtain ⟨h1, h2⟩ := h
  simp only at h1 h2
  rcases h1 with rfl | rfl <;> rcases h2 with rfl | rfl <;> cases ov <;>
    simp [NeukumObj.constants, NeukumObj.getExp, NeukumObj.getLin, published, moon, mars, projectile, Kept,
      Version.coef, Version.lo, Version.hi, moonCoef, marsCoef, projectileCoef]

/-- The version that is set after a history. -/
def lastVersion : Version → List Use → Version
  | v, [] => v
  | _, .setVersion w :: us => lastVersion w us
  | v, .evaluate :: us => lastVersion v us

/-- The version that was set at the first evaluation of a history, or is set at its end if there was none. -/
def firstUsed : Version → List Use → Version
  | v, [] => v
  | _, .setVersion w :: us => firstUsed w us
  | v, .evaluate :: _ => v

/-- After any history, an evaluation uses the size distribution of the version that is set, and the chronology of the version
that was set at the very first evaluation. -/
theorem C75_exact (v : Version) (us : List Use) :
    (useAll (NeukumObj.new v) us).constants.1 = { published (lastVersion v us) with
      cLin := (published (firstUsed v us)).cLin, cExp := (published (firstUsed v us)).cExp } := by
  have full : ∀ (us : List Use) (v w : Version),
      (useAll ⟨v, some (published w).cLin, some (published w).cExp⟩ us).constants.1 =
        { published (lastVersion v us) with cLin := (published w).cLin, cExp := (published w).cExp } := by
    intro us
    induction us with
    | nil =>
      intro v w
      cases v <;> cases w <;> simp [useAll, NeukumObj.constants, NeukumObj.getExp, NeukumObj.getLin, published, moon, mars, projectile, lastVersion, Version.coef, Version.lo,
        Version.hi]
    | cons u us ih =>
      intro v w
      cases u with
      | setVersion x => exact ih x w
      | evaluate =>
        have : (⟨v, some (published w).cLin, some (published w).cExp⟩ : NeukumObj).constants.2 =
            ⟨v, some (published w).cLin, some (published w).cExp⟩ := by
          simp [NeukumObj.constants, NeukumObj.getExp, NeukumObj.getLin]
        simp only [useAll, this]
        exact ih v w
  have hfirst : ∀ v, (NeukumObj.new v).constants.2 = ⟨v, some (published v).cLin, some (published v).cExp⟩ := by
    intro v
    cases v <;> simp [NeukumObj.constants, NeukumObj.getExp, NeukumObj.getLin, NeukumObj.new, published, moon, mars, projectile,
      Version.coef, moonCoef, marsCoef, projectileCoef]
  induction us generalizing v with
  | nil => exact (constants_of_kept v _ rfl ⟨.inl rfl, .inl rfl⟩).1
  | cons u us ih =>
    cases u with
    | setVersion x => exact ih x
    | evaluate =>
      simp only [useAll, hfirst]
      exact full us v v

/-- Hence an evaluation uses the constants published for the version that is set exactly if the version at the first evaluation
was the same.  Missing from the full statement: all other histories. -/
theorem C75_version_partial (v : Version) (us : List Use) :
    (useAll (NeukumObj.new v) us).constants.1 = published (lastVersion v us) ↔ firstUsed v us = lastVersion v us := by
  rw [C75_exact]
  constructor
  · intro h
    have h1 := congrArg Neukum.cLin h
    simp only at h1
    have inj : ∀ x y : ℝ, (10 : ℝ) ^ x = (10 : ℝ) ^ y → x = y := by
      intro x y hxy
      have h2 := congrArg (Real.logb 10) hxy
      rwa [Real.logb_rpow (by norm_num) (by norm_num), Real.logb_rpow (by norm_num) (by norm_num)] at h2
    generalize firstUsed v us = a at *
    generalize lastVersion v us = b at *
    cases a <;> cases b <;> first
      | rfl
      | (exfalso
         have := inj _ _ h1
         norm_num at this)
  · intro h
    rw [h]

/-- Full statement: after any history, evaluating uses the constants of the current version.  It is
false: assigning the version after an evaluation keeps the chronology of the old version. -/
theorem C75_version_fails :
    ¬ ∀ (v : Version) (us : List Use),
      (useAll (NeukumObj.new v) us).constants.1 =
        published (useAll (NeukumObj.new v) us).version := by
  intro h
  have := congrArg Neukum.cLin (h .moon [.evaluate, .setVersion .mars])
  simp [useAll, NeukumObj.constants, NeukumObj.getExp, NeukumObj.getLin, published, mars,
    NeukumObj.new, NeukumObj.setVersion, Version.coef, moonCoef] at this
  have h2 := congrArg (Real.logb 10) this
  rw [Real.logb_rpow (by norm_num) (by norm_num), Real.logb_rpow (by norm_num) (by norm_num)] at h2
  norm_num at h2

end Verif.Production
