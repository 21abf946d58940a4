import Verif.Model.Projectile
import Verif.Props.Production
import Verif.Props.Sfd

/-! Properties C193 and C194: the projectiles of Neukum's production function, and the number of craters of 1 km. -/

namespace Verif.Projectile

open Verif.Production

/-- The polynomial of the projectiles less twice its argument: the logarithm of R over the square of the diameter.  Below, its
derivative is written with non-positive coefficients in the Bernstein basis (certificates found by a script). -/
noncomputable def flatCoef : List ℝ :=
  [0, 1.375458 - 2, 1.272521e-1, -1.282166, -3.074558e-1, 4.149280e-1, 1.910668e-1, -4.260980e-2, -3.976305e-2,
    -3.180179e-3, 2.799369e-3, 6.892223e-4, 2.614385e-6, -1.416178e-5, -1.191124e-6]

theorem slope_piece0 (x : ℝ) (h1 : -4 ≤ x) (h2 : x ≤ -17/20) :
    dEval flatCoef x ≤ -(1/10) := by
  have key : ∀ u v : ℝ, 0 ≤ u → 0 ≤ v → 0 ≤ (221761737032990720/246278864694166156419903) * u ^ 0 * v ^ 13 + (2953510662905790464/246278864694166156419903) * u ^ 1 * v ^ 12 + (32379204795556560896/410464774490276927366505) * u ^ 2 * v ^ 11 + (1825049069477079744512/6156971617354153910497575) * u ^ 3 * v ^ 10 + (3775682961093023301632/6156971617354153910497575) * u ^ 4 * v ^ 9 + (20585641642018440146944/17102698937094871973604375) * u ^ 5 * v ^ 8 + (452878075349718510278912/256540484056423079604065625) * u ^ 6 * v ^ 7 + (2232070260103258640877184/1282702420282115398020328125) * u ^ 7 * v ^ 6 + (2712939151458681372193742/2137837367136858996700546875) * u ^ 8 * v ^ 5 + (13896603106070724484214149/19240536304231730970304921875) * u ^ 9 * v ^ 4 + (2299917810796352282004159031/7696214521692692388121968750000) * u ^ 10 * v ^ 3 + (4077185317890726064333408333/51308096811284615920813125000000) * u ^ 11 * v ^ 2 + (36252045703681835114534734537/3078485808677076955248787500000000) * u ^ 12 * v ^ 1 + (22668532899280343701134816271/30784858086770769552487875000000000) * u ^ 13 * v ^ 0 := by
    intro u v hu hv
    positivity
  have h := key (x - (-4)) ((-17/20) - x) (by linarith) (by linarith)
  have e : dEval flatCoef x = -(1/10) - ((221761737032990720/246278864694166156419903) * (x - (-4)) ^ 0 * ((-17/20) - x) ^ 13 + (2953510662905790464/246278864694166156419903) * (x - (-4)) ^ 1 * ((-17/20) - x) ^ 12 + (32379204795556560896/410464774490276927366505) * (x - (-4)) ^ 2 * ((-17/20) - x) ^ 11 + (1825049069477079744512/6156971617354153910497575) * (x - (-4)) ^ 3 * ((-17/20) - x) ^ 10 + (3775682961093023301632/6156971617354153910497575) * (x - (-4)) ^ 4 * ((-17/20) - x) ^ 9 + (20585641642018440146944/17102698937094871973604375) * (x - (-4)) ^ 5 * ((-17/20) - x) ^ 8 + (452878075349718510278912/256540484056423079604065625) * (x - (-4)) ^ 6 * ((-17/20) - x) ^ 7 + (2232070260103258640877184/1282702420282115398020328125) * (x - (-4)) ^ 7 * ((-17/20) - x) ^ 6 + (2712939151458681372193742/2137837367136858996700546875) * (x - (-4)) ^ 8 * ((-17/20) - x) ^ 5 + (13896603106070724484214149/19240536304231730970304921875) * (x - (-4)) ^ 9 * ((-17/20) - x) ^ 4 + (2299917810796352282004159031/7696214521692692388121968750000) * (x - (-4)) ^ 10 * ((-17/20) - x) ^ 3 + (4077185317890726064333408333/51308096811284615920813125000000) * (x - (-4)) ^ 11 * ((-17/20) - x) ^ 2 + (36252045703681835114534734537/3078485808677076955248787500000000) * (x - (-4)) ^ 12 * ((-17/20) - x) ^ 1 + (22668532899280343701134816271/30784858086770769552487875000000000) * (x - (-4)) ^ 13 * ((-17/20) - x) ^ 0) := by
    simp only [dEval, polyEval, flatCoef]
    ring
  rw [e]
  linarith

theorem slope_piece1 (x : ℝ) (h1 : -17/20 ≤ x) (h2 : x ≤ 3/4) :
    dEval flatCoef x ≤ -(1/10) := by
  have key : ∀ u v : ℝ, 0 ≤ u → 0 ≤ v → 0 ≤ (22668532899280343701134816271/4611686018427387904000000000000) * u ^ 0 * v ^ 13 + (52047566683914403918255184263/922337203685477580800000000000) * u ^ 1 * v ^ 12 + (26393500232085293991222115569/92233720368547758080000000000) * u ^ 2 * v ^ 11 + (15435464133220983143689670933/18446744073709551616000000000) * u ^ 3 * v ^ 10 + (2282654118259515637655218033/1475739525896764129280000000) * u ^ 4 * v ^ 9 + (2773819717941697266781823877/1475739525896764129280000000) * u ^ 5 * v ^ 8 + (116298411056195918411367179/73786976294838206464000000) * u ^ 6 * v ^ 7 + (16340935242013821192960559/14757395258967641292800000) * u ^ 7 * v ^ 6 + (11048510726239489894946697/11805916207174113034240000) * u ^ 8 * v ^ 5 + (403309197865897544020333/472236648286964521369600) * u ^ 9 * v ^ 4 + (134701418876334428856553/236118324143482260684800) * u ^ 10 * v ^ 3 + (11020879795230291609789/47223664828696452136960) * u ^ 11 * v ^ 2 + (982793310813582800723/18889465931478580854784) * u ^ 12 * v ^ 1 + (91585310780762766655/18889465931478580854784) * u ^ 13 * v ^ 0 := by
    intro u v hu hv
    positivity
  have h := key (x - (-17/20)) ((3/4) - x) (by linarith) (by linarith)
  have e : dEval flatCoef x = -(1/10) - ((22668532899280343701134816271/4611686018427387904000000000000) * (x - (-17/20)) ^ 0 * ((3/4) - x) ^ 13 + (52047566683914403918255184263/922337203685477580800000000000) * (x - (-17/20)) ^ 1 * ((3/4) - x) ^ 12 + (26393500232085293991222115569/92233720368547758080000000000) * (x - (-17/20)) ^ 2 * ((3/4) - x) ^ 11 + (15435464133220983143689670933/18446744073709551616000000000) * (x - (-17/20)) ^ 3 * ((3/4) - x) ^ 10 + (2282654118259515637655218033/1475739525896764129280000000) * (x - (-17/20)) ^ 4 * ((3/4) - x) ^ 9 + (2773819717941697266781823877/1475739525896764129280000000) * (x - (-17/20)) ^ 5 * ((3/4) - x) ^ 8 + (116298411056195918411367179/73786976294838206464000000) * (x - (-17/20)) ^ 6 * ((3/4) - x) ^ 7 + (16340935242013821192960559/14757395258967641292800000) * (x - (-17/20)) ^ 7 * ((3/4) - x) ^ 6 + (11048510726239489894946697/11805916207174113034240000) * (x - (-17/20)) ^ 8 * ((3/4) - x) ^ 5 + (403309197865897544020333/472236648286964521369600) * (x - (-17/20)) ^ 9 * ((3/4) - x) ^ 4 + (134701418876334428856553/236118324143482260684800) * (x - (-17/20)) ^ 10 * ((3/4) - x) ^ 3 + (11020879795230291609789/47223664828696452136960) * (x - (-17/20)) ^ 11 * ((3/4) - x) ^ 2 + (982793310813582800723/18889465931478580854784) * (x - (-17/20)) ^ 12 * ((3/4) - x) ^ 1 + (91585310780762766655/18889465931478580854784) * (x - (-17/20)) ^ 13 * ((3/4) - x) ^ 0) := by
    simp only [dEval, polyEval, flatCoef]
    ring
  rw [e]
  linarith

theorem slope_piece2 (x : ℝ) (h1 : 3/4 ≤ x) (h2 : x ≤ 921/400) :
    dEval flatCoef x ≤ -(1/10) := by
  have key : ∀ u v : ℝ, 0 ≤ u → 0 ≤ v → 0 ≤ (14653649724922042664800000000000000/2042635155874568680174889641096599261) * u ^ 0 * v ^ 13 + (222760838403452278631608000000000000/2042635155874568680174889641096599261) * u ^ 1 * v ^ 12 + (497921177569762280748103520000000000/680878385291522893391629880365533087) * u ^ 2 * v ^ 11 + (5780506552575067162696869294400000000/2042635155874568680174889641096599261) * u ^ 3 * v ^ 10 + (14192216258523823082208936528520000000/2042635155874568680174889641096599261) * u ^ 4 * v ^ 9 + (2539682017033604072134546234622480000/226959461763840964463876626788511029) * u ^ 5 * v ^ 8 + (8008901159447464383136718662925686400/680878385291522893391629880365533087) * u ^ 6 * v ^ 7 + (5266109808750078999916890293683119008/680878385291522893391629880365533087) * u ^ 7 * v ^ 6 + (16870390849238561655747507981183189626/5673986544096024111596915669712775725) * u ^ 8 * v ^ 5 + (442363333944413392459672198284814339741/510658788968642170043722410274149815250) * u ^ 9 * v ^ 4 + (77296090863608235401356450371450665488117/127664697242160542510930602568537453812500) * u ^ 10 * v ^ 3 + (1686696919113695407814884644142841299693799/4255489908072018083697686752284581793750000) * u ^ 11 * v ^ 2 + (258866286352081006030134369587025000574613303/2553293944843210850218612051370749076250000000) * u ^ 12 * v ^ 1 + (842417860860888889955425956227996056539169187/255329394484321085021861205137074907625000000000) * u ^ 13 * v ^ 0 := by
    intro u v hu hv
    positivity
  have h := key (x - (3/4)) ((921/400) - x) (by linarith) (by linarith)
  have e : dEval flatCoef x = -(1/10) - ((14653649724922042664800000000000000/2042635155874568680174889641096599261) * (x - (3/4)) ^ 0 * ((921/400) - x) ^ 13 + (222760838403452278631608000000000000/2042635155874568680174889641096599261) * (x - (3/4)) ^ 1 * ((921/400) - x) ^ 12 + (497921177569762280748103520000000000/680878385291522893391629880365533087) * (x - (3/4)) ^ 2 * ((921/400) - x) ^ 11 + (5780506552575067162696869294400000000/2042635155874568680174889641096599261) * (x - (3/4)) ^ 3 * ((921/400) - x) ^ 10 + (14192216258523823082208936528520000000/2042635155874568680174889641096599261) * (x - (3/4)) ^ 4 * ((921/400) - x) ^ 9 + (2539682017033604072134546234622480000/226959461763840964463876626788511029) * (x - (3/4)) ^ 5 * ((921/400) - x) ^ 8 + (8008901159447464383136718662925686400/680878385291522893391629880365533087) * (x - (3/4)) ^ 6 * ((921/400) - x) ^ 7 + (5266109808750078999916890293683119008/680878385291522893391629880365533087) * (x - (3/4)) ^ 7 * ((921/400) - x) ^ 6 + (16870390849238561655747507981183189626/5673986544096024111596915669712775725) * (x - (3/4)) ^ 8 * ((921/400) - x) ^ 5 + (442363333944413392459672198284814339741/510658788968642170043722410274149815250) * (x - (3/4)) ^ 9 * ((921/400) - x) ^ 4 + (77296090863608235401356450371450665488117/127664697242160542510930602568537453812500) * (x - (3/4)) ^ 10 * ((921/400) - x) ^ 3 + (1686696919113695407814884644142841299693799/4255489908072018083697686752284581793750000) * (x - (3/4)) ^ 11 * ((921/400) - x) ^ 2 + (258866286352081006030134369587025000574613303/2553293944843210850218612051370749076250000000) * (x - (3/4)) ^ 12 * ((921/400) - x) ^ 1 + (842417860860888889955425956227996056539169187/255329394484321085021861205137074907625000000000) * (x - (3/4)) ^ 13 * ((921/400) - x) ^ 0) := by
    simp only [dEval, polyEval, flatCoef]
    ring
  rw [e]
  linarith

theorem slope (x : ℝ) (h1 : -4 ≤ x) (h2 : x ≤ 921/400) :
    dEval flatCoef x ≤ -(1/10) := by
  rcases le_total x (-17/20) with h | h
  · exact slope_piece0 x (by linarith) h
  rcases le_total x (3/4) with h | h
  · exact slope_piece1 x (by linarith) h
  exact slope_piece2 x (by linarith) h2


/-- The constants with the flattened polynomial. -/
noncomputable def flat : Neukum := { projectile with coef := flatCoef }

theorem flat_eval (x : ℝ) : polyEval flatCoef x = polyEval projectileCoef x - 2 * x := by
  simp only [flatCoef, projectileCoef, polyEval]; ring

theorem flat_tail (x : ℝ) : polyEval flatCoef.tail x = polyEval projectileCoef.tail x - 2 := by
  simp only [flatCoef, projectileCoef, polyEval, List.tail]; ring

theorem lo_eq : Real.logb 10 flat.lo = -4 := by
  have : flat.lo = (10 : ℝ) ^ (-4 : ℝ) := by
    rw [Real.rpow_neg (by norm_num)]; norm_num [flat, projectile]
  rw [this, Real.logb_rpow (by norm_num) (by norm_num)]

theorem hi_bounds : 0 < Real.logb 10 flat.hi ∧ Real.logb 10 flat.hi ≤ 921/400 := by
  have hp : 0 < flat.hi := by norm_num [flat, projectile]
  constructor
  · exact Real.logb_pos (by norm_num) (by norm_num [flat, projectile])
  · refine le_trans ?_ (show (145/63 : ℝ) ≤ 921/400 by norm_num)
    rw [Real.logb_le_iff_le_rpow (by norm_num) hp]
    apply le_of_pow_le_pow_left₀ (n := 63) (by norm_num) (by positivity)
    rw [← Real.rpow_natCast ((10 : ℝ) ^ (145/63 : ℝ)), ← Real.rpow_mul (by norm_num)]
    rw [show (145/63 : ℝ) * ((63 : ℕ) : ℝ) = ((145 : ℕ) : ℝ) by norm_num, Real.rpow_natCast]
    norm_num [flat, projectile]

theorem table_eq (D : ℝ) (hD : 0 < D) : flat.table D = projectile.table D / D ^ 2 := by
  have e : flat.coef = flatCoef := rfl
  have e' : projectile.coef = projectileCoef := rfl
  simp only [Neukum.table, e, e', flat_eval]
  rw [Real.rpow_sub (by norm_num)]
  congr 1
  rw [mul_comm, Real.rpow_mul (by norm_num), Real.rpow_logb (by norm_num) (by norm_num) hD]
  exact Real.rpow_ofNat D 2

theorem flat_eq (D : ℝ) (hD : 0 < D) : flat.csfdKm D = projectile.csfdKm D / D ^ 2 := by
  have e : ∀ x, flat.exponent x = projectile.exponent x - 2 := fun x => flat_tail _
  have l : flat.lo = projectile.lo := rfl
  have h : flat.hi = projectile.hi := rfl
  have hlo : 0 < projectile.lo := by norm_num [projectile]
  have hhi : 0 < projectile.hi := by norm_num [projectile]
  simp only [Neukum.csfdKm, e, l, h]
  have sq : ∀ x y : ℝ, 0 < x → x ^ (y - 2) = x ^ y / x ^ 2 := by
    intro x y hx
    rw [Real.rpow_sub hx]
    congr 1
    exact Real.rpow_ofNat x 2
  split_ifs
  · rw [table_eq _ hlo, sq _ _ (by positivity)]
    field_simp
  · rw [table_eq _ hhi, show projectile.exponent projectile.hi - 2 - 5 = (projectile.exponent projectile.hi - 5) - 2 by ring,
      sq _ _ (by positivity)]
    field_simp
  · exact table_eq D hD

theorem flat_anti (D D' : ℝ) (hD : 0 < D) (h : D < D') : flat.csfdKm D' < flat.csfdKm D := by
  have hs : ∀ x, -4 ≤ x → x ≤ 921/400 → dEval flat.coef x < 0 := by
    intro x h1 h2
    have := slope x h1 h2
    have e : flat.coef = flatCoef := rfl
    rw [e]; linarith
  refine strictAnti_of flat (-4) (921/400) (by norm_num [flat, projectile]) (by norm_num [flat, projectile]) lo_eq.ge
    hi_bounds.2 hs ?_ ?_ D D' hD h
  · simp only [Neukum.exponent, lo_eq]
    norm_num [flat, flatCoef, polyEval]
  · have hanti : StrictAntiOn (polyEval flat.coef) (Set.Icc (-4) (921/400)) := by
      apply strictAntiOn_of_deriv_neg (convex_Icc _ _)
      · intro x _; exact (hasDerivAt_polyEval flat.coef x).continuousAt.continuousWithinAt
      · intro x hx
        rw [interior_Icc] at hx
        rw [(hasDerivAt_polyEval flat.coef x).deriv]
        exact hs x hx.1.le hx.2.le
    obtain ⟨h0, h1⟩ := hi_bounds
    have := hanti (show (0 : ℝ) ∈ Set.Icc (-4 : ℝ) (921/400) by constructor <;> norm_num)
      (show Real.logb 10 flat.hi ∈ Set.Icc (-4 : ℝ) (921/400) from ⟨by linarith, h1⟩) h0
    have e : ∀ x, polyEval flat.coef x = 0 + x * polyEval flat.coef.tail x := fun x => rfl
    rw [e, e 0] at this
    simp only [Neukum.exponent]
    by_contra hc
    have : 0 ≤ Real.logb 10 flat.hi * polyEval flat.coef.tail (Real.logb 10 flat.hi) :=
      mul_nonneg h0.le (by linarith [not_lt.mp hc])
    linarith

theorem R_pos (D : ℝ) (hD : 0 < D) : 0 < projectile.csfdKm D :=
  C72_positive projectile (by norm_num [projectile]) (by norm_num [projectile]) D hD

theorem bin_pos (D : ℝ) (hD : 0 < D) : 0 < Sfd.bin projectile.csfdKm D := by
  obtain ⟨h1, h2, _⟩ := Sfd.next_pos hD
  have : 0 < projectile.csfdKm ((D + Sfd.next D) / 2) := R_pos _ (by linarith)
  have h3 : 0 < (D + Sfd.next D) / 2 := by linarith
  unfold Sfd.bin Sfd.integrand
  exact mul_pos (by positivity) (by linarith)

theorem bin_anti (D D' : ℝ) (hD : 0 < D) (h : D < D') : Sfd.bin projectile.csfdKm D' < Sfd.bin projectile.csfdKm D := by
  have key : ∀ x, 0 < x → Sfd.bin projectile.csfdKm x =
      flat.csfdKm (x * ((1 + Real.sqrt 2) / 2)) * ((Real.sqrt 2 - 1) / ((1 + Real.sqrt 2) / 2)) := by
    intro x hx
    have hs := Sfd.sqrt2_bounds
    have hp : (0 : ℝ) < 1 + Real.sqrt 2 := by linarith
    rw [flat_eq _ (by positivity)]
    unfold Sfd.bin Sfd.integrand Sfd.next
    rw [show (x + x * Real.sqrt 2) / 2 = x * ((1 + Real.sqrt 2) / 2) by ring]
    field_simp
  rw [key D hD, key D' (hD.trans h)]
  have hs := Sfd.sqrt2_bounds
  have hp : (0 : ℝ) < 1 + Real.sqrt 2 := by linarith
  apply mul_lt_mul_of_pos_right
  · exact flat_anti _ _ (by positivity) (by
      apply mul_lt_mul_of_pos_right h; positivity)
  · exact div_pos (by linarith) (by positivity)

theorem loop_nonneg (Dl D N : ℝ) (o : ℝ × ℝ) (h : Sfd.Loop projectile.csfdKm Dl D N o) : 0 < D → N ≤ o.1 := by
  induction h with
  | stop D N _ => intro _; exact le_rfl
  | turn D N out _ _ ih =>
    intro hD
    have := ih (Sfd.next_pos hD).2.1
    linarith [bin_pos D hD]

theorem loop_mono (Dl D N : ℝ) (o : ℝ × ℝ) (h : Sfd.Loop projectile.csfdKm Dl D N o) :
    ∀ (D' N' : ℝ) (o' : ℝ × ℝ), 0 < D → D ≤ D' → Sfd.Loop projectile.csfdKm Dl D' N' o' → o'.1 - N' ≤ o.1 - N := by
  induction h with
  | stop D N hn =>
    intro D' N' o' _ hDD h'
    cases h' with
    | stop _ _ _ => simp
    | turn _ _ _ hlt _ => exact absurd hlt (by linarith)
  | turn D N out hlt hl ih =>
    intro D' N' o' hD hDD h'
    cases h' with
    | stop _ _ _ =>
      have := loop_nonneg _ _ _ _ hl (Sfd.next_pos hD).2.1
      have := bin_pos D hD
      simp only [sub_self]; linarith
    | turn _ _ _ hlt' hl' =>
      have h1 := ih _ _ _ (Sfd.next_pos hD).2.1 (by
        unfold Sfd.next
        exact mul_le_mul_of_nonneg_right hDD (Real.sqrt_nonneg 2)) hl'
      rcases eq_or_lt_of_le hDD with rfl | hlt2
      · linarith
      · have := bin_anti D D' hD hlt2
        linarith

theorem loop_strict (Dl D D' : ℝ) (o o' : ℝ × ℝ) (hD : 0 < D) (hDD : D < D') (hl : D < Dl)
    (h : Sfd.Loop projectile.csfdKm Dl D 0 o) (h' : Sfd.Loop projectile.csfdKm Dl D' 0 o') : o'.1 < o.1 := by
  cases h with
  | stop _ _ hn => exact absurd hl hn
  | turn _ _ _ _ hl1 =>
    cases h' with
    | stop _ _ _ =>
      have := loop_nonneg _ _ _ _ hl1 (Sfd.next_pos hD).2.1
      have := bin_pos D hD
      simp only; linarith
    | turn _ _ _ _ hl2 =>
      have h1 := loop_mono _ _ _ _ hl1 _ _ _ (Sfd.next_pos hD).2.1 (by
        unfold Sfd.next
        exact mul_le_mul_of_nonneg_right hDD.le (Real.sqrt_nonneg 2)) hl2
      have := bin_anti D D' hD hDD
      linarith

/-- **C193, part.**  (Missing: the diameter zero, see `C193_zero_fails`.)  For every positive diameter the size distribution of the
projectiles has exactly one value.  It is never negative, it decreases strictly with the diameter below a million kilometres, and
from there on it is zero. -/
theorem C193_projectiles_partial (D D' : ℝ) (hD : 0 < D) (hDD : D < D') :
    (∃ N, Csfd .projectile projectile D N ∧ ∀ N', Csfd .projectile projectile D N' → N' = N) ∧
    (∀ N N', Csfd .projectile projectile D N → Csfd .projectile projectile D' N' →
      0 ≤ N' ∧ N' ≤ N ∧ (D < 1e9 → N' < N) ∧ (1e9 ≤ D → N = 0)) := by
  have hk : 0 < D * 1e-3 := by positivity
  obtain ⟨⟨M, E, hM⟩, huniq, hzero, _⟩ := Sfd.C125_positive_partial projectile.csfdKm (D * 1e-3) 1e6 hk
  constructor
  · refine ⟨M * 2.94e-5 * 1e3, ⟨by linarith, M, E, hM, rfl⟩, ?_⟩
    rintro N' ⟨_, M', E', hM', rfl⟩
    rw [(huniq M E M' E' hM hM').1]
  · rintro N N' ⟨_, M, E, hM, rfl⟩ ⟨_, M', E', hM', rfl⟩
    have h0 : 0 ≤ M' := loop_nonneg _ _ _ _ hM' (by linarith)
    have h1 : M' ≤ M := by
      have := loop_mono _ _ _ _ hM _ _ _ hk (by linarith) hM'
      simpa using this
    refine ⟨by positivity, by linarith, ?_, ?_⟩
    · intro hlt
      have h2 : M' < M := loop_strict _ _ (D' * 1e-3) _ _ hk (by linarith) (by norm_num at hlt ⊢; linarith) hM hM'
      linarith
    · intro hge
      rw [((hzero M E hM).1 (by norm_num at hge ⊢; linarith)).1]
      ring

/-- So whatever function returns the values of the calls with positive diameters, the production function of the projectiles is a
valid cumulative distribution. -/
theorem C193_valid_partial (f : ℝ → ℝ → ℝ → ℝ)
    (hf : ∀ D ts te, 0 < D → Function .projectile projectile D ts te (f D ts te)) : ValidDistribution f := by
  obtain ⟨n, hn⟩ : ∃ n : ℝ → ℝ, ∀ D, 0 < D → Csfd .projectile projectile D (n D) := by
    choose! n hn using fun (D : ℝ) (hD : 0 < D) => (C193_projectiles_partial D (D + 1) hD (by linarith)).1
    exact ⟨n, fun D hD => (hn D hD).1⟩
  have e : ∀ D ts te, 0 < D → f D ts te = n D * (projectile.n1 ts - projectile.n1 te) := by
    intro D ts te hD
    obtain ⟨N, h1, h2⟩ := hf D ts te hD
    obtain ⟨N0, _, h4⟩ := (C193_projectiles_partial D (D + 1) hD (by linarith)).1
    rw [h2, h4 N h1, ← h4 (n D) (hn D hD)]
    rfl
  have hanti : ∀ D D', 0 < D → D ≤ D' → n D' ≤ n D := by
    intro D D' hD hDD
    rcases eq_or_lt_of_le hDD with rfl | h
    · exact le_rfl
    · exact ((C193_projectiles_partial D D' hD h).2 _ _ (hn D hD) (hn D' (hD.trans h))).2.1
  have hnn : ∀ D, 0 < D → 0 ≤ n D := by
    intro D hD
    have := ((C193_projectiles_partial (D / 2) D (by linarith) (by linarith)).2 _ _ (hn (D / 2) (by linarith)) (hn D hD)).1
    exact this
  have v := valid_of_csfd n projectile.n1 hnn hanti (n1_strictMono projectile projectile_ok).monotone
  constructor
  · intro D ts te hD h; rw [e _ _ _ hD]; exact v.nonneg D ts te hD h
  · intro D D' ts te hD hDD h; rw [e _ _ _ hD, e _ _ _ (by linarith)]; exact v.antitone D D' ts te hD hDD h
  · intro D ts ts' te hD h h'; rw [e _ _ _ hD, e _ _ _ hD]; exact v.older D ts ts' te hD h h'
  · intro D ts te te' hD h h'; rw [e _ _ _ hD, e _ _ _ hD]; exact v.younger D ts te te' hD h h'
  · intro D t hD; rw [e _ _ _ hD]; exact v.empty D t hD

/-- The hypothesis of `C193_valid_partial` can be met, and there is a projectile rate that is not zero. -/
example : (∃ f : ℝ → ℝ → ℝ → ℝ, ∀ D ts te, 0 < D → Function .projectile projectile D ts te (f D ts te)) ∧
    ∃ N, Csfd .projectile projectile 1000 N ∧ 0 < N := by
  constructor
  · choose! n hn using fun (D : ℝ) (hD : 0 < D) => (C193_projectiles_partial D (D + 1) hD (by linarith)).1
    exact ⟨fun D ts te => n D * projectile.chronology ts te, fun D ts te hD => ⟨n D, (hn D hD).1, rfl⟩⟩
  · obtain ⟨N, h, _⟩ := (C193_projectiles_partial 1000 2000 (by norm_num) (by norm_num)).1
    obtain ⟨N', h', _⟩ := (C193_projectiles_partial 2000 3000 (by norm_num) (by norm_num)).1
    obtain ⟨h1, _, h2, _⟩ := (C193_projectiles_partial 1000 2000 (by norm_num) (by norm_num)).2 N N' h h'
    exact ⟨N, h, lt_of_le_of_lt h1 (h2 (by norm_num))⟩

/-- Full statement: every diameter that the function accepts has a value.  It is false: "diameter must be greater than or equal to
0.0", but for the diameter zero the conversion of the R values never ends. -/
theorem C193_zero_fails : ¬ ∃ N, Csfd .projectile projectile 0 N := by
  rintro ⟨N, _, M, E, h, _⟩
  exact Sfd.C125_fails projectile.csfdKm (0 * 1e-3) 1e6 (by norm_num) (by norm_num) ⟨M, E, h⟩

/-! ### C194 -/

/-- All versions have the same relative ages: their chronologies differ by a constant factor. -/
theorem C194_ages (v : Version) : ∃ c : ℝ, 0 < c ∧ ∀ ts te,
    (published v).chronology ts te = c * (published .moon).chronology ts te := by
  have key : ∀ (k : Neukum) (c : ℝ), k.cLin = c → k.cExp = 5.44e-14 * c / (10 : ℝ) ^ (-3.0876 : ℝ) → k.tau = 1 / 6.93 →
      ∀ ts te, k.chronology ts te = c / (10 : ℝ) ^ (-3.0876 : ℝ) * moon.chronology ts te := by
    intro k c h1 h2 h3 ts te
    have : (10 : ℝ) ^ (-3.0876 : ℝ) ≠ 0 := by positivity
    simp only [Neukum.chronology, Neukum.n1, h1, h2, h3, moon]
    field_simp
  cases v with
  | moon => exact ⟨1, one_pos, fun ts te => (one_mul _).symm⟩
  | mars => exact ⟨(10 : ℝ) ^ (-3.384 : ℝ) / (10 : ℝ) ^ (-3.0876 : ℝ), by positivity, key mars _ rfl rfl rfl⟩
  | projectile => exact ⟨(10 : ℝ) ^ (0 : ℝ) / (10 : ℝ) ^ (-3.0876 : ℝ), by positivity, key projectile _ rfl rfl rfl⟩

theorem one_km (k : Neukum) (a : ℝ) (cs : List ℝ) (hk : k.coef = a :: cs) (hl : k.lo < 1) (hh : 1 < k.hi) :
    k.csfdKm (1000 * 1e-3) = (10 : ℝ) ^ a := by
  have e : (1000 * 1e-3 : ℝ) = 1 := by norm_num
  rw [e]
  simp only [Neukum.csfdKm, if_neg (not_lt.mpr hl.le), if_neg (not_lt.mpr hh.le), Neukum.table, Real.logb_one, hk, polyEval]
  simp

/-- **C194, part.**  (Missing: the factor is one, see `C194_one_km_fails`.)  For the crater versions the number of craters larger
than 1 km that the production function gives for a window is the same fraction of the chronology for every window: a
thousand times the number of craters per km² that the size distribution has at 1 km. -/
theorem C194_one_km_partial (ts te : ℝ) :
    Function .moon moon 1000 ts te ((10 : ℝ) ^ (-3.0876 : ℝ) * 1000 * moon.chronology ts te) ∧
    Function .mars mars 1000 ts te ((10 : ℝ) ^ (-3.384 : ℝ) * 1000 * mars.chronology ts te) := by
  constructor
  · refine ⟨moon.csfdKm (1000 * 1e-3) * 1e3, ⟨by norm_num, rfl⟩, ?_⟩
    rw [one_km moon (-3.0876) moonCoef.tail rfl (by norm_num [moon]) (by norm_num [moon])]
    norm_num
  · refine ⟨mars.csfdKm (1000 * 1e-3) * 1e3, ⟨by norm_num, rfl⟩, ?_⟩
    rw [one_km mars (-3.384) marsCoef.tail rfl (by norm_num [mars]) (by norm_num [mars])]
    norm_num

theorem pow_bounds : (10 : ℝ) ^ (-3.0876 : ℝ) * 1000 < 0.82 ∧ (10 : ℝ) ^ (-3.384 : ℝ) * 1000 < 0.42 := by
  have e : ∀ a : ℝ, (10 : ℝ) ^ a * 1000 = (10 : ℝ) ^ (a + 3) := by
    intro a
    rw [Real.rpow_add (by norm_num)]
    norm_num
  rw [e, e]
  constructor
  · calc (10 : ℝ) ^ (-3.0876 + 3 : ℝ) < (10 : ℝ) ^ (-7/80 : ℝ) := Real.rpow_lt_rpow_of_exponent_lt (by norm_num) (by norm_num)
      _ ≤ 0.82 := by
        apply le_of_pow_le_pow_left₀ (n := 80) (by norm_num) (by norm_num)
        rw [← Real.rpow_natCast, ← Real.rpow_mul (by norm_num)]
        rw [show (-7/80 : ℝ) * ((80 : ℕ) : ℝ) = ((-7 : ℤ) : ℝ) by norm_num, Real.rpow_intCast]
        norm_num
  · calc (10 : ℝ) ^ (-3.384 + 3 : ℝ) < (10 : ℝ) ^ (-19/50 : ℝ) := Real.rpow_lt_rpow_of_exponent_lt (by norm_num) (by norm_num)
      _ ≤ 0.42 := by
        apply le_of_pow_le_pow_left₀ (n := 50) (by norm_num) (by norm_num)
        rw [← Real.rpow_natCast, ← Real.rpow_mul (by norm_num)]
        rw [show (-19/50 : ℝ) * ((50 : ℕ) : ℝ) = ((-19 : ℤ) : ℝ) by norm_num, Real.rpow_intCast]
        norm_num

/-- Full statement: the production function gives for 1 km the number of craters of the chronology, which is "the number of craters
per square meter greater than 1 km in diameter".  It is false for every window: the Moon gets less than 82% of them
and Mars less than 42%, because the size distribution is multiplied by a thousand instead of being divided by its value at 1 km. -/
theorem C194_one_km_fails (ts te : ℝ) (h : te < ts) :
    (∃ F, Function .moon moon 1000 ts te F ∧ F < 0.82 * moon.chronology ts te) ∧
    (∃ F, Function .mars mars 1000 ts te F ∧ F < 0.42 * mars.chronology ts te) := by
  obtain ⟨h1, h2⟩ := C194_one_km_partial ts te
  refine ⟨⟨_, h1, ?_⟩, ⟨_, h2, ?_⟩⟩
  · exact mul_lt_mul_of_pos_right pow_bounds.1 (sub_pos.mpr (n1_strictMono moon moon_ok h))
  · exact mul_lt_mul_of_pos_right pow_bounds.2 (sub_pos.mpr (n1_strictMono mars mars_ok h))

example : ∃ F, Function .mars mars 1000 3500 0 F ∧ F < 0.42 * mars.chronology 3500 0 ∧ 0 < mars.chronology 3500 0 := by
  obtain ⟨F, h1, h2⟩ := (C194_one_km_fails 3500 0 (by norm_num)).2
  exact ⟨F, h1, h2, sub_pos.mpr (n1_strictMono mars mars_ok (by norm_num))⟩

end Verif.Projectile
