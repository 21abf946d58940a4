import Verif.Model.Production
import Mathlib.Tactic.Linarith
import Mathlib.Tactic.Positivity
import Mathlib.Tactic.Ring
import Mathlib.Analysis.Calculus.Deriv.Mul
import Mathlib.Analysis.Calculus.Deriv.Add

/-! The slope of the Neukum polynomials on their range: on each piece of the range the derivative
is written with non-positive coefficients in the Bernstein basis (certificates found by a script,
checked here by `ring` and `positivity`). -/

namespace Verif.Production

/-- The derivative of `polyEval`. -/
def dEval : List ℝ → ℝ → ℝ
  | [], _ => 0
  | _ :: cs, x => polyEval cs x + x * dEval cs x

theorem hasDerivAt_polyEval (cs : List ℝ) (x : ℝ) : HasDerivAt (polyEval cs) (dEval cs x) x := by
  induction cs with
  | nil => exact hasDerivAt_const x 0
  | cons c cs ih =>
    have h := ((hasDerivAt_id x).mul ih).const_add c
    simp only [id, one_mul] at h
    exact h

theorem moonCoef_piece0 (x : ℝ) (h1 : -2 ≤ x) (h2 : x ≤ 1/2) :
    dEval moonCoef x ≤ -(1/2) := by
  have key : ∀ u v : ℝ, 0 ≤ u → 0 ≤ v → 0 ≤ (212428672/762939453125) * u ^ 0 * v ^ 10 + (292286704/152587890625) * u ^ 1 * v ^ 9 + (2657893188/152587890625) * u ^ 2 * v ^ 8 + (5051012288/152587890625) * u ^ 3 * v ^ 7 + (6248989414/152587890625) * u ^ 4 * v ^ 6 + (51583477269/762939453125) * u ^ 5 * v ^ 5 + (24022592543/305175781250) * u ^ 6 * v ^ 4 + (7456124768/152587890625) * u ^ 7 * v ^ 3 + (38992018953/2441406250000) * u ^ 8 * v ^ 2 + (6431444919/2441406250000) * u ^ 9 * v ^ 1 + (8778133833/48828125000000) * u ^ 10 * v ^ 0 := by
    intro u v hu hv
    positivity
  have h := key (x - (-2)) ((1/2) - x) (by linarith) (by linarith)
  have e : dEval moonCoef x = -(1/2) - ((212428672/762939453125) * (x - (-2)) ^ 0 * ((1/2) - x) ^ 10 + (292286704/152587890625) * (x - (-2)) ^ 1 * ((1/2) - x) ^ 9 + (2657893188/152587890625) * (x - (-2)) ^ 2 * ((1/2) - x) ^ 8 + (5051012288/152587890625) * (x - (-2)) ^ 3 * ((1/2) - x) ^ 7 + (6248989414/152587890625) * (x - (-2)) ^ 4 * ((1/2) - x) ^ 6 + (51583477269/762939453125) * (x - (-2)) ^ 5 * ((1/2) - x) ^ 5 + (24022592543/305175781250) * (x - (-2)) ^ 6 * ((1/2) - x) ^ 4 + (7456124768/152587890625) * (x - (-2)) ^ 7 * ((1/2) - x) ^ 3 + (38992018953/2441406250000) * (x - (-2)) ^ 8 * ((1/2) - x) ^ 2 + (6431444919/2441406250000) * (x - (-2)) ^ 9 * ((1/2) - x) ^ 1 + (8778133833/48828125000000) * (x - (-2)) ^ 10 * ((1/2) - x) ^ 0) := by
    simp only [dEval, polyEval, moonCoef]
    ring
  rw [e]
  linarith

theorem moonCoef_piece1 (x : ℝ) (h1 : 1/2 ≤ x) (h2 : x ≤ 7/4) :
    dEval moonCoef x ≤ -(1/2) := by
  have key : ∀ u v : ℝ, 0 ≤ u → 0 ≤ v → 0 ≤ (140450141328/762939453125) * u ^ 0 * v ^ 10 + (215544186576/152587890625) * u ^ 1 * v ^ 9 + (689603460132/152587890625) * u ^ 2 * v ^ 8 + (1238239886192/152587890625) * u ^ 3 * v ^ 7 + (1568789372506/152587890625) * u ^ 4 * v ^ 6 + (9403608840006/762939453125) * u ^ 5 * v ^ 5 + (4381525468517/305175781250) * u ^ 6 * v ^ 4 + (1892416817927/152587890625) * u ^ 7 * v ^ 3 + (15990732628977/2441406250000) * u ^ 8 * v ^ 2 + (4520664156301/2441406250000) * u ^ 9 * v ^ 1 + (10465535018017/48828125000000) * u ^ 10 * v ^ 0 := by
    intro u v hu hv
    positivity
  have h := key (x - (1/2)) ((7/4) - x) (by linarith) (by linarith)
  have e : dEval moonCoef x = -(1/2) - ((140450141328/762939453125) * (x - (1/2)) ^ 0 * ((7/4) - x) ^ 10 + (215544186576/152587890625) * (x - (1/2)) ^ 1 * ((7/4) - x) ^ 9 + (689603460132/152587890625) * (x - (1/2)) ^ 2 * ((7/4) - x) ^ 8 + (1238239886192/152587890625) * (x - (1/2)) ^ 3 * ((7/4) - x) ^ 7 + (1568789372506/152587890625) * (x - (1/2)) ^ 4 * ((7/4) - x) ^ 6 + (9403608840006/762939453125) * (x - (1/2)) ^ 5 * ((7/4) - x) ^ 5 + (4381525468517/305175781250) * (x - (1/2)) ^ 6 * ((7/4) - x) ^ 4 + (1892416817927/152587890625) * (x - (1/2)) ^ 7 * ((7/4) - x) ^ 3 + (15990732628977/2441406250000) * (x - (1/2)) ^ 8 * ((7/4) - x) ^ 2 + (4520664156301/2441406250000) * (x - (1/2)) ^ 9 * ((7/4) - x) ^ 1 + (10465535018017/48828125000000) * (x - (1/2)) ^ 10 * ((7/4) - x) ^ 0) := by
    simp only [dEval, polyEval, moonCoef]
    ring
  rw [e]
  linarith

theorem moonCoef_piece2 (x : ℝ) (h1 : 7/4 ≤ x) (h2 : x ≤ 3) :
    dEval moonCoef x ≤ -(1/2) := by
  have key : ∀ u v : ℝ, 0 ≤ u → 0 ≤ v → 0 ≤ (10465535018017/48828125000000) * u ^ 0 * v ^ 10 + (1486217715429/610351562500) * u ^ 1 * v ^ 9 + (1800537061107/152587890625) * u ^ 2 * v ^ 8 + (4808943458392/152587890625) * u ^ 3 * v ^ 7 + (7652278810656/152587890625) * u ^ 4 * v ^ 6 + (36568653543456/762939453125) * u ^ 5 * v ^ 5 + (4027014125696/152587890625) * u ^ 6 * v ^ 4 + (1216402609152/152587890625) * u ^ 7 * v ^ 3 + (302360297472/152587890625) * u ^ 8 * v ^ 2 + (131030081536/152587890625) * u ^ 9 * v ^ 1 + (133366038528/762939453125) * u ^ 10 * v ^ 0 := by
    intro u v hu hv
    positivity
  have h := key (x - (7/4)) ((3) - x) (by linarith) (by linarith)
  have e : dEval moonCoef x = -(1/2) - ((10465535018017/48828125000000) * (x - (7/4)) ^ 0 * ((3) - x) ^ 10 + (1486217715429/610351562500) * (x - (7/4)) ^ 1 * ((3) - x) ^ 9 + (1800537061107/152587890625) * (x - (7/4)) ^ 2 * ((3) - x) ^ 8 + (4808943458392/152587890625) * (x - (7/4)) ^ 3 * ((3) - x) ^ 7 + (7652278810656/152587890625) * (x - (7/4)) ^ 4 * ((3) - x) ^ 6 + (36568653543456/762939453125) * (x - (7/4)) ^ 5 * ((3) - x) ^ 5 + (4027014125696/152587890625) * (x - (7/4)) ^ 6 * ((3) - x) ^ 4 + (1216402609152/152587890625) * (x - (7/4)) ^ 7 * ((3) - x) ^ 3 + (302360297472/152587890625) * (x - (7/4)) ^ 8 * ((3) - x) ^ 2 + (131030081536/152587890625) * (x - (7/4)) ^ 9 * ((3) - x) ^ 1 + (133366038528/762939453125) * (x - (7/4)) ^ 10 * ((3) - x) ^ 0) := by
    simp only [dEval, polyEval, moonCoef]
    ring
  rw [e]
  linarith

theorem moonCoef_slope (x : ℝ) (h1 : -2 ≤ x) (h2 : x ≤ 3) :
    dEval moonCoef x ≤ -(1/2) := by
  rcases le_total x (1/2) with h | h
  · exact moonCoef_piece0 x (by linarith) h
  rcases le_total x (7/4) with h | h
  · exact moonCoef_piece1 x (by linarith) h
  exact moonCoef_piece2 x (by linarith) h2

theorem marsCoef_piece0 (x : ℝ) (h1 : -183/100 ≤ x) (h2 : x ≤ 73/200) :
    dEval marsCoef x ≤ -(1/2) := by
  have key : ∀ u v : ℝ, 0 ≤ u → 0 ≤ v → 0 ≤ (20691412681907286441738151284/20769939561070818508080281328125) * u ^ 0 * v ^ 10 + (44907990598483067686724512596/4153987912214163701616056265625) * u ^ 1 * v ^ 9 + (197097393789809042768698999029/4153987912214163701616056265625) * u ^ 2 * v ^ 8 + (452167120005745104384867972668/4153987912214163701616056265625) * u ^ 3 * v ^ 7 + (1696229785668871741149004556161/8307975824428327403232112531250) * u ^ 4 * v ^ 6 + (12847174162392859520977623010827/41539879122141637016160562656250) * u ^ 5 * v ^ 5 + (9935343510817651989050503185521/33231903297713309612928450125000) * u ^ 6 * v ^ 4 + (2796550460430673064429345964207/16615951648856654806464225062500) * u ^ 7 * v ^ 3 + (14145700113264069323334458969349/265855226381706476903427601000000) * u ^ 8 * v ^ 2 + (2339404897648136151384666863509/265855226381706476903427601000000) * u ^ 9 * v ^ 1 + (3245750032647950042172207948621/5317104527634129538068552020000000) * u ^ 10 * v ^ 0 := by
    intro u v hu hv
    positivity
  have h := key (x - (-183/100)) ((73/200) - x) (by linarith) (by linarith)
  have e : dEval marsCoef x = -(1/2) - ((20691412681907286441738151284/20769939561070818508080281328125) * (x - (-183/100)) ^ 0 * ((73/200) - x) ^ 10 + (44907990598483067686724512596/4153987912214163701616056265625) * (x - (-183/100)) ^ 1 * ((73/200) - x) ^ 9 + (197097393789809042768698999029/4153987912214163701616056265625) * (x - (-183/100)) ^ 2 * ((73/200) - x) ^ 8 + (452167120005745104384867972668/4153987912214163701616056265625) * (x - (-183/100)) ^ 3 * ((73/200) - x) ^ 7 + (1696229785668871741149004556161/8307975824428327403232112531250) * (x - (-183/100)) ^ 4 * ((73/200) - x) ^ 6 + (12847174162392859520977623010827/41539879122141637016160562656250) * (x - (-183/100)) ^ 5 * ((73/200) - x) ^ 5 + (9935343510817651989050503185521/33231903297713309612928450125000) * (x - (-183/100)) ^ 6 * ((73/200) - x) ^ 4 + (2796550460430673064429345964207/16615951648856654806464225062500) * (x - (-183/100)) ^ 7 * ((73/200) - x) ^ 3 + (14145700113264069323334458969349/265855226381706476903427601000000) * (x - (-183/100)) ^ 8 * ((73/200) - x) ^ 2 + (2339404897648136151384666863509/265855226381706476903427601000000) * (x - (-183/100)) ^ 9 * ((73/200) - x) ^ 1 + (3245750032647950042172207948621/5317104527634129538068552020000000) * (x - (-183/100)) ^ 10 * ((73/200) - x) ^ 0) := by
    simp only [dEval, polyEval, marsCoef]
    ring
  rw [e]
  linarith

theorem marsCoef_piece1 (x : ℝ) (h1 : 73/200 ≤ x) (h2 : x ≤ 64/25) :
    dEval marsCoef x ≤ -(1/2) := by
  have key : ∀ u v : ℝ, 0 ≤ u → 0 ≤ v → 0 ≤ (3245750032647950042172207948621/5317104527634129538068552020000000) * u ^ 0 * v ^ 10 + (113293141874976736348442635639/33231903297713309612928450125000) * u ^ 1 * v ^ 9 + (19502535147330765280630108809/4153987912214163701616056265625) * u ^ 2 * v ^ 8 + (7938917986005255739933769856/4153987912214163701616056265625) * u ^ 3 * v ^ 7 + (165308935952411360126949018112/4153987912214163701616056265625) * u ^ 4 * v ^ 6 + (3338049517786697194354219450368/20769939561070818508080281328125) * u ^ 5 * v ^ 5 + (1005103604518962821348638687232/4153987912214163701616056265625) * u ^ 6 * v ^ 4 + (652453289883019380321616920576/4153987912214163701616056265625) * u ^ 7 * v ^ 3 + (155487609375096523030243835904/4153987912214163701616056265625) * u ^ 8 * v ^ 2 + (9977734923155954650241302528/4153987912214163701616056265625) * u ^ 9 * v ^ 1 + (7752664478700433188077961216/20769939561070818508080281328125) * u ^ 10 * v ^ 0 := by
    intro u v hu hv
    positivity
  have h := key (x - (73/200)) ((64/25) - x) (by linarith) (by linarith)
  have e : dEval marsCoef x = -(1/2) - ((3245750032647950042172207948621/5317104527634129538068552020000000) * (x - (73/200)) ^ 0 * ((64/25) - x) ^ 10 + (113293141874976736348442635639/33231903297713309612928450125000) * (x - (73/200)) ^ 1 * ((64/25) - x) ^ 9 + (19502535147330765280630108809/4153987912214163701616056265625) * (x - (73/200)) ^ 2 * ((64/25) - x) ^ 8 + (7938917986005255739933769856/4153987912214163701616056265625) * (x - (73/200)) ^ 3 * ((64/25) - x) ^ 7 + (165308935952411360126949018112/4153987912214163701616056265625) * (x - (73/200)) ^ 4 * ((64/25) - x) ^ 6 + (3338049517786697194354219450368/20769939561070818508080281328125) * (x - (73/200)) ^ 5 * ((64/25) - x) ^ 5 + (1005103604518962821348638687232/4153987912214163701616056265625) * (x - (73/200)) ^ 6 * ((64/25) - x) ^ 4 + (652453289883019380321616920576/4153987912214163701616056265625) * (x - (73/200)) ^ 7 * ((64/25) - x) ^ 3 + (155487609375096523030243835904/4153987912214163701616056265625) * (x - (73/200)) ^ 8 * ((64/25) - x) ^ 2 + (9977734923155954650241302528/4153987912214163701616056265625) * (x - (73/200)) ^ 9 * ((64/25) - x) ^ 1 + (7752664478700433188077961216/20769939561070818508080281328125) * (x - (73/200)) ^ 10 * ((64/25) - x) ^ 0) := by
    simp only [dEval, polyEval, marsCoef]
    ring
  rw [e]
  linarith

theorem marsCoef_slope (x : ℝ) (h1 : -183/100 ≤ x) (h2 : x ≤ 64/25) :
    dEval marsCoef x ≤ -(1/2) := by
  rcases le_total x (73/200) with h | h
  · exact marsCoef_piece0 x (by linarith) h
  exact marsCoef_piece1 x (by linarith) h2

theorem marsCoef_exponent_lo (x : ℝ) (h1 : -183/100 ≤ x) (h2 : x ≤ -91/50) :
    polyEval marsCoef.tail x ≤ -1 := by
  have key : ∀ u v : ℝ, 0 ≤ u → 0 ≤ v → 0 ≤ (4783156065072942814598332511/20000000) * u ^ 0 * v ^ 10 + (2391744781961224445879538877/1000000) * u ^ 1 * v ^ 9 + (10763600059953309546831014051/1000000) * u ^ 2 * v ^ 8 + (1794057797420188293304674419/62500) * u ^ 3 * v ^ 7 + (6279636829262050712977804131/125000) * u ^ 4 * v ^ 6 + (9420105487746545568335148251/156250) * u ^ 5 * v ^ 5 + (1570125696839549072765667519/31250) * u ^ 6 * v ^ 4 + (448638158896658948943816876/15625) * u ^ 7 * v ^ 3 + (168250838718413828129683399/15625) * u ^ 8 * v ^ 2 + (37391631303133563632966708/15625) * u ^ 9 * v ^ 1 + (18697090695424364127262956/78125) * u ^ 10 * v ^ 0 := by
    intro u v hu hv
    positivity
  have h := key (x - (-183/100)) ((-91/50) - x) (by linarith) (by linarith)
  have e : polyEval marsCoef.tail x = -1 - ((4783156065072942814598332511/20000000) * (x - (-183/100)) ^ 0 * ((-91/50) - x) ^ 10 + (2391744781961224445879538877/1000000) * (x - (-183/100)) ^ 1 * ((-91/50) - x) ^ 9 + (10763600059953309546831014051/1000000) * (x - (-183/100)) ^ 2 * ((-91/50) - x) ^ 8 + (1794057797420188293304674419/62500) * (x - (-183/100)) ^ 3 * ((-91/50) - x) ^ 7 + (6279636829262050712977804131/125000) * (x - (-183/100)) ^ 4 * ((-91/50) - x) ^ 6 + (9420105487746545568335148251/156250) * (x - (-183/100)) ^ 5 * ((-91/50) - x) ^ 5 + (1570125696839549072765667519/31250) * (x - (-183/100)) ^ 6 * ((-91/50) - x) ^ 4 + (448638158896658948943816876/15625) * (x - (-183/100)) ^ 7 * ((-91/50) - x) ^ 3 + (168250838718413828129683399/15625) * (x - (-183/100)) ^ 8 * ((-91/50) - x) ^ 2 + (37391631303133563632966708/15625) * (x - (-183/100)) ^ 9 * ((-91/50) - x) ^ 1 + (18697090695424364127262956/78125) * (x - (-183/100)) ^ 10 * ((-91/50) - x) ^ 0) := by
    simp only [polyEval, marsCoef, List.tail]
    ring
  rw [e]
  linarith

theorem marsCoef_exponent_hi (x : ℝ) (h1 : 51/20 ≤ x) (h2 : x ≤ 64/25) :
    polyEval marsCoef.tail x ≤ -1 := by
  have key : ∀ u v : ℝ, 0 ≤ u → 0 ≤ v → 0 ≤ (25218689327151910814875/256) * u ^ 0 * v ^ 10 + (31516710319998873081125/32) * u ^ 1 * v ^ 9 + (17724421083239695085825/4) * u ^ 2 * v ^ 8 + (11813803885997874201950) * u ^ 3 * v ^ 7 + (20669838122205243249504) * u ^ 4 * v ^ 6 + (619966067851284021882368/25) * u ^ 5 * v ^ 5 + (516531239668132802990592/25) * u ^ 6 * v ^ 4 + (1475498604753506881600512/125) * u ^ 7 * v ^ 3 + (553198087644381935538176/125) * u ^ 8 * v ^ 2 + (3072692615432214466822144/3125) * u ^ 9 * v ^ 1 + (7680163002800138023993344/78125) * u ^ 10 * v ^ 0 := by
    intro u v hu hv
    positivity
  have h := key (x - (51/20)) ((64/25) - x) (by linarith) (by linarith)
  have e : polyEval marsCoef.tail x = -1 - ((25218689327151910814875/256) * (x - (51/20)) ^ 0 * ((64/25) - x) ^ 10 + (31516710319998873081125/32) * (x - (51/20)) ^ 1 * ((64/25) - x) ^ 9 + (17724421083239695085825/4) * (x - (51/20)) ^ 2 * ((64/25) - x) ^ 8 + (11813803885997874201950) * (x - (51/20)) ^ 3 * ((64/25) - x) ^ 7 + (20669838122205243249504) * (x - (51/20)) ^ 4 * ((64/25) - x) ^ 6 + (619966067851284021882368/25) * (x - (51/20)) ^ 5 * ((64/25) - x) ^ 5 + (516531239668132802990592/25) * (x - (51/20)) ^ 6 * ((64/25) - x) ^ 4 + (1475498604753506881600512/125) * (x - (51/20)) ^ 7 * ((64/25) - x) ^ 3 + (553198087644381935538176/125) * (x - (51/20)) ^ 8 * ((64/25) - x) ^ 2 + (3072692615432214466822144/3125) * (x - (51/20)) ^ 9 * ((64/25) - x) ^ 1 + (7680163002800138023993344/78125) * (x - (51/20)) ^ 10 * ((64/25) - x) ^ 0) := by
    simp only [polyEval, marsCoef, List.tail]
    ring
  rw [e]
  linarith

end Verif.Production
