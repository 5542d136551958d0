import Mathlib.Tactic

/-! # Polynomial inequalities behind the domain of the area ratio searches (Bernstein certificates) -/

namespace Aerokit.ScipyNewton

/-- the cubic of `P (1 + 1.22 s)` -/
theorem sup_hi {s : ℝ} (h0 : 0 ≤ s) : 216 * (1 + 61 / 50 * s) * (1 + s ^ 2) ≤ (5 + (1 + 61 / 50 * s) ^ 2) ^ 3 := by
  obtain ⟨v, rfl⟩ : ∃ v, s = 50 / 61 * v := ⟨61 / 50 * s, by ring⟩
  have hv : 0 ≤ v := by linarith
  have k1 : 0 ≤ v ^ 2 * (v * (v - 9 / 10) ^ 2) := by positivity
  have k2 : 0 ≤ v ^ 2 * (v ^ 4) := by positivity
  have k3 : 0 ≤ v ^ 2 * (v - 86 / 100) ^ 2 := by positivity
  have k4 : 0 ≤ v ^ 2 := by positivity
  have k5 : 0 ≤ v ^ 3 := by positivity
  have k6 : 0 ≤ v ^ 4 := by positivity
  nlinarith

theorem sup_lo {s : ℝ} (h0 : 0 ≤ s) (h1 : s ≤ (11 / 4)) : (5 + (1 + 1 * s) ^ 2) ^ 3 * 1 ≤ 216 * (1 + 1 * s) * (1 + s ^ 2) := by
  have key : ∀ w u v : ℝ, 0 ≤ w → 0 ≤ u → 0 ≤ v → 0 ≤ w ^ 2 * ((9216 / 14641) * (u ^ 0 * v ^ 4) + (132608 / 14641) * (u ^ 1 * v ^ 3) + (284448 / 14641) * (u ^ 2 * v ^ 2) + (175992 / 14641) * (u ^ 3 * v ^ 1) + (295 / 14641) * (u ^ 4 * v ^ 0)) := by
    intro w u v hw hu hv; positivity
  have := key s (s - 0) ((11 / 4) - s) (by linarith) (by linarith) (by linarith)
  linarith

theorem sup_room {s : ℝ} (h0 : 0 ≤ s) (h1 : s ≤ (277 / 100)) : ((9 / 25) * s ^ 0) * ((5 + (1 + 1 * s) ^ 2) ^ 2 * (1 - (1 + 1 * s) ^ 2)) * (1 + (61 / 50) * s) ^ 2 ≤ ((11 / 50) * s ^ 0) * ((5 + (1 + (61 / 50) * s) ^ 2) ^ 2 * (1 - (1 + (61 / 50) * s) ^ 2)) * (1 + 1 * s) ^ 2 := by
  have key : ∀ w u v : ℝ, 0 ≤ w → 0 ≤ u → 0 ≤ v → 0 ≤ w ^ 1 * ((659520000000000 / 125129118027271453) * (u ^ 0 * v ^ 7) + (12186930336000000 / 125129118027271453) * (u ^ 1 * v ^ 6) + (86754161087705600 / 125129118027271453) * (u ^ 2 * v ^ 5) + (7855208564278662464 / 3128227950681786325) * (u ^ 3 * v ^ 4) + (9890563043034322450694 / 1955142469176116453125) * (u ^ 4 * v ^ 3) + (54290578585573344875097353 / 9775712345880582265625000) * (u ^ 5 * v ^ 2) + (1330590660619859572172457631 / 488785617294029113281250000) * (u ^ 6 * v ^ 1) + (12503053684712987611967914337 / 97757123458805822656250000000) * (u ^ 7 * v ^ 0)) := by
    intro w u v hw hu hv; positivity
  have := key s (s - 0) ((277 / 100) - s) (by linarith) (by linarith) (by linarith)
  linarith

theorem sup_kap {s : ℝ} (h0 : 0 ≤ s) (h1 : s ≤ (277 / 100)) : ((11 / 5) * s ^ 0) * ((5 + (1 + 1 * s) ^ 2) ^ 2 * (1 - (1 + 1 * s) ^ 2)) * (1 + (34 / 25) * s) ^ 2 ≤ (1 * s ^ 0) * ((5 + (1 + (34 / 25) * s) ^ 2) ^ 2 * (1 - (1 + (34 / 25) * s) ^ 2)) * (1 + 1 * s) ^ 2 := by
  have key : ∀ w u v : ℝ, 0 ≤ w → 0 ≤ u → 0 ≤ v → 0 ≤ w ^ 1 * ((6048000000000000 / 125129118027271453) * (u ^ 0 * v ^ 7) + (115586323200000000 / 125129118027271453) * (u ^ 1 * v ^ 6) + (849881111516160000 / 125129118027271453) * (u ^ 2 * v ^ 5) + (3174703266266032128 / 125129118027271453) * (u ^ 3 * v ^ 4) + (4127752741619167177344 / 78205698767044658125) * (u ^ 4 * v ^ 3) + (2936874070894223957170608 / 48878561729402911328125) * (u ^ 5 * v ^ 2) + (37741008166465178735799408 / 1221964043235072783203125) * (u ^ 6 * v ^ 1) + (57063980077249508877906252 / 30549101080876819580078125) * (u ^ 7 * v ^ 0)) := by
    intro w u v hw hu hv; positivity
  have := key s (s - 0) ((277 / 100) - s) (by linarith) (by linarith) (by linarith)
  linarith

theorem mid_lo {s : ℝ} (h0 : (11 / 4) ≤ s) (h1 : s ≤ 7) : (5 + ((927 / 400) + (51 / 100) * s) ^ 2) ^ 3 * 1 ≤ 216 * ((927 / 400) + (51 / 100) * s) * (1 + s ^ 2) := by
  have key : ∀ w u v : ℝ, 0 ≤ w → 0 ≤ u → 0 ≤ v → 0 ≤ w ^ 0 * ((194668490192896 / 5892961181640625) * (u ^ 0 * v ^ 6) + (1358045502436992 / 1178592236328125) * (u ^ 1 * v ^ 5) + (294316495424832 / 47143689453125) * (u ^ 2 * v ^ 4) + (126158031369392 / 9428737890625) * (u ^ 3 * v ^ 3) + (194249080521609 / 15085980625000) * (u ^ 4 * v ^ 2) + (1168101659167071 / 241375690000000) * (u ^ 5 * v ^ 1) + (312117111897679 / 1544804416000000) * (u ^ 6 * v ^ 0)) := by
    intro w u v hw hu hv; positivity
  have := key s (s - (11 / 4)) (7 - s) (by linarith) (by linarith) (by linarith)
  linarith

theorem mid_hi {s : ℝ} (h0 : (277 / 100) ≤ s) (h1 : s ≤ 7) : 216 * (1 + 1 * s) * (1 + s ^ 2) ≤ (5 + (1 + 1 * s) ^ 2) ^ 3 * 1 := by
  have key : ∀ w u v : ℝ, 0 ≤ w → 0 ≤ u → 0 ≤ v → 0 ≤ w ^ 2 * ((4770361 / 395254161) * (u ^ 0 * v ^ 4) + (1342016200 / 395254161) * (u ^ 1 * v ^ 3) + (2259500000 / 131751387) * (u ^ 2 * v ^ 2) + (11146000000 / 395254161) * (u ^ 3 * v ^ 1) + (6100000000 / 395254161) * (u ^ 4 * v ^ 0)) := by
    intro w u v hw hu hv; positivity
  have := key s (s - (277 / 100)) (7 - s) (by linarith) (by linarith) (by linarith)
  linarith

theorem mid_kap {s : ℝ} (h0 : (11 / 4) ≤ s) (h1 : s ≤ 7) : ((31 / 10) * s ^ 0) * ((5 + ((927 / 400) + (51 / 100) * s) ^ 2) ^ 2 * (1 - ((927 / 400) + (51 / 100) * s) ^ 2)) * ((5001 / 5000) + (10001 / 10000) * s) ^ 2 ≤ (1 * s ^ 0) * ((5 + ((5001 / 5000) + (10001 / 10000) * s) ^ 2) ^ 2 * (1 - ((5001 / 5000) + (10001 / 10000) * s) ^ 2)) * ((927 / 400) + (51 / 100) * s) ^ 2 := by
  have key : ∀ w u v : ℝ, 0 ≤ w → 0 ≤ u → 0 ≤ v → 0 ≤ w ^ 0 * ((340331687487599709876366754014275231 / 272490525039062500000000000000000000) * (u ^ 0 * v ^ 8) + (33725000168617168977288410453762239057 / 2179924200312500000000000000000000000) * (u ^ 1 * v ^ 7) + (1145581346847058605577054385108813551219 / 13951514882000000000000000000000000000) * (u ^ 2 * v ^ 6) + (422408082489225313042636312231999873867 / 1743939360250000000000000000000000000) * (u ^ 3 * v ^ 5) + (374273722427216957618338543100404944293 / 871969680125000000000000000000000000) * (u ^ 4 * v ^ 4) + (124692054436456991526543259958638362889 / 272490525039062500000000000000000000) * (u ^ 5 * v ^ 3) + (148621510040583488962421865654391248757 / 544981050078125000000000000000000000) * (u ^ 6 * v ^ 2) + (970136363460518783014839526322528251 / 13624526251953125000000000000000000) * (u ^ 7 * v ^ 1) + (1346792839706175234623872282226113 / 1362452625195312500000000000000000) * (u ^ 8 * v ^ 0)) := by
    intro w u v hw hu hv; positivity
  have := key s (s - (11 / 4)) (7 - s) (by linarith) (by linarith) (by linarith)
  linarith

theorem subIa_hi {z : ℝ} (h0 : 0 ≤ z) (h1 : z ≤ (1 / 10)) : (5 + (1 + (-4 / 5) * z) ^ 2) ^ 3 * (1 - z ^ 2) ≤ 216 * (1 + (-4 / 5) * z) * 1 := by
  have key : ∀ w u v : ℝ, 0 ≤ w → 0 ≤ u → 0 ≤ v → 0 ≤ w ^ 2 * (100800000 * (u ^ 0 * v ^ 6) + 591616000 * (u ^ 1 * v ^ 5) + 1447109120 * (u ^ 2 * v ^ 4) + (47205937152 / 25) * (u ^ 3 * v ^ 3) + (866386838016 / 625) * (u ^ 4 * v ^ 2) + (339301177344 / 625) * (u ^ 5 * v ^ 1) + (1384489207296 / 15625) * (u ^ 6 * v ^ 0)) := by
    intro w u v hw hu hv; positivity
  have := key z (z - 0) ((1 / 10) - z) (by linarith) (by linarith) (by linarith)
  linarith

theorem subIa_lo {z : ℝ} (h0 : 0 ≤ z) (h1 : z ≤ (1 / 10)) : 216 * (1 + (-11 / 10) * z) * 1 ≤ (5 + (1 + (-11 / 10) * z) ^ 2) ^ 3 * (1 - z ^ 2) := by
  have key : ∀ w u v : ℝ, 0 ≤ w → 0 ≤ u → 0 ≤ v → 0 ≤ w ^ 2 * (1800000 * (u ^ 0 * v ^ 6) + 23912000 * (u ^ 1 * v ^ 5) + 90821230 * (u ^ 2 * v ^ 4) + (8013086847 / 50) * (u ^ 3 * v ^ 3) + (1479736156761 / 10000) * (u ^ 4 * v ^ 2) + (174217592907 / 2500) * (u ^ 5 * v ^ 1) + (13265926655139 / 1000000) * (u ^ 6 * v ^ 0)) := by
    intro w u v hw hu hv; positivity
  have := key z (z - 0) ((1 / 10) - z) (by linarith) (by linarith) (by linarith)
  linarith

theorem subIa_room {z : ℝ} (h0 : 0 ≤ z) (h1 : z ≤ (1 / 10)) : ((3 / 10) * z ^ 0) * ((5 + (1 + (-11 / 10) * z) ^ 2) ^ 2 * (1 - (1 + (-11 / 10) * z) ^ 2)) * (1 + (-4 / 5) * z) ^ 2 ≤ ((3 / 5) * z ^ 0) * ((5 + (1 + (-4 / 5) * z) ^ 2) ^ 2 * (1 - (1 + (-4 / 5) * z) ^ 2)) * (1 + (-11 / 10) * z) ^ 2 := by
  have key : ∀ w u v : ℝ, 0 ≤ w → 0 ≤ u → 0 ≤ v → 0 ≤ w ^ 1 * (108000000 * (u ^ 0 * v ^ 7) + 716220000 * (u ^ 1 * v ^ 6) + 2033682960 * (u ^ 2 * v ^ 5) + (16024726932 / 5) * (u ^ 3 * v ^ 4) + (1513676420493 / 500) * (u ^ 4 * v ^ 3) + (6855664029003 / 4000) * (u ^ 5 * v ^ 2) + (673075284776217 / 1250000) * (u ^ 6 * v ^ 1) + (4525914706627923 / 62500000) * (u ^ 7 * v ^ 0)) := by
    intro w u v hw hu hv; positivity
  have := key z (z - 0) ((1 / 10) - z) (by linarith) (by linarith) (by linarith)
  linarith

theorem subIa_kap {z : ℝ} (h0 : 0 ≤ z) (h1 : z ≤ (1 / 10)) : (1 * z ^ 0) * ((5 + (1 + (-7 / 5) * z) ^ 2) ^ 2 * (1 - (1 + (-7 / 5) * z) ^ 2)) * (1 + (-4 / 5) * z) ^ 2 ≤ ((11 / 5) * z ^ 0) * ((5 + (1 + (-4 / 5) * z) ^ 2) ^ 2 * (1 - (1 + (-4 / 5) * z) ^ 2)) * (1 + (-7 / 5) * z) ^ 2 := by
  have key : ∀ w u v : ℝ, 0 ≤ w → 0 ≤ u → 0 ≤ v → 0 ≤ w ^ 1 * (259200000 * (u ^ 0 * v ^ 7) + 1667232000 * (u ^ 1 * v ^ 6) + 4576293120 * (u ^ 2 * v ^ 5) + (34725596544 / 5) * (u ^ 3 * v ^ 4) + (786262052208 / 125) * (u ^ 4 * v ^ 3) + (10616346591588 / 3125) * (u ^ 5 * v ^ 2) + (15815249605512 / 15625) * (u ^ 6 * v ^ 1) + (250358003900676 / 1953125) * (u ^ 7 * v ^ 0)) := by
    intro w u v hw hu hv; positivity
  have := key z (z - 0) ((1 / 10) - z) (by linarith) (by linarith) (by linarith)
  linarith

theorem subIb_hi {z : ℝ} (h0 : (1 / 10) ≤ z) (h1 : z ≤ (1 / 2)) : (5 + (1 + (-19 / 20) * z) ^ 2) ^ 3 * (1 - z ^ 2) ≤ 216 * (1 + (-19 / 20) * z) * 1 := by
  have key : ∀ w u v : ℝ, 0 ≤ w → 0 ≤ u → 0 ≤ v → 0 ≤ w ^ 2 * ((2637281608218981 / 262144000000) * (u ^ 0 * v ^ 6) + (1298636654438943 / 26214400000) * (u ^ 1 * v ^ 5) + (1064141253905931 / 10485760000) * (u ^ 2 * v ^ 4) + (58142305445481 / 524288000) * (u ^ 3 * v ^ 3) + (28691070412331 / 419430400) * (u ^ 4 * v ^ 2) + (190515474707 / 8388608) * (u ^ 5 * v ^ 1) + (53669669637 / 16777216) * (u ^ 6 * v ^ 0)) := by
    intro w u v hw hu hv; positivity
  have := key z (z - (1 / 10)) ((1 / 2) - z) (by linarith) (by linarith) (by linarith)
  linarith

theorem subIb_lo {z : ℝ} (h0 : (1 / 10) ≤ z) (h1 : z ≤ (1 / 2)) : 216 * (1 + (-11 / 10) * z) * 1 ≤ (5 + (1 + (-11 / 10) * z) ^ 2) ^ 3 * (1 - z ^ 2) := by
  have key : ∀ w u v : ℝ, 0 ≤ w → 0 ≤ u → 0 ≤ v → 0 ≤ w ^ 2 * ((13265926655139 / 4096000000) * (u ^ 0 * v ^ 6) + (11922965100297 / 409600000) * (u ^ 1 * v ^ 5) + (14943865208589 / 163840000) * (u ^ 2 * v ^ 4) + (1145170654479 / 8192000) * (u ^ 3 * v ^ 3) + (749634589069 / 6553600) * (u ^ 4 * v ^ 2) + (6310692661 / 131072) * (u ^ 5 * v ^ 1) + (2152492323 / 262144) * (u ^ 6 * v ^ 0)) := by
    intro w u v hw hu hv; positivity
  have := key z (z - (1 / 10)) ((1 / 2) - z) (by linarith) (by linarith) (by linarith)
  linarith

theorem subIb_room {z : ℝ} (h0 : (1 / 10) ≤ z) (h1 : z ≤ (1 / 2)) : ((3 / 20) * z ^ 0) * ((5 + (1 + (-11 / 10) * z) ^ 2) ^ 2 * (1 - (1 + (-11 / 10) * z) ^ 2)) * (1 + (-19 / 20) * z) ^ 2 ≤ ((1 / 4) * z ^ 0) * ((5 + (1 + (-19 / 20) * z) ^ 2) ^ 2 * (1 - (1 + (-19 / 20) * z) ^ 2)) * (1 + (-11 / 10) * z) ^ 2 := by
  have key : ∀ w u v : ℝ, 0 ≤ w → 0 ≤ u → 0 ≤ v → 0 ≤ w ^ 1 * ((4564836181996796403 / 2097152000000000) * (u ^ 0 * v ^ 7) + (4911093729721722501 / 419430400000000) * (u ^ 1 * v ^ 6) + (2219563329918167343 / 83886080000000) * (u ^ 2 * v ^ 5) + (108627799921691461 / 3355443200000) * (u ^ 3 * v ^ 4) + (15412615145922341 / 671088640000) * (u ^ 4 * v ^ 3) + (6255340250651663 / 671088640000) * (u ^ 5 * v ^ 2) + (262764364220901 / 134217728000) * (u ^ 6 * v ^ 1) + (4202107964883 / 26843545600) * (u ^ 7 * v ^ 0)) := by
    intro w u v hw hu hv; positivity
  have := key z (z - (1 / 10)) ((1 / 2) - z) (by linarith) (by linarith) (by linarith)
  linarith

theorem subIb_kap {z : ℝ} (h0 : (1 / 10) ≤ z) (h1 : z ≤ (1 / 2)) : (1 * z ^ 0) * ((5 + (1 + (-6 / 5) * z) ^ 2) ^ 2 * (1 - (1 + (-6 / 5) * z) ^ 2)) * (1 + (-19 / 20) * z) ^ 2 ≤ ((11 / 5) * z ^ 0) * ((5 + (1 + (-19 / 20) * z) ^ 2) ^ 2 * (1 - (1 + (-19 / 20) * z) ^ 2)) * (1 + (-6 / 5) * z) ^ 2 := by
  have key : ∀ w u v : ℝ, 0 ≤ w → 0 ≤ u → 0 ≤ v → 0 ≤ w ^ 1 * ((213958751598008469 / 8192000000000) * (u ^ 0 * v ^ 7) + (225639848239122663 / 1638400000000) * (u ^ 1 * v ^ 6) + (99486184008327429 / 327680000000) * (u ^ 2 * v ^ 5) + (4716337949050723 / 13107200000) * (u ^ 3 * v ^ 4) + (640882886939403 / 2621440000) * (u ^ 4 * v ^ 3) + (244186864781549 / 2621440000) * (u ^ 5 * v ^ 2) + (9244205526063 / 524288000) * (u ^ 6 * v ^ 1) + (119317401149 / 104857600) * (u ^ 7 * v ^ 0)) := by
    intro w u v hw hu hv; positivity
  have := key z (z - (1 / 10)) ((1 / 2) - z) (by linarith) (by linarith) (by linarith)
  linarith

theorem subIIa_hi {y : ℝ} (h0 : 0 ≤ y) (h1 : y ≤ (1 / 2)) : (5 + ((29 / 25) * y) ^ 2) ^ 3 * (y * (2 - y)) ≤ 216 * ((29 / 25) * y) * 1 := by
  have key : ∀ w u v : ℝ, 0 ≤ w → 0 ≤ u → 0 ≤ v → 0 ≤ w ^ 1 * ((1792 / 25) * (u ^ 0 * v ^ 7) + (212544 / 25) * (u ^ 1 * v ^ 6) + (215232 / 5) * (u ^ 2 * v ^ 5) + (2295728 / 25) * (u ^ 3 * v ^ 4) + (8120650512 / 78125) * (u ^ 4 * v ^ 3) + (5110138908 / 78125) * (u ^ 5 * v ^ 2) + (5266140331716 / 244140625) * (u ^ 6 * v ^ 1) + (706615167537 / 244140625) * (u ^ 7 * v ^ 0)) := by
    intro w u v hw hu hv; positivity
  have := key y (y - 0) ((1 / 2) - y) (by linarith) (by linarith) (by linarith)
  linarith

theorem subIIa_lo {y : ℝ} (h0 : 0 ≤ y) (h1 : y ≤ (1 / 2)) : 216 * (1 * y) * 1 ≤ (5 + (1 * y) ^ 2) ^ 3 * (y * (2 - y)) := by
  have key : ∀ w u v : ℝ, 0 ≤ w → 0 ≤ u → 0 ≤ v → 0 ≤ w ^ 1 * (4352 * (u ^ 0 * v ^ 7) + 22464 * (u ^ 1 * v ^ 6) + 48192 * (u ^ 2 * v ^ 5) + 55120 * (u ^ 3 * v ^ 4) + 35760 * (u ^ 4 * v ^ 3) + 12852 * (u ^ 5 * v ^ 2) + 2268 * (u ^ 6 * v ^ 1) + 135 * (u ^ 7 * v ^ 0)) := by
    intro w u v hw hu hv; positivity
  have := key y (y - 0) ((1 / 2) - y) (by linarith) (by linarith) (by linarith)
  linarith

theorem subIIa_room {y : ℝ} (h0 : 0 ≤ y) (h1 : y ≤ (1 / 2)) : ((4 / 25) * y ^ 0) * ((5 + (1 * y) ^ 2) ^ 2 * (1 - (1 * y) ^ 2)) * ((29 / 25) * y) ^ 2 ≤ ((13 / 50) * y ^ 0) * ((5 + ((29 / 25) * y) ^ 2) ^ 2 * (1 - ((29 / 25) * y) ^ 2)) * (1 * y) ^ 2 := by
  have key : ∀ w u v : ℝ, 0 ≤ w → 0 ≤ u → 0 ≤ v → 0 ≤ w ^ 2 * ((44704 / 625) * (u ^ 0 * v ^ 6) + (268224 / 625) * (u ^ 1 * v ^ 5) + (650376 / 625) * (u ^ 2 * v ^ 4) + (813344 / 625) * (u ^ 3 * v ^ 3) + (8495436246 / 9765625) * (u ^ 4 * v ^ 2) + (2749872492 / 9765625) * (u ^ 5 * v ^ 1) + (361534479327 / 12207031250) * (u ^ 6 * v ^ 0)) := by
    intro w u v hw hu hv; positivity
  have := key y (y - 0) ((1 / 2) - y) (by linarith) (by linarith) (by linarith)
  linarith

theorem subIIa_kap {y : ℝ} (h0 : 0 ≤ y) (h1 : y ≤ (1 / 2)) : (1 * y ^ 0) * ((5 + ((9 / 10) * y) ^ 2) ^ 2 * (1 - ((9 / 10) * y) ^ 2)) * ((29 / 25) * y) ^ 2 ≤ ((11 / 5) * y ^ 0) * ((5 + ((29 / 25) * y) ^ 2) ^ 2 * (1 - ((29 / 25) * y) ^ 2)) * ((9 / 10) * y) ^ 2 := by
  have key : ∀ w u v : ℝ, 0 ≤ w → 0 ≤ u → 0 ≤ v → 0 ≤ w ^ 2 * ((17456 / 25) * (u ^ 0 * v ^ 6) + (104736 / 25) * (u ^ 1 * v ^ 5) + (158745288 / 15625) * (u ^ 2 * v ^ 4) + (198581152 / 15625) * (u ^ 3 * v ^ 3) + (1661292380769 / 195312500) * (u ^ 4 * v ^ 2) + (270027980769 / 97656250) * (u ^ 5 * v ^ 1) + (578785699803949 / 1953125000000) * (u ^ 6 * v ^ 0)) := by
    intro w u v hw hu hv; positivity
  have := key y (y - 0) ((1 / 2) - y) (by linarith) (by linarith) (by linarith)
  linarith

theorem subIIb_hi {y : ℝ} (h0 : 0 ≤ y) (h1 : y ≤ (1 / 100)) : (5 + ((141 / 100) * y) ^ 2) ^ 3 * (y * (2 - y)) ≤ 216 * ((141 / 100) * y) * 1 := by
  have key : ∀ w u v : ℝ, 0 ≤ w → 0 ≤ u → 0 ≤ v → 0 ≤ w ^ 1 * (5456000000000000 * (u ^ 0 * v ^ 7) + 38317000000000000 * (u ^ 1 * v ^ 6) + 115323017850000000 * (u ^ 2 * v ^ 5) + 192820104160750000 * (u ^ 3 * v ^ 4) + (1934302380244237517 / 10) * (u ^ 4 * v ^ 3) + (232842535218728272683 / 2000) * (u ^ 5 * v ^ 2) + (194635742692277229867025159 / 5000000000) * (u ^ 6 * v ^ 1) + (5578032642765069189953006641 / 1000000000000) * (u ^ 7 * v ^ 0)) := by
    intro w u v hw hu hv; positivity
  have := key y (y - 0) ((1 / 100) - y) (by linarith) (by linarith) (by linarith)
  linarith

theorem subIIb_lo {y : ℝ} (h0 : 0 ≤ y) (h1 : y ≤ (1 / 100)) : 216 * ((23 / 20) * y) * 1 ≤ (5 + ((23 / 20) * y) ^ 2) ^ 3 * (y * (2 - y)) := by
  have key : ∀ w u v : ℝ, 0 ≤ w → 0 ≤ u → 0 ≤ v → 0 ≤ w ^ 1 * (160000000000000 * (u ^ 0 * v ^ 7) + 995000000000000 * (u ^ 1 * v ^ 6) + 2611983750000000 * (u ^ 2 * v ^ 5) + 3734908831250000 * (u ^ 3 * v ^ 4) + (6239595754940375 / 2) * (u ^ 4 * v ^ 3) + (24076450314371385 / 16) * (u ^ 5 * v ^ 2) + (121561354203623435889 / 320000) * (u ^ 6 * v ^ 1) + (2366328541330999141911 / 64000000) * (u ^ 7 * v ^ 0)) := by
    intro w u v hw hu hv; positivity
  have := key y (y - 0) ((1 / 100) - y) (by linarith) (by linarith) (by linarith)
  linarith

theorem subIIb_room {y : ℝ} (h0 : 0 ≤ y) (h1 : y ≤ (1 / 100)) : ((13 / 50) * y ^ 0) * ((5 + ((23 / 20) * y) ^ 2) ^ 2 * (1 - ((23 / 20) * y) ^ 2)) * ((141 / 100) * y) ^ 2 ≤ ((41 / 100) * y ^ 0) * ((5 + ((141 / 100) * y) ^ 2) ^ 2 * (1 - ((141 / 100) * y) ^ 2)) * ((23 / 20) * y) ^ 2 := by
  have key : ∀ w u v : ℝ, 0 ≤ w → 0 ≤ u → 0 ≤ v → 0 ≤ w ^ 2 * (632975000000 * (u ^ 0 * v ^ 6) + 3797850000000 * (u ^ 1 * v ^ 5) + (37976133663975 / 4) * (u ^ 2 * v ^ 4) + 12657133663975 * (u ^ 3 * v ^ 3) + (3796430153777578206489 / 400000000) * (u ^ 4 * v ^ 2) + (759096688187578206489 / 200000000) * (u ^ 5 * v ^ 1) + (25295332178885212845898319801 / 40000000000000000) * (u ^ 6 * v ^ 0)) := by
    intro w u v hw hu hv; positivity
  have := key y (y - 0) ((1 / 100) - y) (by linarith) (by linarith) (by linarith)
  linarith

theorem subIIb_kap {y : ℝ} (h0 : 0 ≤ y) (h1 : y ≤ (1 / 100)) : (1 * y ^ 0) * ((5 + (1 * y) ^ 2) ^ 2 * (1 - (1 * y) ^ 2)) * ((141 / 100) * y) ^ 2 ≤ ((11 / 5) * y ^ 0) * ((5 + ((141 / 100) * y) ^ 2) ^ 2 * (1 - ((141 / 100) * y) ^ 2)) * (1 * y) ^ 2 := by
  have key : ∀ w u v : ℝ, 0 ≤ w → 0 ≤ u → 0 ≤ v → 0 ≤ w ^ 2 * (5297500000000 * (u ^ 0 * v ^ 6) + 31785000000000 * (u ^ 1 * v ^ 5) + 79458921420000 * (u ^ 2 * v ^ 4) + 105935685680000 * (u ^ 3 * v ^ 3) + (3972051395816288061 / 50000) * (u ^ 4 * v ^ 2) + (794267111816288061 / 25000) * (u ^ 5 * v ^ 1) + (26469604081552308072276749 / 5000000000000) * (u ^ 6 * v ^ 0)) := by
    intro w u v hw hu hv; positivity
  have := key y (y - 0) ((1 / 100) - y) (by linarith) (by linarith) (by linarith)
  linarith

end Aerokit.ScipyNewton
