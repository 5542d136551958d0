import Verif.Lemmas.SecantRiemann
import Verif.Props.Riemann

/-! # C140 — the Riemann problem solved with the real `scipy.optimize.newton` -/

namespace Aerokit.Props
open Model1D Unsteady1D Riemann ScipyNewton
open MassFlow (RootFinder)

/-- the call `newton(du, estimate, rtol=1e-10)` of `riemann.py` -/
noncomputable def riemannScipy : RootFinder := newton 1.48e-8 1e-10 50

/-! ## the object is built for any positive pressure -/

theorem sr_left {q : UState} (h : q.Valid) {p : ℝ} (hp : 0 < p) (u : ℝ) : ∃ r, leftSide q p u = .ok r := by
  unfold leftSide
  by_cases hc : p > q.p
  · have hne : q.rho - rhs q p ≠ 0 := by have := rhs_gt h hc; intro h0; linarith
    rw [if_pos hc, rho_through_shock_ok h hp, Py.ok_bind, Py.div_ok hne, Py.ok_bind]
    exact ⟨_, rfl⟩
  · rw [if_neg hc, rho_through_isentropic_ok h hp, Py.ok_bind]
    simp only []
    rw [h.asound, Py.ok_bind, show State.asound ⟨rhi q p, u, p, q.gamma⟩ = _ from (isen_valid h hp u).asound, Py.ok_bind]
    exact ⟨_, rfl⟩

theorem sr_right {q : UState} (h : q.Valid) {p : ℝ} (hp : 0 < p) (u : ℝ) : ∃ r, rightSide q p u = .ok r := by
  unfold rightSide
  by_cases hc : p > q.p
  · have hne : q.rho - rhs q p ≠ 0 := by have := rhs_gt h hc; intro h0; linarith
    rw [if_pos hc, rho_through_shock_ok h hp, Py.ok_bind, Py.div_ok hne, Py.ok_bind]
    exact ⟨_, rfl⟩
  · rw [if_neg hc, rho_through_isentropic_ok h hp, Py.ok_bind]
    simp only []
    rw [show State.asound ⟨rhi q p, u, p, q.gamma⟩ = _ from (isen_valid h hp u).asound, Py.ok_bind, h.asound, Py.ok_bind]
    exact ⟨_, rfl⟩

theorem sr_init {n : RootFinder} {qL qR : UState} (hL : qL.Valid) (hR : qR.Valid) {p0 m : ℝ} (he : pstar_estimate_expansion qL qR = .ok p0)
    (hm : n (du qL qR) p0 = .ok m) (h0 : 0 < m) : ∃ s, Riemann.init n qL qR = .ok s ∧ s.pstar = m := by
  unfold Riemann.init
  obtain ⟨l, hl⟩ := sr_left hL h0 (0.5 * (qR.u + qL.u + df qR m - df qL m))
  obtain ⟨r, hr⟩ := sr_right hR h0 (0.5 * (qR.u + qL.u + df qR m - df qL m))
  have hu : ustar_from_pstar qL qR m = .ok (0.5 * (qR.u + qL.u + df qR m - df qL m)) := by
    unfold ustar_from_pstar
    rw [delta_u_ok hR h0, Py.ok_bind, delta_u_ok hL h0, Py.ok_bind]; rfl
  rw [he, Py.ok_bind, hm, Py.ok_bind, hu, Py.ok_bind, hl, Py.ok_bind, hr, Py.ok_bind]
  exact ⟨_, rfl, rfl⟩

/-! ## started on the root -/

theorem newton_at_root {tol rtol x0 q1 : ℝ} {f : ℝ → Py ℝ} {n : ℕ} (ht : 0 ≤ tol + rtol * |x0|) (h0 : f x0 = .ok 0) (h1 : f (second x0) = .ok q1) (hq : q1 ≠ 0) :
    newton tol rtol (n + 2) f x0 = .ok x0 := by
  unfold newton
  simp only []
  rw [h0, Py.ok_bind, h1, Py.ok_bind, if_neg (by rw [abs_zero]; exact not_lt.2 (abs_nonneg _)), loop_succ hq]
  have c1 : chord x0 (second x0) 0 q1 = x0 := by
    unfold chord; rw [sub_zero]; field_simp; ring
  have c2 : chord (second x0) x0 q1 0 = x0 := by unfold chord; ring
  rw [c1]
  split_ifs with hc
  · rfl
  · rw [h0, Py.ok_bind, loop_succ hq.symm, c2, if_pos (by rw [sub_self, abs_zero]; exact ht)]

/-- **C140 (two expansions).**  When the gammas are equal and both waves are expansions, the constructor succeeds with scipy's secant loop and
`pstar` is exactly the root, for every pair of states. -/
theorem C140_two_expansions (qL qR : UState) (hL : qL.Valid) (hR : qR.Valid) (hg : qL.gamma = qR.gamma) (p : ℝ)
    (hp : 0 < p) (hr : du qL qR p = .ok 0) (h1 : p ≤ qL.p) (h2 : p ≤ qR.p) :
    ∃ s, Riemann.init riemannScipy qL qR = .ok s ∧ s.pstar = p := by
  have he := C63_exact qL qR hL hR hg p hp hr h1 h2
  have hs := second_pos hp
  have hlt : p < second p := by rw [hs]; nlinarith
  refine sr_init hL hR he ?_ hp
  refine newton_at_root (n := 48) (by positivity) hr (du_ok hL hR (by linarith)) ?_
  have := duf_strictMono hL hR (show (0:ℝ) ≤ p from hp.le) (show (0:ℝ) ≤ second p by linarith) hlt
  rw [du_ok hL hR hp.le] at hr
  have := Except.ok.inj hr
  intro e; linarith

/-- two streams that move apart and leave a pressure of one eighth meet the hypotheses -/
example : ∃ (qL qR : UState) (p : ℝ), qL.Valid ∧ qR.Valid ∧ qL.gamma = qR.gamma ∧ 0 < p ∧ du qL qR p = .ok 0 ∧ p < qL.p ∧ p < qR.p := by
  have hL : State.Valid ⟨3, -(1 / 2), 1, 3⟩ := ⟨by norm_num, by norm_num, by norm_num⟩
  have hR : State.Valid ⟨3, 1 / 2, 1, 3⟩ := ⟨by norm_num, by norm_num, by norm_num⟩
  have e : ∀ u, df ⟨3, u, 1, 3⟩ (1 / 8) = -(1 / 2) := by
    intro u
    unfold df due State.cs
    rw [if_neg (by norm_num)]
    simp only []
    rw [show (3 : ℝ) * 1 / 3 = 1 by norm_num, Real.sqrt_one, show ((3 : ℝ) - 1) / (2 * 3) = ((3 : ℕ) : ℝ)⁻¹ by norm_num,
      show (1 / 8 / 1 : ℝ) = (1 / 2) ^ 3 by norm_num, Real.pow_rpow_inv_natCast (by norm_num) (by norm_num)]
    norm_num
  refine ⟨_, _, 1 / 8, hL, hR, rfl, by norm_num, ?_, by norm_num, by norm_num⟩
  rw [du_ok hL hR (by norm_num)]
  unfold duf
  rw [e, e]
  norm_num

/-! ## moderate shocks -/

theorem rie_poly {t : ℝ} (h0 : 1 ≤ t) (h1 : t ≤ 729 / 500) : (t ^ 7 - 1) ^ 2 ≤ 7 * (6 * t ^ 7 + 1) * (5267 / 5000 * t - 1) ^ 2 := by
  have key : ∀ u v : ℝ, 0 ≤ u → 0 ≤ v → 0 ≤ (8528225097656250000000000000000000000 / 1090678501427765328462322842832681) * (u ^ 0 * v ^ 14) + (296931972421875000000000000000000000000 / 1090678501427765328462322842832681) * (u ^ 1 * v ^ 13) + (3608507340664365234375000000000000000000 / 1090678501427765328462322842832681) * (u ^ 2 * v ^ 12) + (24041129437242392343750000000000000000000 / 1090678501427765328462322842832681) * (u ^ 3 * v ^ 11) + (103260269041178416235468750000000000000000 / 1090678501427765328462322842832681) * (u ^ 4 * v ^ 10) + (308781403027644160811157187500000000000000 / 1090678501427765328462322842832681) * (u ^ 5 * v ^ 9) + (668728389948209428213515098750000000000000 / 1090678501427765328462322842832681) * (u ^ 6 * v ^ 8) + (1068403704399464212618169770722500000000000 / 1090678501427765328462322842832681) * (u ^ 7 * v ^ 7) + (1263762637648046256143118329312726250000000 / 1090678501427765328462322842832681) * (u ^ 8 * v ^ 6) + (1095771130653672043891824572252992902500000 / 1090678501427765328462322842832681) * (u ^ 9 * v ^ 5) + (678465104201714778795851544411508262500000 / 1090678501427765328462322842832681) * (u ^ 10 * v ^ 4) + (284919332199090434078821009447809525000000 / 1090678501427765328462322842832681) * (u ^ 11 * v ^ 3) + (73225175954466452737471496591170192250000 / 1090678501427765328462322842832681) * (u ^ 12 * v ^ 2) + (8953107139522056895538511542069725477000 / 1090678501427765328462322842832681) * (u ^ 13 * v ^ 1) + (108125379001320601695503937644605394319 / 1090678501427765328462322842832681) * (u ^ 14 * v ^ 0) := by
    intro u v hu hv; positivity
  have := key (t - 1) (729 / 500 - t) (by linarith) (by linarith)
  linarith


theorem rie_poly2 {t : ℝ} (h0 : 1 ≤ t) : 7 * (6 * t ^ 7 + 1) * (t - 1) ^ 2 ≤ (t ^ 7 - 1) ^ 2 := by
  obtain ⟨v, rfl⟩ : ∃ v, t = 1 + v := ⟨t - 1, by ring⟩
  have hv : 0 ≤ v := by linarith
  have key : 0 ≤ v ^ 2 * (49 * v ^ 2 + 490 * v ^ 3 + 1519 * v ^ 4 + 2065 * v ^ 5 + 1659 * v ^ 6 + 805 * v ^ 7 + 245 * v ^ 8 + 42 * v ^ 9 + 3 * v ^ 10) := by positivity
  have key2 : ∀ k : ℕ, 0 ≤ v ^ k := fun k => pow_nonneg hv k
  nlinarith [key, key2 3, key2 4, key2 5, key2 6, key2 7, key2 8, key2 9, key2 10, key2 11, key2 12, key2 13, key2 14]

/-- the shock branch in terms of `t = (P/p)^(1/7)` -/
theorem dus_air {q : UState} (h : q.Valid) (hg : q.gamma = 7 / 5) {t : ℝ} (ht : 0 < t) :
    dus q (q.p * t ^ 7) ^ 2 * (7 * (6 * t ^ 7 + 1)) = 25 * q.cs ^ 2 * (t ^ 7 - 1) ^ 2 := by
  have h1 := h.rho; have h2 := h.p
  have hS := SS_sq h (show 0 < q.p * t ^ 7 by positivity)
  have hS0 := SS_pos h (show 0 < q.p * t ^ 7 by positivity)
  unfold dus
  rw [div_pow, mul_pow, hS, h.cs_sq]
  unfold KK
  rw [hg]
  field_simp
  ring

theorem due_air {q : UState} (h : q.Valid) (hg : q.gamma = 7 / 5) {t : ℝ} (ht : 0 < t) : due q (q.p * t ^ 7) = 5 * q.cs * (t - 1) := by
  have h2 := h.p
  unfold due
  rw [hg, mul_div_cancel_left₀ _ h2.ne', show ((7 : ℝ) / 5 - 1) / (2 * (7 / 5)) = ((7 : ℕ) : ℝ)⁻¹ by norm_num, Real.pow_rpow_inv_natCast ht.le (by norm_num)]
  ring

theorem air_t {q : UState} (h : q.Valid) {P : ℝ} (hP : 0 < P) : ∃ t, 0 < t ∧ P = q.p * t ^ 7 := by
  have h2 := h.p
  refine ⟨(P / q.p) ^ (((7 : ℕ) : ℝ)⁻¹), by positivity, ?_⟩
  rw [Real.rpow_inv_natCast_pow (by positivity) (by norm_num)]
  field_simp

theorem due_le_df {q : UState} (h : q.Valid) (hg : q.gamma = 7 / 5) {P : ℝ} (hP : 0 < P) : due q P ≤ df q P := by
  unfold df
  split_ifs with c
  · obtain ⟨t, t0, rfl⟩ := air_t h hP
    have h2 := h.p; have hc := h.cs_pos
    have t1 : 1 ≤ t := by
      by_contra hn
      push Not at hn
      have : t ^ 7 ≤ 1 := pow_le_one₀ t0.le hn.le
      nlinarith
    rw [due_air h hg t0]
    have e := dus_air h hg t0
    have k := rie_poly2 t1
    have hd : 0 ≤ dus q (q.p * t ^ 7) := by
      have := SS_pos h hP; have := h.rho
      unfold dus; exact div_nonneg (by linarith) (by positivity)
    refine abs_le_of_sq_le_sq' ?_ hd |>.2
    have hK : 0 < 7 * (6 * t ^ 7 + 1) := by positivity
    refine le_of_mul_le_mul_right ?_ hK
    rw [e]
    have : 0 ≤ 25 * q.cs ^ 2 := by positivity
    nlinarith [mul_le_mul_of_nonneg_left k this]
  · exact le_rfl

theorem df_le_due {q : UState} (h : q.Valid) (hg : q.gamma = 7 / 5) {P : ℝ} (hP : 0 < P) (hP' : P ≤ 14 * q.p) : df q P ≤ due q (36 / 25 * P) := by
  have mono := (due_strictMono h).monotoneOn
  unfold df
  split_ifs with c
  · obtain ⟨t, t0, rfl⟩ := air_t h hP
    have h2 := h.p; have hc := h.cs_pos
    have t1 : 1 ≤ t := by
      by_contra hn
      push Not at hn
      have : t ^ 7 ≤ 1 := pow_le_one₀ t0.le hn.le
      nlinarith
    have t2 : t ≤ 729 / 500 := by
      by_contra hn
      push Not at hn
      have : (729 / 500 : ℝ) ^ 7 ≤ t ^ 7 := pow_le_pow_left₀ (by norm_num) hn.le 7
      have : (14 : ℝ) < t ^ 7 := lt_of_lt_of_le (by norm_num) this
      nlinarith
    have e := dus_air h hg t0
    have k := rie_poly t1 t2
    have le2 : due q (q.p * (5267 / 5000 * t) ^ 7) ≤ due q (36 / 25 * (q.p * t ^ 7)) := by
      refine mono (show (0:ℝ) ≤ q.p * (5267 / 5000 * t) ^ 7 by positivity) (show (0:ℝ) ≤ 36 / 25 * (q.p * t ^ 7) by positivity) ?_
      have : (5267 / 5000 : ℝ) ^ 7 ≤ 36 / 25 := by norm_num
      have h3 : 0 ≤ q.p * t ^ 7 := by positivity
      calc q.p * (5267 / 5000 * t) ^ 7 = (5267 / 5000 : ℝ) ^ 7 * (q.p * t ^ 7) := by ring
        _ ≤ _ := mul_le_mul_of_nonneg_right this h3
    refine le_trans ?_ le2
    rw [due_air h hg (by positivity)]
    have hd : 0 ≤ 5 * q.cs * (5267 / 5000 * t - 1) := mul_nonneg (by positivity) (by linarith)
    refine abs_le_of_sq_le_sq' ?_ hd |>.2
    have hK : 0 < 7 * (6 * t ^ 7 + 1) := by positivity
    refine le_of_mul_le_mul_right ?_ hK
    rw [e]
    have : 0 ≤ 25 * q.cs ^ 2 := by positivity
    nlinarith [mul_le_mul_of_nonneg_left k this]
  · exact mono hP.le (show (0:ℝ) ≤ 36 / 25 * P by linarith) (by linarith)

/-- the estimate is the root of the two-expansion function -/
theorem estimate_root {qL qR : UState} (hL : qL.Valid) (hR : qR.Valid) (hg : qL.gamma = qR.gamma) (hv : NoVacuum qL qR) :
    ∃ p0, 0 < p0 ∧ pstar_estimate_expansion qL qR = .ok p0 ∧ due qL p0 + due qR p0 + qR.u - qL.u = 0 := by
  obtain ⟨p0, h0, he⟩ := estimate_finite hL hR hg hv
  refine ⟨p0, h0, he, ?_⟩
  obtain ⟨z, hz⟩ : ∃ z, z = (qL.gamma - 1) / (2 * qL.gamma) := ⟨_, rfl⟩
  have hg1 : 0 < qL.gamma - 1 := by linarith [hL.gamma]
  have hg0 := hL.g0
  have hz0 : 0 < z := by rw [hz]; positivity
  have cL := hL.cs_pos; have cR := hR.cs_pos
  have wL := Real.rpow_pos_of_pos hL.p z
  have wR := Real.rpow_pos_of_pos hR.p z
  rw [estimate_ok hL hR hg z hz] at he
  have he := Py.pow_inv he
  obtain ⟨b, hb⟩ : ∃ b, b = (qL.cs + qR.cs - (qL.gamma - 1) / 2 * (qR.u - qL.u)) / (qL.cs / qL.p ^ z + qR.cs / qR.p ^ z) := ⟨_, rfl⟩
  rw [← hb] at he
  have b0 : 0 < b := by
    rw [hb]
    apply div_pos _ (by positivity)
    unfold NoVacuum at hv
    rw [← hg] at hv
    have : 2 * qL.cs / (qL.gamma - 1) + 2 * qR.cs / (qL.gamma - 1) = 2 / (qL.gamma - 1) * (qL.cs + qR.cs) := by
      field_simp
    rw [this] at hv
    have h2 : (qL.gamma - 1) / 2 * (qR.u - qL.u) < (qL.gamma - 1) / 2 * (2 / (qL.gamma - 1) * (qL.cs + qR.cs)) :=
      mul_lt_mul_of_pos_left hv (by positivity)
    rw [show (qL.gamma - 1) / 2 * (2 / (qL.gamma - 1) * (qL.cs + qR.cs)) = qL.cs + qR.cs by field_simp] at h2
    linarith
  have hpz : p0 ^ z = b := by
    rw [he, ← Real.rpow_mul b0.le, one_div, inv_mul_cancel₀ hz0.ne', Real.rpow_one]
  rw [eq_div_iff (by positivity)] at hb
  unfold due
  rw [← hg, ← hz, Real.div_rpow h0.le hL.p.le, Real.div_rpow h0.le hR.p.le, hpz]
  have e : b * (qL.cs / qL.p ^ z + qR.cs / qR.p ^ z) - (qL.cs + qR.cs) + (qL.gamma - 1) / 2 * (qR.u - qL.u)
      = (qL.gamma - 1) / 2 * (2 * qL.cs / (qL.gamma - 1) * (b / qL.p ^ z - 1) +
        2 * qR.cs / (qL.gamma - 1) * (b / qR.p ^ z - 1) + qR.u - qL.u) := by
    field_simp; ring
  have e0 : (qL.gamma - 1) / 2 * (2 * qL.cs / (qL.gamma - 1) * (b / qL.p ^ z - 1) +
        2 * qR.cs / (qL.gamma - 1) * (b / qR.p ^ z - 1) + qR.u - qL.u) = 0 := by rw [← e]; linarith
  rcases mul_eq_zero.1 e0 with h | h
  · exfalso; have : 0 < (qL.gamma - 1) / 2 := by positivity
    linarith
  · exact h

/-- for air the estimate lies between the root and 1.44 times the root as long as neither shock exceeds a pressure ratio of 14 -/
theorem estimate_between {qL qR : UState} (hL : qL.Valid) (hR : qR.Valid) (gL : qL.gamma = 7 / 5) (gR : qR.gamma = 7 / 5) {p : ℝ} (hp : 0 < p)
    (hr : duf qL qR p = 0) (h1 : p ≤ 14 * qL.p) (h2 : p ≤ 14 * qR.p) :
    ∃ p0, pstar_estimate_expansion qL qR = .ok p0 ∧ p ≤ p0 ∧ p0 ≤ 36 / 25 * p := by
  obtain ⟨p0, h0, he, hz⟩ := estimate_root hL hR (gL.trans gR.symm) ((duf_root hL hR).1 ⟨p, hp, hr⟩)
  refine ⟨p0, he, ?_, ?_⟩
  · by_contra hn
    push Not at hn
    have := due_strictMono hL (show (0:ℝ) ≤ p0 from h0.le) (show (0:ℝ) ≤ p from hp.le) hn
    have := due_strictMono hR (show (0:ℝ) ≤ p0 from h0.le) (show (0:ℝ) ≤ p from hp.le) hn
    have := due_le_df hL gL hp
    have := due_le_df hR gR hp
    unfold duf at hr
    linarith
  · by_contra hn
    push Not at hn
    have hq : (0:ℝ) ≤ 36 / 25 * p := by positivity
    have := due_strictMono hL (show (0:ℝ) ≤ 36 / 25 * p from hq) (show (0:ℝ) ≤ p0 from h0.le) hn
    have := due_strictMono hR (show (0:ℝ) ≤ 36 / 25 * p from hq) (show (0:ℝ) ≤ p0 from h0.le) hn
    have := df_le_due hL gL hp h1
    have := df_le_due hR gR hp h2
    unfold duf at hr
    linarith

/-- **C140 (moderate shocks).**  For air, when the pressure between the waves is at most 14 times each initial pressure (so each shock is
weaker than a pressure ratio of 14) and is not below `0.02` in the units used, the constructor succeeds with scipy's secant loop from the
code's own estimate, and `pstar` is the root within `1.48e-8 + 1.45e-10 p`.  Other gammas, stronger shocks (where it can fail, see
`C140_collision_false`) and lower pressures are missing. -/
theorem C140_moderate_partial (qL qR : UState) (hL : qL.Valid) (hR : qR.Valid) (gL : qL.gamma = 7 / 5) (gR : qR.gamma = 7 / 5) (p : ℝ)
    (hp : 1 / 50 ≤ p) (hr : du qL qR p = .ok 0) (h1 : p ≤ 14 * qL.p) (h2 : p ≤ 14 * qR.p) :
    ∃ s, Riemann.init riemannScipy qL qR = .ok s ∧ |s.pstar - p| ≤ 1.48e-8 + 1.45e-10 * p := by
  have p0 : 0 < p := by linarith
  rw [du_ok hL hR p0.le] at hr
  have hr := Except.ok.inj hr
  obtain ⟨x, he, hx1, hx2⟩ := estimate_between hL hR gL gR p0 hr h1 h2
  have hs := second_pos (show 0 < x by linarith)
  obtain ⟨m, hm, m1, m2⟩ := riemann_run hL hR p0 hr (show 319 / 400 * p ≤ x by linarith) (by rw [hs]; linarith)
  obtain ⟨s, h1, h2⟩ := sr_init hL hR he hm (by nlinarith)
  exact ⟨s, h1, by rw [h2]; exact m2⟩

/-- two streams that collide and leave two shocks of pressure ratio 4 meet the hypotheses -/
example : ∃ (qL qR : UState) (p : ℝ), qL.Valid ∧ qR.Valid ∧ qL.gamma = 7 / 5 ∧ qR.gamma = 7 / 5 ∧ 1 / 50 ≤ p ∧ du qL qR p = .ok 0 ∧
    p ≤ 14 * qL.p ∧ p ≤ 14 * qR.p ∧ qL.p < p ∧ qR.p < p := by
  have hL : State.Valid ⟨5, 3 / 5, 1, 7 / 5⟩ := ⟨by norm_num, by norm_num, by norm_num⟩
  have hR : State.Valid ⟨5, -(3 / 5), 1, 7 / 5⟩ := ⟨by norm_num, by norm_num, by norm_num⟩
  have e : ∀ u, df ⟨5, u, 1, 7 / 5⟩ 4 = 3 / 5 := by
    intro u
    unfold df dus SS KK
    rw [if_pos (by norm_num)]
    simp only []
    rw [show (((7 : ℝ) / 5 + 1) * 4 + (7 / 5 - 1) * 1) / (2 * 5) = 1 by norm_num, Real.sqrt_one]
    norm_num
  refine ⟨_, _, 4, hL, hR, rfl, rfl, by norm_num, ?_, by norm_num, by norm_num, by norm_num, by norm_num⟩
  rw [du_ok hL hR (by norm_num)]
  unfold duf
  rw [e, e]
  norm_num

/-! ## strong shocks: the first chord leads to a negative pressure -/

/-- when the tangent at the estimate crosses zero at a negative pressure, so does the first chord, and the search fails -/
theorem newton_negative {qL qR : UState} (hL : qL.Valid) (hR : qR.Valid) {x : ℝ} (hx : 0 < x) (h : x * (gg qL x + gg qR x) < duf qL qR x) :
    riemannScipy (du qL qR) x = .error .nonFinite := by
  have hs := second_pos hx
  obtain ⟨y, hy⟩ : ∃ y, y = second x := ⟨_, rfl⟩
  have hxy : x < y := by rw [hy, hs]; linarith
  have y4 : 1 / 10000 ≤ y := by rw [hy, hs]; linarith
  have g0 : 0 < gg qL x + gg qR x := add_pos (gg_pos hL hx) (gg_pos hR hx)
  have F0 : 0 < duf qL qR x := lt_trans (mul_pos hx g0) h
  obtain ⟨c, ⟨c1, c2⟩, hc⟩ := exists_hasDerivAt_eq_slope (duf qL qR) (fun z => gg qL z + gg qR z) hxy
    (fun z hz => (duf_deriv hL hR (lt_of_lt_of_le hx hz.1)).continuousAt.continuousWithinAt) (fun z hz => duf_deriv hL hR (hx.trans hz.1))
  have gc0 : 0 < gg qL c + gg qR c := add_pos (gg_pos hL (by linarith)) (gg_pos hR (by linarith))
  have gc : gg qL c + gg qR c ≤ gg qL x + gg qR x := add_le_add (gg_anti hL hx c1.le) (gg_anti hR hx c1.le)
  obtain ⟨g, hg⟩ : ∃ g, g = gg qL c + gg qR c := ⟨_, rfl⟩
  rw [← hg] at hc gc gc0
  obtain ⟨A, hA⟩ : ∃ A, A = duf qL qR x := ⟨_, rfl⟩
  obtain ⟨B, hB⟩ : ∃ B, B = duf qL qR y := ⟨_, rfl⟩
  rw [← hA] at hc h F0
  rw [← hB] at hc
  have hd : B - A = g * (y - x) := by rw [hc, div_mul_cancel₀ _ (by linarith)]
  have hBA : A < B := by nlinarith
  have ch : chord x y A B = x - A / g := by
    unfold chord
    rw [hd]
    have : y - x ≠ 0 := by linarith
    have e : B = A + g * (y - x) := by linarith
    rw [e]; field_simp; ring
  have neg : chord x y A B < 0 := by
    rw [ch]
    have : x < A / g := by
      rw [lt_div_iff₀ gc0]; nlinarith
    linarith
  unfold riemannScipy newton
  simp only []
  rw [du_ok hL hR hx.le, Py.ok_bind, ← hy, du_ok hL hR (by linarith), Py.ok_bind, ← hA, ← hB,
    if_neg (by rw [abs_of_pos F0, abs_of_pos (by linarith)]; linarith), loop_succ (by linarith),
    if_neg (by
      rw [abs_of_neg (by linarith), abs_of_pos (by linarith)]
      norm_num; linarith), du_neg hL neg]
  rfl

theorem rie_poly3 {w : ℝ} (h : 12 / 5 ≤ w) : 7 * (w - 1) ^ 2 * (6 * w ^ 7 + 1) ^ 3 < (3 * (w ^ 7) ^ 2 - 9 * w ^ 7 - 1) ^ 2 := by
  have k1 : 172 * (w - 1) ^ 2 ≤ w ^ 7 := by
    obtain ⟨v, rfl⟩ : ∃ v, w = 12 / 5 + v := ⟨w - 12 / 5, by ring⟩
    have hv : 0 ≤ v := by linarith
    have key2 : ∀ k : ℕ, 0 ≤ v ^ k := fun k => pow_nonneg hv k
    nlinarith [key2 2, key2 3, key2 4, key2 5, key2 6, key2 7]
  have k2 : (458 : ℝ) ≤ w ^ 7 := le_trans (by norm_num) (pow_le_pow_left₀ (by norm_num) h 7)
  obtain ⟨X, hX⟩ : ∃ X, X = w ^ 7 := ⟨_, rfl⟩
  rw [← hX] at k1 k2 ⊢
  have a1 : (6 * X + 1) ^ 3 ≤ 217 * X ^ 3 := by nlinarith [mul_nonneg (show 0 ≤ X by linarith) (show 0 ≤ X by linarith), pow_nonneg (show 0 ≤ X by linarith) 3]
  have a2 : 298 / 100 * X ^ 2 ≤ 3 * X ^ 2 - 9 * X - 1 := by nlinarith
  have a3 : (298 / 100 * X ^ 2) ^ 2 ≤ (3 * X ^ 2 - 9 * X - 1) ^ 2 := pow_le_pow_left₀ (by positivity) a2 2
  have a4 : 7 * (w - 1) ^ 2 * (6 * X + 1) ^ 3 ≤ 7 * (X / 172) * (217 * X ^ 3) := by
    apply mul_le_mul _ a1 (by positivity) (by positivity)
    linarith
  have a5 : 0 < X ^ 4 := by positivity
  nlinarith

/-- the tangent at the estimate, for one stream -/
theorem tangent_air {q : UState} (h : q.Valid) {ρ p a U w x : ℝ} (rq : q.rho = ρ) (pq : q.p = p) (gq : q.gamma = 7 / 5) (a0 : 0 < a) (a2 : a ^ 2 = 7 / 5 * p / ρ)
    (hUw : U = 5 * a * (w - 1)) (w1 : 12 / 5 ≤ w) (hxe : x = p * w ^ 7) : x * gg q x < df q x - U := by
  have hρ : 0 < ρ := by rw [← rq]; exact h.rho
  have hp : 0 < p := by rw [← pq]; exact h.p
  have w0 : 0 < w := by linarith
  have hU : 0 ≤ U := by rw [hUw]; exact mul_nonneg (by positivity) (by linarith)
  have hw7 : 1 < w ^ 7 := one_lt_pow₀ (by linarith) (by norm_num)
  have x0 : 0 < x := by rw [hxe]; positivity
  have hxp : p < x := by rw [hxe]; nlinarith
  have S0 := SS_pos h x0
  have S2 := SS_sq h x0
  have k := rie_poly3 w1
  unfold gg df
  rw [pq, if_pos hxp, if_pos hxp]
  unfold gs dus
  unfold KK at S2
  rw [rq, pq, gq] at *
  obtain ⟨S, hS⟩ : ∃ S, S = SS q x := ⟨_, rfl⟩
  rw [← hS] at S0 S2 ⊢
  obtain ⟨X, hX⟩ : ∃ X, X = w ^ 7 := ⟨_, rfl⟩
  rw [← hX] at hxe hw7 k
  subst hxe
  have S3 : S ^ 2 = p * (6 * X + 1) / (5 * ρ) := by rw [S2]; field_simp; ring
  have X0 : 0 < X := by linarith
  -- U rho S (6X+1) < p (3X^2-9X-1)
  have big : U * ρ * S * (6 * X + 1) < p * (3 * X ^ 2 - 9 * X - 1) := by
    have c0 : 0 ≤ 3 * X ^ 2 - 9 * X - 1 := by
      have : (458 : ℝ) ≤ w ^ 7 := le_trans (by norm_num) (pow_le_pow_left₀ (by norm_num) w1 7)
      nlinarith
    refine lt_of_pow_lt_pow_left₀ 2 (by positivity) ?_
    have e1 : (U * ρ * S * (6 * X + 1)) ^ 2 = p ^ 2 * (7 * (w - 1) ^ 2 * (6 * X + 1) ^ 3) := by
      rw [hUw, mul_pow, mul_pow, mul_pow, mul_pow, mul_pow, S3, a2]; field_simp
    rw [e1, mul_pow]
    exact mul_lt_mul_of_pos_left k (by positivity)
  have e3 : ρ * S ^ 2 * 5 = p * (6 * X + 1) := by rw [S3]; field_simp
  have e2 : p * X * ((ρ / S + 7 / 5 * p / S ^ 3) / (2 * ρ ^ 2)) = p * X * (3 * X + 4) / (ρ * S * (6 * X + 1)) := by
    have : 7 / 5 * p = 7 * ρ * S ^ 2 / (6 * X + 1) := by
      rw [eq_div_iff (by positivity)]; linarith
    rw [this]; field_simp; ring
  rw [e2, div_lt_iff₀ (by positivity)]
  have e4 : ((p * X - p) / (ρ * S) - U) * (ρ * S * (6 * X + 1)) = (p * X - p) * (6 * X + 1) - U * ρ * S * (6 * X + 1) := by
    field_simp
  rw [e4]
  have e5 : (p * X - p) * (6 * X + 1) - p * X * (3 * X + 4) = p * (3 * X ^ 2 - 9 * X - 1) := by ring
  linarith

/-- **C140 (defect).**  Two equal streams of air that collide fast enough are not solved: for every density, pressure and mean velocity, as soon as
each stream moves at seven times its speed of sound or more towards the other, the first chord leads to a negative pressure and the constructor
fails, although the problem has a solution. -/
theorem C140_collision_false (ρ p u U : ℝ) (hρ : 0 < ρ) (hp : 0 < p) (a : ℝ) (ha : State.asound ⟨ρ, u, p, 7 / 5⟩ = .ok a) (hU : 7 * a ≤ U) :
    Riemann.init riemannScipy ⟨ρ, u + U, p, 7 / 5⟩ ⟨ρ, u - U, p, 7 / 5⟩ = .error .nonFinite ∧
      ∃ P, 0 < P ∧ du ⟨ρ, u + U, p, 7 / 5⟩ ⟨ρ, u - U, p, 7 / 5⟩ P = .ok 0 := by
  have h0 : State.Valid ⟨ρ, u, p, 7 / 5⟩ := ⟨hρ, hp, by norm_num⟩
  have hL : State.Valid ⟨ρ, u + U, p, 7 / 5⟩ := ⟨hρ, hp, by norm_num⟩
  have hR : State.Valid ⟨ρ, u - U, p, 7 / 5⟩ := ⟨hρ, hp, by norm_num⟩
  rw [h0.asound] at ha
  have ha := Except.ok.inj ha
  have a0 : 0 < a := by rw [← ha]; exact h0.cs_pos
  have cL : State.cs ⟨ρ, u + U, p, 7 / 5⟩ = a := ha
  have cR : State.cs ⟨ρ, u - U, p, 7 / 5⟩ = a := ha
  have a2 : a ^ 2 = 7 / 5 * p / ρ := by rw [← ha]; exact h0.cs_sq
  obtain ⟨qL, eL⟩ : ∃ q : UState, q = ⟨ρ, u + U, p, 7 / 5⟩ := ⟨_, rfl⟩
  obtain ⟨qR, eR⟩ : ∃ q : UState, q = ⟨ρ, u - U, p, 7 / 5⟩ := ⟨_, rfl⟩
  have hv : NoVacuum qL qR := by
    unfold NoVacuum; rw [eL, eR, cL, cR]; simp only []
    have : 0 < 2 * a / ((7 : ℝ) / 5 - 1) + 2 * a / (7 / 5 - 1) := by
      norm_num; linarith
    linarith
  rw [← eL] at hL cL ⊢
  rw [← eR] at hR cR ⊢
  obtain ⟨P, hP, hr⟩ := (duf_root hL hR).2 hv
  refine ⟨?_, P, hP, by rw [du_ok hL hR hP.le, hr]⟩
  obtain ⟨w, hw⟩ : ∃ w, w = 1 + U / (5 * a) := ⟨_, rfl⟩
  have hUw : U = 5 * a * (w - 1) := by rw [hw]; field_simp; ring
  have w1 : 12 / 5 ≤ w := by
    have : 7 / 5 ≤ U / (5 * a) := by rw [le_div_iff₀ (by positivity)]; linarith
    linarith
  have w0 : 0 < w := by linarith
  obtain ⟨x, x0, he, hz⟩ := estimate_root hL hR (by rw [eL, eR]) hv
  have pL : qL.p = p := by rw [eL]
  have pR : qR.p = p := by rw [eR]
  have rL : qL.rho = ρ := by rw [eL]
  have rR : qR.rho = ρ := by rw [eR]
  have gL : qL.gamma = 7 / 5 := by rw [eL]
  have gR : qR.gamma = 7 / 5 := by rw [eR]
  have uL : qL.u = u + U := by rw [eL]
  have uR : qR.u = u - U := by rw [eR]
  -- the estimate
  have hxe : x = p * w ^ 7 := by
    have y0 : 0 < p * w ^ 7 := by positivity
    have d1 := due_air hL gL w0
    have d2 := due_air hR gR w0
    rw [pL, cL] at d1
    rw [pR, cR] at d2
    rcases lt_trichotomy x (p * w ^ 7) with c | c | c
    · have := due_strictMono hL (show (0:ℝ) ≤ x from x0.le) (show (0:ℝ) ≤ p * w ^ 7 from y0.le) c
      have := due_strictMono hR (show (0:ℝ) ≤ x from x0.le) (show (0:ℝ) ≤ p * w ^ 7 from y0.le) c
      linarith
    · exact c
    · have := due_strictMono hL (show (0:ℝ) ≤ p * w ^ 7 from y0.le) (show (0:ℝ) ≤ x from x0.le) c
      have := due_strictMono hR (show (0:ℝ) ≤ p * w ^ 7 from y0.le) (show (0:ℝ) ≤ x from x0.le) c
      linarith
  have kL := tangent_air hL rL pL gL a0 a2 hUw w1 hxe
  have kR := tangent_air hR rR pR gR a0 a2 hUw w1 hxe
  unfold Riemann.init
  rw [he, Py.ok_bind, newton_negative hL hR x0 (by unfold duf; rw [uL, uR]; linarith)]
  rfl

/-- air of density 1.4 and pressure 1 has speed of sound 1 -/
example : ∃ (ρ p u U a : ℝ), 0 < ρ ∧ 0 < p ∧ State.asound ⟨ρ, u, p, 7 / 5⟩ = .ok a ∧ 7 * a ≤ U := by
  have h : State.Valid ⟨7 / 5, 0, 1, 7 / 5⟩ := ⟨by norm_num, by norm_num, by norm_num⟩
  exact ⟨7 / 5, 1, 0, _, _, by norm_num, by norm_num, h.asound, le_rfl⟩

end Aerokit.Props
