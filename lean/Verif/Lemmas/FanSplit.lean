import Verif.Props.Turbojet
import Mathlib.Analysis.Convex.SpecificFunctions.Basic
import Mathlib.Analysis.Convex.SpecificFunctions.Pow

/-! Jet velocities of the turbofan as functions of bypass ratio and fan power. -/

namespace Aerokit.FanSplit
open Spec.Engine GasGenerator Props

/-- the shape of a jet velocity: geometric mean of two concave functions -/
noncomputable def phi (B e x : ℝ) : ℝ := Real.sqrt (x * (1 - B * x ^ (-e)))

theorem rpow_neg_convex {e x y a b : ℝ} (he : 0 ≤ e) (hx : 0 < x) (hy : 0 < y) (ha : 0 ≤ a) (hb : 0 ≤ b) (hab : a + b = 1) :
    (a * x + b * y) ^ (-e) ≤ a * x ^ (-e) + b * y ^ (-e) := by
  have hxy : 0 < a * x + b * y := by
    rcases eq_or_lt_of_le ha with h | h
    · have : b = 1 := by linarith
      rw [← h, this]; linarith
    · nlinarith [mul_pos h hx, mul_nonneg hb hy.le]
  have h1 := strictConcaveOn_log_Ioi.concaveOn.2 hx hy ha hb hab
  have h2 := convexOn_exp.2 (Set.mem_univ (Real.log x * (-e))) (Set.mem_univ (Real.log y * (-e))) ha hb hab
  simp only [smul_eq_mul] at h1 h2
  rw [Real.rpow_def_of_pos hxy, Real.rpow_def_of_pos hx, Real.rpow_def_of_pos hy]
  refine le_trans (Real.exp_le_exp.2 ?_) h2
  nlinarith

theorem phi_concave {B e x y a b : ℝ} (hB : 0 ≤ B) (he : 0 ≤ e) (hx : 0 < x) (hy : 0 < y) (hx1 : B * x ^ (-e) ≤ 1) (hy1 : B * y ^ (-e) ≤ 1)
    (ha : 0 ≤ a) (hb : 0 ≤ b) (hab : a + b = 1) : a * phi B e x + b * phi B e y ≤ phi B e (a * x + b * y) := by
  have hc := rpow_neg_convex he hx hy ha hb hab
  set v := 1 - B * x ^ (-e) with hv
  set w := 1 - B * y ^ (-e) with hw
  have hv0 : 0 ≤ v := by linarith
  have hw0 : 0 ≤ w := by linarith
  have hz : a * v + b * w ≤ 1 - B * (a * x + b * y) ^ (-e) := by
    rw [hv, hw]
    have := mul_le_mul_of_nonneg_left hc hB
    nlinarith
  have hX : 0 ≤ a * x + b * y := by positivity
  have key : a * Real.sqrt (x * v) + b * Real.sqrt (y * w) ≤ Real.sqrt ((a * x + b * y) * (a * v + b * w)) := by
    apply Real.le_sqrt_of_sq_le
    have s1 := Real.sq_sqrt (mul_nonneg hx.le hv0)
    have s2 := Real.sq_sqrt (mul_nonneg hy.le hw0)
    have h12 : 2 * (Real.sqrt (x * v) * Real.sqrt (y * w)) ≤ x * w + y * v := by
      rw [← Real.sqrt_mul (mul_nonneg hx.le hv0), show x * v * (y * w) = (x * w) * (y * v) by ring, Real.sqrt_mul (mul_nonneg hx.le hw0)]
      have t1 := Real.sq_sqrt (mul_nonneg hx.le hw0)
      have t2 := Real.sq_sqrt (mul_nonneg hy.le hv0)
      nlinarith [sq_nonneg (Real.sqrt (x * w) - Real.sqrt (y * v))]
    have : a * b * (2 * (Real.sqrt (x * v) * Real.sqrt (y * w))) ≤ a * b * (x * w + y * v) := mul_le_mul_of_nonneg_left h12 (mul_nonneg ha hb)
    calc (a * Real.sqrt (x * v) + b * Real.sqrt (y * w)) ^ 2
        = a ^ 2 * Real.sqrt (x * v) ^ 2 + b ^ 2 * Real.sqrt (y * w) ^ 2 + a * b * (2 * (Real.sqrt (x * v) * Real.sqrt (y * w))) := by ring
      _ ≤ a ^ 2 * (x * v) + b ^ 2 * (y * w) + a * b * (x * w + y * v) := by rw [s1, s2]; linarith
      _ = _ := by ring
  refine le_trans key (Real.sqrt_le_sqrt (mul_le_mul_of_nonneg_left hz hX))

theorem phi_mono {B e x y : ℝ} (hB : 0 ≤ B) (he : 0 ≤ e) (hx : 0 < x) (hxy : x ≤ y) (hx1 : B * x ^ (-e) ≤ 1) : phi B e x ≤ phi B e y := by
  unfold phi
  apply Real.sqrt_le_sqrt
  have : y ^ (-e) ≤ x ^ (-e) := Real.rpow_le_rpow_of_nonpos hx hxy (by linarith)
  have := mul_le_mul_of_nonneg_left this hB
  apply mul_le_mul hxy (by linarith) (by linarith) (by linarith)

theorem phi_strict {B e x y : ℝ} (hB : 0 ≤ B) (he : 0 ≤ e) (hx : 0 < x) (hxy : x < y) (hx1 : B * x ^ (-e) ≤ 1) (hy1 : B * y ^ (-e) < 1) :
    phi B e x < phi B e y := by
  unfold phi
  apply Real.sqrt_lt_sqrt (mul_nonneg hx.le (by linarith))
  have : y ^ (-e) ≤ x ^ (-e) := Real.rpow_le_rpow_of_nonpos hx hxy.le (by linarith)
  have := mul_le_mul_of_nonneg_left this hB
  calc x * (1 - B * x ^ (-e)) ≤ x * (1 - B * y ^ (-e)) := mul_le_mul_of_nonneg_left (by linarith) hx.le
    _ < y * (1 - B * y ^ (-e)) := mul_lt_mul_of_pos_right hxy (by linarith)

theorem fan_le {B e x : ℝ} (hB0 : 0 ≤ B) (hB : B ≤ 1) (he : 0 ≤ e) (hx : 1 ≤ x) : B * x ^ (-e) ≤ 1 := by
  have h1 : x ^ (-e) ≤ 1 := Real.rpow_le_one_of_one_le_of_nonpos hx (by linarith)
  have h2 : 0 ≤ x ^ (-e) := Real.rpow_nonneg (by linarith) _
  nlinarith

theorem fan_lt {B e x : ℝ} (hB0 : 0 < B) (hB : B ≤ 1) (he : 0 < e) (hx : 1 < x) : B * x ^ (-e) < 1 := by
  have h1 : x ^ (-e) < 1 := Real.rpow_lt_one_of_one_lt_of_neg hx (by linarith)
  have h2 : 0 ≤ x ^ (-e) := Real.rpow_nonneg (by linarith) _
  nlinarith

theorem phi_one (B e : ℝ) : phi B e 1 = Real.sqrt (1 - B) := by unfold phi; rw [Real.one_rpow]; simp

theorem phi_e1 (B : ℝ) {x : ℝ} (hx : 0 < x) : phi B 1 x = Real.sqrt (x - B) := by
  unfold phi
  rw [Real.rpow_neg_one]
  congr 1
  field_simp

/-- the object with another bypass ratio and another fan power -/
def withFan (o : Turbofan.Obj) (b r : ℝ) : Turbofan.Obj := { o with bpr := b, fanpower_ratio := r }

theorem feasible_withFan {o : Turbofan.Obj} {f : Flight} (F : FanFeasible o f) {b r : ℝ} (hb : 0 < b) (h0 : 0 ≤ r) (h1 : r ≤ 1) :
    FanFeasible (withFan o b r) f := ⟨F.core, F.nozzle, F.etaT, F.etaF, hb, h0, h1, F.press⟩

theorem ratio_form {P0 Pt ξ x k c : ℝ} (hP0 : 0 < P0) (hPt : 0 < Pt) (hξ : 0 < ξ) (hx : 0 < x) :
    (P0 / (Pt * x ^ k * ξ)) ^ c = (P0 / (Pt * ξ)) ^ c * x ^ (-(k * c)) := by
  have hu1 : 0 < x ^ k := Real.rpow_pos_of_pos hx _
  have hq : 0 < P0 / (Pt * ξ) := by positivity
  rw [show P0 / (Pt * x ^ k * ξ) = P0 / (Pt * ξ) * (x ^ k)⁻¹ by field_simp, Real.mul_rpow hq.le (inv_nonneg.2 hu1.le), Real.inv_rpow hu1.le,
    ← Real.rpow_mul hx.le, Real.rpow_neg hx.le]

set_option maxHeartbeats 800000 in
/-- Closed form of the two jets. -/
theorem form (o : Turbofan.Obj) (f : Flight) (F : FanFeasible o f) :
    ∃ (g : Gen) (C B κ : ℝ), compute o.params f = .ok g ∧ 0 < C ∧ C ≤ 1 ∧ 0 < B ∧ B ≤ 1 ∧ 0 ≤ κ ∧ 0 < 1 + g.far ∧ 0 < g.Tt45 ∧ 0 < g.Tt2 ∧ 0 < g.Pt2 ∧
      B = (f.P0 / (g.Pt2 * o.xi_nozzle)) ^ ((o.params.gam_cold - 1) / o.params.gam_cold) ∧
      C = (f.P0 / (g.Pt45 * o.xi_nozzle)) ^ ((o.params.gam_hot - 1) / o.params.gam_hot) ∧
      κ * (cp o.params.gam_cold o.params.r_cold * g.Tt2) =
        o.params.eta_shaft * ((1 + g.far) * (cp o.params.gam_hot o.params.r_hot * g.Tt45 * (1 - C ^ o.etapolTBP))) ∧
      ∀ b r, 0 < b → 0 ≤ r → r ≤ 1 → ∃ n, Turbofan.update (Turbofan.flight_conditions (withFan o b r) f) =
          .ok { withFan o b r with flight := some f, res := some (g, n) } ∧
        n.Tt5 = g.Tt45 * (1 - (1 - C ^ o.etapolTBP) * r) ∧ n.Tt17 = g.Tt2 * (1 + κ * r / b) ∧
        C * (1 - (1 - C ^ o.etapolTBP) * r) ^ (-(1 / o.etapolTBP)) ≤ 1 ∧
        n.V9 = Real.sqrt (2 * cp o.params.gam_hot o.params.r_hot * g.Tt45) * phi C (1 / o.etapolTBP) (1 - (1 - C ^ o.etapolTBP) * r) ∧
        n.V19 = Real.sqrt (2 * cp o.params.gam_cold o.params.r_cold * g.Tt2) * phi B o.etapolfan (1 + κ * r / b) := by
  obtain ⟨g, hg, h1, h2, h3, h4, h5⟩ := compute_ok F.core
  obtain ⟨p1, p2⟩ := F.press g hg
  have gh := F.core.gh
  have gc := F.core.gc
  have hT := F.etaT
  have hF := F.etaF
  have hξ := F.nozzle
  have hP := F.core.P0
  have hsh := F.core.shaft
  have ch := cp_pos gh F.core.rh
  have cc := cp_pos gc F.core.rc
  set γ := o.params.gam_hot with hγ
  set γ' := o.params.gam_cold with hγ'
  have hq0 : 0 < f.P0 / (g.Pt45 * o.xi_nozzle) := by positivity
  have hq1 : f.P0 / (g.Pt45 * o.xi_nozzle) ≤ 1 := by rw [div_le_one (by positivity)]; exact p1
  have hq0' : 0 < f.P0 / (g.Pt2 * o.xi_nozzle) := by positivity
  have hq1' : f.P0 / (g.Pt2 * o.xi_nozzle) ≤ 1 := by rw [div_le_one (by positivity)]; exact p2
  have hb0 : 0 < (γ - 1) / γ := div_pos (by linarith) (by linarith)
  have hb0' : 0 < (γ' - 1) / γ' := div_pos (by linarith) (by linarith)
  obtain ⟨C, hC⟩ : ∃ C, C = (f.P0 / (g.Pt45 * o.xi_nozzle)) ^ ((γ - 1) / γ) := ⟨_, rfl⟩
  obtain ⟨B, hB⟩ : ∃ B, B = (f.P0 / (g.Pt2 * o.xi_nozzle)) ^ ((γ' - 1) / γ') := ⟨_, rfl⟩
  have hC0 : 0 < C := hC ▸ Real.rpow_pos_of_pos hq0 _
  have hC1 : C ≤ 1 := hC ▸ Real.rpow_le_one hq0.le hq1 hb0.le
  have hB0 : 0 < B := hB ▸ Real.rpow_pos_of_pos hq0' _
  have hB1 : B ≤ 1 := hB ▸ Real.rpow_le_one hq0'.le hq1' hb0'.le
  have hτ0 : 0 < C ^ o.etapolTBP := Real.rpow_pos_of_pos hC0 _
  have hτ1 : C ^ o.etapolTBP ≤ 1 := Real.rpow_le_one hC0.le hC1 hT.le
  have hτ : (g.Pt45 / f.P0 * o.xi_nozzle) ^ (-(γ - 1) * o.etapolTBP / γ) = C ^ o.etapolTBP := by
    rw [hC, ← Real.rpow_mul hq0.le, show -(γ - 1) * o.etapolTBP / γ = -((γ - 1) / γ * o.etapolTBP) by ring, Real.rpow_neg (by positivity),
      ← Real.inv_rpow (by positivity)]
    congr 1
    field_simp
  refine ⟨g, C, B, o.params.eta_shaft * ((1 + g.far) * (cp γ o.params.r_hot * g.Tt45 * (1 - C ^ o.etapolTBP))) / (cp γ' o.params.r_cold * g.Tt2),
    hg, hC0, hC1, hB0, hB1, ?_, h1, h3, h2, h4, hB, hC, ?_, ?_⟩
  · have : 0 ≤ 1 - C ^ o.etapolTBP := by linarith
    positivity
  · field_simp
  intro b r hb hr0 hr1
  have F' := feasible_withFan F hb hr0 hr1
  obtain ⟨g', n, hu, hg', hn, -⟩ := tf_update_ok _ f F'
  have : g' = g := Except.ok.inj (hg'.symm.trans hg)
  subst this
  obtain ⟨n', hn', c0, c1, c2, c3, c4, c5, c6, c7, c8, c9, c10, c11, c12, c13, c14, c15, c16, c17⟩ :=
    fan_ok (withFan o b r) f g' F'.core.gh F'.core.gc F'.core.rh F'.core.rc F'.core.P0 h3 h5 h2 h1 F'.nozzle
    F'.core.shaft F'.etaT F'.etaF F'.bpr F'.ratio0 F'.ratio1 p1 p2
  rw [hn] at hn'; injection hn' with hn'; subst hn'
  replace c0 : n.Tt5 = g'.Tt45 * (1 - (1 - C ^ o.etapolTBP) * r) := by rw [c0, ← hτ]; rfl
  replace c3 : n.Pt5 = g'.Pt45 * (n.Tt5 / g'.Tt45) ^ (γ / ((γ - 1) * o.etapolTBP)) := c3
  replace c5 : n.Pt9 = n.Pt5 * o.xi_nozzle := c5
  replace c9 : n.V9 = jetVelocity γ o.params.r_hot n.Pt9 n.Tt5 f.P0 := c9
  replace c10 : b * (cp γ' o.params.r_cold * (n.Tt17 - g'.Tt2)) = o.params.eta_shaft * ((1 + g'.far) * (cp γ o.params.r_hot * (g'.Tt45 - n.Tt5))) := c10
  replace c12 : n.Pt17 = g'.Pt2 * (n.Tt17 / g'.Tt2) ^ (γ' * o.etapolfan / (γ' - 1)) := c12
  replace c14 : n.Pt19 = n.Pt17 * o.xi_nozzle := c14
  replace c17 : n.V19 = jetVelocity γ' o.params.r_cold n.Pt19 n.Tt19 f.P0 := c17
  have e17 : n.Tt17 = g'.Tt2 * (1 + o.params.eta_shaft * ((1 + g'.far) * (cp γ o.params.r_hot * g'.Tt45 * (1 - C ^ o.etapolTBP))) / (cp γ' o.params.r_cold * g'.Tt2) * r / b) := by
    rw [c0] at c10
    field_simp
    linear_combination c10
  obtain ⟨u, hu'⟩ : ∃ u, u = 1 - (1 - C ^ o.etapolTBP) * r := ⟨_, rfl⟩
  rw [← hu'] at c0 ⊢
  have huτ : C ^ o.etapolTBP ≤ u := by rw [hu']; nlinarith
  have hu0 : 0 < u := by linarith
  obtain ⟨x, hx⟩ : ∃ x, x = 1 + o.params.eta_shaft * ((1 + g'.far) * (cp γ o.params.r_hot * g'.Tt45 * (1 - C ^ o.etapolTBP))) / (cp γ' o.params.r_cold * g'.Tt2) * r / b := ⟨_, rfl⟩
  rw [← hx] at e17 ⊢
  have hx0 : 0 < x := by
    rw [e17] at c11
    have : 1 ≤ x := by
      by_contra hlt
      push Not at hlt
      nlinarith
    linarith
  refine ⟨n, hu, c0, e17, ?_, ?_, ?_⟩
  · calc C * u ^ (-(1 / o.etapolTBP)) ≤ C * (C ^ o.etapolTBP) ^ (-(1 / o.etapolTBP)) :=
          mul_le_mul_of_nonneg_left (Real.rpow_le_rpow_of_nonpos hτ0 huτ (by have : 0 < 1 / o.etapolTBP := by positivity
                                                                             linarith)) hC0.le
      _ = 1 := by
          rw [← Real.rpow_mul hC0.le, show o.etapolTBP * -(1 / o.etapolTBP) = -1 by field_simp, Real.rpow_neg_one, mul_inv_cancel₀ hC0.ne']
  · rw [c9]
    unfold jetVelocity phi
    rw [← Real.sqrt_mul (by positivity)]
    congr 1
    have e1 : n.Tt5 / g'.Tt45 = u := by rw [c0]; field_simp
    have e2 : (f.P0 / n.Pt9) ^ ((γ - 1) / γ) = C * u ^ (-(1 / o.etapolTBP)) := by
      have e3 : γ / ((γ - 1) * o.etapolTBP) * ((γ - 1) / γ) = 1 / o.etapolTBP := by
        have : γ ≠ 0 := by linarith
        have : γ - 1 ≠ 0 := by linarith
        field_simp
      rw [c5, c3, e1, hC, ratio_form hP h5 hξ hu0, e3]
    rw [e2, c0]; ring
  · rw [c17, c13]
    unfold jetVelocity phi
    rw [← Real.sqrt_mul (by positivity)]
    congr 1
    have e1 : n.Tt17 / g'.Tt2 = x := by rw [e17]; field_simp
    have e2 : (f.P0 / n.Pt19) ^ ((γ' - 1) / γ') = B * x ^ (-o.etapolfan) := by
      have e3 : γ' * o.etapolfan / (γ' - 1) * ((γ' - 1) / γ') = o.etapolfan := by
        have : γ' ≠ 0 := by linarith
        have : γ' - 1 ≠ 0 := by linarith
        field_simp
      rw [c14, c12, e1, hB, ratio_form hP h4 hξ hx0, e3]
    rw [e2, e17]; ring

/-- Speed of the air stream behind the losses of inlet and nozzle, without fan. -/
theorem stream (o : Turbofan.Obj) (f : Flight) (F : FanFeasible o f) {g : Gen} (hg : compute o.params f = .ok g) :
    2 * cp o.params.gam_cold o.params.r_cold * g.Tt2 *
      (1 - (f.P0 / (g.Pt2 * o.xi_nozzle)) ^ ((o.params.gam_cold - 1) / o.params.gam_cold)) - g.V0 ^ 2 =
    2 * cp o.params.gam_cold o.params.r_cold * f.T0 * (1 - (o.params.xi_inlet * o.xi_nozzle) ^ (-((o.params.gam_cold - 1) / o.params.gam_cold))) := by
  obtain ⟨-, -, -, -, -, -, -, i0, i1, ⟨p, i2, i3⟩, i4, i5, i6, -⟩ := compute_inv hg
  have gc := F.core.gc
  have hP := F.core.P0
  have hT := F.core.T0
  have hxi := F.core.xi
  have hξ := F.nozzle
  set γ := o.params.gam_cold with hγ
  set c := (γ - 1) / γ with hc
  have hγ0 : γ ≠ 0 := by linarith
  have hγ1 : γ - 1 ≠ 0 := by linarith
  have ht := Isentropic.tt_pos (M := f.M0) gc
  have ep : p = Isentropic.tt f.M0 γ ^ (γ / (γ - 1)) := (Except.ok.inj (i2.symm.trans (Isentropic.PtPs_Mach_ok gc)))
  have e1 : (f.P0 / (g.Pt2 * o.xi_nozzle)) ^ c = (Isentropic.tt f.M0 γ)⁻¹ * (o.params.xi_inlet * o.xi_nozzle) ^ (-c) := by
    rw [i5, i3, ep]
    have hpp : 0 < Isentropic.tt f.M0 γ ^ (γ / (γ - 1)) := Real.rpow_pos_of_pos ht _
    rw [show f.P0 / (f.P0 * Isentropic.tt f.M0 γ ^ (γ / (γ - 1)) * o.params.xi_inlet * o.xi_nozzle) =
      (Isentropic.tt f.M0 γ ^ (γ / (γ - 1)))⁻¹ * (o.params.xi_inlet * o.xi_nozzle)⁻¹ by field_simp,
      Real.mul_rpow (by positivity) (by positivity), Real.inv_rpow hpp.le, ← Real.rpow_mul ht.le, Real.inv_rpow (by positivity), Real.rpow_neg (by positivity)]
    rw [show γ / (γ - 1) * c = 1 by rw [hc]; field_simp, Real.rpow_one]
  have e2 : g.V0 ^ 2 = 2 * cp γ o.params.r_cold * f.T0 * (Isentropic.tt f.M0 γ - 1) := by
    rw [i4, mul_pow, Real.sq_sqrt i0]
    unfold cp Isentropic.tt
    field_simp
    ring
  rw [e1, e2, i6, i1]
  field_simp
  ring

end Aerokit.FanSplit
