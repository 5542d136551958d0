import Verif.Props.FanEnergy
import Verif.Model.TurbofanMap
import Verif.Lemmas.TurbofanMap
import Verif.Lemmas.ListPy

/-!
# C156: the map of turbofans of `examples/turbofan.py`
-/

namespace Aerokit.Props
open Spec.Engine GasGenerator FanSplit TurbofanMap

/-- the engine of the map -/
private noncomputable def tmObj (opr b r : ℝ) : Turbofan.Obj :=
  Turbofan.new { OPR := opr, Tt4 := 1600, bpr := b, fanpower_ratio := r }

private noncomputable def tmFlight : Flight := { T0 := 200, P0 := 20000, M0 := 1 / 2 }

local notation "cc" => (20097 / 20 : ℝ)

private theorem tm_cp : cp DefaultGas.gamma0 DefaultGas.r0 = cc := by
  unfold cp DefaultGas.r0
  rw [Isentropic.gamma0_eq]; norm_num

private theorem tm_tt : Isentropic.tt (1 / 2) DefaultGas.gamma0 = 21 / 20 := by
  unfold Isentropic.tt
  rw [Isentropic.gamma0_eq]; norm_num

private theorem tm_tt3 (opr b r : ℝ) : tt3 (tmObj opr b r).params tmFlight = 210 * opr ^ (2 / 7 : ℝ) := by
  unfold tt3 tmObj Turbofan.new GasGenerator.Args.params tmFlight
  simp only []
  rw [tm_tt, Isentropic.gamma0_eq]
  norm_num

private theorem tm_core {opr : ℝ} (h0 : 0 < opr) (h2 : 210 * opr ^ (2 / 7 : ℝ) ≤ 800) (b r : ℝ) :
    Feasible (tmObj opr b r).params tmFlight := by
  have hc : cp (tmObj opr b r).params.gam_cold (tmObj opr b r).params.r_cold = cc := tm_cp
  have hh : cp (tmObj opr b r).params.gam_hot (tmObj opr b r).params.r_hot = cc := tm_cp
  have hT : (tmObj opr b r).params.Tt4 = 1600 := rfl
  have hP : (tmObj opr b r).params.Pci = 42.8e6 := rfl
  have hx : (tmObj opr b r).params.xi_cc = 1.0 := rfl
  have hs : (tmObj opr b r).params.eta_shaft = 1.0 := rfl
  have hr : (0:ℝ) < DefaultGas.r0 := by unfold DefaultGas.r0; norm_num
  have hT0 : tmFlight.T0 = 200 := rfl
  have ht : Isentropic.tt tmFlight.M0 (tmObj opr b r).params.gam_cold = 21 / 20 := tm_tt
  refine ⟨Isentropic.one_lt_gamma0, Isentropic.one_lt_gamma0, hr, hr, by rw [hT0]; norm_num, ?_, h0, ?_, ?_, ?_, ?_, ?_, ?_, ?_, ?_, ?_⟩
  · show (0:ℝ) < 20000; norm_num
  · show (0:ℝ) < 1.0; norm_num
  · show (0:ℝ) < 1.0; norm_num
  · show (0:ℝ) < 1.0; norm_num
  · show (0:ℝ) < 1600; norm_num
  · show (0:ℝ) < 1.0; norm_num
  · show (0:ℝ) < 1.0; norm_num
  · rw [hh, hT, hx, hP]; norm_num
  · rw [hc, tm_tt3, hx, hP]; norm_num; nlinarith
  · rw [hc, hh, tm_tt3, hx, hP, hs, hT, hT0, ht]
    norm_num
    nlinarith

set_option maxHeartbeats 1000000 in
/-- the power of the core above the flight -/
private theorem tm_gen {opr : ℝ} (h0 : 0 < opr) (h1 : (117 / 100 : ℝ) ≤ opr ^ (2 / 7 : ℝ)) (h2 : 210 * opr ^ (2 / 7 : ℝ) ≤ 800) (b r : ℝ) {g : Gen}
    (hg : compute (tmObj opr b r).params tmFlight = .ok g) :
    g.Tt2 = 210 ∧ g.V0 ^ 2 = 20 * cc ∧ 0 ≤ g.V0 ∧ 0 < g.far ∧ g.far ≤ 1 / 20 ∧ 260 ≤ g.Tt45 - 320000 / (210 * opr ^ (2 / 7 : ℝ)) ∧
      (1 + g.far) * (cc * (g.Tt45 - 320000 / (210 * opr ^ (2 / 7 : ℝ)))) - 10 * cc < g.far * 42800000 ∧
      (20000 / g.Pt45) ^ (2 / 7 : ℝ) = 320000 / (210 * opr ^ (2 / 7 : ℝ)) / g.Tt45 ∧ (20000 / g.Pt2) ^ (2 / 7 : ℝ) = 20 / 21 ∧ 20000 ≤ g.Pt45 ∧ 20000 ≤ g.Pt2 := by
  have F := tm_core h0 h2 b r
  have hV := fe_V0 F hg
  obtain ⟨-, -, -, -, hn, -, -, -, e1, ⟨p, hp, e2⟩, e3, e4, e5, e6, e7, e8, e9, e10, e11⟩ := compute_inv hg
  obtain ⟨g', hg', f1, f2, f3, f4, f5⟩ := compute_ok F
  rw [hg] at hg'; rw [← Except.ok.inj hg'] at f1 f2 f3 f4 f5
  have hc : cp (tmObj opr b r).params.gam_cold (tmObj opr b r).params.r_cold = cc := tm_cp
  have hh : cp (tmObj opr b r).params.gam_hot (tmObj opr b r).params.r_hot = cc := tm_cp
  have hT : (tmObj opr b r).params.Tt4 = 1600 := rfl
  have hP : (tmObj opr b r).params.Pci = 42.8e6 := rfl
  have hx : (tmObj opr b r).params.xi_cc = 1.0 := rfl
  have hs : (tmObj opr b r).params.eta_shaft = 1.0 := rfl
  have hi : (tmObj opr b r).params.xi_inlet = 1.0 := rfl
  have hO : (tmObj opr b r).params.OPR = opr := rfl
  have hEC : (tmObj opr b r).params.etapolCHP = 1.0 := rfl
  have hET : (tmObj opr b r).params.etapolTHP = 1.0 := rfl
  have hgc : (tmObj opr b r).params.gam_cold = 7 / 5 := Isentropic.gamma0_eq
  have hgh : (tmObj opr b r).params.gam_hot = 7 / 5 := Isentropic.gamma0_eq
  have hT0 : tmFlight.T0 = 200 := rfl
  have hP0 : tmFlight.P0 = 20000 := rfl
  have ht : Isentropic.tt tmFlight.M0 (tmObj opr b r).params.gam_cold = 21 / 20 := tm_tt
  rw [hT0, ht] at e1
  have hTt2 : g.Tt2 = 210 := by rw [e5, e1]; norm_num
  rw [hc, hTt2, hT0] at hV
  have hex : ((7 / 5 : ℝ) - 1) / (7 / 5 * 1.0) = 2 / 7 := by norm_num
  have hex2 : (7 / 5 : ℝ) / ((7 / 5 - 1) * 1.0) = 7 / 2 := by norm_num
  rw [hTt2, hO, hgc, hEC, hex] at e7
  rw [hT, hgh, hET, hex2] at e11
  have hTt3 : g.Tt3 = 210 * opr ^ (2 / 7 : ℝ) := e7
  rw [hc, hh, hT, hx, hP] at e9
  obtain ⟨T, hTd⟩ : ∃ T, T = 210 * opr ^ (2 / 7 : ℝ) := ⟨_, rfl⟩
  rw [← hTd] at hTt3 h2 ⊢
  have h1' : 2457 / 10 ≤ T := by rw [hTd]; linarith
  rw [hTt3] at e9 e10
  have hfp : 0 < g.far := by
    rw [e9]; apply div_pos <;> norm_num <;> linarith
  have hf1 : g.far ≤ 1 / 20 := by
    rw [e9, div_le_iff₀ (by norm_num)]; norm_num; linarith
  have hfe : g.far * (42800000 - cc * 1600) = cc * 1600 - cc * T := by
    rw [e9, div_mul_eq_mul_div, div_eq_iff (by norm_num)]; norm_num
  have hTt45 : (1 + g.far) * (1600 - g.Tt45) = T - 210 := by
    rw [e10, hc, hs, hh, hT, hTt2]
    have : 1 + g.far ≠ 0 := by linarith
    norm_num
    field_simp
  have hlo : 1810 - T ≤ g.Tt45 := by
    have hu : 0 ≤ 1600 - g.Tt45 := by
      by_contra hneg
      push Not at hneg
      have := mul_neg_of_pos_of_neg f1 hneg
      linarith
    have := mul_nonneg hfp.le hu
    linarith
  have hT0' : 0 < T := by linarith
  have hTi : 1550 * T - T ^ 2 ≥ 320000 := by
    have := mul_nonneg (sub_nonneg.2 h1') (sub_nonneg.2 h2)
    linarith
  have hK : 260 ≤ g.Tt45 - 320000 / T := by
    have : 320000 / T ≤ 1550 - T := by rw [div_le_iff₀ hT0']; linarith
    linarith
  have h400 : 400 ≤ 320000 / T := by rw [le_div_iff₀ hT0']; linarith
  have hpv : p = (21 / 20 : ℝ) ^ (7 / 2 : ℝ) := by
    rw [Isentropic.PtPs_Mach_ok (by rw [hgc]; norm_num), ht, hgc] at hp
    rw [← Except.ok.inj hp]; norm_num
  have hPt2 : g.Pt2 = 20000 * (21 / 20 : ℝ) ^ (7 / 2 : ℝ) := by rw [e4, e2, hi, hP0, hpv]; norm_num
  have hPt45 : g.Pt45 = 20000 * (21 / 20 : ℝ) ^ (7 / 2 : ℝ) * opr * (g.Tt45 / 1600) ^ (7 / 2 : ℝ) := by
    rw [e11, e8, e6, hPt2, hx, hO]; norm_num
  have hcan : ∀ x : ℝ, 0 ≤ x → (x ^ (7 / 2 : ℝ)) ^ (2 / 7 : ℝ) = x := fun x hx => by
    rw [← Real.rpow_mul hx]; norm_num
  have q2 : (20000 / g.Pt2) ^ (2 / 7 : ℝ) = 20 / 21 := by
    have : 20000 / g.Pt2 = ((21 / 20 : ℝ) ^ (7 / 2 : ℝ))⁻¹ := by rw [hPt2]; field_simp
    rw [this, Real.inv_rpow (by positivity), hcan _ (by norm_num)]; norm_num
  have q45 : (20000 / g.Pt45) ^ (2 / 7 : ℝ) = 320000 / T / g.Tt45 := by
    have : 20000 / g.Pt45 = ((21 / 20 : ℝ) ^ (7 / 2 : ℝ) * opr * (g.Tt45 / 1600) ^ (7 / 2 : ℝ))⁻¹ := by
      have : (0:ℝ) < (g.Tt45 / 1600) ^ (7 / 2 : ℝ) := by positivity
      rw [hPt45]; field_simp
    rw [this, Real.inv_rpow (by positivity), Real.mul_rpow (by positivity) (by positivity), Real.mul_rpow (by positivity) h0.le, hcan _ (by norm_num),
      hcan _ (by positivity), hTd]
    have : 0 < opr ^ (2 / 7 : ℝ) := by positivity
    field_simp
    norm_num
  have hle : ∀ x : ℝ, 0 < x → (20000 / x) ^ (2 / 7 : ℝ) ≤ 1 → 20000 ≤ x := by
    intro x hx h
    by_contra hlt
    push Not at hlt
    have : 1 < (20000 / x) ^ (2 / 7 : ℝ) := Real.one_lt_rpow (by rw [lt_div_iff₀ hx]; linarith) (by norm_num)
    linarith
  refine ⟨hTt2, by rw [hV]; norm_num, ?_, hfp, hf1, hK, ?_, q45, q2, hle _ f5 ?_, hle _ f4 ?_⟩
  · rw [e3]; show (0:ℝ) ≤ 1 / 2 * _; positivity
  · have : (1 + g.far) * g.Tt45 = (1 + g.far) * 1600 - (T - 210) := by linarith
    have hprod : (1 + g.far) * 400 ≤ (1 + g.far) * (320000 / T) := mul_le_mul_of_nonneg_left h400 f1.le
    have e : (1 + g.far) * (cc * (g.Tt45 - 320000 / T)) = cc * ((1 + g.far) * 1600 - (T - 210)) - cc * ((1 + g.far) * (320000 / T)) := by
      rw [← this]; ring
    rw [e]
    nlinarith
  · rw [q45, div_le_one f3]; linarith
  · rw [q2]; norm_num

set_option maxHeartbeats 1000000 in
/-- a point of the map in closed form -/
private theorem tm_point {opr : ℝ} (h0 : 0 < opr) (h1 : (117 / 100 : ℝ) ≤ opr ^ (2 / 7 : ℝ)) (h2 : 210 * opr ^ (2 / 7 : ℝ) ≤ 800) :
    ∃ F K V : ℝ, 0 < F ∧ F ≤ 1 / 20 ∧ 260 * cc ≤ K ∧ 0 < V ∧ V ^ 2 = 20 * cc ∧ (1 + F) * K - 10 * cc < F * 42800000 ∧
      ∀ b, 0 < b → ∃ o a, engine opr b = .ok o ∧ Turbofan.update o = .ok a ∧ Turbofan.norm_thrust a = .ok (thr V K F (2 + b)) ∧
        Turbofan.spec_thrust a = .ok (thr V K F (2 + b) / (1 + b)) ∧
        Turbofan.thermoprop_efficiency a = .ok (thr V K F (2 + b) * V / (F * 42800000)) ∧
        Turbofan.thermal_efficiency a = .ok (((1 + F) * K - 10 * cc) / (F * 42800000)) := by
  have FF : FanFeasible (tmObj opr 1 1) tmFlight := by
    refine ⟨tm_core h0 h2 1 1, ?_, ?_, ?_, ?_, ?_, ?_, ?_⟩
    · show (0:ℝ) < 1.0; norm_num
    · show (0:ℝ) < 1.0; norm_num
    · show (0:ℝ) < 1.0; norm_num
    · show (0:ℝ) < 1; norm_num
    · show (0:ℝ) ≤ 1; norm_num
    · show (1:ℝ) ≤ 1; norm_num
    · intro g hg
      obtain ⟨-, -, -, -, -, -, -, -, -, c1, c2⟩ := tm_gen h0 h1 h2 1 1 hg
      constructor
      · show (20000:ℝ) ≤ g.Pt45 * 1.0; linarith
      · show (20000:ℝ) ≤ g.Pt2 * 1.0; linarith
  obtain ⟨g, C, B, κ, hg, hC0, hC1, hB0, hB1, hκ, p1, p3, p2, p4, hB, hC, hκe, K⟩ := form _ _ FF
  obtain ⟨hTt2, hV, hV0, hf0, hf1, hK, hE, q45, q2, -, -⟩ := tm_gen h0 h1 h2 1 1 hg
  have hc : cp (tmObj opr 1 1).params.gam_cold (tmObj opr 1 1).params.r_cold = cc := tm_cp
  have hh : cp (tmObj opr 1 1).params.gam_hot (tmObj opr 1 1).params.r_hot = cc := tm_cp
  have hgc : (tmObj opr 1 1).params.gam_cold = 7 / 5 := Isentropic.gamma0_eq
  have hgh : (tmObj opr 1 1).params.gam_hot = 7 / 5 := Isentropic.gamma0_eq
  have hs : (tmObj opr 1 1).params.eta_shaft = 1 := by show (1.0:ℝ) = 1; norm_num
  have hx : (tmObj opr 1 1).xi_nozzle = 1 := by show (1.0:ℝ) = 1; norm_num
  have hET : (tmObj opr 1 1).etapolTBP = 1 := by show (1.0:ℝ) = 1; norm_num
  have hEF : (tmObj opr 1 1).etapolfan = 1 := by show (1.0:ℝ) = 1; norm_num
  have hP0 : tmFlight.P0 = 20000 := rfl
  have hex : ((7 / 5 : ℝ) - 1) / (7 / 5) = 2 / 7 := by norm_num
  rw [hgc, hx, hP0, hex, mul_one, q2] at hB
  rw [hgh, hx, hP0, hex, mul_one, q45] at hC
  rw [hc, hh, hs, hET, Real.rpow_one, hTt2, one_mul] at hκe
  obtain ⟨T, hT⟩ : ∃ T, T = 320000 / (210 * opr ^ (2 / 7 : ℝ)) := ⟨_, rfl⟩
  rw [← hT] at hC hK hE
  have hCT : g.Tt45 * (1 - C) = g.Tt45 - T := by rw [hC]; field_simp
  have hKp : 0 < g.Tt45 - T := by linarith
  have hVp : 0 < g.V0 := by
    rcases eq_or_lt_of_le hV0 with h | h
    · rw [← h] at hV; norm_num at hV
    · exact h
  refine ⟨g.far, cc * (g.Tt45 - T), g.V0, hf0, hf1, by nlinarith, hVp, hV, hE, ?_⟩
  intro b hb
  have hsp : 0 < 2 + b := by linarith
  have hbn : (2:ℝ) + b ≠ 0 := hsp.ne'
  have r0 : 0 ≤ b / (2 + b) := by positivity
  have r1 : b / (2 + b) ≤ 1 := by rw [div_le_one hsp]; linarith
  obtain ⟨n, hn, -, -, -, e9, e19⟩ := K b (b / (2 + b)) hb r0 r1
  have hV9 : n.V9 = core (cc * (g.Tt45 - T)) (2 + b) := by
    rw [e9, hET, Real.rpow_one, one_div_one, phi_e1, ← Real.sqrt_mul (by rw [hh]; positivity), hh]
    · unfold core
      congr 1
      have : 1 - (1 - C) * (b / (2 + b)) - C = (1 - C) * (2 / (2 + b)) := by field_simp; ring
      rw [this, ← hCT]; field_simp; ring
    · have : (1 - C) * (b / (2 + b)) < 1 := by
        have : b / (2 + b) < 1 := by rw [div_lt_one hsp]; linarith
        nlinarith
      linarith
  have hκe' : κ * (cc * 210) = (1 + g.far) * (cc * (g.Tt45 - T)) := by rw [hκe, ← hCT]; ring
  have hV19 : n.V19 = byp g.V0 (cc * (g.Tt45 - T)) g.far (2 + b) := by
    rw [e19, hEF, phi_e1 _ (by positivity), ← Real.sqrt_mul (by rw [hc, hTt2]; norm_num), hc, hTt2, hB]
    unfold byp
    congr 1
    rw [hV]
    have : 2 * (1 + g.far) * (cc * (g.Tt45 - T)) = 2 * (κ * (cc * 210)) := by rw [hκe']; ring
    rw [this]
    field_simp
    ring
  have hengine : engine opr b = .ok (Turbofan.flight_conditions (withFan (tmObj opr 1 1) b (b / (2 + b))) tmFlight) := by
    unfold engine
    rw [Py.div_ok (by norm_num; exact hbn), Py.ok_bind, Py.pure_eq]
    unfold withFan tmObj tmFlight Turbofan.new TurbofanMap.T0 TurbofanMap.P0 TurbofanMap.M0 TurbofanMap.Ttmax GasGenerator.Args.params
    norm_num
  have hthr : Turbofan.norm_thrust { withFan (tmObj opr 1 1) b (b / (2 + b)) with flight := some tmFlight, res := some (g, n) } =
      .ok (thr g.V0 (cc * (g.Tt45 - T)) g.far (2 + b)) := by
    unfold Turbofan.norm_thrust Turbofan.Obj.theRes withFan
    simp only [Py.ok_bind, Py.pure_eq]
    rw [hV9, hV19]
    unfold thr
    congr 1
    norm_num
  have hcc : Turbofan.Wsp_cc { withFan (tmObj opr 1 1) b (b / (2 + b)) with flight := some tmFlight, res := some (g, n) } = .ok (g.far * 42800000) := by
    unfold Turbofan.Wsp_cc Turbofan.Obj.theRes withFan
    simp only [Py.ok_bind, Py.pure_eq]
    congr 2
    show (42.8e6 : ℝ) = _
    norm_num
  have hkin : Turbofan.Wsp_kinEn { withFan (tmObj opr 1 1) b (b / (2 + b)) with flight := some tmFlight, res := some (g, n) } =
      .ok ((1 + g.far) * (cc * (g.Tt45 - T)) - 10 * cc) := by
    unfold Turbofan.Wsp_kinEn Turbofan.Obj.theRes withFan
    simp only [Py.ok_bind, Py.pure_eq]
    congr 1
    rw [hV9, hV19]
    have k1 : 0 < cc * (g.Tt45 - T) := by positivity
    unfold core byp
    rw [Real.sq_sqrt (by positivity), Real.sq_sqrt (by positivity), hV]
    norm_num
    field_simp
    ring
  refine ⟨_, _, hengine, hn, hthr, ?_, ?_, ?_⟩
  · unfold Turbofan.spec_thrust
    rw [hthr, Py.ok_bind]
    show Py.div _ (1.0 + b) = _
    norm_num
    rw [Py.div_ok (by linarith)]
  · unfold Turbofan.thermoprop_efficiency
    rw [hthr, hcc, Py.ok_bind]
    show Py.div _ _ = _
    rw [Py.div_ok (by positivity)]
  · unfold Turbofan.thermal_efficiency
    rw [hkin, hcc, Py.ok_bind, Py.ok_bind, Py.div_ok (by positivity)]

/-- the pressure ratios of the map and the total temperatures behind the compressor -/
private theorem tm_opr {t : ℝ} (h1 : 252 ≤ t) (h2 : t ≤ 800) :
    0 < (t / 210) ^ (16 / 5 : ℝ) ∧ (117 / 100 : ℝ) ≤ ((t / 210) ^ (16 / 5 : ℝ)) ^ (2 / 7 : ℝ) ∧ 210 * ((t / 210) ^ (16 / 5 : ℝ)) ^ (2 / 7 : ℝ) ≤ 800 := by
  have hx : (6 / 5 : ℝ) ≤ t / 210 := by rw [le_div_iff₀ (by norm_num)]; linarith
  have hx0 : 0 < t / 210 := by linarith
  refine ⟨by positivity, ?_, ?_⟩
  · rw [← Real.rpow_mul hx0.le]
    have e1 : (6 / 5 : ℝ) ^ (9 / 10 : ℝ) ≤ (t / 210) ^ (16 / 5 * (2 / 7) : ℝ) :=
      (Real.rpow_le_rpow (by norm_num) hx (by norm_num)).trans (Real.rpow_le_rpow_of_exponent_le (by linarith) (by norm_num))
    have e2 : (117 / 100 : ℝ) ≤ (6 / 5 : ℝ) ^ (9 / 10 : ℝ) := by
      rw [show (9 / 10 : ℝ) = ((9 : ℕ) : ℝ) * (1 / 10) by norm_num, Real.rpow_mul (by norm_num), Real.rpow_natCast]
      rw [show (117 / 100 : ℝ) = ((117 / 100) ^ (10 : ℕ)) ^ (1 / 10 : ℝ) by
        rw [← Real.rpow_natCast, ← Real.rpow_mul (by norm_num)]; norm_num]
      exact Real.rpow_le_rpow (by norm_num) (by norm_num) (by norm_num)
    linarith
  · rw [← Real.rpow_mul hx0.le]
    have : (t / 210) ^ (16 / 5 * (2 / 7) : ℝ) ≤ (t / 210) ^ (1 : ℝ) := Real.rpow_le_rpow_of_exponent_le (by linarith) (by norm_num)
    rw [Real.rpow_one] at this
    linarith

private theorem tm_eff {F K V b : ℝ} (hF0 : 0 < F) (hF1 : F ≤ 1 / 20) (hK : 260 * cc ≤ K) (hV : 0 < V) (hV2 : V ^ 2 = 20 * cc) (hb : 0 < b) (hb1 : b ≤ 10) :
    thr V K F (2 + b) * V < (1 + F) * K - 10 * cc := by
  have sp : 0 < 2 + b := by linarith
  have K0 : 0 < K := by linarith
  have u2 : core K (2 + b) ^ 2 = 4 * K / (2 + b) := Real.sq_sqrt (by positivity)
  have w2 : byp V K F (2 + b) ^ 2 = V ^ 2 + 2 * (1 + F) * K / (2 + b) := Real.sq_sqrt (by positivity)
  have hu : 2 * V < core K (2 + b) := by
    apply Real.lt_sqrt_of_sq_lt
    rw [mul_pow, hV2, lt_div_iff₀ sp]
    nlinarith
  have hW : (1 + F) * K - 10 * cc = 1 / 2 * ((1 + F) * core K (2 + b) ^ 2 - V ^ 2 + b * (byp V K F (2 + b) ^ 2 - V ^ 2)) := by
    rw [u2, w2, hV2]; field_simp; ring
  rw [hW]
  unfold thr
  generalize core K (2 + b) = u at *
  generalize byp V K F (2 + b) = w at *
  have e : 1 / 2 * ((1 + F) * u ^ 2 - V ^ 2 + b * (w ^ 2 - V ^ 2)) - ((1 + F) * u - V + (2 + b - 2) * (w - V)) * V =
      1 / 2 * ((1 + F) * (u - V) ^ 2 - F * V ^ 2 + b * (w - V) ^ 2) := by ring
  have h1 : V ^ 2 < (u - V) ^ 2 := by
    have : 0 < (u - V - V) * (u - V + V) := mul_pos (by linarith) (by linarith)
    nlinarith
  have h2 : 0 ≤ b * (w - V) ^ 2 := by positivity
  have h3 : 0 ≤ F * ((u - V) ^ 2 - V ^ 2) := mul_nonneg hF0.le (by linarith)
  have h4 : 0 < V ^ 2 := by positivity
  linarith

/-- **C156 (every point).**  For every compressor temperature between 252 K and 800 K, with the pressure ratio that the script gives it, and every bypass ratio up
to 10, the engine of the map computes; it pushes, and its overall efficiency lies between 0 and 1. -/
theorem C156_point {t b : ℝ} (h1 : 252 ≤ t) (h2 : t ≤ 800) (hb : 0 < b) (hb1 : b ≤ 10) :
    ∃ s e, point ((t / 210) ^ (16 / 5 : ℝ)) b = .ok (s, e) ∧ 0 < s ∧ 0 < e ∧ e < 1 := by
  obtain ⟨p0, p1, p2⟩ := tm_opr h1 h2
  obtain ⟨F, K, V, hF0, hF1, hK, hV, hV2, hE, H⟩ := tm_point p0 p1 p2
  obtain ⟨o, a, ho, ha, -, hs, he, -⟩ := H b hb
  have K0 : 0 < K := by linarith
  have ht : 0 < thr V K F (2 + b) := by
    apply thr_pos hV (by linarith) K0 hF0.le
    rw [hV2]; nlinarith
  have hn := tm_eff hF0 hF1 hK hV hV2 hb hb1
  refine ⟨thr V K F (2 + b) / (1 + b), thr V K F (2 + b) * V / (F * 42800000), ?_, ?_, ?_, ?_⟩
  · unfold point
    rw [ho, Py.ok_bind, ha, Py.ok_bind, hs, Py.ok_bind, he]; rfl
  · positivity
  · positivity
  · rw [div_lt_one (by positivity)]; linarith

/-- **C156 (bypass ratio).**  Along a column of the map, at a given pressure ratio, a larger bypass ratio gives a smaller thrust for each kilogram of air, a better
overall efficiency, and exactly the same thermal efficiency. -/
theorem C156_bypass {t b b' : ℝ} (h1 : 252 ≤ t) (h2 : t ≤ 800) (hb : 0 < b) (hbb : b < b') (hb1 : b' ≤ 10) :
    ∃ s e s' e' o o' a a' η, point ((t / 210) ^ (16 / 5 : ℝ)) b = .ok (s, e) ∧ point ((t / 210) ^ (16 / 5 : ℝ)) b' = .ok (s', e') ∧ s' < s ∧ e < e' ∧
      engine ((t / 210) ^ (16 / 5 : ℝ)) b = .ok o ∧ engine ((t / 210) ^ (16 / 5 : ℝ)) b' = .ok o' ∧ Turbofan.update o = .ok a ∧ Turbofan.update o' = .ok a' ∧
      Turbofan.thermal_efficiency a = .ok η ∧ Turbofan.thermal_efficiency a' = .ok η ∧ e < η ∧ e' < η ∧ η < 1 := by
  obtain ⟨p0, p1, p2⟩ := tm_opr h1 h2
  obtain ⟨F, K, V, hF0, hF1, hK, hV, hV2, hE, H⟩ := tm_point p0 p1 p2
  obtain ⟨o, a, ho, ha, -, hs, he, hth⟩ := H b hb
  obtain ⟨o', a', ho', ha', -, hs', he', hth'⟩ := H b' (by linarith)
  have K0 : 0 < K := by linarith
  have hcond : 12 * V ^ 2 ≤ 2 * K * (1 - F) := by
    rw [hV2]
    have : 260 * cc * (19 / 20) ≤ K * (1 - F) := mul_le_mul hK (by linarith) (by norm_num) K0.le
    nlinarith
  have hm := thr_mono hV K0 hF0.le hcond (show 2 + b ∈ Set.Icc (2:ℝ) 12 from ⟨by linarith, by linarith⟩)
    (show 2 + b' ∈ Set.Icc (2:ℝ) 12 from ⟨by linarith, by linarith⟩) (by linarith)
  have ha2 := spec_anti hV K0 hF0.le hcond (show 2 < 2 + b by linarith) (show 2 + b < 2 + b' by linarith) (by linarith)
  rw [show 2 + b' - 1 = 1 + b' by ring, show 2 + b - 1 = 1 + b by ring] at ha2
  have hn := tm_eff hF0 hF1 hK hV hV2 hb (by linarith)
  have hn' := tm_eff hF0 hF1 hK hV hV2 (show 0 < b' by linarith) hb1
  have hFP : 0 < F * 42800000 := by positivity
  refine ⟨thr V K F (2 + b) / (1 + b), thr V K F (2 + b) * V / (F * 42800000), thr V K F (2 + b') / (1 + b'), thr V K F (2 + b') * V / (F * 42800000),
    o, o', a, a', ((1 + F) * K - 10 * cc) / (F * 42800000), ?_, ?_, ha2, ?_, ho, ho', ha, ha', hth, hth', ?_, ?_, ?_⟩
  · unfold point
    rw [ho, Py.ok_bind, ha, Py.ok_bind, hs, Py.ok_bind, he]; rfl
  · unfold point
    rw [ho', Py.ok_bind, ha', Py.ok_bind, hs', Py.ok_bind, he']; rfl
  · exact div_lt_div_of_pos_right (mul_lt_mul_of_pos_right hm hV) hFP
  · exact div_lt_div_of_pos_right hn hFP
  · exact div_lt_div_of_pos_right hn' hFP
  · rw [div_lt_one hFP]; linarith

/-- **C156 (the figure).**  The script draws a map of 49 rows (bypass ratios 0.2, 0.4, … 9.8) and 11 columns (compressor temperatures 252 K, 302 K, … 752 K). No
entry fails; every entry is the thrust and the efficiency of the engine of its row and column, the thrust is positive and the efficiency between 0 and 1. -/
theorem C156_figure :
    ∃ m, drawn = .ok m ∧ m.length = 49 ∧ ∀ i : ℕ, i < 49 → ∃ row, m[i]? = some row ∧ row.length = 11 ∧ ∀ j : ℕ, j < 11 → ∃ s e, row[j]? = some (s, e) ∧
      point (((252 + 50 * j) / 210) ^ (16 / 5 : ℝ)) (1 / 5 + i / 5) = .ok (s, e) ∧ 0 < s ∧ 0 < e ∧ e < 1 := by
  have hTt0 : TurbofanMap.Tt0 = .ok 210 := by
    unfold TurbofanMap.Tt0 TurbofanMap.M0 TurbofanMap.T0
    rw [Isentropic.TtTs_Mach_ok, Py.ok_bind, show (0.5:ℝ) = 1 / 2 by norm_num, tm_tt]
    norm_num [Py.pure_eq]
  have hT : arange (1.2 * 210) (0.5 * TurbofanMap.Ttmax) 50.0 = (List.range 11).map fun k : ℕ => (252 + 50 * k : ℝ) := by
    unfold arange TurbofanMap.Ttmax
    have : ⌈((0.5 : ℝ) * 1600.0 - 1.2 * 210) / 50.0⌉ = 11 := by rw [Int.ceil_eq_iff]; norm_num
    rw [this]
    show (List.range 11).map _ = _
    apply List.map_congr_left
    intro k _
    norm_num
    ring
  have hB : arange 0.2 10.0 0.2 = (List.range 49).map fun k : ℕ => (1 / 5 + k / 5 : ℝ) := by
    unfold arange
    have : ⌈((10.0 : ℝ) - 0.2) / 0.2⌉ = 49 := by rw [Int.ceil_eq_iff]; norm_num
    rw [this]
    show (List.range 49).map _ = _
    apply List.map_congr_left
    intro k _
    norm_num
    ring
  have hpow : ((List.range 11).map fun k : ℕ => (252 + 50 * k : ℝ)).mapM (fun x => (do
      let q ← Py.div x 210
      Py.pow q 3.2 : Py ℝ)) = .ok (((List.range 11).map fun k : ℕ => (252 + 50 * k : ℝ)).map fun x => (x / 210) ^ (16 / 5 : ℝ)) := by
    apply ListPy.mapM_of_forall
    intro x hx
    obtain ⟨k, -, rfl⟩ := List.mem_map.1 hx
    rw [Py.div_ok (by norm_num), Py.ok_bind, show (3.2:ℝ) = 16 / 5 by norm_num]
    exact Py.pow_ok _ (by positivity)
  have hax : axes = .ok ((List.range 11).map (fun j : ℕ => ((252 + 50 * j : ℝ) / 210) ^ (16 / 5 : ℝ)), (List.range 49).map fun k : ℕ => (1 / 5 + k / 5 : ℝ)) := by
    unfold axes
    rw [hTt0, Py.ok_bind]
    simp only []
    rw [hT, hpow, Py.ok_bind, hB, List.map_map]
    rfl
  have hpt : ∀ i j : ℕ, i < 49 → j < 11 → ∃ q : ℝ × ℝ, point (((252 + 50 * j : ℝ) / 210) ^ (16 / 5 : ℝ)) (1 / 5 + i / 5) = .ok q ∧ 0 < q.1 ∧ 0 < q.2 ∧ q.2 < 1 := by
    intro i j hi hj
    have hi' : (i : ℝ) ≤ 48 := by exact_mod_cast Nat.le_of_lt_succ hi
    have hj' : (j : ℝ) ≤ 10 := by exact_mod_cast Nat.le_of_lt_succ hj
    have hj0 : (0 : ℝ) ≤ j := Nat.cast_nonneg j
    have hi0 : (0 : ℝ) ≤ i := Nat.cast_nonneg i
    obtain ⟨s, e, h⟩ := C156_point (t := 252 + 50 * j) (b := 1 / 5 + i / 5) (by linarith) (by linarith) (by linarith) (by linarith)
    exact ⟨(s, e), h⟩
  choose! q hq using hpt
  have hrow : ∀ i : ℕ, i < 49 → ((List.range 11).map (fun j : ℕ => ((252 + 50 * j : ℝ) / 210) ^ (16 / 5 : ℝ))).mapM (fun p => point p (1 / 5 + i / 5)) =
      .ok ((List.range 11).map fun j => q i j) := by
    intro i hi
    rw [List.mapM_map]
    apply ListPy.mapM_of_forall (g := fun j => q i j)
    intro j hj
    exact (hq i j hi (List.mem_range.1 hj)).1
  refine ⟨(List.range 49).map fun i => (List.range 11).map fun j => q i j, ?_, by simp, ?_⟩
  · unfold drawn
    rw [hax, Py.ok_bind]
    simp only []
    rw [List.mapM_map]
    apply ListPy.mapM_of_forall (g := fun i => (List.range 11).map fun j => q i j)
    intro i hi
    exact hrow i (List.mem_range.1 hi)
  · intro i hi
    refine ⟨(List.range 11).map fun j => q i j, by simp [hi], by simp, ?_⟩
    intro j hj
    exact ⟨(q i j).1, (q i j).2, by simp [hj], (hq i j hi hj).1, (hq i j hi hj).2⟩

/-- the hypotheses of `C156_bypass` are met, and the two columns it compares are on the map -/
example : ∃ t b b' : ℝ, 252 ≤ t ∧ t ≤ 800 ∧ 0 < b ∧ b < b' ∧ b' ≤ 10 := ⟨302, 1, 5, by norm_num, by norm_num, by norm_num, by norm_num, by norm_num⟩

end Aerokit.Props
