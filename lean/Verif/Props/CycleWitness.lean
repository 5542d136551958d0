import Verif.Props.PropuBE

/-! The hypotheses of the C72 and C73 theorems are met by a realistic design point. -/

namespace Aerokit.Props

open Cycle

/-- A nozzle whose pressure ratio is at least that of Mach `m`. -/
theorem noz_gen {γ r n Tt m : ℝ} (hm : 0 ≤ m) (hγ : 1 < γ) (hr : 0 < r) (hT : 0 < Tt)
    (hn : Isentropic.tt m γ ^ (γ / (γ - 1)) ≤ n) :
    ∃ M V, Isentropic.Mach_PtPs n γ = .ok M ∧ Isentropic.Velocity_MachTi M Tt r γ = .ok V ∧
      m * Real.sqrt (γ * r * Tt / Isentropic.tt m γ) ≤ V := by
  have h1 : 0 < γ - 1 := by linarith
  have ht8 : 1 ≤ Isentropic.tt m γ := Isentropic.one_le_tt hγ
  have hn1 : 1 ≤ n := le_trans (Real.one_le_rpow ht8 (by positivity)) hn
  have ht : Isentropic.tt m γ ≤ n ^ ((γ - 1) / γ) := by
    have := Real.rpow_le_rpow (by positivity) hn (show 0 ≤ (γ - 1) / γ by positivity)
    rwa [← Real.rpow_mul (by linarith), show γ / (γ - 1) * ((γ - 1) / γ) = 1 by field_simp, Real.rpow_one] at this
  set M := Real.sqrt ((n ^ ((γ - 1) / γ) - 1) * 2 / (γ - 1)) with hM
  have hM8 : m ≤ M := by
    rw [hM]
    apply Real.le_sqrt_of_sq_le
    rw [le_div_iff₀ h1]
    have : Isentropic.tt m γ = 1 + (γ - 1) / 2 * m ^ 2 := rfl
    rw [this] at ht
    nlinarith only [ht]
  refine ⟨M, _, Isentropic.Mach_PtPs_ok hγ hn1, Isentropic.Velocity_MachTt_ok hγ hr hT.le, ?_⟩
  have hM0 : 0 ≤ M := by linarith
  have e1 : ∀ x : ℝ, 0 ≤ x → x * Real.sqrt (γ * r * Tt / Isentropic.tt x γ)
      = Real.sqrt (x ^ 2 * (γ * r * Tt / Isentropic.tt x γ)) := by
    intro x hx
    rw [Real.sqrt_mul (sq_nonneg _), Real.sqrt_sq hx]
  rw [e1 _ hm, e1 _ hM0]
  apply Real.sqrt_le_sqrt
  have hA : 0 < γ * r * Tt := by positivity
  have p8 := Isentropic.tt_pos (M := m) hγ
  have pM := Isentropic.tt_pos (M := M) hγ
  rw [← mul_div_assoc, ← mul_div_assoc, div_le_div_iff₀ p8 pM]
  have hsq : m ^ 2 ≤ M ^ 2 := by nlinarith
  unfold Isentropic.tt
  nlinarith [mul_le_mul_of_nonneg_left hsq hA.le]

theorem noz_ge {γ r n Tt : ℝ} (hγ : 1 < γ) (hr : 0 < r) (hT : 0 < Tt)
    (hn : Isentropic.tt 0.8 γ ^ (γ / (γ - 1)) ≤ n) :
    ∃ M V, Isentropic.Mach_PtPs n γ = .ok M ∧ Isentropic.Velocity_MachTi M Tt r γ = .ok V ∧
      0.8 * Real.sqrt (γ * r * Tt / Isentropic.tt 0.8 γ) ≤ V :=
  noz_gen (by norm_num) hγ hr hT hn

/-- Compressor pressure ratio of the design point. -/
noncomputable def picW : ℝ := 3 ^ (3.15:ℝ)
/-- Fan pressure ratio of the design point. -/
noncomputable def pifW : ℝ := (1.1:ℝ) ^ (3.15:ℝ)
/-- Inputs of the design point: bypass ratio 5, `Tt4 = 1600`, 6 kg/s. -/
noncomputable def inpW : Inp := ⟨5, picW, 1600, 6, air, burnt⟩

theorem picW_pos : 0 < picW := Real.rpow_pos_of_pos (by norm_num) _
theorem pifW_pos : 0 < pifW := Real.rpow_pos_of_pos (by norm_num) _
theorem picW_ge : 27 ≤ picW := by
  have : (3:ℝ) ^ (3:ℝ) ≤ picW := Real.rpow_le_rpow_of_exponent_le (by norm_num) (by norm_num)
  have h3 : (3:ℝ) ^ (3:ℝ) = 27 := by rw [show (3:ℝ) = ((3:ℕ):ℝ) by norm_num, Real.rpow_natCast]; norm_num
  linarith
theorem pifW_ge : 1.331 ≤ pifW := by
  have : (1.1:ℝ) ^ (3:ℝ) ≤ pifW := Real.rpow_le_rpow_of_exponent_le (by norm_num) (by norm_num)
  have h3 : (1.1:ℝ) ^ (3:ℝ) = 1.331 := by rw [show (3:ℝ) = ((3:ℕ):ℝ) by norm_num, Real.rpow_natCast]; norm_num
  linarith
theorem ttM0W : Isentropic.tt M0 air.gamma = 1.128 := by
  unfold Isentropic.tt M0 air; norm_num
theorem tt8A : Isentropic.tt 0.8 air.gamma = 1.128 := by
  unfold Isentropic.tt air; norm_num
theorem tt8B : Isentropic.tt 0.8 burnt.gamma = 1.1056 := by
  unfold Isentropic.tt burnt; norm_num

/-- total pressure ratio of the flight -/
noncomputable def p0W : ℝ := (1.128:ℝ) ^ (air.gamma / (air.gamma - 1))
theorem p0W_ge : 1.4 ≤ p0W := by
  have : (1.128:ℝ) ^ (3:ℝ) ≤ p0W := Real.rpow_le_rpow_of_exponent_le (by norm_num) (by unfold air; norm_num)
  have h3 : (1.128:ℝ) ^ (3:ℝ) = 1.128 ^ 3 := by
    rw [show (3:ℝ) = ((3:ℕ):ℝ) by norm_num, Real.rpow_natCast]
  have : (1.4:ℝ) ≤ 1.128 ^ 3 := by norm_num
  linarith
theorem n8B : (Isentropic.tt 0.8 burnt.gamma) ^ (burnt.gamma / (burnt.gamma - 1)) ≤ 1.7 := by
  rw [tt8B]
  have : (1.1056:ℝ) ^ (burnt.gamma / (burnt.gamma - 1)) ≤ 1.1056 ^ (5:ℝ) :=
    Real.rpow_le_rpow_of_exponent_le (by norm_num) (by unfold burnt; norm_num)
  have h3 : (1.1056:ℝ) ^ (5:ℝ) = 1.1056 ^ 5 := by
    rw [show (5:ℝ) = ((5:ℕ):ℝ) by norm_num, Real.rpow_natCast]
  have : (1.1056:ℝ) ^ 5 ≤ 1.7 := by norm_num
  linarith
/-- flight velocity -/
noncomputable def v0W : ℝ := 0.8 * Real.sqrt (air.gamma * air.r * T0)
theorem v0W_pos : 0 < v0W := by
  unfold v0W
  exact mul_pos (by norm_num) (Real.sqrt_pos.mpr (by unfold air T0; norm_num))
theorem qcW : picW ^ (air.gmusg / eta_c) = 3 := by
  unfold picW
  rw [← Real.rpow_mul (by norm_num), show (3.15:ℝ) * (air.gmusg / eta_c) = 1 by unfold air eta_c; norm_num,
    Real.rpow_one]
theorem qfW : pifW ^ (air.gmusg / eta_c) = 1.1 := by
  unfold pifW
  rw [← Real.rpow_mul (by norm_num), show (3.15:ℝ) * (air.gmusg / eta_c) = 1 by unfold air eta_c; norm_num,
    Real.rpow_one]

/-- fuel to air ratio -/
noncomputable def kW : ℝ :=
  (burnt.r * burnt.gamma / (burnt.gamma - 1) * 1600 - air.r * air.gamma / (air.gamma - 1) * (T0 * 1.128 * 3)) /
    (eta_comb * burnt.P_k - burnt.r * burnt.gamma / (burnt.gamma - 1) * 1600)
theorem kW_den : (eta_comb * burnt.P_k - burnt.r * burnt.gamma / (burnt.gamma - 1) * 1600) ≠ 0 := by
  unfold burnt eta_comb; norm_num
theorem kW_lo : 0.028 < kW := by unfold kW burnt air eta_comb T0; norm_num
theorem kW_hi : kW < 0.029 := by unfold kW burnt air eta_comb T0; norm_num

/-- performances from the velocities -/
theorem perf_ok (i : Inp) (s0 : S0) (s3 : S3) (s4 : S4) (m_f : ℝ) (s19 : S19) (s9 : S9) (hm : 0 < i.m)
    (hmc : 0 < s3.m_c) (hmf : 0 < m_f) (hk : 0 < s4.m_k) (ha : 0 ≤ s4.alpha) (hP : 0 < i.g_fuel.P_k)
    (h0 : 0 < s0.V0) (h19 : s0.V0 < s19.V19) (h9 : s0.V0 < s9.V9) (hFf : s19.F_f = m_f * (s19.V19 - s0.V0))
    (hFc : s9.F_c = s3.m_c * (s9.V9 - s0.V0)) : ∃ p, valP i s0 s3 s4 m_f s19 s9 = .ok p := by
  have hF : 0 < s19.F_f + s9.F_c := by
    rw [hFf, hFc]
    have := mul_pos hmf (sub_pos.mpr h19)
    have := mul_pos hmc (sub_pos.mpr h9)
    linarith
  have hE : 0 < 0.5 * (s3.m_c * ((1.0 + s4.alpha) * s9.V9 ^ 2 - s0.V0 ^ 2) + m_f * (s19.V19 ^ 2 - s0.V0 ^ 2)) := by
    have a1 : 0 < s19.V19 ^ 2 - s0.V0 ^ 2 := by nlinarith
    have a2 : 0 < (1.0 + s4.alpha) * s9.V9 ^ 2 - s0.V0 ^ 2 := by
      rw [h10']
      have b1 : s0.V0 ^ 2 < s9.V9 ^ 2 := by nlinarith
      have b2 : 0 ≤ s4.alpha * s9.V9 ^ 2 := by positivity
      linarith only [b1, b2]
    have := mul_pos hmf a1
    have := mul_pos hmc a2
    linarith
  unfold valP
  simp only []
  rw [Py.div_ok hm.ne', Py.ok_bind, Py.div_ok hF.ne', Py.ok_bind, Py.div_ok (mul_pos hP hk).ne', Py.ok_bind,
    Py.div_ok hE.ne', Py.ok_bind]
  exact ⟨_, rfl⟩

/-- values of the common part -/
noncomputable def baseW : BaseVals where
  s0 := ⟨P0 * p0W, T0 * 1.128, v0W⟩
  s2 := ⟨T0 * 1.128, P0 * p0W * xi_e⟩
  s3 := ⟨1, T0 * 1.128 * 3, P0 * p0W * xi_e * picW,
    1 * (air.r * air.gamma / (air.gamma - 1)) * (T0 * 1.128 * 3 - T0 * 1.128)⟩
  s4 := ⟨kW, kW, P0 * p0W * xi_e * picW * xi_cc⟩

theorem baseW_ok : BaseVals.Ok inpW baseW := by
  constructor
  · show val0 inpW = _
    unfold val0
    rw [show inpW.g = air from rfl, p0A', Py.ok_bind, Isentropic.TtTs_Mach_ok, Py.ok_bind, a0A, Py.ok_bind, ttM0W]
    rfl
  · rfl
  · unfold val3
    rw [show inpW.m = 6 from rfl, show inpW.lambda = 5 from rfl, show inpW.g = air from rfl,
      show inpW.pi_c = picW from rfl, Py.div_ok (by norm_num), Py.ok_bind, dec, Py.ok_bind, Py.pow_ok _ picW_pos,
      Py.ok_bind, qcW]
    unfold Gaz.get_cp
    simp only [h10', dA, Py.ok_bind, Py.pure_eq, baseW]
    norm_num
  · unfold val4
    rw [show inpW.g_fuel = burnt from rfl, show inpW.g = air from rfl, show inpW.Tt4 = 1600 from rfl]
    unfold Gaz.get_cp
    simp only [h10', dA, dB, Py.ok_bind, baseW]
    rw [Py.div_ok kW_den, Py.ok_bind]
    rw [Py.div_ok one_ne_zero, Py.ok_bind]
    have : 1 * ((burnt.r * burnt.gamma / (burnt.gamma - 1) * 1600 - air.r * air.gamma / (air.gamma - 1) * (T0 * 1.128 * 3)) /
    (eta_comb * burnt.P_k - burnt.r * burnt.gamma / (burnt.gamma - 1) * 1600)) = kW := one_mul _
    rw [this, div_one]
    rfl

/-- turbine: pressure after an expansion of bounded temperature ratio -/
theorem turb_ok {T4 T5 P b : ℝ} (h5 : 0 < T5) (h45 : T5 ≤ T4) (hb : T4 ≤ b * T5) (hP : 0 < P) :
    ∃ p q, Py.div T4 T5 = .ok (T4 / T5) ∧ Py.pow (T4 / T5) (burnt.gsgmu / eta_turb) = .ok p ∧
      Py.div P p = .ok q ∧ P / b ^ 5 ≤ q := by
  have hu : 1 ≤ T4 / T5 := by rw [le_div_iff₀ h5]; linarith
  have hub : T4 / T5 ≤ b := by rw [div_le_iff₀ h5]; linarith
  have hu0 : 0 < T4 / T5 := by linarith
  have hp : 0 < (T4 / T5) ^ (burnt.gsgmu / eta_turb) := Real.rpow_pos_of_pos hu0 _
  refine ⟨_, _, Py.div_ok h5.ne', Py.pow_ok _ hu0, Py.div_ok hp.ne', ?_⟩
  apply div_le_div_of_nonneg_left hP.le hp
  calc (T4 / T5) ^ (burnt.gsgmu / eta_turb) ≤ (T4 / T5) ^ (5:ℝ) :=
        Real.rpow_le_rpow_of_exponent_le hu (by unfold burnt eta_turb; norm_num)
    _ = (T4 / T5) ^ 5 := by rw [show (5:ℝ) = ((5:ℕ):ℝ) by norm_num, Real.rpow_natCast]
    _ ≤ b ^ 5 := pow_le_pow_left₀ hu0.le hub 5

theorem v0_lt {γ r T : ℝ} (h : air.gamma * air.r * T0 < γ * r * T) :
    v0W < 0.8 * Real.sqrt (γ * r * T) := by
  unfold v0W
  apply mul_lt_mul_of_pos_left _ (by norm_num)
  exact Real.sqrt_lt_sqrt (by unfold air T0; norm_num) h

/-- nozzles of the design point -/
theorem noz9W {T P : ℝ} (hT : 300 ≤ T) (hP : 2 * P0 ≤ P) (i : Inp) (hi : i.g_fuel = burnt) (s3 : S3) :
    ∃ s9, val9 i baseW.s0 s3 T P = .ok s9 ∧ v0W < s9.V9 ∧ s9.F_c = s3.m_c * (s9.V9 - v0W) := by
  have hP0 : 0 < P0 := by unfold P0; norm_num
  have hn : Isentropic.tt 0.8 burnt.gamma ^ (burnt.gamma / (burnt.gamma - 1)) ≤ P * xi_tuy / P0 := by
    refine n8B.trans ?_
    rw [le_div_iff₀ hP0]
    unfold xi_tuy
    linarith
  obtain ⟨M, V, e1, e2, hV⟩ := noz_ge (r := burnt.r) (Tt := T) one_lt_gB (by unfold burnt; norm_num) (by linarith) hn
  unfold val9
  simp only []
  rw [dP0, Py.ok_bind, hi, e1, Py.ok_bind, e2, Py.ok_bind]
  refine ⟨_, rfl, lt_of_lt_of_le ?_ hV, rfl⟩
  rw [tt8B, mul_div_assoc]
  apply v0_lt
  have : 300 / 1.1056 ≤ T / 1.1056 := div_le_div_of_nonneg_right hT (by norm_num)
  calc air.gamma * air.r * T0 < burnt.gamma * burnt.r * (300 / 1.1056) := by unfold air burnt T0; norm_num
    _ ≤ burnt.gamma * burnt.r * (T / 1.1056) :=
      mul_le_mul_of_nonneg_left this (by unfold burnt; norm_num)

theorem noz19W {T q m_f : ℝ} (hT : T0 * 1.128 < T) (hq : 1.1 ≤ q) (i : Inp) (hi : i.g = air) :
    ∃ s19, val19 i baseW.s0 m_f T (P0 * p0W * xi_e * q) = .ok s19 ∧ v0W < s19.V19 ∧
      s19.F_f = m_f * (s19.V19 - v0W) := by
  have hP0 : 0 < P0 := by unfold P0; norm_num
  have hp := p0W_ge
  have hn : Isentropic.tt 0.8 air.gamma ^ (air.gamma / (air.gamma - 1)) ≤ P0 * p0W * xi_e * q * xi_tuy / P0 := by
    rw [tt8A, le_div_iff₀ hP0]
    show p0W * P0 ≤ _
    unfold xi_e xi_tuy
    have h2 : 0 < p0W * P0 := by positivity
    nlinarith [mul_le_mul_of_nonneg_left hq h2.le]
  have hT0 : 0 < T0 * 1.128 := by unfold T0; norm_num
  obtain ⟨M, V, e1, e2, hV⟩ := noz_ge (r := air.r) (Tt := T) one_lt_gA (by unfold air; norm_num) (by linarith) hn
  unfold val19
  simp only []
  rw [dP0, Py.ok_bind, hi, e1, Py.ok_bind, e2, Py.ok_bind]
  refine ⟨_, rfl, lt_of_lt_of_le ?_ hV, rfl⟩
  rw [tt8A, mul_div_assoc]
  apply v0_lt
  have : T0 < T / 1.128 := by rw [lt_div_iff₀ (by norm_num)]; exact hT
  exact mul_lt_mul_of_pos_left this (by unfold air; norm_num)

theorem fixeW4 : ∃ v, fixeStraight inpW pifW = .ok v ∧ 4 * P0 ≤ v.s5.Pt5 := by
  obtain ⟨e0, e2, e3, e4⟩ := baseW_ok
  have hP0 : 0 < P0 := by unfold P0; norm_num
  have hp := p0W_ge
  have hc := picW_ge
  unfold fixeStraight
  rw [e0, Py.ok_bind, e2, Py.ok_bind, e3, Py.ok_bind, e4, Py.ok_bind]
  have e13 : val13 inpW pifW baseW.s2 = .ok ⟨5, T0 * 1.128 * 1.1, P0 * p0W * xi_e * pifW,
      5 * (air.r * air.gamma / (air.gamma - 1)) * (T0 * 1.128 * 1.1 - T0 * 1.128)⟩ := by
    unfold val13
    rw [show inpW.m = 6 from rfl, show inpW.lambda = 5 from rfl, show inpW.g = air from rfl,
      Py.div_ok (by norm_num), Py.ok_bind, dec, Py.ok_bind, Py.pow_ok _ pifW_pos, Py.ok_bind, qfW]
    unfold Gaz.get_cp
    simp only [h10', dA, Py.ok_bind, Py.pure_eq, baseW]
    norm_num
  rw [e13, Py.ok_bind]
  obtain ⟨s19, e19, h19, hF19⟩ := noz19W (T := T0 * 1.128 * 1.1) (q := pifW) (m_f := 5)
    (by unfold T0; norm_num) (by linarith [pifW_ge]) inpW rfl
  rw [e19, Py.ok_bind]
  have klo := kW_lo
  have khi := kW_hi
  have hD : 0 < 1 * (1 + kW) * (burnt.r * burnt.gamma / (burnt.gamma - 1)) * eta_m := by
    have : 0 < burnt.r * burnt.gamma / (burnt.gamma - 1) := by unfold burnt; norm_num
    have : 0 < eta_m := by unfold eta_m; norm_num
    positivity
  obtain ⟨d, hd⟩ : ∃ d, d = (5 * (air.r * air.gamma / (air.gamma - 1)) * (T0 * 1.128 * 1.1 - T0 * 1.128) +
      1 * (air.r * air.gamma / (air.gamma - 1)) * (T0 * 1.128 * 3 - T0 * 1.128)) /
      (1 * (1 + kW) * (burnt.r * burnt.gamma / (burnt.gamma - 1)) * eta_m) := ⟨_, rfl⟩
  have d0 : 0 ≤ d := by
    rw [hd]; exact div_nonneg (by unfold air T0; norm_num) hD.le
  have d1 : d ≤ 533 := by
    rw [hd, div_le_iff₀ hD]
    unfold air burnt T0 eta_m
    norm_num
    linarith
  obtain ⟨p, q, t1, t2, t3, hq⟩ := turb_ok (T4 := 1600) (T5 := 1600 - d) (P := P0 * p0W * xi_e * picW * xi_cc) (b := 1.5)
    (by linarith) (by linarith) (by linarith) (by
      have : 0 < xi_e := by unfold xi_e; norm_num
      have : 0 < xi_cc := by unfold xi_cc; norm_num
      positivity)
  have e5 : val5 inpW baseW.s3 baseW.s4 ⟨5, T0 * 1.128 * 1.1, P0 * p0W * xi_e * pifW,
      5 * (air.r * air.gamma / (air.gamma - 1)) * (T0 * 1.128 * 1.1 - T0 * 1.128)⟩ = .ok ⟨1600 - d, p, q⟩ := by
    unfold val5
    rw [show inpW.g_fuel = burnt from rfl, show inpW.Tt4 = 1600 from rfl]
    unfold Gaz.get_cp
    simp only [h10', dB, Py.ok_bind, baseW]
    rw [Py.div_ok hD.ne', Py.ok_bind, ← hd, t1, Py.ok_bind, det, Py.ok_bind, t2, Py.ok_bind, t3, Py.ok_bind]
    rfl
  rw [e5, Py.ok_bind]
  have hq4 : 4 * P0 ≤ q := by
    refine le_trans ?_ hq
    rw [le_div_iff₀ (by norm_num)]
    unfold xi_e xi_cc
    have a1 : 1.4 * 27 ≤ p0W * picW := mul_le_mul hp hc (by norm_num) (by linarith)
    nlinarith [mul_le_mul_of_nonneg_left a1 hP0.le]
  obtain ⟨s9, e9, h9, hF9⟩ := noz9W (T := 1600 - d) (P := q) (by linarith) (by linarith) inpW rfl baseW.s3
  rw [e9, Py.ok_bind]
  obtain ⟨pf, eP⟩ := perf_ok inpW baseW.s0 baseW.s3 baseW.s4 5 s19 s9 (show (0:ℝ) < 6 by norm_num)
    (show (0:ℝ) < 1 by norm_num) (by norm_num) (show 0 < kW by linarith) (show 0 ≤ kW by linarith)
    (show (0:ℝ) < 42800e3 by norm_num) v0W_pos h19 h9 hF19 hF9
  rw [eP, Py.ok_bind]
  exact ⟨_, rfl, hq4⟩

theorem fixeW : ∃ v, fixeStraight inpW pifW = .ok v := by
  obtain ⟨v, h, -⟩ := fixeW4
  exact ⟨v, h⟩

set_option maxHeartbeats 2000000 in
theorem calculeW : ∃ v, calculeStraight inpW 0.2 = .ok v := by
  obtain ⟨e0, e2, e3, e4⟩ := baseW_ok
  have hP0 : 0 < P0 := by unfold P0; norm_num
  have hp := p0W_ge
  have hc := picW_ge
  have hT0 : 0 < T0 := by unfold T0; norm_num
  unfold calculeStraight
  rw [e0, Py.ok_bind, e2, Py.ok_bind, e3, Py.ok_bind, e4, Py.ok_bind]
  have klo := kW_lo
  have khi := kW_hi
  have hcB : 0 < burnt.r * burnt.gamma / (burnt.gamma - 1) := by unfold burnt; norm_num
  have hcA : 0 < air.r * air.gamma / (air.gamma - 1) := by unfold air; norm_num
  have hD : 0 < 1 * (1 + kW) * (burnt.r * burnt.gamma / (burnt.gamma - 1)) * eta_m := by
    have : 0 < eta_m := by unfold eta_m; norm_num
    positivity
  obtain ⟨d, hd⟩ : ∃ d, d = (1 * (air.r * air.gamma / (air.gamma - 1)) * (T0 * 1.128 * 3 - T0 * 1.128)) /
      (1 * (1 + kW) * (burnt.r * burnt.gamma / (burnt.gamma - 1)) * eta_m) := ⟨_, rfl⟩
  have d0 : 0 ≤ d := by
    rw [hd]; exact div_nonneg (by unfold air T0; norm_num) hD.le
  have d1 : d ≤ 420 := by
    rw [hd, div_le_iff₀ hD]
    unfold air burnt T0 eta_m
    norm_num
    linarith
  have hPP : 0 < P0 * p0W * xi_e * picW * xi_cc := by
      have : 0 < xi_e := by unfold xi_e; norm_num
      have : 0 < xi_cc := by unfold xi_cc; norm_num
      positivity
  obtain ⟨p, q, t1, t2, t3, hq⟩ := turb_ok (T4 := 1600) (T5 := 1600 - d) (P := P0 * p0W * xi_e * picW * xi_cc) (b := 1.36)
    (by linarith) (by linarith) (by linarith) hPP
  have e4e : val4e inpW baseW.s3 baseW.s4 = .ok ⟨1600 - d, p, q⟩ := by
    unfold val4e
    rw [show inpW.g_fuel = burnt from rfl, show inpW.Tt4 = 1600 from rfl]
    unfold Gaz.get_cp
    simp only [h10', dB, Py.ok_bind, baseW]
    rw [Py.div_ok hD.ne', Py.ok_bind, ← hd, t1, Py.ok_bind, det, Py.ok_bind, t2, Py.ok_bind, t3, Py.ok_bind]
    rfl
  rw [e4e, Py.ok_bind]
  have hq7 : 7 * P0 ≤ q := by
    refine le_trans ?_ hq
    rw [le_div_iff₀ (by norm_num)]
    unfold xi_e xi_cc
    have a1 : 1.4 * 27 ≤ p0W * picW := mul_le_mul hp hc (by norm_num) (by linarith)
    nlinarith [mul_le_mul_of_nonneg_left a1 hP0.le]
  have hq0 : 0 < q := by linarith
  -- fan turbine
  obtain ⟨w, hw⟩ : ∃ w, w = (P0 / q) ^ burnt.gmusg := ⟨_, rfl⟩
  have hx : 0 < P0 / q := by positivity
  have w0 : 0 < w := by rw [hw]; exact Real.rpow_pos_of_pos hx _
  have w1 : w ≤ 0.7 := by
    have hx7 : P0 / q ≤ 0.7 ^ 5 := by
      rw [div_le_iff₀ hq0]
      nlinarith
    have h1 : w ≤ ((0.7:ℝ) ^ 5) ^ burnt.gmusg := by
      rw [hw]; exact Real.rpow_le_rpow hx.le hx7 (by unfold burnt; norm_num)
    have h2 : ((0.7:ℝ) ^ 5) ^ burnt.gmusg ≤ ((0.7:ℝ) ^ 5) ^ (1 / 5 : ℝ) :=
      Real.rpow_le_rpow_of_exponent_ge (by norm_num) (by norm_num) (by unfold burnt; norm_num)
    have h3 : ((0.7:ℝ) ^ 5) ^ (1 / 5 : ℝ) = 0.7 := by
      rw [← Real.rpow_natCast, ← Real.rpow_mul (by norm_num)]; norm_num
    linarith
  obtain ⟨wu, hwu⟩ : ∃ wu, wu = 1 * (1 + kW) * (burnt.r * burnt.gamma / (burnt.gamma - 1)) *
      ((1600 - d) * w - (1600 - d)) * 0.2 := ⟨_, rfl⟩
  have hD5 : 0 < burnt.r * burnt.gamma / (burnt.gamma - 1) * 1 * (1 + kW) := by positivity
  obtain ⟨T5, hT5⟩ : ∃ T5, T5 = wu / (burnt.r * burnt.gamma / (burnt.gamma - 1) * 1 * (1 + kW)) + (1600 - d) := ⟨_, rfl⟩
  have hT5' : T5 = (1600 - d) * (0.8 + 0.2 * w) := by
    rw [hT5, hwu]
    have : 1 + kW ≠ 0 := by linarith
    generalize burnt.r * burnt.gamma / (burnt.gamma - 1) = c at hcB
    field_simp
    ring
  have hT5lo : 0.8 * (1600 - d) ≤ T5 := by rw [hT5']; nlinarith
  have hT5hi : T5 ≤ 1600 - d := by rw [hT5']; nlinarith
  obtain ⟨p', q', u1, u2, u3, hq'⟩ := turb_ok (T4 := 1600 - d) (T5 := T5) (P := q) (b := 1.25)
    (by linarith) hT5hi (by linarith) hq0
  have e5 : val5c inpW 0.2 baseW.s3 baseW.s4 ⟨1600 - d, p, q⟩ = .ok ⟨wu, T5, p', q'⟩ := by
    unfold val5c
    rw [show inpW.g_fuel = burnt from rfl]
    unfold Gaz.get_cp
    simp only [h10', dB, Py.ok_bind, baseW]
    rw [Py.div_ok hq0.ne', Py.ok_bind, Py.pow_ok _ hx, Py.ok_bind, ← hw, ← hwu, Py.div_ok hD5.ne', Py.ok_bind, ← hT5,
      u1, Py.ok_bind, det, Py.ok_bind, u2, Py.ok_bind, u3, Py.ok_bind]
    rfl
  rw [e5, Py.ok_bind]
  have hq2 : 2 * P0 ≤ q' := by
    refine le_trans ?_ hq'
    rw [le_div_iff₀ (by norm_num)]
    linarith
  obtain ⟨s9, e9, h9, hF9⟩ := noz9W (T := T5) (P := q') (by linarith) hq2 inpW rfl baseW.s3
  rw [e9, Py.ok_bind]
  -- fan
  obtain ⟨T13, hT13⟩ : ∃ T13, T13 = -wu * eta_m / (5 * (air.r * air.gamma / (air.gamma - 1))) + T0 * 1.128 := ⟨_, rfl⟩
  have hT13lo : 1.06 * (T0 * 1.128) ≤ T13 := by
    have h1 : 70.8 * 1200 ≤ -wu := by
      have : -wu = (1 + kW) * (burnt.r * burnt.gamma / (burnt.gamma - 1)) * ((1600 - d) * (1 - w) * 0.2) := by
        rw [hwu]; ring
      rw [this]
      have a1 : 1.028 * 1175 ≤ (1 + kW) * (burnt.r * burnt.gamma / (burnt.gamma - 1)) := by
        apply mul_le_mul (by linarith) _ (by norm_num) (by linarith)
        unfold burnt; norm_num
      have a2 : 70.8 ≤ (1600 - d) * (1 - w) * 0.2 := by nlinarith
      nlinarith
    have h2 : 0.06 * (T0 * 1.128) ≤ -wu * eta_m / (5 * (air.r * air.gamma / (air.gamma - 1))) := by
      rw [le_div_iff₀ (by positivity)]
      have : 0.06 * (T0 * 1.128) * (5 * (air.r * air.gamma / (air.gamma - 1))) ≤ 70.8 * 1200 * eta_m := by
        unfold T0 air eta_m; norm_num
      have h3 : 70.8 * 1200 * eta_m ≤ -wu * eta_m := mul_le_mul_of_nonneg_right h1 (by unfold eta_m; norm_num)
      linarith
    rw [hT13]; linarith
  have hT2 : 0 < T0 * 1.128 := by positivity
  have hu13 : 1.06 ≤ T13 / (T0 * 1.128) := by rw [le_div_iff₀ hT2]; exact hT13lo
  obtain ⟨pf, hpf⟩ : ∃ pf, pf = (T13 / (T0 * 1.128)) ^ (eta_f * air.gsgmu) := ⟨_, rfl⟩
  have hpf1 : 1.1 ≤ pf := by
    have h1 : (1.06:ℝ) ^ (eta_f * air.gsgmu) ≤ pf := by
      rw [hpf]; exact Real.rpow_le_rpow (by norm_num) hu13 (by unfold eta_f air; norm_num)
    have h2 : (1.06:ℝ) ^ (2:ℝ) ≤ (1.06:ℝ) ^ (eta_f * air.gsgmu) :=
      Real.rpow_le_rpow_of_exponent_le (by norm_num) (by unfold eta_f air; norm_num)
    have h3 : (1.06:ℝ) ^ (2:ℝ) = 1.06 ^ 2 := by
      rw [show (2:ℝ) = ((2:ℕ):ℝ) by norm_num, Real.rpow_natCast]
    have : (1.1:ℝ) ≤ 1.06 ^ 2 := by norm_num
    linarith
  have e13 : val13c inpW baseW.s2 ⟨wu, T5, p', q'⟩ = .ok ⟨5, T13, pf, P0 * p0W * xi_e * pf⟩ := by
    unfold val13c
    rw [show inpW.m = 6 from rfl, show inpW.lambda = 5 from rfl, show inpW.g = air from rfl,
      Py.div_ok (by norm_num), Py.ok_bind]
    unfold Gaz.get_cp
    have h5 : (5 * 6 / (5 + 1) : ℝ) = 5 := by norm_num
    simp only [h10', h5, dA, Py.ok_bind, baseW]
    rw [Py.div_ok (by positivity), Py.ok_bind, ← hT13, Py.div_ok hT2.ne', Py.ok_bind,
      Py.pow_ok _ (by linarith), Py.ok_bind, ← hpf]
    rfl
  rw [e13, Py.ok_bind]
  obtain ⟨s19, e19, h19, hF19⟩ := noz19W (T := T13) (q := pf) (m_f := 5) (by linarith) hpf1 inpW rfl
  rw [e19, Py.ok_bind]
  obtain ⟨pe, eP⟩ := perf_ok inpW baseW.s0 baseW.s3 baseW.s4 5 s19 s9 (show (0:ℝ) < 6 by norm_num)
    (show (0:ℝ) < 1 by norm_num) (by norm_num) (show 0 < kW by linarith) (show 0 ≤ kW by linarith)
    (show (0:ℝ) < 42800e3 by norm_num) v0W_pos h19 h9 hF19 hF9
  rw [eP, Py.ok_bind]
  exact ⟨_, rfl⟩

/-- the elementary operations of a nozzle -/
theorem noz_prim {γ r n T M V : ℝ} (hγ : 1 < γ) (h1 : Isentropic.Mach_PtPs n γ = .ok M)
    (h2 : Isentropic.Velocity_MachTi M T r γ = .ok V) :
    ∃ t A, Py.pow n ((γ - 1) / γ) = .ok t ∧ Py.sqrt ((t - 1) * (2 / (γ - 1))) = .ok M ∧
      Py.sqrt (γ * r * (T / Isentropic.tt M γ)) = .ok A ∧ V = M * A := by
  unfold Isentropic.Mach_PtPs at h1
  unfold Isentropic.Velocity_MachTi Isentropic.Velocity_MachTt at h2
  rw [h10', h20', Py.div_ok (by linarith), Py.ok_bind] at h1
  obtain ⟨t, ht, h1⟩ := Py.bind_inv h1
  rw [Py.div_ok (by linarith), Py.ok_bind, mul_div_assoc] at h1
  rw [Isentropic.TtTs_Mach_ok, Py.ok_bind, Py.div_ok (Isentropic.tt_pos hγ).ne', Py.ok_bind, mul_div_assoc] at h2
  obtain ⟨A, hA, h2⟩ := Py.bind_inv h2
  injection h2 with h2
  exact ⟨t, A, ht, h1, hA, h2.symm⟩

set_option maxHeartbeats 1000000 in
theorem scriptW : ∃ s, PropuBE.calculs 5 picW 1600 pifW 6 = .ok s := by
  have hP0 : 0 < P0 := by unfold P0; norm_num
  have hp := p0W_ge
  have hc := picW_ge
  have klo := kW_lo
  have khi := kW_hi
  obtain ⟨qf, hqf⟩ : ∃ qf, qf = pifW ^ ((air.gamma - 1) / air.gamma / eta_f) := ⟨_, rfl⟩
  have qf1 : 1 < qf := by
    rw [hqf]; exact Real.one_lt_rpow (by linarith [pifW_ge]) (by unfold air eta_f; norm_num)
  have qf2 : qf ≤ 1.12 := by
    have h1 : qf = 1.1 * (1.1:ℝ) ^ (1 / 89 : ℝ) := by
      rw [hqf]; unfold pifW
      rw [← Real.rpow_mul (by norm_num), show (3.15 * ((air.gamma - 1) / air.gamma / eta_f) : ℝ) = 1 + 1 / 89 by
        unfold air eta_f; norm_num, Real.rpow_add (by norm_num), Real.rpow_one]
    have h2 : (1.1:ℝ) ^ (1 / 89 : ℝ) ≤ (1.01 ^ 89 : ℝ) ^ (1 / 89 : ℝ) :=
      Real.rpow_le_rpow (by norm_num) (by
        have := one_add_mul_le_pow (show (-2:ℝ) ≤ 0.01 by norm_num) 89
        norm_num at this ⊢) (by norm_num)
    have h3 : ((1.01:ℝ) ^ 89) ^ (1 / 89 : ℝ) = 1.01 := by
      rw [← Real.rpow_natCast, ← Real.rpow_mul (by norm_num)]; norm_num
    rw [h1]; linarith
  obtain ⟨n1, n2, n3, n4, n5, n6, n7, n8, n9, n10, n11, n12, n13, n14, n15, n16⟩ := rename
  unfold PropuBE.calculs
  simp (implicitDefEqProofs := false) only [bind_assoc, Py.pure_eq, Py.ok_bind, n1, n2, n3, n4, n5, n6, n7, n8, n9, n10, n11, n12, n13,
    n14, n15, n16, pow_half, dA, dB, dgA, dgB, dec, det, dgec, dgef, dget, dP0, dtA, dtB, p0A, p0A', a0A]
  simp (implicitDefEqProofs := false) only [ttM0, half]
  rw [ttM0W]
  have hV0 : M0 * Real.sqrt (air.gamma * air.r * T0) = v0W := rfl
  have hp0 : (1.128:ℝ) ^ (air.gamma / (air.gamma - 1)) = p0W := rfl
  rw [hp0]
  have hm1 : (5 * 6 / (5 + 1) : ℝ) = 5 := by norm_num
  have hm2 : (6 / (5 + 1) : ℝ) = 1 := by norm_num
  rw [Py.div_ok (by norm_num), Py.ok_bind, hm1, Py.pow_ok _ pifW_pos, Py.ok_bind]
  have hqf' : pifW ^ (air.gmusg / eta_f) = qf := hqf.symm
  rw [hqf', Py.div_ok (by norm_num), Py.ok_bind, hm2, Py.pow_ok _ picW_pos, Py.ok_bind, qcW,
    Py.div_ok kW_den, Py.ok_bind]
  have hk : (burnt.r * burnt.gamma / (burnt.gamma - 1) * 1600 - air.r * air.gamma / (air.gamma - 1) * (T0 * 1.128 * 3)) /
    (eta_comb * burnt.P_k - burnt.r * burnt.gamma / (burnt.gamma - 1) * 1600) = kW := rfl
  rw [hk, Py.div_ok one_ne_zero, Py.ok_bind, show 1 * kW / 1 = kW by ring]
  have hD : 0 < 1 * (1 + kW) * (burnt.r * burnt.gamma / (burnt.gamma - 1)) * eta_m := by
    have : 0 < burnt.r * burnt.gamma / (burnt.gamma - 1) := by unfold burnt; norm_num
    have : 0 < eta_m := by unfold eta_m; norm_num
    positivity
  obtain ⟨d, hd⟩ : ∃ d, d = (5 * (air.r * air.gamma / (air.gamma - 1)) * (T0 * 1.128 * qf - T0 * 1.128) +
      1 * (air.r * air.gamma / (air.gamma - 1)) * (T0 * 1.128 * 3 - T0 * 1.128)) /
      (1 * (1 + kW) * (burnt.r * burnt.gamma / (burnt.gamma - 1)) * eta_m) := ⟨_, rfl⟩
  have d0 : 0 ≤ d := by
    rw [hd]; refine div_nonneg ?_ hD.le
    unfold air T0; norm_num; nlinarith
  have d1 : d ≤ 547 := by
    rw [hd, div_le_iff₀ hD]
    unfold air burnt T0 eta_m
    norm_num
    linarith
  obtain ⟨p, q, t1, t2, t3, hq⟩ := turb_ok (T4 := 1600) (T5 := 1600 - d) (P := P0 * p0W * xi_e * picW * xi_cc) (b := 1.55)
    (by linarith) (by linarith) (by linarith) (by
      have : 0 < xi_e := by unfold xi_e; norm_num
      have : 0 < xi_cc := by unfold xi_cc; norm_num
      positivity)
  rw [Py.div_ok hD.ne', Py.ok_bind, ← hd, t1, Py.ok_bind, t2, Py.ok_bind, t3, Py.ok_bind]
  have hq2 : 2 * P0 ≤ q := by
    refine le_trans ?_ hq
    rw [le_div_iff₀ (by norm_num)]
    unfold xi_e xi_cc
    have a1 : 1.4 * 27 ≤ p0W * picW := mul_le_mul hp hc (by norm_num) (by linarith)
    nlinarith [mul_le_mul_of_nonneg_left a1 hP0.le]
  have hn9 : Isentropic.tt 0.8 burnt.gamma ^ (burnt.gamma / (burnt.gamma - 1)) ≤ q * xi_tuy / P0 := by
    refine n8B.trans ?_
    rw [le_div_iff₀ hP0]
    unfold xi_tuy
    linarith
  obtain ⟨M9, V9, e1, e2, hV9⟩ := noz_ge (r := burnt.r) (Tt := 1600 - d) one_lt_gB (by unfold burnt; norm_num) (by linarith) hn9
  obtain ⟨t9, A9, f1, f2, f3, rfl⟩ := noz_prim one_lt_gB e1 e2
  rw [f1, Py.ok_bind, f2, Py.ok_bind, f3, Py.ok_bind]
  have hn19 : Isentropic.tt 0.8 air.gamma ^ (air.gamma / (air.gamma - 1)) ≤ P0 * p0W * xi_e * pifW * xi_tuy / P0 := by
    rw [tt8A, le_div_iff₀ hP0]
    show p0W * P0 ≤ _
    unfold xi_e xi_tuy
    have h2 : 0 < p0W * P0 := by positivity
    nlinarith [mul_le_mul_of_nonneg_left pifW_ge h2.le]
  have hT0 : 0 < T0 * 1.128 := by unfold T0; norm_num
  have hT17 : T0 * 1.128 < T0 * 1.128 * qf := by nlinarith
  obtain ⟨M19, V19, e1', e2', hV19⟩ := noz_ge (r := air.r) (Tt := T0 * 1.128 * qf) one_lt_gA (by unfold air; norm_num)
    (by linarith) hn19
  obtain ⟨t19, A19, g1, g2, g3, rfl⟩ := noz_prim one_lt_gA e1' e2'
  rw [g1, Py.ok_bind, g2, Py.ok_bind, g3, Py.ok_bind, hV0]
  have h9 : v0W < M9 * A9 := by
    refine lt_of_lt_of_le ?_ hV9
    rw [tt8B, mul_div_assoc]
    apply v0_lt
    have : 300 / 1.1056 ≤ (1600 - d) / 1.1056 := div_le_div_of_nonneg_right (by linarith) (by norm_num)
    calc air.gamma * air.r * T0 < burnt.gamma * burnt.r * (300 / 1.1056) := by unfold air burnt T0; norm_num
      _ ≤ burnt.gamma * burnt.r * ((1600 - d) / 1.1056) :=
        mul_le_mul_of_nonneg_left this (by unfold burnt; norm_num)
  have h19 : v0W < M19 * A19 := by
    refine lt_of_lt_of_le ?_ hV19
    rw [tt8A, mul_div_assoc]
    apply v0_lt
    have : T0 < T0 * 1.128 * qf / 1.128 := by rw [lt_div_iff₀ (by norm_num)]; exact hT17
    exact mul_lt_mul_of_pos_left this (by unfold air; norm_num)
  generalize M9 * A9 = V9 at h9
  generalize M19 * A19 = V19 at h19
  have v0 := v0W_pos
  have hF : 0 < 1 * (V9 - v0W) + 5 * (V19 - v0W) := by linarith
  have hE : 0 < 0.5 * (1 * ((1 + kW) * V9 ^ 2 - v0W ^ 2) + 5 * (V19 ^ 2 - v0W ^ 2)) := by
    have a1 : 0 < V19 ^ 2 - v0W ^ 2 := by nlinarith
    have b1 : v0W ^ 2 < V9 ^ 2 := by nlinarith
    have b2 : 0 ≤ kW * V9 ^ 2 := mul_nonneg (by linarith) (sq_nonneg _)
    nlinarith
  rw [Py.div_ok (by norm_num), Py.ok_bind, Py.div_ok hF.ne', Py.ok_bind,
    Py.div_ok (mul_pos (show 0 < burnt.P_k by unfold burnt; norm_num) (show 0 < 1 * kW by linarith)).ne', Py.ok_bind,
    Py.div_ok hE.ne', Py.ok_bind]
  exact ⟨_, rfl⟩

set_option maxHeartbeats 1000000 in
/-- the design point without fan compression -/
theorem fixeW1 : ∃ v, fixeStraight inpW 1 = .ok v := by
  obtain ⟨e0, e2, e3, e4⟩ := baseW_ok
  have hP0 : 0 < P0 := by unfold P0; norm_num
  have hp := p0W_ge
  have hc := picW_ge
  have klo := kW_lo
  have khi := kW_hi
  have hv0 : v0W ≤ 236.8 := by
    unfold v0W
    have : Real.sqrt (air.gamma * air.r * T0) ≤ 296 := by
      rw [Real.sqrt_le_left (by norm_num)]
      unfold air T0; norm_num
    linarith
  have hv0' := v0W_pos
  unfold fixeStraight
  rw [e0, Py.ok_bind, e2, Py.ok_bind, e3, Py.ok_bind, e4, Py.ok_bind]
  have e13 : val13 inpW 1 baseW.s2 = .ok ⟨5, T0 * 1.128, P0 * p0W * xi_e, 0⟩ := by
    unfold val13
    rw [show inpW.m = 6 from rfl, show inpW.lambda = 5 from rfl, show inpW.g = air from rfl,
      Py.div_ok (by norm_num), Py.ok_bind, dec, Py.ok_bind, Py.pow_ok _ one_pos, Py.ok_bind, Real.one_rpow]
    unfold Gaz.get_cp
    simp only [h10', dA, Py.ok_bind, Py.pure_eq, baseW]
    norm_num
  rw [e13, Py.ok_bind]
  have hT2 : 0 < T0 * 1.128 := by unfold T0; norm_num
  have tt6 : Isentropic.tt 0.6 air.gamma = 1.072 := by unfold Isentropic.tt air; norm_num
  have tt10 : Isentropic.tt 1 burnt.gamma = 1.165 := by unfold Isentropic.tt burnt; norm_num
  have hn19 : Isentropic.tt 0.6 air.gamma ^ (air.gamma / (air.gamma - 1)) ≤ P0 * p0W * xi_e * xi_tuy / P0 := by
    have h1 : P0 * p0W * xi_e * xi_tuy / P0 = p0W * (xi_e * xi_tuy) := by field_simp
    rw [h1, tt6]
    have h2 : (1.128:ℝ) ^ (air.gamma / (air.gamma - 1)) = (1.072:ℝ) ^ (air.gamma / (air.gamma - 1)) *
        (1.128 / 1.072) ^ (air.gamma / (air.gamma - 1)) := by
      rw [← Real.mul_rpow (by norm_num) (by norm_num)]; norm_num
    have h3 : ((1.128:ℝ) / 1.072) ^ (3:ℝ) ≤ (1.128 / 1.072) ^ (air.gamma / (air.gamma - 1)) :=
      Real.rpow_le_rpow_of_exponent_le (by norm_num) (by unfold air; norm_num)
    have h4 : ((1.128:ℝ) / 1.072) ^ (3:ℝ) = (1.128 / 1.072) ^ 3 := by
      rw [show (3:ℝ) = ((3:ℕ):ℝ) by norm_num, Real.rpow_natCast]
    have h5 : (1.16:ℝ) ≤ (1.128 / 1.072) ^ 3 := by norm_num
    have h6 : 0 < (1.072:ℝ) ^ (air.gamma / (air.gamma - 1)) := Real.rpow_pos_of_pos (by norm_num) _
    have h7 : p0W = (1.072:ℝ) ^ (air.gamma / (air.gamma - 1)) *
        (1.128 / 1.072) ^ (air.gamma / (air.gamma - 1)) := h2
    rw [h7]
    have h8 : (1:ℝ) ≤ (1.128 / 1.072) ^ (air.gamma / (air.gamma - 1)) * (xi_e * xi_tuy) := by
      have : (1.16:ℝ) ≤ (1.128 / 1.072) ^ (air.gamma / (air.gamma - 1)) := by linarith
      unfold xi_e xi_tuy
      linarith
    rw [mul_assoc]
    exact le_mul_of_one_le_right h6.le h8
  obtain ⟨M19, V19, e1, e2', hV19⟩ := noz_gen (m := 0.6) (r := air.r) (Tt := T0 * 1.128) (by norm_num) one_lt_gA
    (by unfold air; norm_num) hT2 hn19
  have hV19' : 181 ≤ V19 := by
    refine le_trans ?_ hV19
    have : 302 ≤ Real.sqrt (air.gamma * air.r * (T0 * 1.128) / Isentropic.tt 0.6 air.gamma) := by
      apply Real.le_sqrt_of_sq_le
      rw [tt6]; unfold air T0; norm_num
    linarith
  have e19 : val19 inpW baseW.s0 5 (T0 * 1.128) (P0 * p0W * xi_e) = .ok ⟨P0 * p0W * xi_e * xi_tuy, T0 * 1.128, M19, V19,
      5 * (V19 - v0W)⟩ := by
    unfold val19
    simp only []
    rw [dP0, Py.ok_bind, show inpW.g = air from rfl, e1, Py.ok_bind, e2', Py.ok_bind]
    rfl
  rw [e19, Py.ok_bind]
  have hD : 0 < 1 * (1 + kW) * (burnt.r * burnt.gamma / (burnt.gamma - 1)) * eta_m := by
    have : 0 < burnt.r * burnt.gamma / (burnt.gamma - 1) := by unfold burnt; norm_num
    have : 0 < eta_m := by unfold eta_m; norm_num
    positivity
  obtain ⟨d, hd⟩ : ∃ d, d = (0 +
      1 * (air.r * air.gamma / (air.gamma - 1)) * (T0 * 1.128 * 3 - T0 * 1.128)) /
      (1 * (1 + kW) * (burnt.r * burnt.gamma / (burnt.gamma - 1)) * eta_m) := ⟨_, rfl⟩
  have d0 : 0 ≤ d := by
    rw [hd]; exact div_nonneg (by unfold air T0; norm_num) hD.le
  have d1 : d ≤ 420 := by
    rw [hd, div_le_iff₀ hD]
    unfold air burnt T0 eta_m
    norm_num
    linarith
  obtain ⟨p, q, t1, t2, t3, hq⟩ := turb_ok (T4 := 1600) (T5 := 1600 - d) (P := P0 * p0W * xi_e * picW * xi_cc) (b := 1.36)
    (by linarith) (by linarith) (by linarith) (by
      have : 0 < xi_e := by unfold xi_e; norm_num
      have : 0 < xi_cc := by unfold xi_cc; norm_num
      positivity)
  have e5 : val5 inpW baseW.s3 baseW.s4 ⟨5, T0 * 1.128, P0 * p0W * xi_e, 0⟩ = .ok ⟨1600 - d, p, q⟩ := by
    unfold val5
    rw [show inpW.g_fuel = burnt from rfl, show inpW.Tt4 = 1600 from rfl]
    unfold Gaz.get_cp
    simp only [h10', dB, Py.ok_bind, baseW]
    rw [Py.div_ok hD.ne', Py.ok_bind, ← hd, t1, Py.ok_bind, det, Py.ok_bind, t2, Py.ok_bind, t3, Py.ok_bind]
    rfl
  rw [e5, Py.ok_bind]
  have hq2 : 3 * P0 ≤ q := by
    refine le_trans ?_ hq
    rw [le_div_iff₀ (by norm_num)]
    unfold xi_e xi_cc
    have a1 : 1.4 * 27 ≤ p0W * picW := mul_le_mul hp hc (by norm_num) (by linarith)
    nlinarith [mul_le_mul_of_nonneg_left a1 hP0.le]
  have hn9 : Isentropic.tt 1 burnt.gamma ^ (burnt.gamma / (burnt.gamma - 1)) ≤ q * xi_tuy / P0 := by
    have h1 : (1.165:ℝ) ^ (burnt.gamma / (burnt.gamma - 1)) ≤ 1.165 ^ (5:ℝ) :=
      Real.rpow_le_rpow_of_exponent_le (by norm_num) (by unfold burnt; norm_num)
    have h3 : (1.165:ℝ) ^ (5:ℝ) = 1.165 ^ 5 := by
      rw [show (5:ℝ) = ((5:ℕ):ℝ) by norm_num, Real.rpow_natCast]
    have h4 : (1.165:ℝ) ^ 5 ≤ 2.5 := by norm_num
    rw [tt10, le_div_iff₀ hP0]
    have h5 : (1.165:ℝ) ^ (burnt.gamma / (burnt.gamma - 1)) * P0 ≤ 2.5 * P0 :=
      mul_le_mul_of_nonneg_right (by linarith) hP0.le
    unfold xi_tuy
    linarith
  obtain ⟨M9, V9, g1, g2, hV9⟩ := noz_gen (m := 1) (r := burnt.r) (Tt := 1600 - d) (by norm_num) one_lt_gB
    (by unfold burnt; norm_num) (by linarith) hn9
  have hV9' : 600 ≤ V9 := by
    refine le_trans ?_ hV9
    rw [one_mul]
    apply Real.le_sqrt_of_sq_le
    rw [tt10, le_div_iff₀ (by norm_num)]
    unfold burnt
    linarith
  have e9 : val9 inpW baseW.s0 baseW.s3 (1600 - d) q = .ok ⟨1600 - d, q * xi_tuy, M9, V9, 1 * (V9 - v0W)⟩ := by
    unfold val9
    simp only []
    rw [dP0, Py.ok_bind, show inpW.g_fuel = burnt from rfl, g1, Py.ok_bind, g2, Py.ok_bind]
    rfl
  rw [e9, Py.ok_bind]
  have hF : 0 < 5 * (V19 - v0W) + 1 * (V9 - v0W) := by linarith
  have hE : 0 < 0.5 * (1 * ((1 + kW) * V9 ^ 2 - v0W ^ 2) + 5 * (V19 ^ 2 - v0W ^ 2)) := by
    have a1 : 181 ^ 2 ≤ V19 ^ 2 := pow_le_pow_left₀ (by norm_num) hV19' 2
    have a2 : 600 ^ 2 ≤ V9 ^ 2 := pow_le_pow_left₀ (by norm_num) hV9' 2
    have a3 : v0W ^ 2 ≤ 236.8 ^ 2 := pow_le_pow_left₀ hv0'.le hv0 2
    have a4 : 0 ≤ kW * V9 ^ 2 := mul_nonneg (by linarith) (sq_nonneg _)
    nlinarith only [a1, a2, a3, a4]
  unfold valP
  simp only [baseW, h10']
  rw [Py.div_ok (show inpW.m ≠ 0 from (by norm_num : (6:ℝ) ≠ 0)), Py.ok_bind, Py.div_ok hF.ne', Py.ok_bind,
    Py.div_ok (mul_pos (show 0 < inpW.g_fuel.P_k from (by norm_num : (0:ℝ) < 42800e3)) (show 0 < kW by linarith)).ne', Py.ok_bind,
    Py.div_ok hE.ne', Py.ok_bind]
  exact ⟨_, rfl⟩

/-- Hypotheses of the `C72_fixe` theorems: the design point with the gases of the notebook. -/
example : ∃ v, fixeStraight ⟨5, picW, 1600, 6, air, burnt⟩ pifW = .ok v := fixeW

/-- Hypotheses of the `C72_calcule` theorems. -/
example : ∃ v, calculeStraight ⟨5, picW, 1600, 6, air, burnt⟩ 0.2 = .ok v := calculeW

/-- Hypothesis of `C73_double_object`. -/
example : ∃ s, PropuBE.calculs_double 5 picW 1600 6 0.2 = .ok s := by
  obtain ⟨v, hv⟩ := calculeW
  rw [C73_double]
  unfold inpW at hv
  rw [hv, Py.ok_bind]
  exact ⟨_, rfl⟩

/-- Hypothesis of `C73_fixe_partial`. -/
example : ∃ v, fixeStraight ⟨5, picW, 1600, 6, air, burnt⟩ 1 = .ok v := fixeW1

/-- Hypotheses of `C73_fixe_false`: class and script both return, and give different results. -/
theorem C73_fixe_witness_false : ∃ v s, fixeStraight ⟨5, picW, 1600, 6, air, burnt⟩ pifW = .ok v ∧
    PropuBE.calculs 5 picW 1600 pifW 6 = .ok s ∧ s.Tt5 ≠ v.s5.Tt5 := by
  obtain ⟨v, hv⟩ := fixeW
  obtain ⟨s, hs⟩ := scriptW
  exact ⟨v, s, hv, hs, (C73_fixe_false 5 picW 1600 6 pifW (by linarith [pifW_ge]) (by norm_num) (by norm_num) v s hv hs).2.2⟩

end Aerokit.Props
