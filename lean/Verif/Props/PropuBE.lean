import Verif.Model.PropuBE
import Verif.Props.CycleCalcule

/-! Property C73: the scripts and the classes compute the same cycle. -/

namespace Aerokit.Props

open Cycle

/-- The gas `Gaz()` of the notebook. -/
noncomputable def air : Gaz := ⟨1.4, 287, 0, 1.4 / (1.4 - 1), (1.4 - 1) / 1.4⟩
/-- The burnt gas `Gaz(1.33, 291.6, 42800.e3)` of the notebook. -/
noncomputable def burnt : Gaz := ⟨1.33, 291.6, 42800e3, 1.33 / (1.33 - 1), (1.33 - 1) / 1.33⟩

theorem air_new : Gaz.new 1.4 287 0 = .ok air := by
  unfold Gaz.new air
  rw [Py.div_ok (by norm_num), Py.ok_bind, Py.div_ok (by norm_num), Py.ok_bind, Py.pure_eq]
  norm_num

theorem burnt_new : Gaz.new 1.33 291.6 42800e3 = .ok burnt := by
  unfold Gaz.new burnt
  rw [Py.div_ok (by norm_num), Py.ok_bind, Py.div_ok (by norm_num), Py.ok_bind, Py.pure_eq]
  norm_num

theorem pow_half (x : ℝ) : Py.pow x (1 / 2) = Py.sqrt x := by
  rcases le_or_gt 0 x with h | h
  · rw [Py.pow_nonneg_ok h (by norm_num), Py.sqrt_ok h, Real.sqrt_eq_rpow]
  · rw [Py.sqrt_err h]
    unfold Py.pow
    rw [if_neg]
    rintro (h1 | ⟨h1, -⟩ | ⟨-, n, hn⟩)
    · linarith
    · linarith
    · have : (1 : ℝ) = ((2 * n : ℤ) : ℝ) := by push_cast; rw [← hn]; norm_num
      have h2 : (1 : ℤ) = 2 * n := by exact_mod_cast this
      omega

theorem h10' : (1.0:ℝ) = 1 := by norm_num
theorem gA : air.gamma = 1.4 := rfl
theorem gB : burnt.gamma = 1.33 := rfl
theorem one_lt_gA : 1 < air.gamma := by rw [gA]; norm_num
theorem one_lt_gB : 1 < burnt.gamma := by rw [gB]; norm_num

theorem dA (x : ℝ) : Py.div x (air.gamma - 1) = .ok (x / (air.gamma - 1)) := Py.div_ok (by rw [gA]; norm_num)
theorem dB (x : ℝ) : Py.div x (burnt.gamma - 1) = .ok (x / (burnt.gamma - 1)) := Py.div_ok (by rw [gB]; norm_num)
theorem dgA (x : ℝ) : Py.div x air.gamma = .ok (x / air.gamma) := Py.div_ok (by rw [gA]; norm_num)
theorem dgB (x : ℝ) : Py.div x burnt.gamma = .ok (x / burnt.gamma) := Py.div_ok (by rw [gB]; norm_num)
theorem dec (x : ℝ) : Py.div x eta_c = .ok (x / eta_c) := Py.div_ok (by unfold eta_c; norm_num)
theorem det (x : ℝ) : Py.div x eta_turb = .ok (x / eta_turb) := Py.div_ok (by unfold eta_turb; norm_num)
theorem dgec : Py.div (air.gamma - 1) (air.gamma * eta_c) = .ok (air.gmusg / eta_c) := by
  rw [Py.div_ok (by rw [gA]; unfold eta_c; norm_num), ← div_div]; rfl
theorem dgef : Py.div (air.gamma - 1) (air.gamma * eta_f) = .ok (air.gmusg / eta_f) := by
  rw [Py.div_ok (by rw [gA]; unfold eta_f; norm_num), ← div_div]; rfl
theorem dget : Py.div burnt.gamma (eta_turb * (burnt.gamma - 1)) = .ok (burnt.gsgmu / eta_turb) := by
  rw [Py.div_ok (by rw [gB]; unfold eta_turb; norm_num), mul_comm, ← div_div]; rfl
theorem dP0 (x : ℝ) : Py.div x P0 = .ok (x / P0) := Py.div_ok (by unfold P0; norm_num)
theorem dtA (x M : ℝ) : Py.div x (1 + (air.gamma - 1) / 2 * M ^ 2) = .ok (x / Isentropic.tt M air.gamma) :=
  Py.div_ok (Isentropic.tt_pos one_lt_gA).ne'
theorem dtB (x M : ℝ) : Py.div x (1 + (burnt.gamma - 1) / 2 * M ^ 2) = .ok (x / Isentropic.tt M burnt.gamma) :=
  Py.div_ok (Isentropic.tt_pos one_lt_gB).ne'
theorem dtA' (x M : ℝ) : Py.div x (Isentropic.tt M air.gamma) = .ok (x / Isentropic.tt M air.gamma) :=
  Py.div_ok (Isentropic.tt_pos one_lt_gA).ne'
theorem dtB' (x M : ℝ) : Py.div x (Isentropic.tt M burnt.gamma) = .ok (x / Isentropic.tt M burnt.gamma) :=
  Py.div_ok (Isentropic.tt_pos one_lt_gB).ne'
theorem p0A : Py.pow (1 + (air.gamma - 1) / 2 * M0 ^ 2) (air.gamma / (air.gamma - 1))
    = .ok (Isentropic.tt M0 air.gamma ^ (air.gamma / (air.gamma - 1))) :=
  Py.pow_ok _ (Isentropic.tt_pos one_lt_gA)
theorem p0A' : Isentropic.PtPs_Mach M0 air.gamma
    = .ok (Isentropic.tt M0 air.gamma ^ (air.gamma / (air.gamma - 1))) :=
  Isentropic.PtPs_Mach_ok one_lt_gA
theorem a0A : Py.sqrt (air.gamma * air.r * T0) = .ok (Real.sqrt (air.gamma * air.r * T0)) :=
  Py.sqrt_ok (by rw [gA]; unfold T0 air; norm_num)
theorem rename : PropuBE.gamma = air.gamma ∧ PropuBE.r = air.r ∧ PropuBE.gamma_ = burnt.gamma ∧
    PropuBE.r_ = burnt.r ∧ PropuBE.P_k = burnt.P_k ∧ PropuBE.P0 = P0 ∧ PropuBE.T0 = T0 ∧
    PropuBE.M0 = M0 ∧ PropuBE.xi_e = xi_e ∧ PropuBE.eta_c = eta_c ∧ PropuBE.eta_f = eta_f ∧
    PropuBE.eta_comb = eta_comb ∧ PropuBE.xi_cc = xi_cc ∧ PropuBE.eta_m = eta_m ∧
    PropuBE.eta_turb = eta_turb ∧ PropuBE.xi_tuy = xi_tuy := by
  refine ⟨?_, ?_, rfl, ?_, ?_, rfl, rfl, rfl, rfl, rfl, rfl, rfl, rfl, rfl, rfl, rfl⟩
  · unfold PropuBE.gamma air; norm_num
  · unfold PropuBE.r air; norm_num
  · unfold PropuBE.r_ burnt; norm_num
  · unfold PropuBE.P_k burnt; norm_num
theorem h20' : (2.0:ℝ) = 2 := by norm_num
theorem half : (1 / 2 : ℝ) = 0.5 := by norm_num
theorem mA : air.gmusg = (air.gamma - 1) / air.gamma := rfl
theorem mB : burnt.gmusg = (burnt.gamma - 1) / burnt.gamma := rfl
theorem sA : air.gsgmu = air.gamma / (air.gamma - 1) := rfl
theorem sB : burnt.gsgmu = burnt.gamma / (burnt.gamma - 1) := rfl
theorem ttM0 : 1 + (air.gamma - 1) / 2 * M0 ^ 2 = Isentropic.tt M0 air.gamma := rfl
theorem bind_congr' {α β : Type} {x y : Py α} {f g : α → Py β} (h : x = y) (h' : ∀ a, f a = g a) :
    (x >>= f) = (y >>= g) := by rw [h]; congr 1; exact funext h'

/-- The class `cycle_taux_fan_calcule` computes exactly what `propu_be_double_corps.calculs` returns
(same values, and defined for the same inputs). -/
theorem C73_double (lambda_ pi_c Tt4 m taux_meca : ℝ) :
    PropuBE.calculs_double lambda_ pi_c Tt4 m taux_meca =
      (do
        let v ← calculeStraight ⟨lambda_, pi_c, Tt4, m, air, burnt⟩ taux_meca
        return ⟨v.perf.F_spe, v.perf.mk_spe, v.perf.eta_th, v.perf.eta_prop, v.perf.eta, v.s13.pi_f⟩) := by
  obtain ⟨n1, n2, n3, n4, n5, n6, n7, n8, n9, n10, n11, n12, n13, n14, n15, n16⟩ := rename
  unfold PropuBE.calculs_double calculeStraight val0 val2 val3 val4 val4e val5c val9 val13c val19 valP
  unfold Gaz.get_cp Isentropic.Mach_PtPs Isentropic.Velocity_MachTi Isentropic.Velocity_MachTt
  simp (implicitDefEqProofs := false) only [bind_assoc, Py.pure_eq, Py.ok_bind, n1, n2, n3, n4, n5, n6, n7, n8, n9, n10, n11, n12, n13,
    n14, n15, n16, h10', dA, dB, dgA, dgB, dec, det, dgec, dget, dP0, dtA, dtB, p0A, p0A', a0A,
    Isentropic.TtTs_Mach_ok, dtA', dtB']
  simp (implicitDefEqProofs := false) only [ttM0]
  simp (implicitDefEqProofs := false) only [h20', mA, mB, sA, sB]
  clear n1 n2 n3 n4 n5 n6 n7 n8 n9 n10 n11 n12 n13 n14 n15 n16
  repeat' (first | with_reducible rfl | (refine bind_congr' ?_ (fun _ => ?_)) | (congr 1; ring))

/-- Consequence for the objects: whenever the script returns a result, a class object with the same
parameters reaches the same performances, whatever was called before the final computations. -/
theorem C73_double_object (lambda_ pi_c Tt4 m taux_meca : ℝ) (s : PropuBE.Returned)
    (h : PropuBE.calculs_double lambda_ pi_c Tt4 m taux_meca = .ok s) (cs : List CalculeCall) :
    ∃ p, (calculeRun ⟨lambda_, pi_c, Tt4, m, air, burnt⟩ taux_meca
        (cs ++ [.calculs_1_to_4, .calculs_5_to_9])).perf = some p ∧
      p.F_spe = s.Fspe ∧ p.mk_spe = s.mk_spe ∧ p.eta_th = s.eta_th ∧ p.eta_prop = s.eta_prop ∧
      p.eta = s.eta := by
  rw [C73_double] at h
  obtain ⟨v, hv, h⟩ := Py.bind_inv h
  injection h with h
  subst h
  exact ⟨v.perf, (C72_calcule_recompute _ _ v hv cs).1, rfl, rfl, rfl, rfl, rfl⟩

/-- With a fan pressure ratio of one, `cycle_taux_fan_fixe` and `propu_be.calculs` agree.
(Partial: the intended property is for every fan pressure ratio, see the next theorem.) -/
theorem C73_fixe_partial (lambda_ pi_c Tt4 m : ℝ) (v : FixeVals)
    (h : fixeStraight ⟨lambda_, pi_c, Tt4, m, air, burnt⟩ 1 = .ok v) :
    PropuBE.calculs lambda_ pi_c Tt4 1 m =
      .ok ⟨v.base.s3.wu_c, v.s13.wu_f, v.s5.Tt5, v.perf.F, v.perf.F_spe, v.perf.mk_spe, v.perf.eta_th,
        v.perf.eta_prop, v.perf.eta⟩ := by
  obtain ⟨n1, n2, n3, n4, n5, n6, n7, n8, n9, n10, n11, n12, n13, n14, n15, n16⟩ := rename
  have p1 : ∀ e : ℝ, Py.pow 1 e = .ok 1 := fun e => by rw [Py.pow_ok e one_pos, Real.one_rpow]
  unfold fixeStraight val0 val2 val3 val4 val5 val9 val13 val19 valP at h
  unfold Gaz.get_cp Isentropic.Mach_PtPs Isentropic.Velocity_MachTi Isentropic.Velocity_MachTt at h
  unfold PropuBE.calculs
  simp (implicitDefEqProofs := false) only [bind_assoc, Py.pure_eq, Py.ok_bind,
    h10', dA, dB, dgA, dgB, dec, det, dP0, p0A', a0A, h20', mA, mB, sA, sB, p1,
    Isentropic.TtTs_Mach_ok, dtA', dtB'] at h
  simp (implicitDefEqProofs := false) only [bind_assoc, Py.pure_eq, Py.ok_bind, n1, n2, n3, n4, n5, n6, n7, n8, n9, n10, n11, n12, n13,
    n14, n15, n16, pow_half, dA, dB, dgA, dgB, dec, det, dgec, dgef, dget, dP0, dtA, dtB, p0A, p0A', a0A, p1]
  simp (implicitDefEqProofs := false) only [ttM0, half, mA, sB]
  obtain ⟨m_c, e1, h⟩ := Py.bind_inv h
  obtain ⟨qc, e2, h⟩ := Py.bind_inv h
  obtain ⟨k, e3, h⟩ := Py.bind_inv h
  obtain ⟨al, e4, h⟩ := Py.bind_inv h
  obtain ⟨m_f, e5, h⟩ := Py.bind_inv h
  obtain ⟨t19, e6, h⟩ := Py.bind_inv h
  obtain ⟨M19, e7, h⟩ := Py.bind_inv h
  obtain ⟨A19, e8, h⟩ := Py.bind_inv h
  obtain ⟨d, e9, h⟩ := Py.bind_inv h
  obtain ⟨u, e10, h⟩ := Py.bind_inv h
  obtain ⟨pi_t, e11, h⟩ := Py.bind_inv h
  obtain ⟨Pt5, e12, h⟩ := Py.bind_inv h
  obtain ⟨t9, e13, h⟩ := Py.bind_inv h
  obtain ⟨M9, e14, h⟩ := Py.bind_inv h
  obtain ⟨A9, e15, h⟩ := Py.bind_inv h
  obtain ⟨Fs, e16, h⟩ := Py.bind_inv h
  obtain ⟨sp, e17, h⟩ := Py.bind_inv h
  obtain ⟨eth, e18, h⟩ := Py.bind_inv h
  obtain ⟨epr, e19, h⟩ := Py.bind_inv h
  injection h with h
  subst h
  rw [mul_comm m lambda_] at e5
  rw [mul_div_assoc] at e7 e8 e14 e15
  rw [add_comm (m_f * _)] at e16 e17 e19
  rw [e5, Py.ok_bind, e1, Py.ok_bind, e2, Py.ok_bind, e3, Py.ok_bind, e4, Py.ok_bind, e9, Py.ok_bind, e10,
    Py.ok_bind, e11, Py.ok_bind, e12, Py.ok_bind, e13, Py.ok_bind, e14, Py.ok_bind, e15, Py.ok_bind, e6,
    Py.ok_bind, e7, Py.ok_bind, e8, Py.ok_bind, e16, Py.ok_bind, e17, Py.ok_bind, e18, Py.ok_bind, e19,
    Py.ok_bind]
  simp only [Except.ok.injEq, PropuBE.Printed.mk.injEq]
  exact ⟨trivial, trivial, trivial, add_comm _ _, trivial, trivial, trivial, trivial, trivial⟩

/-- For every fan with a pressure ratio above one, the class and the script disagree: the class uses
the efficiency of the core compressor for the fan. -/
theorem C73_fixe_false (lambda_ pi_c Tt4 m pi_f : ℝ) (hpf : 1 < pi_f) (hl : 0 < lambda_) (hm : 0 < m)
    (v : FixeVals) (s : PropuBE.Printed)
    (h : fixeStraight ⟨lambda_, pi_c, Tt4, m, air, burnt⟩ pi_f = .ok v)
    (hs : PropuBE.calculs lambda_ pi_c Tt4 pi_f m = .ok s) :
    s.w_uc = v.base.s3.wu_c ∧ v.s13.wu_f < s.w_uf ∧ s.Tt5 ≠ v.s5.Tt5 := by
  obtain ⟨n1, n2, n3, n4, n5, n6, n7, n8, n9, n10, n11, n12, n13, n14, n15, n16⟩ := rename
  unfold fixeStraight val0 val2 val3 val4 val5 val9 val13 val19 valP at h
  unfold Gaz.get_cp Isentropic.Mach_PtPs Isentropic.Velocity_MachTi Isentropic.Velocity_MachTt at h
  unfold PropuBE.calculs at hs
  simp (implicitDefEqProofs := false) only [bind_assoc, Py.pure_eq, Py.ok_bind,
    h10', dA, dB, dgA, dgB, dec, det, dP0, p0A', a0A, h20', mA, mB, sA, sB,
    Isentropic.TtTs_Mach_ok, dtA', dtB'] at h
  simp (implicitDefEqProofs := false) only [bind_assoc, Py.pure_eq, Py.ok_bind, n1, n2, n3, n4, n5, n6, n7, n8, n9, n10, n11, n12, n13,
    n14, n15, n16, pow_half, dA, dB, dgA, dgB, dec, det, dgec, dgef, dget, dP0, dtA, dtB, p0A, p0A', a0A] at hs
  simp (implicitDefEqProofs := false) only [ttM0, half, mA, sB] at hs
  obtain ⟨m_c, e1, h⟩ := Py.bind_inv h
  obtain ⟨qc, e2, h⟩ := Py.bind_inv h
  obtain ⟨k, e3, h⟩ := Py.bind_inv h
  obtain ⟨al, e4, h⟩ := Py.bind_inv h
  obtain ⟨m_f, e5, h⟩ := Py.bind_inv h
  obtain ⟨qf, e5', h⟩ := Py.bind_inv h
  obtain ⟨t19, -, h⟩ := Py.bind_inv h
  obtain ⟨M19, -, h⟩ := Py.bind_inv h
  obtain ⟨A19, -, h⟩ := Py.bind_inv h
  obtain ⟨d, e9, h⟩ := Py.bind_inv h
  obtain ⟨u, -, h⟩ := Py.bind_inv h
  obtain ⟨pi_t, -, h⟩ := Py.bind_inv h
  obtain ⟨Pt5, -, h⟩ := Py.bind_inv h
  obtain ⟨t9, -, h⟩ := Py.bind_inv h
  obtain ⟨M9, -, h⟩ := Py.bind_inv h
  obtain ⟨A9, -, h⟩ := Py.bind_inv h
  obtain ⟨Fs, -, h⟩ := Py.bind_inv h
  obtain ⟨sp, -, h⟩ := Py.bind_inv h
  obtain ⟨eth, -, h⟩ := Py.bind_inv h
  obtain ⟨epr, -, h⟩ := Py.bind_inv h
  injection h with h
  subst h
  rw [mul_comm m lambda_] at e5
  rw [e5, Py.ok_bind] at hs
  obtain ⟨qf', f5', hs⟩ := Py.bind_inv hs
  rw [e1, Py.ok_bind, e2, Py.ok_bind, e3, Py.ok_bind, e4, Py.ok_bind] at hs
  obtain ⟨d', f9, hs⟩ := Py.bind_inv hs
  obtain ⟨u', -, hs⟩ := Py.bind_inv hs
  obtain ⟨pi_t', -, hs⟩ := Py.bind_inv hs
  obtain ⟨Pt5', -, hs⟩ := Py.bind_inv hs
  obtain ⟨t9', -, hs⟩ := Py.bind_inv hs
  obtain ⟨M9', -, hs⟩ := Py.bind_inv hs
  obtain ⟨A9', -, hs⟩ := Py.bind_inv hs
  obtain ⟨t19', -, hs⟩ := Py.bind_inv hs
  obtain ⟨M19', -, hs⟩ := Py.bind_inv hs
  obtain ⟨A19', -, hs⟩ := Py.bind_inv hs
  obtain ⟨Fs', -, hs⟩ := Py.bind_inv hs
  obtain ⟨sp', -, hs⟩ := Py.bind_inv hs
  obtain ⟨eth', -, hs⟩ := Py.bind_inv hs
  obtain ⟨epr', -, hs⟩ := Py.bind_inv hs
  injection hs with hs
  subst hs
  have hT : 0 < T0 * Isentropic.tt M0 air.gamma :=
    mul_pos (by unfold T0; norm_num) (Isentropic.tt_pos one_lt_gA)
  have hcp : 0 < air.r * air.gamma / (air.gamma - 1) := by unfold air; norm_num
  have hmf : 0 < m_f := by
    rw [(Py.div_inv e5).2]; positivity
  have hq : qf < qf' := by
    rw [Py.pow_inv e5', Py.pow_inv f5']
    apply Real.rpow_lt_rpow_of_exponent_lt hpf
    unfold air eta_c eta_f; norm_num
  have hw : m_f * (air.r * air.gamma / (air.gamma - 1)) *
      (T0 * Isentropic.tt M0 air.gamma * qf - T0 * Isentropic.tt M0 air.gamma) <
      m_f * (air.r * air.gamma / (air.gamma - 1)) *
      (T0 * Isentropic.tt M0 air.gamma * qf' - T0 * Isentropic.tt M0 air.gamma) := by
    apply mul_lt_mul_of_pos_left _ (mul_pos hmf hcp)
    have := mul_lt_mul_of_pos_left hq hT
    linarith only [this]
  refine ⟨rfl, hw, ?_⟩
  obtain ⟨hD, rfl⟩ := Py.div_inv e9
  obtain ⟨-, rfl⟩ := Py.div_inv f9
  intro he
  have he' := sub_right_injective (b := Tt4) he
  rw [div_left_inj' hD] at he'
  linarith only [he', hw]

end Aerokit.Props
