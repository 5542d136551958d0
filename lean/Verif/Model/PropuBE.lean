import Verif.Model.CycleTurbofan

/-!
# Model of the scripts `engine/propu_be.py` and `engine/propu_be_double_corps.py`

Every partial operation is checked.  Integer literals of the scripts are written as such; `x**(1/2)`
is `Py.pow x (1 / 2)`.  The functions of `propu_be.py` print their results: here they are returned.
-/

namespace Aerokit.PropuBE

/-! Constants (`propu_be.py:4-24`, identical in `propu_be_double_corps.py:10-30`). -/
/-- `P0` (`propu_be.py:4`) -/ noncomputable def P0 : ℝ := 227.00e2
/-- `T0` (`propu_be.py:5`) -/ noncomputable def T0 : ℝ := 217.00
/-- `M0` (`propu_be.py:6`) -/ noncomputable def M0 : ℝ := 0.8
/-- `xi_e` (`propu_be.py:9`) -/ noncomputable def xi_e : ℝ := 0.97
/-- `eta_c` (`propu_be.py:10`) -/ noncomputable def eta_c : ℝ := 0.90
/-- `eta_f` (`propu_be.py:11`) -/ noncomputable def eta_f : ℝ := 0.89
/-- `eta_comb` (`propu_be.py:12`) -/ noncomputable def eta_comb : ℝ := 0.99
/-- `xi_cc` (`propu_be.py:13`) -/ noncomputable def xi_cc : ℝ := 0.95
/-- `eta_m` (`propu_be.py:14`) -/ noncomputable def eta_m : ℝ := 0.98
/-- `eta_turb` (`propu_be.py:15`) -/ noncomputable def eta_turb : ℝ := 0.88
/-- `xi_tuy` (`propu_be.py:16`) -/ noncomputable def xi_tuy : ℝ := 0.97
/-- `P_k` (`propu_be.py:18`) -/ noncomputable def P_k : ℝ := 42800.00e3
/-- `r` (`propu_be.py:21`) -/ noncomputable def r : ℝ := 287.00
/-- `r_` (`propu_be.py:22`) -/ noncomputable def r_ : ℝ := 291.60
/-- `gamma` (`propu_be.py:23`) -/ noncomputable def gamma : ℝ := 1.40
/-- `gamma_` (`propu_be.py:24`) -/ noncomputable def gamma_ : ℝ := 1.33

/-- Values printed by `propu_be.calculs` (`propu_be.py:83-91`). -/
structure Printed where
  w_uc : ℝ
  w_uf : ℝ
  Tt5 : ℝ
  F : ℝ
  Fspe : ℝ
  mk_spe : ℝ
  eta_th : ℝ
  eta_prop : ℝ
  eta : ℝ

/-- `calculs` (`propu_be.py:27-91`). -/
noncomputable def calculs (lambda_ pi_c Tt4 pi_f m : ℝ) : Py Printed := do
  let a0 ← Py.pow (gamma * r * T0) (1 / 2)
  let V0 := M0 * a0
  let e0 ← Py.div gamma (gamma - 1)
  let p0 ← Py.pow (1 + ((gamma - 1) / 2) * M0 ^ 2) e0
  let Pt0 := P0 * p0
  let Tt0 := T0 * (1 + ((gamma - 1) / 2) * M0 ^ 2)
  let Tt2 := Tt0
  let Pt2 := Pt0 * xi_e
  let cp ← Py.div (r * gamma) (gamma - 1)
  let cp_ ← Py.div (r_ * gamma_) (gamma_ - 1)
  let m_f ← Py.div (lambda_ * m) (lambda_ + 1)
  let ef ← Py.div (gamma - 1) (gamma * eta_f)
  let qf ← Py.pow pi_f ef
  let Tt17 := Tt2 * qf
  let Pt17 := Pt2 * pi_f
  let w_uf := m_f * cp * (Tt17 - Tt2)
  let m_c ← Py.div m (lambda_ + 1)
  let ec ← Py.div (gamma - 1) (gamma * eta_c)
  let qc ← Py.pow pi_c ec
  let Tt3 := Tt2 * qc
  let Pt3 := Pt2 * pi_c
  let w_uc := m_c * cp * (Tt3 - Tt2)
  let k ← Py.div ((cp_ * Tt4) - (cp * Tt3)) ((eta_comb * P_k) - (cp_ * Tt4))
  let m_k := m_c * k
  let alpha ← Py.div m_k m_c
  let Pt4 := Pt3 * xi_cc
  let d ← Py.div (w_uf + w_uc) (m_c * (1 + alpha) * cp_ * eta_m)
  let Tt5 := Tt4 - d
  let u ← Py.div Tt4 Tt5
  let et ← Py.div gamma_ (eta_turb * (gamma_ - 1))
  let pi_t ← Py.pow u et
  let Pt5 ← Py.div Pt4 pi_t
  let Tt9 := Tt5
  let Pt9 := Pt5 * xi_tuy
  let P9 := P0
  let n9 ← Py.div Pt9 P9
  let e9 ← Py.div (gamma_ - 1) gamma_
  let t9 ← Py.pow n9 e9
  let c9 ← Py.div 2 (gamma_ - 1)
  let M9 ← Py.pow ((t9 - 1) * c9) (1 / 2)
  let T9 ← Py.div Tt9 (1 + ((gamma_ - 1) / 2) * M9 ^ 2)
  let A9 ← Py.pow (gamma_ * r_ * T9) (1 / 2)
  let V9 := M9 * A9
  let Fc := m_c * (V9 - V0)
  let Pt19 := Pt17 * xi_tuy
  let Tt19 := Tt17
  let P19 := P0
  let n19 ← Py.div Pt19 P19
  let e19 ← Py.div (gamma - 1) gamma
  let t19 ← Py.pow n19 e19
  let c19 ← Py.div 2 (gamma - 1)
  let M19 ← Py.pow ((t19 - 1) * c19) (1 / 2)
  let T19 ← Py.div Tt19 (1 + ((gamma - 1) / 2) * M19 ^ 2)
  let A19 ← Py.pow (gamma * r * T19) (1 / 2)
  let V19 := M19 * A19
  let Ff := m_f * (V19 - V0)
  let F := Fc + Ff
  let Fspe ← Py.div F m
  let sp ← Py.div m_k F
  let mk_spe := sp * 10e6
  let Qf := P_k * m_k
  let delta_E := (1 / 2) * (m_c * ((1 + alpha) * V9 ^ 2 - V0 ^ 2) + m_f * (V19 ^ 2 - V0 ^ 2))
  let eta_th ← Py.div delta_E Qf
  let eta_prop ← Py.div (F * V0) delta_E
  let eta := eta_th * eta_prop
  return { w_uc, w_uf, Tt5, F, Fspe, mk_spe, eta_th, eta_prop, eta }

/-- Values returned by `propu_be_double_corps.calculs` (`propu_be_double_corps.py:99`). -/
structure Returned where
  Fspe : ℝ
  mk_spe : ℝ
  eta_th : ℝ
  eta_prop : ℝ
  eta : ℝ
  pi_f : ℝ

/-- `calculs` (`propu_be_double_corps.py:32-99`). -/
noncomputable def calculs_double (lambda_ pi_c Tt4 m taux_meca : ℝ) : Py Returned := do
  let a0 ← Py.sqrt (gamma * r * T0)
  let V0 := M0 * a0
  let e0 ← Py.div gamma (gamma - 1)
  let p0 ← Py.pow (1 + ((gamma - 1) / 2) * M0 ^ 2) e0
  let Pt0 := P0 * p0
  let Tt0 := T0 * (1 + ((gamma - 1) / 2) * M0 ^ 2)
  let Tt2 := Tt0
  let Pt2 := Pt0 * xi_e
  let cp ← Py.div (r * gamma) (gamma - 1)
  let cp_ ← Py.div (r_ * gamma_) (gamma_ - 1)
  let m_c ← Py.div m (lambda_ + 1)
  let ec ← Py.div (gamma - 1) (gamma * eta_c)
  let qc ← Py.pow pi_c ec
  let Tt3 := Tt2 * qc
  let Pt3 := Pt2 * pi_c
  let w_uc := m_c * cp * (Tt3 - Tt2)
  let k ← Py.div ((cp_ * Tt4) - (cp * Tt3)) ((eta_comb * P_k) - (cp_ * Tt4))
  let m_k := m_c * k
  let alpha ← Py.div m_k m_c
  let Pt4 := Pt3 * xi_cc
  let d ← Py.div w_uc (m_c * (1 + alpha) * cp_ * eta_m)
  let Tt4_ := Tt4 - d
  let u ← Py.div Tt4 Tt4_
  let et ← Py.div gamma_ (eta_turb * (gamma_ - 1))
  let pi_tc ← Py.pow u et
  let Pt4_ ← Py.div Pt4 pi_tc
  let P5 := P0
  let q ← Py.div P5 Pt4_
  let e5 ← Py.div (gamma_ - 1) gamma_
  let w ← Py.pow q e5
  let T5 := Tt4_ * w
  let w_uf_theo := m_c * (1 + alpha) * cp_ * (T5 - Tt4_)
  let Wu_f := w_uf_theo * taux_meca
  let d5 ← Py.div Wu_f (cp_ * m_c * (1 + alpha))
  let Tt5 := d5 + Tt4_
  let u5 ← Py.div Tt4_ Tt5
  let et5 ← Py.div gamma_ (eta_turb * (gamma_ - 1))
  let pi_tf ← Py.pow u5 et5
  let Pt5 ← Py.div Pt4_ pi_tf
  let Tt9 := Tt5
  let Pt9 := Pt5 * xi_tuy
  let P9 := P0
  let n9 ← Py.div Pt9 P9
  let e9 ← Py.div (gamma_ - 1) gamma_
  let t9 ← Py.pow n9 e9
  let c9 ← Py.div 2 (gamma_ - 1)
  let M9 ← Py.sqrt ((t9 - 1) * c9)
  let T9 ← Py.div Tt9 (1 + ((gamma_ - 1) / 2) * M9 ^ 2)
  let A9 ← Py.sqrt (gamma_ * r_ * T9)
  let V9 := M9 * A9
  let Fc := m_c * (V9 - V0)
  let m_f ← Py.div (lambda_ * m) (lambda_ + 1)
  let Wf := -w_uf_theo * taux_meca * eta_m
  let d13 ← Py.div Wf (m_f * cp)
  let Tt13 := d13 + Tt2
  let u13 ← Py.div Tt13 Tt2
  let e13 ← Py.div (eta_f * gamma) (gamma - 1)
  let pi_f ← Py.pow u13 e13
  let Pt13 := Pt2 * pi_f
  let Pt19 := Pt13 * xi_tuy
  let Tt19 := Tt13
  let P19 := P0
  let n19 ← Py.div Pt19 P19
  let e19 ← Py.div (gamma - 1) gamma
  let t19 ← Py.pow n19 e19
  let c19 ← Py.div 2 (gamma - 1)
  let M19 ← Py.sqrt ((t19 - 1) * c19)
  let T19 ← Py.div Tt19 (1 + ((gamma - 1) / 2) * M19 ^ 2)
  let A19 ← Py.sqrt (gamma * r * T19)
  let V19 := M19 * A19
  let Ff := m_f * (V19 - V0)
  let F := Fc + Ff
  let Fspe ← Py.div F m
  let sp ← Py.div m_k F
  let mk_spe := sp * 10e6
  let Qf := P_k * m_k
  let delta_E := 0.5 * (m_c * ((1 + alpha) * V9 ^ 2 - V0 ^ 2) + m_f * (V19 ^ 2 - V0 ^ 2))
  let eta_th ← Py.div delta_E Qf
  let eta_prop ← Py.div (F * V0) delta_E
  let eta := eta_th * eta_prop
  return { Fspe, mk_spe, eta_th, eta_prop, eta, pi_f }

/-- Values printed by `calculs_tau_optimum` (`propu_be_double_corps.py:226-230`). -/
structure Taus where
  tau_f : ℝ
  tau_r : ℝ
  tau_c : ℝ
  tau_lambda : ℝ
  Tt13 : ℝ

/-- `calculs_tau_optimum` (`propu_be_double_corps.py:165-231`): what it prints.  It returns nothing (the `return` is commented out), and the
values it computes after `Tt13` (turbine, nozzles, performances, lines 187-225) are used by no printed value: simplification, they are
left out, although they could raise `ZeroDivisionError` (`**` of a negative number gives a complex number there, not an error); so are
the inlet values `V0`, `Pt0`, `Pt2` and `pi_f`, `Pt13`. -/
noncomputable def calculs_tau_optimum (lambda_ pi_c Tt4 : ℝ) : Py Taus := do
  let Tt0 := T0 * (1 + ((gamma - 1) / 2) * M0 ^ 2)
  let Tt2 := Tt0
  let cp ← Py.div (r * gamma) (gamma - 1)
  let cp_ ← Py.div (r_ * gamma_) (gamma_ - 1)
  let tau_lambda ← Py.div (cp_ * Tt4) (cp * Tt0)
  let tau_r ← Py.div Tt0 T0
  let ec ← Py.div (gamma - 1) (eta_c * gamma)
  let tau_c ← Py.pow pi_c ec
  let q ← Py.div tau_lambda (tau_r * tau_c)
  let tau_f ← Py.div (tau_lambda * tau_r * (tau_c - 1) - q + lambda_ * tau_r + 1) (tau_r * (1 + lambda_))
  let Tt13 := Tt2 * tau_f
  return { tau_f, tau_r, tau_c, tau_lambda, Tt13 }

end Aerokit.PropuBE
