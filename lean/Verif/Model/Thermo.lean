import Verif.Model.Py

/-! # Models of `aerokit/aero/ThermoRealGas.py` and `aerokit/aero/ThermoKerosen.py`

`math.exp` is the exact exponential (its overflow for tiny positive `T` is not modelled). -/

namespace Aerokit.ThermoRealGas

/-- `rconst` (`ThermoRealGas.py:5`). -/
noncomputable def rconst : ℝ := 287.04

/-- `Gamma` (`ThermoRealGas.py:7-10`). -/
noncomputable def Gamma (T : ℝ) : Py ℝ := do
  let q ← Py.div 3090.0 T
  let a := Real.exp q
  let q2 ← Py.div 3090.0 T
  let v ← Py.div (q2 ^ 2 * a) ((a - 1.0) ^ 2)
  let cp := (3.5 + (-2.8e-5 + 2.240e-8 * T) * T) + v
  Py.div cp (cp - 1.0)

/-- `Cp` (`ThermoRealGas.py:12-14`). -/
noncomputable def Cp (T : ℝ) : Py ℝ := do
  let q ← Py.div 3090.0 T
  let a := Real.exp q
  let q2 ← Py.div 3090.0 T
  let v ← Py.div (q2 ^ 2 * a) ((a - 1.0) ^ 2)
  return rconst * ((3.5 + (-2.8e-5 + 2.240e-8 * T) * T) + v)

/-- `Enthalpy` (`ThermoRealGas.py:16-18`). -/
noncomputable def Enthalpy (T : ℝ) : Py ℝ := do
  let q ← Py.div 3090.0 T
  let a := Real.exp q
  let v ← Py.div 3090.0 (a - 1.0)
  return rconst * ((3.5 + (-1.4e-5 + 7.467e-9 * T) * T) * T + v)

/-- `Phi` (`ThermoRealGas.py:20-22`). -/
noncomputable def Phi (T : ℝ) : Py ℝ := do
  let q ← Py.div 3090.0 T
  let a := Real.exp q
  let l ← Py.log T
  let q2 ← Py.div 3090.0 T
  let v ← Py.div q2 (a - 1.0)
  let w ← Py.div (a - 1.0) a
  let lw ← Py.log w
  let l10 ← Py.log 10.0
  Py.div (((3.5 * l + (-2.8e-5 + 1.12e-8 * T) * T) + v) - lw) l10

end Aerokit.ThermoRealGas

namespace Aerokit.ThermoKerosen

/-- `r_air` (`ThermoKerosen.py:5`). -/
noncomputable def r_air : ℝ := 287.04

/-- `Cp` (`ThermoKerosen.py:7-8`). -/
noncomputable def Cp (T : ℝ) : ℝ := r_air * (4.47659 + (8.01994e-3 - 1.8373e-6 * T) * T)

/-- `Enthalpy` (`ThermoKerosen.py:10-11`). -/
noncomputable def Enthalpy (T : ℝ) : ℝ :=
  r_air * (-149.054 + (4.47659 + (4.00997e-3 - 6.12432e-7 * T) * T) * T)

/-- `Phi` (`ThermoKerosen.py:13-14`). -/
noncomputable def Phi (T : ℝ) : Py ℝ := do
  let l ← Py.log T
  let l10 ← Py.log 10.0
  Py.div (4.47659 * l + (8.01994e-3 - 9.18648e-7 * T) * T) l10

/-- `Pc_inf` (`ThermoKerosen.py:16-17`). -/
noncomputable def Pc_inf : ℝ := 10300.0 * 4184

/-- `Pc_eff` (`ThermoKerosen.py:19-20`). -/
noncomputable def Pc_eff (T : ℝ) : ℝ :=
  Pc_inf + r_air * (1607.2 + (-4.47659 + (-4.00997e-3 + 6.12432e-7 * T) * T) * T)

end Aerokit.ThermoKerosen
