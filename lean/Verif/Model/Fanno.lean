import Verif.Model.Py

/-! # Model of `aerokit/aero/Fanno.py` (`np.square(x)` is `x ^ 2`) -/

namespace Aerokit.Fanno

/-- `maxFparam_Mach` (`Fanno.py:8-18`). -/
noncomputable def maxFparam_Mach (Mach gamma : ℝ) : Py ℝ := do
  let m2 := Mach ^ 2
  let a ← Py.div (1 - m2) (gamma * m2)
  let b ← Py.div (gamma + 1) (2 * gamma)
  let q ← Py.div (m2 * (gamma + 1) / 2) (1 + (gamma - 1) / 2 * m2)
  let l ← Py.log q
  return a + b * l

/-- `Ps_Pscri` (`Fanno.py:24-26`). -/
noncomputable def Ps_Pscri (Mach gamma : ℝ) : Py ℝ := do
  let c ← Py.div 2 (gamma + 1)
  let s ← Py.sqrt (c * (1 + (gamma - 1) / 2 * Mach ^ 2))
  Py.div 1.0 (Mach * s)

/-- `Ts_Tscri` (`Fanno.py:29-31`). -/
noncomputable def Ts_Tscri (Mach gamma : ℝ) : Py ℝ :=
  Py.div ((gamma + 1) / 2) (1 + (gamma - 1) / 2 * Mach ^ 2)

/-- `Rho_Rhocri` (`Fanno.py:34-36`). -/
noncomputable def Rho_Rhocri (Mach gamma : ℝ) : Py ℝ := do
  let i ← Py.div 1.0 Mach
  let c ← Py.div 2 (gamma + 1)
  let s ← Py.sqrt (c * (1 + (gamma - 1) / 2 * Mach ^ 2))
  return i * s

/-- `Pi_Picri` (`Fanno.py:39-45`). -/
noncomputable def Pi_Picri (Mach gamma : ℝ) : Py ℝ := do
  let i ← Py.div 1.0 Mach
  let c ← Py.div 2 (gamma + 1)
  let e ← Py.div ((gamma + 1) / 2) (gamma - 1)
  let w ← Py.pow (c * (1 + (gamma - 1) / 2 * Mach ^ 2)) e
  return i * w

/-- `V_Vcri` (`Fanno.py:48-50`). -/
noncomputable def V_Vcri (Mach gamma : ℝ) : Py ℝ := do
  let c ← Py.div 2 (gamma + 1)
  let s ← Py.sqrt (c * (1 + (gamma - 1) / 2 * Mach ^ 2))
  Py.div Mach s

/-- `NormdS` (`Fanno.py:53-58`). -/
noncomputable def NormdS (Mach gamma : ℝ) : Py ℝ := do
  let e1 ← Py.div (gamma - 1) gamma
  let a ← Py.pow Mach e1
  let c ← Py.div 2 (gamma + 1)
  let e2 ← Py.div (-(gamma + 1) / 2) gamma
  let b ← Py.pow (c * (1 + (gamma - 1) / 2 * Mach ^ 2)) e2
  Py.log (a * b)

end Aerokit.Fanno
