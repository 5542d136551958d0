import Verif.Model.Py

/-! # Model of `aerokit/aero/Rayleigh.py` (`np.square(x)` is `x ^ 2`) -/

namespace Aerokit.Rayleigh

/-- `Ps_Pscri` (`Rayleigh.py:18-20`). -/
noncomputable def Ps_Pscri (Mach gamma : ℝ) : Py ℝ :=
  Py.div (gamma + 1) (1 + gamma * Mach ^ 2)

/-- `Ts_Tscri` (`Rayleigh.py:23-26`). -/
noncomputable def Ts_Tscri (Mach gamma : ℝ) : Py ℝ := do
  let m2 := Mach ^ 2
  let q ← Py.div (gamma + 1) (1 + gamma * m2)
  return m2 * q ^ 2

/-- `Ti_Ticri` (`Rayleigh.py:29-32`). -/
noncomputable def Ti_Ticri (Mach gamma : ℝ) : Py ℝ := do
  let m2 := Mach ^ 2
  let q ← Py.div (2 * (gamma + 1) * m2) ((1 + gamma * m2) ^ 2)
  return q * (1 + (gamma - 1) / 2 * m2)

/-- `maxTiratio_Mach` (`Rayleigh.py:8-12`).  NOTE: the code calls `Ti_Ticri(Mach, gamma=1.4)`, the
argument `gamma` is ignored. -/
noncomputable def maxTiratio_Mach (Mach _gamma : ℝ) : Py ℝ := do
  let t ← Ti_Ticri Mach 1.4
  Py.div 1.0 t

/-- `Rho_Rhocri` (`Rayleigh.py:35-38`). -/
noncomputable def Rho_Rhocri (Mach gamma : ℝ) : Py ℝ :=
  let m2 := Mach ^ 2
  Py.div (1 + gamma * m2) ((gamma + 1) * m2)

/-- `Pi_Picri` (`Rayleigh.py:41-48`). -/
noncomputable def Pi_Picri (Mach gamma : ℝ) : Py ℝ := do
  let m2 := Mach ^ 2
  let q ← Py.div (gamma + 1) (1 + gamma * m2)
  let c ← Py.div 2 (gamma + 1)
  let e ← Py.div gamma (gamma - 1)
  let w ← Py.pow (c * (1 + (gamma - 1) / 2 * m2)) e
  return q * w

/-- `V_Vcri` (`Rayleigh.py:51-54`). -/
noncomputable def V_Vcri (Mach gamma : ℝ) : Py ℝ :=
  let m2 := Mach ^ 2
  Py.div (m2 * (gamma + 1)) (1 + gamma * m2)

/-- `NormdS` (`Rayleigh.py:57-60`). -/
noncomputable def NormdS (Mach gamma : ℝ) : Py ℝ := do
  let m2 := Mach ^ 2
  let q ← Py.div (gamma + 1) (1 + gamma * m2)
  let e ← Py.div (gamma + 1) gamma
  let w ← Py.pow q e
  Py.log (m2 * w)

/-- `SubMach_TiTicri` (`Rayleigh.py:63-66`). -/
noncomputable def SubMach_TiTicri (Tiratio gamma : ℝ) : Py ℝ := do
  let alpha ← Py.sqrt (1.0 - Tiratio)
  let q ← Py.div (1.0 - alpha) (alpha * gamma + 1)
  Py.sqrt q

/-- `SupMach_TiTicri` (`Rayleigh.py:69-72`). -/
noncomputable def SupMach_TiTicri (Tiratio gamma : ℝ) : Py ℝ := do
  let alpha ← Py.sqrt (1.0 - Tiratio)
  let q ← Py.div (1.0 + alpha) (1.0 - alpha * gamma)
  Py.sqrt q

end Aerokit.Rayleigh
