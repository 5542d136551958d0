import Verif.Model.DefaultGas

/-!
# Model of `aerokit/aero/Isentropic.py`

`gamma` is an explicit argument everywhere; a Python call that omits it is modelled by passing
`DefaultGas.gamma0` (= 1.4, the value captured at import in a process that does not call
`set_gamma` before importing; the capture itself is modelled in `Model/DefaultGas.lean`).
All functions act elementwise on numpy arrays; the model is the scalar function.
-/

namespace Aerokit.Isentropic

/-- `TtTs_Mach` (`Isentropic.py:30-45`). -/
noncomputable def TtTs_Mach (Mach gamma : ℝ) : Py ℝ :=
  return 1.0 + 0.5 * (gamma - 1) * Mach ^ 2

/-- `PtPs_Mach` (`Isentropic.py:48-67`). -/
noncomputable def PtPs_Mach (Mach gamma : ℝ) : Py ℝ := do
  let e ← Py.div gamma (gamma - 1.0)
  Py.pow (1.0 + 0.5 * (gamma - 1.0) * Mach ^ 2) e

/-- `Mach_TtTs` (`Isentropic.py:70-81`). -/
noncomputable def Mach_TtTs (TtTs gamma : ℝ) : Py ℝ := do
  let q ← Py.div ((TtTs - 1.0) * 2.0) (gamma - 1.0)
  Py.sqrt q

/-- `Mach_PtPs` (`Isentropic.py:84-95`). -/
noncomputable def Mach_PtPs (PtPs gamma : ℝ) : Py ℝ := do
  let e ← Py.div (gamma - 1.0) gamma
  let t ← Py.pow PtPs e
  let q ← Py.div ((t - 1.0) * 2.0) (gamma - 1.0)
  Py.sqrt q

/-- `Velocity_MachTt` (`Isentropic.py:98-111`). -/
noncomputable def Velocity_MachTt (Mach Tt r gamma : ℝ) : Py ℝ := do
  let t ← TtTs_Mach Mach gamma
  let q ← Py.div (gamma * r * Tt) t
  let a ← Py.sqrt q
  return Mach * a

/-- `TiTs_Mach` alias (`Isentropic.py:115`). -/
noncomputable def TiTs_Mach := TtTs_Mach
/-- `PiPs_Mach` alias (`Isentropic.py:116`). -/
noncomputable def PiPs_Mach := PtPs_Mach
/-- `Mach_PiPs` alias (`Isentropic.py:117`). -/
noncomputable def Mach_PiPs := Mach_PtPs
/-- `Mach_TiTs` alias (`Isentropic.py:118`). -/
noncomputable def Mach_TiTs := Mach_TtTs
/-- `Velocity_MachTi` alias (`Isentropic.py:119`). -/
noncomputable def Velocity_MachTi := Velocity_MachTt

end Aerokit.Isentropic
