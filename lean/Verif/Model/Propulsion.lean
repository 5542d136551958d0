import Verif.Model.MassFlow
import Verif.Model.IterativeSolve

/-! # Model of `aerokit/aero/Propulsion.py` (the text of the functions: the module itself cannot be
imported, see `Model/Imports.lean`) -/

namespace Aerokit.Propulsion

/-- `ThrustFunction` (`Propulsion.py:9-10`). -/
noncomputable def ThrustFunction (Mach gamma : ℝ) : Py ℝ := do
  let s ← MassFlow.Sigma_Mach Mach gamma
  let p ← Isentropic.PtPs_Mach Mach gamma
  let q ← Py.div s p
  return q * (1.0 + gamma * Mach ^ 2)

/-- `Mach_ThrustFunction` (`Propulsion.py:13-17`), `ITS.secant_solve` being the function of
`aero/IterativeSolve.py`. -/
noncomputable def Mach_ThrustFunction (thrust Mach gamma : ℝ) : Py ℝ :=
  IterativeSolve.secant_solve (fun m => ThrustFunction m gamma) thrust Mach

end Aerokit.Propulsion
