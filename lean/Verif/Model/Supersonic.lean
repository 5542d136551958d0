import Verif.Model.Isentropic
import Verif.Model.MassFlow
import Verif.Model.Degree
import Verif.Model.IterativeSolve

/-! # Model of `aerokit/aero/Supersonic.py` (`scipy.optimize.newton` is a parameter) -/

namespace Aerokit.Supersonic
open Isentropic MassFlow IterativeSolve

/-- `PrandtlMeyer_Mach` (`Supersonic.py:31-53`), in degrees. -/
noncomputable def PrandtlMeyer_Mach (Mach gamma : ℝ) : Py ℝ := do
  let g := gamma
  let gm1 := gamma - 1.0
  let beta ← Py.sqrt (Mach ^ 2 - 1.0)
  let q ← Py.div (g + 1.0) gm1
  let cg ← Py.sqrt q
  let b ← Py.div beta cg
  return (cg * Real.arctan b - Real.arctan beta) * (180.0 / Real.pi)

/-- `old_Mach_PrandtlMeyer` (`Supersonic.py:56-60`). -/
noncomputable def old_Mach_PrandtlMeyer (omega gamma : ℝ) : Py ℝ :=
  secant_solve (fun m => PrandtlMeyer_Mach m gamma) omega 2.0

/-- `omega_of_mach` (`Supersonic.py:64-65`). -/
noncomputable def pm_residual (omega gamma m : ℝ) : Py ℝ := do
  let w ← PrandtlMeyer_Mach m gamma
  return w - omega

/-- `Mach_PrandtlMeyer` (`Supersonic.py:63-69`), scalar. -/
noncomputable def Mach_PrandtlMeyer (newton : RootFinder) (omega gamma : ℝ) : Py ℝ :=
  newton (pm_residual omega gamma) (2.0 + 0.0 * omega)

/-- `Mach_PMFmmu` (`Supersonic.py:72-77`). -/
noncomputable def Mach_PMFmmu (om_m_mun gamma : ℝ) : Py ℝ := do
  let g := gamma
  let gm1 := gamma - 1.0
  let q ← Py.div (g + 1.0) gm1
  let cg ← Py.sqrt q
  let a ← Py.div (om_m_mun + 90.0) cg
  let t ← degree.tan a
  Py.sqrt ((cg * t) ^ 2 + 1.0)

/-- `deflection_Mach_IsentropicPsratio` (`Supersonic.py:80-82`). -/
noncomputable def deflection_Mach_IsentropicPsratio (Mach Pratio gamma : ℝ) : Py ℝ := do
  let p ← PtPs_Mach Mach gamma
  let q ← Py.div p Pratio
  let m2 ← Mach_PtPs q gamma
  let w ← PrandtlMeyer_Mach Mach gamma
  let w2 ← PrandtlMeyer_Mach m2 gamma
  return -w + w2

/-- `IsentropicPsratio_Mach_deflection` (`Supersonic.py:85-87`). -/
noncomputable def IsentropicPsratio_Mach_deflection (newton : RootFinder) (Mach dev gamma : ℝ) :
    Py ℝ := do
  let w ← PrandtlMeyer_Mach Mach gamma
  let m2 ← Mach_PrandtlMeyer newton (w - dev) gamma
  let p ← PtPs_Mach Mach gamma
  let p2 ← PtPs_Mach m2 gamma
  Py.div p p2

end Aerokit.Supersonic
