import Verif.Model.Supersonic

/-! # Model of `aerokit/aero/CompressibleFlow.py` (legacy wrappers)

Optional Python arguments are `Option`s; `none` = argument omitted. -/

namespace Aerokit.CompressibleFlow
open MassFlow

/-- literal default `gamma=1.4` of every wrapper (`CompressibleFlow.py:12-73`). -/
noncomputable def dgam : ℝ := 1.4
/-- literal default `r=287.1` (`CompressibleFlow.py:32, 63`). -/
noncomputable def dr : ℝ := 287.1

/-- `CompressibleFlow.py:12-14` -/
noncomputable def TtTs_Mach (Mach : ℝ) (gamma : Option ℝ) : Py ℝ := Isentropic.TtTs_Mach Mach (gamma.getD dgam)
/-- `CompressibleFlow.py:17-19` -/
noncomputable def PtPs_Mach (Mach : ℝ) (gamma : Option ℝ) : Py ℝ := Isentropic.PtPs_Mach Mach (gamma.getD dgam)
/-- `CompressibleFlow.py:22-24` -/
noncomputable def Mach_TtTs (TtTs : ℝ) (gamma : Option ℝ) : Py ℝ := Isentropic.Mach_TtTs TtTs (gamma.getD dgam)
/-- `CompressibleFlow.py:27-29` -/
noncomputable def Mach_PtPs (PtPs : ℝ) (gamma : Option ℝ) : Py ℝ := Isentropic.Mach_PtPs PtPs (gamma.getD dgam)
/-- `CompressibleFlow.py:32-34` -/
noncomputable def Velocity_MachTi (Mach Ti : ℝ) (r gamma : Option ℝ) : Py ℝ :=
  Isentropic.Velocity_MachTi Mach Ti (r.getD dr) (gamma.getD dgam)
/-- `CompressibleFlow.py:40-42` -/
noncomputable def PrandtlMeyer_Mach (Mach : ℝ) (gamma : Option ℝ) : Py ℝ :=
  Supersonic.PrandtlMeyer_Mach Mach (gamma.getD dgam)
/-- `CompressibleFlow.py:45-47` -/
noncomputable def Mach_PrandtlMeyer (newton : RootFinder) (omega : ℝ) (gamma : Option ℝ) : Py ℝ :=
  Supersonic.Mach_PrandtlMeyer newton omega (gamma.getD dgam)
/-- `CompressibleFlow.py:50-52` -/
noncomputable def deflection_Mach_IsentropicPsratio (Mach Pratio : ℝ) (gamma : Option ℝ) : Py ℝ :=
  Supersonic.deflection_Mach_IsentropicPsratio Mach Pratio (gamma.getD dgam)
/-- `CompressibleFlow.py:55-57` -/
noncomputable def IsentropicPsratio_Mach_deflection (newton : RootFinder) (Mach dev : ℝ) (gamma : Option ℝ) :
    Py ℝ :=
  Supersonic.IsentropicPsratio_Mach_deflection newton Mach dev (gamma.getD dgam)
/-- `CompressibleFlow.py:63-65` -/
noncomputable def WeightMassFlow (Mach : ℝ) (r gamma : Option ℝ) : Py ℝ :=
  MassFlow.WeightMassFlow Mach (r.getD dr) (gamma.getD dgam)
/-- `CompressibleFlow.py:68-70` -/
noncomputable def Sigma_Mach (Mach : ℝ) (gamma : Option ℝ) : Py ℝ := MassFlow.Sigma_Mach Mach (gamma.getD dgam)
/-- `CompressibleFlow.py:73-75` -/
noncomputable def Mach_Sigma (newton : RootFinder) (sigma : ℝ) (Mach gamma : Option ℝ) : Py ℝ :=
  MassFlow.Mach_Sigma newton sigma (Mach.getD 2.0) (gamma.getD dgam)

end Aerokit.CompressibleFlow
