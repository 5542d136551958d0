import Verif.Lemmas.NpArray
import Verif.Spec.Arrays
import Verif.Model.MassFlow
import Verif.Model.Fanno
import Verif.Model.Rayleigh
import Verif.Model.Supersonic

/-!
# C143: the functions of `aerokit/aero` on numpy arrays

The other property files are about floats.  Here: on arrays (any shape), and on any mixture of
floats and arrays of one shape, the closed-form functions of the library are the float functions
entry by entry; the `secant_solve` searches are so in the argument that is searched for, and
fail in the others; the functions that branch on their arguments do not accept arrays.
-/

namespace Aerokit.Props
open Nd Spec
variable {ι : Type}

/-- `degree.py` on arrays. -/
theorem C143_degree :
    Elementwise₁ (ι := ι) ArrayFns.degCos (fun x => .ok (degree.cos x)) ∧
    Elementwise₁ (ι := ι) ArrayFns.degSin (fun x => .ok (degree.sin x)) ∧
    Elementwise₁ (ι := ι) ArrayFns.degAtan (fun x => .ok (degree.atan x)) ∧
    Elementwise₁ (ι := ι) ArrayFns.degTan degree.tan ∧
    Elementwise₁ (ι := ι) ArrayFns.degAcos degree.acos ∧
    Elementwise₁ (ι := ι) ArrayFns.degAsin degree.asin ∧
    Elementwise₂ (ι := ι) ArrayFns.degAtan2 (fun x y => .ok (degree.atan2 x y)) := by
  refine ⟨?_, ?_, ?_, ?_, ?_, ?_, ?_⟩
  · nd_elem₁ [ArrayFns.degCos, degree.cos]
  · nd_elem₁ [ArrayFns.degSin, degree.sin]
  · nd_elem₁ [ArrayFns.degAtan, degree.atan]
  · nd_elem₁ [ArrayFns.degTan, degree.tan]
  · nd_elem₁ [ArrayFns.degAcos, degree.acos]
  · nd_elem₁ [ArrayFns.degAsin, degree.asin]
  · nd_elem₂ [ArrayFns.degAtan2, degree.atan2]

/-- `Isentropic.py` on arrays (Mach number, ratio, temperature, gas constants: any of them). -/
theorem C143_isentropic :
    Elementwise₂ (ι := ι) ArrayFns.TtTs_Mach Isentropic.TtTs_Mach ∧
    Elementwise₂ (ι := ι) ArrayFns.PtPs_Mach Isentropic.PtPs_Mach ∧
    Elementwise₂ (ι := ι) ArrayFns.Mach_TtTs Isentropic.Mach_TtTs ∧
    Elementwise₂ (ι := ι) ArrayFns.Mach_PtPs Isentropic.Mach_PtPs ∧
    Elementwise₄ (ι := ι) ArrayFns.Velocity_MachTt Isentropic.Velocity_MachTt := by
  refine ⟨?_, ?_, ?_, ?_, ?_⟩
  · nd_elem₂ [ArrayFns.TtTs_Mach, Isentropic.TtTs_Mach]
  · nd_elem₂ [ArrayFns.PtPs_Mach, Isentropic.PtPs_Mach]
  · nd_elem₂ [ArrayFns.Mach_TtTs, Isentropic.Mach_TtTs]
  · nd_elem₂ [ArrayFns.Mach_PtPs, Isentropic.Mach_PtPs]
  · nd_elem₄ [ArrayFns.Velocity_MachTt, Isentropic.Velocity_MachTt, ArrayFns.TtTs_Mach, Isentropic.TtTs_Mach]

/-- `MassFlow.py` closed forms on arrays (`r` is not used by `WeightMassFlow`, so it does not count for the
shape of the result). -/
theorem C143_massflow (R : Nd ι) (r : ℝ) :
    Elementwise₂ (ι := ι) ArrayFns.Sigma_Mach MassFlow.Sigma_Mach ∧
    Elementwise₂ (ι := ι) (fun M G => ArrayFns.WeightMassFlow M R G) (fun m g => MassFlow.WeightMassFlow m r g) ∧
    Elementwise₂ (ι := ι) ArrayFns.MachSub_sigma MassFlow.MachSub_sigma_init ∧
    Elementwise₂ (ι := ι) ArrayFns.MachSup_sigma MassFlow.MachSup_sigma_init := by
  refine ⟨?_, ?_, ?_, ?_⟩
  · nd_elem₂ [ArrayFns.Sigma_Mach, MassFlow.Sigma_Mach]
  · nd_elem₂ [ArrayFns.WeightMassFlow, MassFlow.WeightMassFlow]
  · nd_elem₂ [ArrayFns.MachSub_sigma, MassFlow.MachSub_sigma_init]
  · nd_elem₂ [ArrayFns.MachSup_sigma, MassFlow.MachSup_sigma_init]

/-- `Fanno.py` on arrays. -/
theorem C143_fanno :
    Elementwise₂ (ι := ι) ArrayFns.Fanno.maxFparam_Mach Fanno.maxFparam_Mach ∧
    Elementwise₂ (ι := ι) ArrayFns.Fanno.Ps_Pscri Fanno.Ps_Pscri ∧
    Elementwise₂ (ι := ι) ArrayFns.Fanno.Ts_Tscri Fanno.Ts_Tscri ∧
    Elementwise₂ (ι := ι) ArrayFns.Fanno.Rho_Rhocri Fanno.Rho_Rhocri ∧
    Elementwise₂ (ι := ι) ArrayFns.Fanno.Pi_Picri Fanno.Pi_Picri ∧
    Elementwise₂ (ι := ι) ArrayFns.Fanno.V_Vcri Fanno.V_Vcri ∧
    Elementwise₂ (ι := ι) ArrayFns.Fanno.NormdS Fanno.NormdS := by
  refine ⟨?_, ?_, ?_, ?_, ?_, ?_, ?_⟩
  · nd_elem₂ [ArrayFns.Fanno.maxFparam_Mach, Fanno.maxFparam_Mach]
  · nd_elem₂ [ArrayFns.Fanno.Ps_Pscri, Fanno.Ps_Pscri]
  · nd_elem₂ [ArrayFns.Fanno.Ts_Tscri, Fanno.Ts_Tscri]
  · nd_elem₂ [ArrayFns.Fanno.Rho_Rhocri, Fanno.Rho_Rhocri]
  · nd_elem₂ [ArrayFns.Fanno.Pi_Picri, Fanno.Pi_Picri]
  · nd_elem₂ [ArrayFns.Fanno.V_Vcri, Fanno.V_Vcri]
  · nd_elem₂ [ArrayFns.Fanno.NormdS, Fanno.NormdS]

/-- `Rayleigh.py` on arrays (`maxTiratio_Mach` ignores its second argument, see C18). -/
theorem C143_rayleigh (G : Nd ι) (g : ℝ) :
    Elementwise₂ (ι := ι) ArrayFns.Rayleigh.Ps_Pscri Rayleigh.Ps_Pscri ∧
    Elementwise₂ (ι := ι) ArrayFns.Rayleigh.Ts_Tscri Rayleigh.Ts_Tscri ∧
    Elementwise₂ (ι := ι) ArrayFns.Rayleigh.Ti_Ticri Rayleigh.Ti_Ticri ∧
    Elementwise₂ (ι := ι) ArrayFns.Rayleigh.Rho_Rhocri Rayleigh.Rho_Rhocri ∧
    Elementwise₂ (ι := ι) ArrayFns.Rayleigh.Pi_Picri Rayleigh.Pi_Picri ∧
    Elementwise₂ (ι := ι) ArrayFns.Rayleigh.V_Vcri Rayleigh.V_Vcri ∧
    Elementwise₂ (ι := ι) ArrayFns.Rayleigh.NormdS Rayleigh.NormdS ∧
    Elementwise₂ (ι := ι) ArrayFns.Rayleigh.SubMach_TiTicri Rayleigh.SubMach_TiTicri ∧
    Elementwise₂ (ι := ι) ArrayFns.Rayleigh.SupMach_TiTicri Rayleigh.SupMach_TiTicri ∧
    Elementwise₁ (ι := ι) (fun M => ArrayFns.Rayleigh.maxTiratio_Mach M G) (fun m => Rayleigh.maxTiratio_Mach m g) := by
  refine ⟨?_, ?_, ?_, ?_, ?_, ?_, ?_, ?_, ?_, ?_⟩
  · nd_elem₂ [ArrayFns.Rayleigh.Ps_Pscri, Rayleigh.Ps_Pscri]
  · nd_elem₂ [ArrayFns.Rayleigh.Ts_Tscri, Rayleigh.Ts_Tscri]
  · nd_elem₂ [ArrayFns.Rayleigh.Ti_Ticri, Rayleigh.Ti_Ticri]
  · nd_elem₂ [ArrayFns.Rayleigh.Rho_Rhocri, Rayleigh.Rho_Rhocri]
  · nd_elem₂ [ArrayFns.Rayleigh.Pi_Picri, Rayleigh.Pi_Picri]
  · nd_elem₂ [ArrayFns.Rayleigh.V_Vcri, Rayleigh.V_Vcri]
  · nd_elem₂ [ArrayFns.Rayleigh.NormdS, Rayleigh.NormdS]
  · nd_elem₂ [ArrayFns.Rayleigh.SubMach_TiTicri, Rayleigh.SubMach_TiTicri]
  · nd_elem₂ [ArrayFns.Rayleigh.SupMach_TiTicri, Rayleigh.SupMach_TiTicri]
  · nd_elem₁ [ArrayFns.Rayleigh.maxTiratio_Mach, Rayleigh.maxTiratio_Mach, ArrayFns.Rayleigh.Ti_Ticri, Rayleigh.Ti_Ticri]

/-- `Supersonic.py` closed forms on arrays. -/
theorem C143_supersonic :
    Elementwise₂ (ι := ι) ArrayFns.PrandtlMeyer_Mach Supersonic.PrandtlMeyer_Mach ∧
    Elementwise₂ (ι := ι) ArrayFns.Mach_PMFmmu Supersonic.Mach_PMFmmu ∧
    Elementwise₃ (ι := ι) ArrayFns.deflection_Mach_IsentropicPsratio Supersonic.deflection_Mach_IsentropicPsratio := by
  refine ⟨?_, ?_, ?_⟩
  · nd_elem₂ [ArrayFns.PrandtlMeyer_Mach, Supersonic.PrandtlMeyer_Mach]
  · nd_elem₂ [ArrayFns.Mach_PMFmmu, Supersonic.Mach_PMFmmu, ArrayFns.degTan, degree.tan]
  · nd_elem₃ [ArrayFns.deflection_Mach_IsentropicPsratio, Supersonic.deflection_Mach_IsentropicPsratio, ArrayFns.Mach_PtPs, Isentropic.Mach_PtPs, ArrayFns.PtPs_Mach, Isentropic.PtPs_Mach, ArrayFns.PrandtlMeyer_Mach, Supersonic.PrandtlMeyer_Mach]

/-- `ShockWave.py` closed forms on arrays. -/
theorem C143_shock :
    Elementwise₂ (ι := ι) ArrayFns.Ps_ratio ShockWave.Ps_ratio ∧
    Elementwise₂ (ι := ι) ArrayFns.Mn_Ps_ratio ShockWave.Mn_Ps_ratio ∧
    Elementwise₂ (ι := ι) ArrayFns.Rho_ratio ShockWave.Rho_ratio ∧
    Elementwise₂ (ι := ι) ArrayFns.Ts_ratio ShockWave.Ts_ratio ∧
    Elementwise₂ (ι := ι) ArrayFns.downstream_Mn ShockWave.downstream_Mn ∧
    Elementwise₂ (ι := ι) ArrayFns.Pt_ratio ShockWave.Pt_ratio ∧
    Elementwise₃ (ι := ι) ArrayFns.deflection_Mach_sigma ShockWave.deflection_Mach_sigma ∧
    Elementwise₃ (ι := ι) ArrayFns.deflection_Mach_ShockPsratio ShockWave.deflection_Mach_ShockPsratio ∧
    Elementwise₃ (ι := ι) ArrayFns.downstreamMach_Mach_ShockPsratio ShockWave.downstreamMach_Mach_ShockPsratio ∧
    Elementwise₂ (ι := ι) ArrayFns.sigma_DevMax ShockWave.sigma_DevMax ∧
    Elementwise₂ (ι := ι) ArrayFns.sigma_Sonic ShockWave.sigma_Sonic ∧
    Elementwise₂ (ι := ι) ArrayFns.dev_Max ShockWave.dev_Max ∧
    Elementwise₂ (ι := ι) ArrayFns.dev_Sonic ShockWave.dev_Sonic := by
  refine ⟨?_, ?_, ?_, ?_, ?_, ?_, ?_, ?_, ?_, ?_, ?_, ?_, ?_⟩
  · nd_elem₂ [ArrayFns.Ps_ratio, ShockWave.Ps_ratio]
  · nd_elem₂ [ArrayFns.Mn_Ps_ratio, ShockWave.Mn_Ps_ratio]
  · nd_elem₂ [ArrayFns.Rho_ratio, ShockWave.Rho_ratio]
  · nd_elem₂ [ArrayFns.Ts_ratio, ShockWave.Ts_ratio, ArrayFns.Ps_ratio, ShockWave.Ps_ratio, ArrayFns.Rho_ratio, ShockWave.Rho_ratio]
  · nd_elem₂ [ArrayFns.downstream_Mn, ShockWave.downstream_Mn]
  · nd_elem₂ [ArrayFns.Pt_ratio, ShockWave.Pt_ratio, ArrayFns.Ps_ratio, ShockWave.Ps_ratio, ArrayFns.downstream_Mn, ShockWave.downstream_Mn, ArrayFns.PtPs_Mach, Isentropic.PtPs_Mach]
  · nd_elem₃ [ArrayFns.deflection_Mach_sigma, ShockWave.deflection_Mach_sigma, ArrayFns.Rho_ratio, ShockWave.Rho_ratio]
  · nd_elem₃ [ArrayFns.deflection_Mach_ShockPsratio, ShockWave.deflection_Mach_ShockPsratio, ArrayFns.deflection_Mach_sigma, ShockWave.deflection_Mach_sigma, ArrayFns.Rho_ratio, ShockWave.Rho_ratio, ArrayFns.Mn_Ps_ratio, ShockWave.Mn_Ps_ratio, ArrayFns.degAsin, degree.asin]
  · nd_elem₃ [ArrayFns.downstreamMach_Mach_ShockPsratio, ShockWave.downstreamMach_Mach_ShockPsratio, ArrayFns.deflection_Mach_sigma, ShockWave.deflection_Mach_sigma, ArrayFns.Rho_ratio, ShockWave.Rho_ratio, ArrayFns.Mn_Ps_ratio, ShockWave.Mn_Ps_ratio, ArrayFns.downstream_Mn, ShockWave.downstream_Mn, ArrayFns.degAsin, degree.asin, ArrayFns.degSin, degree.sin]
  · nd_elem₂ [ArrayFns.sigma_DevMax, ShockWave.sigma_DevMax, ArrayFns.degAsin, degree.asin]
  · nd_elem₂ [ArrayFns.sigma_Sonic, ShockWave.sigma_Sonic, ArrayFns.degAsin, degree.asin]
  · nd_elem₂ [ArrayFns.dev_Max, ShockWave.dev_Max, ArrayFns.sigma_DevMax, ShockWave.sigma_DevMax, ArrayFns.deflection_Mach_sigma, ShockWave.deflection_Mach_sigma, ArrayFns.Rho_ratio, ShockWave.Rho_ratio, ArrayFns.degAsin, degree.asin]
  · nd_elem₂ [ArrayFns.dev_Sonic, ShockWave.dev_Sonic, ArrayFns.sigma_Sonic, ShockWave.sigma_Sonic, ArrayFns.deflection_Mach_sigma, ShockWave.deflection_Mach_sigma, ArrayFns.Rho_ratio, ShockWave.Rho_ratio, ArrayFns.degAsin, degree.asin]

end Aerokit.Props
