import Verif.Model.CompressibleFlow
import Verif.Model.ShockWave
import Verif.Lemmas.Isentropic
import Verif.Props.DefaultGas

/-! # Property C75 : legacy interfaces

The functions of `Isentropic`, `MassFlow`, `Supersonic` take their default `gamma` (and `r`) from
`defaultgas` at import time; those of `CompressibleFlow` have literal defaults. -/

namespace Aerokit.Props
open DefaultGas MassFlow

/-- a function of the new modules called with optional `gamma`, in process `p` -/
def callNew (p : Process) (m : Mod) (f : ℝ → Py ℝ) (gamma : Option ℝ) : Py ℝ :=
  match gamma, defaultGammaSeenBy p m with
  | some g, some _ => f g
  | none, some g => f g
  | _, none => .error .nameError  -- module not imported

/-- C75: with an explicit `gamma` (and `r`), in every process where the modules are imported, each
legacy function is the function it wraps. -/
theorem C75_explicit (newton : RootFinder) (x y z g : ℝ) :
    CompressibleFlow.TtTs_Mach x (some g) = Isentropic.TtTs_Mach x g ∧
    CompressibleFlow.PtPs_Mach x (some g) = Isentropic.PtPs_Mach x g ∧
    CompressibleFlow.Mach_TtTs x (some g) = Isentropic.Mach_TtTs x g ∧
    CompressibleFlow.Mach_PtPs x (some g) = Isentropic.Mach_PtPs x g ∧
    CompressibleFlow.Velocity_MachTi x y (some z) (some g) = Isentropic.Velocity_MachTt x y z g ∧
    CompressibleFlow.PrandtlMeyer_Mach x (some g) = Supersonic.PrandtlMeyer_Mach x g ∧
    CompressibleFlow.Mach_PrandtlMeyer newton x (some g) = Supersonic.Mach_PrandtlMeyer newton x g ∧
    CompressibleFlow.deflection_Mach_IsentropicPsratio x y (some g)
      = Supersonic.deflection_Mach_IsentropicPsratio x y g ∧
    CompressibleFlow.IsentropicPsratio_Mach_deflection newton x y (some g)
      = Supersonic.IsentropicPsratio_Mach_deflection newton x y g ∧
    CompressibleFlow.WeightMassFlow x (some z) (some g) = MassFlow.WeightMassFlow x z g ∧
    CompressibleFlow.Sigma_Mach x (some g) = MassFlow.Sigma_Mach x g ∧
    CompressibleFlow.Mach_Sigma newton x (some y) (some g) = MassFlow.Mach_Sigma newton x y g :=
  ⟨rfl, rfl, rfl, rfl, rfl, rfl, rfl, rfl, rfl, rfl, rfl, rfl⟩

/-- C75: with omitted arguments the legacy functions are those of air, `gamma = 1.4` and `r = 287.1`, and `Mach_Sigma` starts
its search at Mach 2. -/
theorem C75_omitted_values (newton : RootFinder) (x y z g : ℝ) :
    CompressibleFlow.TtTs_Mach x none = Isentropic.TtTs_Mach x 1.4 ∧
    CompressibleFlow.PtPs_Mach x none = Isentropic.PtPs_Mach x 1.4 ∧
    CompressibleFlow.Mach_TtTs x none = Isentropic.Mach_TtTs x 1.4 ∧
    CompressibleFlow.Mach_PtPs x none = Isentropic.Mach_PtPs x 1.4 ∧
    CompressibleFlow.Velocity_MachTi x y none (some g) = Isentropic.Velocity_MachTt x y 287.1 g ∧
    CompressibleFlow.Velocity_MachTi x y (some z) none = Isentropic.Velocity_MachTt x y z 1.4 ∧
    CompressibleFlow.PrandtlMeyer_Mach x none = Supersonic.PrandtlMeyer_Mach x 1.4 ∧
    CompressibleFlow.Mach_PrandtlMeyer newton x none = Supersonic.Mach_PrandtlMeyer newton x 1.4 ∧
    CompressibleFlow.deflection_Mach_IsentropicPsratio x y none = Supersonic.deflection_Mach_IsentropicPsratio x y 1.4 ∧
    CompressibleFlow.IsentropicPsratio_Mach_deflection newton x y none = Supersonic.IsentropicPsratio_Mach_deflection newton x y 1.4 ∧
    CompressibleFlow.WeightMassFlow x none (some g) = MassFlow.WeightMassFlow x 287.1 g ∧
    CompressibleFlow.WeightMassFlow x (some z) none = MassFlow.WeightMassFlow x z 1.4 ∧
    CompressibleFlow.Sigma_Mach x none = MassFlow.Sigma_Mach x 1.4 ∧
    CompressibleFlow.Mach_Sigma newton x none (some g) = MassFlow.Mach_Sigma newton x 2.0 g ∧
    CompressibleFlow.Mach_Sigma newton x (some y) none = MassFlow.Mach_Sigma newton x y 1.4 :=
  ⟨rfl, rfl, rfl, rfl, rfl, rfl, rfl, rfl, rfl, rfl, rfl, rfl, rfl, rfl, rfl⟩

/-- C75: the `Ti`/`Pi` names of `Isentropic` and `ShockWave`. -/
theorem C75_aliases (x y z g : ℝ) :
    Isentropic.TiTs_Mach x g = Isentropic.TtTs_Mach x g ∧ Isentropic.PiPs_Mach x g = Isentropic.PtPs_Mach x g ∧
    Isentropic.Mach_PiPs x g = Isentropic.Mach_PtPs x g ∧ Isentropic.Mach_TiTs x g = Isentropic.Mach_TtTs x g ∧
    Isentropic.Velocity_MachTi x y z g = Isentropic.Velocity_MachTt x y z g ∧
    ShockWave.Pi_ratio x g = ShockWave.Pt_ratio x g ∧ ShockWave.Mn_Pi_ratio x g = ShockWave.Mn_Pt_ratio x g :=
  ⟨rfl, rfl, rfl, rfl, rfl, rfl, rfl⟩

/-- C75, omitted `gamma`: legacy and new agree in every process in which the default was not changed
before the new modules were imported (whatever happens afterwards). -/
theorem C75_omitted_partial (evs : List Ev) (m : Mod) (f : ℝ → Py ℝ)
    (h : defaultGammaSeenBy (prun Process.init evs) m = some gamma0) :
    callNew (prun Process.init evs) m f none = f CompressibleFlow.dgam := by
  unfold callNew; rw [h]
  have : gamma0 = CompressibleFlow.dgam := rfl
  rw [this]

/-- C75 is false for omitted `gamma` when `set_gamma` is called before the first import: the new
function uses the modified default, the legacy one the literal 1.4. -/
theorem C75_false : ∃ evs : List Ev,
    callNew (prun Process.init evs) .isentropic (fun g => Isentropic.TtTs_Mach 1 g) none
      ≠ CompressibleFlow.TtTs_Mach 1 none := by
  refine ⟨[.gas (.setGamma 1.3), .imp .isentropic], ?_⟩
  have h : defaultGammaSeenBy (prun Process.init [.gas (.setGamma 1.3), .imp .isentropic]) .isentropic
      = some 1.3 := by
    simp [prun, pstep, step, deps, exec1, Process.init, set_gamma, defaultGammaSeenBy]
  unfold callNew
  rw [h]
  unfold CompressibleFlow.TtTs_Mach CompressibleFlow.dgam
  simp only [Option.getD_none]
  rw [Isentropic.TtTs_Mach_ok, Isentropic.TtTs_Mach_ok]
  intro hc
  simp only [Except.ok.injEq, Isentropic.tt] at hc
  norm_num at hc

example : defaultGammaSeenBy (prun Process.init [.imp .supersonic, .gas (.setGamma 1.3)]) .isentropic
    = some gamma0 := by
  simp [prun, pstep, deps, exec1, Process.init, defaultGammaSeenBy, DefaultGas.init]

end Aerokit.Props
