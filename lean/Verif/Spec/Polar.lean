import Mathlib.Analysis.SpecialFunctions.Trigonometric.Basic
import Mathlib.Analysis.SpecialFunctions.Trigonometric.Arctan
import Mathlib.Analysis.SpecialFunctions.Pow.Real

/-! # Classical shock polar and Prandtl–Meyer relations (angles in degrees) -/

namespace Aerokit.Spec
open Real

/-- the pressure–deflection shock polar: deflection `θ`, pressure ratio `P` of the shocks in a flow at Mach `M`,
`tan² θ = ((P-1) / (γM² - (P-1)))² (2γM² - (γ-1) - (γ+1)P) / ((γ+1)P + (γ-1))` -/
def OnPressurePolar (γ M θ P : ℝ) : Prop :=
  tan (θ * (π / 180)) ^ 2 * (γ * M ^ 2 - (P - 1)) ^ 2 * ((γ + 1) * P + (γ - 1)) = (P - 1) ^ 2 * (2 * γ * M ^ 2 - (γ - 1) - (γ + 1) * P)

/-- the θ–β–M relation: `tan θ = 2 cot σ (M² sin² σ - 1) / (M² (γ + cos 2σ) + 2)` -/
def OnAnglePolar (γ M θ σ : ℝ) : Prop :=
  tan (θ * (π / 180)) * (M ^ 2 * (γ + cos (2 * (σ * (π / 180)))) + 2) * sin (σ * (π / 180)) =
    2 * cos (σ * (π / 180)) * (M ^ 2 * sin (σ * (π / 180)) ^ 2 - 1)

/-- Prandtl–Meyer function, degrees -/
noncomputable def prandtlMeyer (γ M : ℝ) : ℝ :=
  (√((γ + 1) / (γ - 1)) * arctan √((γ - 1) / (γ + 1) * (M ^ 2 - 1)) - arctan √(M ^ 2 - 1)) * (180 / π)

/-- an isentropic simple wave turns a flow at Mach `M ≥ 1` by `δ` degrees, from Mach `M` to Mach `m`: the Prandtl–Meyer function decreases by `δ`
(a compression for `δ > 0`), and the stagnation pressure is unchanged; `P` is the ratio of static pressures -/
structure SimpleWave (γ M δ m P : ℝ) : Prop where
  supersonic : 1 ≤ m
  turning : prandtlMeyer γ m = prandtlMeyer γ M - δ
  isentropic : P * (1 + (γ - 1) / 2 * m ^ 2) ^ (γ / (γ - 1)) = (1 + (γ - 1) / 2 * M ^ 2) ^ (γ / (γ - 1))

end Aerokit.Spec
