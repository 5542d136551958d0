import Mathlib.Analysis.SpecialFunctions.Pow.Deriv
import Mathlib.Analysis.SpecialFunctions.Sqrt
import Mathlib.Analysis.SpecialFunctions.Trigonometric.Deriv

/-! # Steady axisymmetric conical flow of a perfect gas (Taylor–Maccoll)

All quantities depend on the ray angle `φ` (radians, from the axis) only.  `Θ` is the direction of
the velocity (radians, from the axis), `M` the Mach number, so that in spherical coordinates the
velocity is `(V cos (φ - Θ), -V sin (φ - Θ))`.  Velocity and density are normalised by stagnation
quantities (homentropic, homenergetic flow). -/

namespace Aerokit.Spec

/-- velocity divided by the stagnation sound speed -/
noncomputable def speed (γ M : ℝ) : ℝ := M / √(1 + (γ - 1) / 2 * M ^ 2)

/-- density divided by the stagnation density -/
noncomputable def density (γ M : ℝ) : ℝ := (1 + (γ - 1) / 2 * M ^ 2) ^ (-1 / (γ - 1))

/-- radial velocity -/
noncomputable def radialV (γ : ℝ) (Θ M : ℝ → ℝ) (φ : ℝ) : ℝ := speed γ (M φ) * Real.cos (φ - Θ φ)

/-- polar velocity -/
noncomputable def polarV (γ : ℝ) (Θ M : ℝ → ℝ) (φ : ℝ) : ℝ := -(speed γ (M φ) * Real.sin (φ - Θ φ))

/-- the conical flow equations at the ray `φ`: no vorticity, `dV_r/dφ = V_φ`, and conservation of mass,
`d(ρ V_φ sin φ)/dφ + 2 ρ V_r sin φ = 0` -/
structure ConicalLaws (γ : ℝ) (Θ M : ℝ → ℝ) (φ : ℝ) : Prop where
  irrotational : HasDerivAt (radialV γ Θ M) (polarV γ Θ M φ) φ
  mass : HasDerivAt (fun x => density γ (M x) * polarV γ Θ M x * Real.sin x)
    (-(2 * density γ (M φ) * radialV γ Θ M φ * Real.sin φ)) φ

end Aerokit.Spec
