import Mathlib.Data.Real.Basic

/-! # Jump relations across a moving normal shock (specification of C49, C81) -/

namespace Aerokit.Spec

/-- residuals of the jump relations of a normal shock moving at velocity `s`, upstream state `(ρ0, u0, p0)`, downstream
state `(ρ1, u1, p1)`, `M0` being the upstream Mach number relative to the shock:
density ratio, mass flow through the shock (divided by `ρ0`), pressure ratio. -/
noncomputable def shockResidual (γ ρ0 u0 p0 M0 ρ1 u1 p1 s : ℝ) : Fin 3 → ℝ
  | 0 => ρ1 / ρ0 - (γ + 1) * M0 ^ 2 / (2 + (γ - 1) * M0 ^ 2)
  | 1 => (ρ1 * (u1 - s) - ρ0 * (u0 - s)) / ρ0
  | 2 => p1 / p0 - (1 + 2 * γ / (γ + 1) * (M0 ^ 2 - 1))

end Aerokit.Spec
