import Mathlib.Analysis.Calculus.Deriv.Basic
import Mathlib.Analysis.Calculus.Deriv.Mul
import Mathlib.Analysis.Calculus.Deriv.Add
import Mathlib.Analysis.Calculus.Deriv.Pow

/-! # Characteristic speeds of the one-dimensional Euler equations (specification of C101)

Textbook definitions: conserved quantities, fluxes, and a characteristic speed: a speed `s` for which some non-zero infinitesimal change
of state changes the fluxes by `s` times the change of the conserved quantities. -/

namespace Aerokit.Spec

/-- mass, momentum and total energy per unit volume of a perfect gas -/
noncomputable def conserved (γ ρ u p : ℝ) : Fin 3 → ℝ
  | 0 => ρ
  | 1 => ρ * u
  | 2 => p / (γ - 1) + ρ * u ^ 2 / 2

/-- fluxes of mass, momentum and energy -/
noncomputable def eulerFlux (γ ρ u p : ℝ) : Fin 3 → ℝ
  | 0 => ρ * u
  | 1 => ρ * u ^ 2 + p
  | 2 => u * (p / (γ - 1) + ρ * u ^ 2 / 2 + p)

/-- `s` is a characteristic speed of the Euler equations at the state `(ρ, u, p)` -/
def IsCharacteristicSpeed (γ ρ u p s : ℝ) : Prop :=
  ∃ dρ du dp : ℝ, (dρ, du, dp) ≠ (0, 0, 0) ∧ ∀ k, HasDerivAt (fun t =>
    eulerFlux γ (ρ + t * dρ) (u + t * du) (p + t * dp) k - s * conserved γ (ρ + t * dρ) (u + t * du) (p + t * dp) k) 0 0

end Aerokit.Spec
