import Mathlib.Analysis.SpecialFunctions.Pow.Real

/-!
# Specification: one-dimensional perfect gas flow states and conservation laws

Independent of the code: textbook definitions only.
-/

namespace Aerokit.Spec

/-- A flow state of a perfect gas: density, velocity, pressure. -/
structure Flow where
  rho : ℝ
  u : ℝ
  p : ℝ

namespace Flow

/-- speed of sound `√(γ p / ρ)` -/
noncomputable def a (γ : ℝ) (s : Flow) : ℝ := Real.sqrt (γ * s.p / s.rho)
/-- mass flux -/
def massFlux (s : Flow) : ℝ := s.rho * s.u
/-- momentum flux -/
def momentumFlux (s : Flow) : ℝ := s.p + s.rho * s.u ^ 2
/-- static enthalpy `γ/(γ-1) p/ρ` -/
noncomputable def h (γ : ℝ) (s : Flow) : ℝ := γ / (γ - 1) * (s.p / s.rho)
/-- total enthalpy -/
noncomputable def totalEnthalpy (γ : ℝ) (s : Flow) : ℝ := s.h γ + s.u ^ 2 / 2
/-- entropy function `p / ρ^γ` -/
noncomputable def entropyFn (γ : ℝ) (s : Flow) : ℝ := s.p / s.rho ^ γ

end Flow

/-- Rankine–Hugoniot jump conditions of a steady shock between two states (in the shock frame):
mass, momentum and total enthalpy are conserved. -/
def RankineHugoniot (γ : ℝ) (l r : Flow) : Prop :=
  l.massFlux = r.massFlux ∧ l.momentumFlux = r.momentumFlux ∧
    l.totalEnthalpy γ = r.totalEnthalpy γ

end Aerokit.Spec
