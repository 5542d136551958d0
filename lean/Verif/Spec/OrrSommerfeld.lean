import Mathlib.Data.Complex.Basic

/-! # The Orr–Sommerfeld equation (specification of C50) -/

namespace Aerokit.Spec

/-- left hand side of the Orr–Sommerfeld equation
`[(1/(i Re)) (D² - α²)² - (α U - ω) (D² - α²) + α U''] v` at a point, from the values of the velocity profile `U`, its second
derivative `Upp` and of the perturbation `v`, its second and fourth derivatives. -/
noncomputable def orrSommerfeld (α ω : ℂ) (Re U Upp : ℝ) (v v2 v4 : ℂ) : ℂ :=
  1 / (Complex.I * Re) * (v4 - 2 * α ^ 2 * v2 + α ^ 4 * v) - (α * U - ω) * (v2 - α ^ 2 * v) + α * Upp * v

end Aerokit.Spec
