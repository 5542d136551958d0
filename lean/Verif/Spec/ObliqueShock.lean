import Verif.Spec.Flow
import Mathlib.Analysis.SpecialFunctions.Trigonometric.Basic

/-! # A plane oblique shock (angles in degrees) -/

namespace Aerokit.Spec
open Real

/-- A flow at Mach `M` (unit pressure and density) crosses a plane shock that makes the angle `σ` with it: the flow behind, turned by `θ`, has
pressure `P`, density `ρ`, speed `V` and Mach number `N`; the normal components satisfy the jump conditions, the tangential one is kept, and the
pressure does not fall. -/
def ObliqueShock (γ M σ θ P N : ℝ) : Prop :=
  ∃ ρ V : ℝ, 0 < ρ ∧ 0 < V ∧ 1 ≤ P ∧
    RankineHugoniot γ ⟨1, M * √γ * sin (σ * (π / 180)), 1⟩ ⟨ρ, V * sin ((σ - θ) * (π / 180)), P⟩ ∧
    V * cos ((σ - θ) * (π / 180)) = M * √γ * cos (σ * (π / 180)) ∧
    N = V / √(γ * P / ρ)

end Aerokit.Spec
