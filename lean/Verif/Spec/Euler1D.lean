import Mathlib.LinearAlgebra.Matrix.Notation
import Mathlib.Data.Real.Basic

/-! # Collocated 1D Euler equations (specification of property C46) -/

namespace Aerokit.Spec

/-- right hand side of the collocated Euler equations in primitive variables `(ρ, u, p)`, `D` being the differentiation
matrix: `∂ρ/∂t = -(u Dρ + ρ Du)`, `∂u/∂t = -(u Du + Dp/ρ)`, `∂p/∂t = -(u Dp + γ p Du)` at point `i`. -/
noncomputable def eulerRHS {n : ℕ} (D : Matrix (Fin n) (Fin n) ℝ) (γ : ℝ) (rho u p : Fin n → ℝ) (k : Fin 3) (i : Fin n) : ℝ :=
  match k with
  | 0 => -(u i * D.mulVec rho i + rho i * D.mulVec u i)
  | 1 => -(u i * D.mulVec u i + D.mulVec p i / rho i)
  | 2 => -(u i * D.mulVec p i + γ * p i * D.mulVec u i)

/-- field number `k` (0: density, 1: velocity, 2: pressure) stored in a long vector -/
def field (n : ℕ) (v : ℕ → ℝ) (k : Fin 3) : Fin n → ℝ := fun i => v (k * n + i)

end Aerokit.Spec
