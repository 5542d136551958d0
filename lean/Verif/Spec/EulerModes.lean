import Verif.Model.LinOperator
import Mathlib.Data.Complex.Basic

/-! # Modes of the linearised Euler equations (specification of property C113) -/

namespace Aerokit.Spec

/-- `(ω, v)` is a mode of `At dq/dt = B q`: `exp(-i ω t) v` is a non-zero solution -/
def IsMode (B At : LinOperator.Mat ℝ) (ω : ℂ) (v : ℕ → ℂ) : Prop :=
  (∃ j < B.size, v j ≠ 0) ∧ ∀ i < B.size, B.toComplex.mulVec v i = (-Complex.I * ω) * At.toComplex.mulVec v i

/-- field number `k` (0: density, 1: velocity, 2: pressure) stored in a long complex vector -/
def cfield (n : ℕ) (v : ℕ → ℂ) (k : Fin 3) : Fin n → ℂ := fun i => v (k * n + i)

/-- derivative of a complex field by a real differentiation matrix -/
noncomputable def dC {n : ℕ} (D : Matrix (Fin n) (Fin n) ℝ) (w : Fin n → ℂ) (i : Fin n) : ℂ := ∑ j, (D i j : ℂ) * w j

/-- the Euler equations linearised about the base flow `(rho, u, p)`, for a perturbation `exp(-i ω t) (r, v, q)`,
at the node `i` -/
noncomputable def LinEuler {n : ℕ} (D : Matrix (Fin n) (Fin n) ℝ) (γ : ℝ) (rho u p : Fin n → ℝ) (ω : ℂ) (r v q : Fin n → ℂ)
    (i : Fin n) : Prop :=
  -Complex.I * ω * r i + (u i * dC D r i + v i * D.mulVec rho i + rho i * dC D v i + r i * D.mulVec u i) = 0 ∧
  -Complex.I * ω * v i + (u i * dC D v i + v i * D.mulVec u i + dC D q i / rho i - D.mulVec p i / rho i ^ 2 * r i) = 0 ∧
  -Complex.I * ω * q i + (u i * dC D q i + v i * D.mulVec p i + γ * p i * dC D v i + γ * q i * D.mulVec u i) = 0

/-- periodic sampled function: same value and same derivative at both ends -/
def Periodic {n : ℕ} (hn : 2 ≤ n) (D : Matrix (Fin n) (Fin n) ℝ) (w : Fin n → ℂ) : Prop :=
  w ⟨0, by omega⟩ = w ⟨n - 1, by omega⟩ ∧ dC D w ⟨0, by omega⟩ = dC D w ⟨n - 1, by omega⟩

/-- `exp(-i ω t) w` is a non-zero periodic wave carried at the speed `s` (`∂w/∂t + s ∂w/∂x = 0` at the interior nodes) -/
def PeriodicWave {n : ℕ} (hn : 2 ≤ n) (D : Matrix (Fin n) (Fin n) ℝ) (s ω : ℂ) (w : Fin n → ℂ) : Prop :=
  w ≠ 0 ∧ Periodic hn D w ∧ ∀ i : Fin n, 0 < (i:ℕ) → (i:ℕ) < n - 1 → s * dC D w i = Complex.I * ω * w i

end Aerokit.Spec
