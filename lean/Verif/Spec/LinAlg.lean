import Verif.Model.Py
import Mathlib.LinearAlgebra.Matrix.NonsingularInverse
import Mathlib.Algebra.BigOperators.Fin
import Mathlib.Analysis.InnerProductSpace.PiL2
import Mathlib.Analysis.InnerProductSpace.Projection.Minimal

/-! # Contracts of the numpy linear algebra routines used by aerokit -/

namespace Aerokit.Spec

/-- `np.linalg.solve(A, b)`: for an invertible `A` returns the solution; for a singular one raises
`LinAlgError`. -/
def SoundSolve (solve : ∀ N : ℕ, Matrix (Fin N) (Fin N) ℝ → (Fin N → ℝ) → Py (Fin N → ℝ)) : Prop :=
  ∀ N A b, (A.det ≠ 0 → ∃ x, solve N A b = .ok x ∧ A.mulVec x = b) ∧
    (A.det = 0 → solve N A b = .error .linAlgError)

/-- `np.linalg.lstsq(A, b)[0]`: a minimiser of `‖A x - b‖²`. -/
def SoundLstsq (lstsq : ∀ m N : ℕ, Matrix (Fin m) (Fin N) ℝ → (Fin m → ℝ) → Py (Fin N → ℝ)) : Prop :=
  ∀ m N A b, ∃ x, lstsq m N A b = .ok x ∧
    ∀ y, ∑ i, (A.mulVec x i - b i) ^ 2 ≤ ∑ i, (A.mulVec y i - b i) ^ 2

/-- the contract of `solve` can be met -/
theorem exists_soundSolve : ∃ solve, SoundSolve solve := by
  classical
  refine ⟨fun N A b => if A.det = 0 then .error .linAlgError else .ok (A⁻¹.mulVec b), fun N A b => ?_⟩
  refine ⟨fun h => ⟨A⁻¹.mulVec b, by simp [h], ?_⟩, fun h => by simp [h]⟩
  rw [Matrix.mulVec_mulVec, Matrix.mul_nonsing_inv _ (isUnit_iff_ne_zero.2 h), Matrix.one_mulVec]

/-- the contract of `lstsq` can be met -/
theorem exists_soundLstsq : ∃ lstsq, SoundLstsq lstsq := by
  have key : ∀ (m N : ℕ) (A : Matrix (Fin m) (Fin N) ℝ) (b : Fin m → ℝ), ∃ x : Fin N → ℝ,
      ∀ y, ∑ i, (A.mulVec x i - b i) ^ 2 ≤ ∑ i, (A.mulVec y i - b i) ^ 2 := by
    intro m N A b
    let L : (Fin N → ℝ) →ₗ[ℝ] EuclideanSpace ℝ (Fin m) :=
      (WithLp.linearEquiv 2 ℝ (Fin m → ℝ)).symm.toLinearMap ∘ₗ A.mulVecLin
    let K := LinearMap.range L
    obtain ⟨w, hw, hmin⟩ := K.exists_norm_eq_iInf_of_complete_subspace
      (Submodule.complete_of_finiteDimensional K) (WithLp.toLp 2 b)
    obtain ⟨x, rfl⟩ := hw
    refine ⟨x, fun y => ?_⟩
    have hle : ‖WithLp.toLp 2 b - L x‖ ≤ ‖WithLp.toLp 2 b - L y‖ := by
      rw [hmin]
      exact ciInf_le ⟨0, by rintro _ ⟨v, rfl⟩; exact norm_nonneg _⟩ (⟨L y, y, rfl⟩ : K)
    have hsq : ∀ z, ‖WithLp.toLp 2 b - L z‖ ^ 2 = ∑ i, (A.mulVec z i - b i) ^ 2 := by
      intro z
      rw [EuclideanSpace.norm_sq_eq]
      refine Finset.sum_congr rfl fun i _ => ?_
      rw [Real.norm_eq_abs, sq_abs, ← neg_sq]
      congr 1
      change -(b i - A.mulVec z i) = _
      ring
    rw [← hsq, ← hsq]
    exact pow_le_pow_left₀ (norm_nonneg _) hle 2
  choose f hf using key
  exact ⟨fun m N A b => .ok (f m N A b), fun m N A b => ⟨_, rfl, hf m N A b⟩⟩

end Aerokit.Spec
