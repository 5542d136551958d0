import Verif.Model.LinOperator
import Mathlib.LinearAlgebra.Matrix.NonsingularInverse
import Mathlib.Data.List.Sort
import Mathlib.Data.List.Perm.Basic

/-! # Contracts of the numpy/scipy routines used by `LinOperator` -/

namespace Aerokit.Spec

/-- `np.linalg.solve(A, b)` on complex systems: the solution of an invertible system; `LinAlgError` for a singular matrix. -/
def SoundSolveC (solve : LinOperator.SolverC) : Prop :=
  ∀ N A b, (A.det ≠ 0 → ∃ x, solve N A b = .ok x ∧ A.mulVec x = b) ∧ (A.det = 0 → solve N A b = .error .linAlgError)

/-- `np.argsort(l)`: a permutation of the indices, along which the values are non-decreasing. -/
def SoundArgsort (argsort : LinOperator.Argsort) : Prop :=
  ∀ l : List ℝ, (argsort l).Perm (List.range l.length) ∧ ((argsort l).map fun i => l.getD i 0).Pairwise (· ≤ ·)

/-- contract of `scipy.linalg.eig(A, M)`: as many vectors as values, and every returned (finite) value and its vector satisfy
`A v = λ M v` with `v` not zero (infinite values, returned for a singular `M`, are not listed) -/
def SoundEig (eig : LinOperator.Eig) : Prop :=
  ∀ (A M : LinOperator.Mat ℂ) (vals : List ℂ) (vects : List (ℕ → ℂ)), eig A M = .ok (vals, vects) →
    vals.length = vects.length ∧ ∀ p ∈ vals.zip vects, (∃ j < A.size, p.2 j ≠ 0) ∧
      ∀ i < A.size, A.mulVec p.2 i = p.1 * M.mulVec p.2 i

/-- the contract of `solve` can be met -/
theorem exists_soundSolveC : ∃ solve, SoundSolveC solve := by
  classical
  refine ⟨fun N A b => if A.det = 0 then .error .linAlgError else .ok (A⁻¹.mulVec b), fun N A b => ?_⟩
  refine ⟨fun h => ⟨A⁻¹.mulVec b, by simp [h], ?_⟩, fun h => by simp [h]⟩
  rw [Matrix.mulVec_mulVec, Matrix.mul_nonsing_inv _ (isUnit_iff_ne_zero.2 h), Matrix.one_mulVec]

/-- the contract of `argsort` can be met -/
theorem exists_soundArgsort : ∃ argsort, SoundArgsort argsort := by
  classical
  refine ⟨fun l => (List.range l.length).insertionSort fun i j => l.getD i 0 ≤ l.getD j 0, fun l => ⟨List.perm_insertionSort _ _, ?_⟩⟩
  rw [List.pairwise_map]
  haveI : Std.Total fun i j : ℕ => l.getD i 0 ≤ l.getD j 0 := ⟨fun i j => le_total _ _⟩
  haveI : IsTrans ℕ fun i j : ℕ => l.getD i 0 ≤ l.getD j 0 := ⟨fun _ _ _ h h' => le_trans h h'⟩
  exact List.pairwise_insertionSort _ _

end Aerokit.Spec
