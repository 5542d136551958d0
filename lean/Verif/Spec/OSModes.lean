import Verif.Spec.EulerModes
import Verif.Spec.OrrSommerfeld

/-! # Modes of the Orr–Sommerfeld problem (specification of property C114) -/

namespace Aerokit.Spec

/-- `(ω, v)` is a mode of `At dq/dt = B q` (complex matrices) -/
def IsModeC (B At : LinOperator.Mat ℂ) (ω : ℂ) (v : ℕ → ℂ) : Prop :=
  (∃ j < B.size, v j ≠ 0) ∧ ∀ i < B.size, B.mulVec v i = (-Complex.I * ω) * At.mulVec v i

/-- `v` (sampled at the nodes) solves the collocated Orr–Sommerfeld problem with walls: it is not zero, `v` and `v'` vanish
at both ends, and the Orr–Sommerfeld equation holds at the nodes which are not one of the two next to each wall;
`D1`, `D2`, `D4` are the differentiation matrices and `U` the sampled velocity profile -/
def OSMode {n : ℕ} (hn : 4 ≤ n) (D1 D2 D4 : Matrix (Fin n) (Fin n) ℝ) (U : Fin n → ℝ) (α : ℂ) (Re : ℝ) (ω : ℂ) (v : Fin n → ℂ) : Prop :=
  v ≠ 0 ∧ (v ⟨0, by omega⟩ = 0 ∧ dC D1 v ⟨0, by omega⟩ = 0 ∧ v ⟨n - 1, by omega⟩ = 0 ∧ dC D1 v ⟨n - 1, by omega⟩ = 0) ∧
    ∀ i : Fin n, 2 ≤ (i:ℕ) → (i:ℕ) < n - 2 →
      orrSommerfeld α ω Re (U i) (D2.mulVec U i) (v i) (dC D2 v i) (dC D4 v i) = 0

end Aerokit.Spec
