import Verif.Model.MassFlow

/-! # Contract assumed of the external scalar root finders -/

namespace Aerokit.Spec
open MassFlow

/-- When the root finder returns a value (instead of raising), that value is a root of the function
it was given.  (scipy: root up to its tolerance; the tolerance is idealised to 0.) -/
def SoundRootFinder (newton : RootFinder) : Prop :=
  ∀ (f : ℝ → Py ℝ) (x0 x : ℝ), newton f x0 = .ok x → f x = .ok 0

/-- A sound root finder exists (so the hypothesis is satisfiable): pick a root if there is one. -/
theorem exists_soundRootFinder : ∃ nf : RootFinder, SoundRootFinder nf ∧
    ∀ f x0, (∃ x, f x = .ok 0) → ∃ x, nf f x0 = .ok x := by
  classical
  refine ⟨fun f _ => if h : ∃ x, f x = .ok 0 then .ok h.choose else .error .noConvergence, ?_, ?_⟩
  · intro f x0 x h
    by_cases hx : ∃ x, f x = .ok 0
    · simp only [hx, dite_true] at h
      cases h; exact hx.choose_spec
    · simp [hx] at h
  · intro f x0 hx
    exact ⟨hx.choose, by simp [hx]⟩

/-- Contract of the solver on the area-ratio equation: a returned value is a root, and a solver
started at or below Mach 1 (resp. at or above) returns a root at or below (resp. at or above) Mach 1. -/
def BranchRootFinder (newton : RootFinder) : Prop :=
  ∀ (σ γ x0 x : ℝ), newton (sigma_residual σ γ) x0 = .ok x →
    sigma_residual σ γ x = .ok 0 ∧ (x0 ≤ 1 → x ≤ 1) ∧ (1 ≤ x0 → 1 ≤ x)

/-- such a solver exists, and it can be chosen to succeed whenever a root exists on the branch of the guess -/
theorem exists_branchRootFinder : ∃ nf : RootFinder, SoundRootFinder nf ∧ BranchRootFinder nf ∧
    ∀ f x0, (∃ x, f x = .ok 0 ∧ (x0 ≤ 1 → x ≤ 1) ∧ (1 ≤ x0 → 1 ≤ x)) → ∃ x, nf f x0 = .ok x := by
  classical
  refine ⟨fun f x0 => if h : ∃ x, f x = .ok 0 ∧ (x0 ≤ 1 → x ≤ 1) ∧ (1 ≤ x0 → 1 ≤ x) then .ok h.choose
    else .error .noConvergence, ?_, ?_, ?_⟩
  · intro f x0 x h
    by_cases hx : ∃ x, f x = .ok 0 ∧ (x0 ≤ 1 → x ≤ 1) ∧ (1 ≤ x0 → 1 ≤ x)
    · simp only [hx, dite_true] at h
      cases h; exact hx.choose_spec.1
    · simp only [hx, dite_false] at h; cases h
  · intro σ γ x0 x h
    by_cases hx : ∃ x, sigma_residual σ γ x = .ok 0 ∧ (x0 ≤ 1 → x ≤ 1) ∧ (1 ≤ x0 → 1 ≤ x)
    · simp only [hx, dite_true] at h
      cases h; exact hx.choose_spec
    · simp only [hx, dite_false] at h; cases h
  · intro f x0 hx
    exact ⟨hx.choose, by simp only [hx, dite_true]⟩

end Aerokit.Spec
