import Verif.Spec.Flow
import Mathlib.MeasureTheory.Integral.IntervalIntegral.Basic
import Mathlib.Analysis.Calculus.Deriv.Basic

/-!
# Conservation laws of one-dimensional gas dynamics (specification of C109)

A self-similar flow is a function `q` of `ξ = x/t`.  Mass, momentum and energy in the segment `[a t, b t]`, which is empty at `t = 0`, come from
the fluxes through its moving ends: `∫_a^b U(q ξ) dξ = (F - a U)(q a) - (F - b U)(q b)`.  For smooth flows this is the Euler system.
-/

namespace Aerokit.Spec

/-- the three conserved quantities -/
inductive Law | mass | momentum | energy

/-- quantity per unit length -/
noncomputable def Law.density (γ : ℝ) (f : Flow) : Law → ℝ
  | .mass => f.rho
  | .momentum => f.rho * f.u
  | .energy => f.p / (γ - 1) + f.rho * f.u ^ 2 / 2

/-- flux through a fixed point -/
noncomputable def Law.flux (γ : ℝ) (f : Flow) : Law → ℝ
  | .mass => f.rho * f.u
  | .momentum => f.rho * f.u ^ 2 + f.p
  | .energy => f.u * (f.p / (γ - 1) + f.rho * f.u ^ 2 / 2 + f.p)

/-- flux through a point moving at velocity `w` -/
noncomputable def Law.movingFlux (γ : ℝ) (f : Flow) (w : ℝ) (l : Law) : ℝ := l.flux γ f - w * l.density γ f

/-- Euler equations in primitive variables for a flow that depends on `ξ = x/t` only -/
def SelfSimilarEuler (γ : ℝ) (q : ℝ → Flow) (ξ : ℝ) : Prop :=
  ∃ dρ du dp, HasDerivAt (fun x => (q x).rho) dρ ξ ∧ HasDerivAt (fun x => (q x).u) du ξ ∧ HasDerivAt (fun x => (q x).p) dp ξ ∧
    ((q ξ).u - ξ) * dρ + (q ξ).rho * du = 0 ∧
    (q ξ).rho * ((q ξ).u - ξ) * du + dp = 0 ∧
    ((q ξ).u - ξ) * dp + γ * (q ξ).p * du = 0

/-- balance of one conserved quantity over `[a t, b t]`; `γ ξ` is the gas at `ξ` -/
def Balanced (l : Law) (γ : ℝ → ℝ) (q : ℝ → Flow) (a b : ℝ) : Prop :=
  IntervalIntegrable (fun x => l.density (γ x) (q x)) MeasureTheory.volume a b ∧
  ∫ x in a..b, l.density (γ x) (q x) = l.movingFlux (γ a) (q a) a - l.movingFlux (γ b) (q b) b

end Aerokit.Spec
