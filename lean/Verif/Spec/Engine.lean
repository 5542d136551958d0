import Mathlib.Analysis.SpecialFunctions.Pow.Real

/-!
# Specification: components of an aircraft engine (perfect gases)

Independent of the code: textbook definitions only.
-/

namespace Aerokit.Spec.Engine

/-- specific heat at constant pressure `γ r / (γ - 1)` -/
noncomputable def cp (γ r : ℝ) : ℝ := γ * r / (γ - 1)

/-- Total enthalpy balance of a combustion chamber, per unit mass of air: `far` units of fuel of
heating value `Pci` are burnt with efficiency `eta`. -/
def CombustionBalance (cpc Tt3 cph Tt4 far eta Pci : ℝ) : Prop :=
  (1 + far) * (cph * Tt4) - cpc * Tt3 = eta * (far * Pci)

/-- Compression of polytropic efficiency `η`: the isentropic temperature rise is `η` times the
actual one, in each small step (`η · dT/T = (γ-1)/γ · dP/P`, integrated). -/
def PolytropicCompression (γ η P1 T1 P2 T2 : ℝ) : Prop :=
  η * Real.log (T2 / T1) = (γ - 1) / γ * Real.log (P2 / P1)

/-- Expansion of polytropic efficiency `η`: the actual temperature drop is `η` times the isentropic
one, in each small step. -/
def PolytropicExpansion (γ η P1 T1 P2 T2 : ℝ) : Prop :=
  Real.log (T2 / T1) = η * ((γ - 1) / γ * Real.log (P2 / P1))

/-- Velocity of a jet expanded isentropically from total conditions `Pt`, `Tt` to the pressure `P`
(Saint-Venant formula). -/
noncomputable def jetVelocity (γ r Pt Tt P : ℝ) : ℝ :=
  Real.sqrt (2 * cp γ r * Tt * (1 - (P / Pt) ^ ((γ - 1) / γ)))

/-- Static temperature of that jet. -/
noncomputable def jetTemperature (γ Pt Tt P : ℝ) : ℝ := Tt * (P / Pt) ^ ((γ - 1) / γ)

/-- Thrust of adapted jets `(mass flow, velocity)` for an air flow `m0` captured at the flight velocity `V0`: momentum balance. -/
def thrust (m0 V0 : ℝ) (jets : List (ℝ × ℝ)) : ℝ := (jets.map fun j => j.1 * j.2).sum - m0 * V0

/-- Kinetic power given to the flow: kinetic energy balance. -/
noncomputable def kineticPower (m0 V0 : ℝ) (jets : List (ℝ × ℝ)) : ℝ :=
  (jets.map fun j => j.1 * j.2 ^ 2 / 2).sum - m0 * V0 ^ 2 / 2

/-! Ideal separate-flow turbofan (no loss, one gas, fuel flow neglected), bypass ratio `lam`, core compressor exit `Tt3`, turbine entry `Tt4`,
fan exit `Tt13`, all total temperatures, ambient `T0`, fan inlet `Tt2`.  Jet energies are `V²/(2 cp)`. -/

/-- The turbine drives compressor and fan; the core gas, at the pressure of `Tt3` when it is at `Tt4`, expands to ambient pressure. -/
noncomputable def idealCoreJet (lam T0 Tt2 Tt3 Tt4 Tt13 : ℝ) : ℝ := Tt4 - (Tt3 - Tt2) - lam * (Tt13 - Tt2) - Tt4 * (T0 / Tt3)

/-- The bypass air is compressed and expanded back to ambient conditions. -/
def idealBypassJet (T0 Tt13 : ℝ) : ℝ := Tt13 - T0

/-- Thrust of both jets per unit core mass flow, ram drag apart, in units of `sqrt (2 cp)`. -/
noncomputable def idealJetThrust (lam T0 Tt2 Tt3 Tt4 Tt13 : ℝ) : ℝ :=
  Real.sqrt (idealCoreJet lam T0 Tt2 Tt3 Tt4 Tt13) + lam * Real.sqrt (idealBypassJet T0 Tt13)

/-- The engine works with the fan exit temperature `Tt13`, and no other fan exit temperature with which it works gives more thrust. -/
def IsOptimalFan (lam T0 Tt2 Tt3 Tt4 Tt13 : ℝ) : Prop :=
  0 ≤ idealCoreJet lam T0 Tt2 Tt3 Tt4 Tt13 ∧ 0 ≤ idealBypassJet T0 Tt13 ∧
    ∀ x, 0 ≤ idealCoreJet lam T0 Tt2 Tt3 Tt4 x → 0 ≤ idealBypassJet T0 x →
      idealJetThrust lam T0 Tt2 Tt3 Tt4 x ≤ idealJetThrust lam T0 Tt2 Tt3 Tt4 Tt13

end Aerokit.Spec.Engine
