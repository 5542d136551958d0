import Verif.Model.Isentropic

/-!
# Model of `aerokit/aero/MassFlow.py`

`scipy.optimize.newton` is external: it is a parameter `newton : (ℝ → Py ℝ) → ℝ → Py ℝ`.
What a theorem assumes about it is a hypothesis of that theorem (see `Spec/Solver.lean`).
-/

namespace Aerokit.MassFlow

/-- Type of the external scalar root finder `scipy.optimize.newton(f, x0)`. -/
abbrev RootFinder := (ℝ → Py ℝ) → ℝ → Py ℝ

/-- `__MachSub_sigma`, initial guess (`MassFlow.py:12-15`). -/
noncomputable def MachSub_sigma_init (sigma gamma : ℝ) : Py ℝ := do
  let i ← Py.div 1.0 sigma
  let k ← Py.div (4.0 * (gamma - 1.0)) (3.0 - gamma)
  let s ← Py.sqrt ((1.0 - i) * k)
  return 1.0 - s

/-- `__MachSup_sigma`, initial guess (`MassFlow.py:18-19`). -/
noncomputable def MachSup_sigma_init (sigma gamma : ℝ) : Py ℝ := do
  let k ← Py.div (4.0 * (gamma - 1.0)) (3.0 - gamma)
  let s ← Py.sqrt ((sigma - 1.0) * k)
  return 1.0 + s

/-- `WeightMassFlow` (`MassFlow.py:25-30`); the argument `r` is unused by the code. -/
noncomputable def WeightMassFlow (Mach _r gamma : ℝ) : Py ℝ := do
  let s ← Py.sqrt gamma
  let e ← Py.div (-0.5 * (gamma + 1.0)) (gamma - 1.0)
  let w ← Py.pow (1.0 + 0.5 * (gamma - 1) * Mach ^ 2) e
  return s * Mach * w

/-- `Sigma_Mach` (`MassFlow.py:33-36`). -/
noncomputable def Sigma_Mach (Mach gamma : ℝ) : Py ℝ := do
  let c ← Py.div 2.0 (gamma + 1.0)
  let e ← Py.div (0.5 * (gamma + 1.0)) (gamma - 1.0)
  let w ← Py.pow (c * (1.0 + 0.5 * (gamma - 1) * Mach ^ 2)) e
  Py.div w Mach

/-- The function whose root is searched, `sigma_of_mach` (`MassFlow.py:45-46`). -/
noncomputable def sigma_residual (sigma gamma m : ℝ) : Py ℝ := do
  let s ← Sigma_Mach m gamma
  return s - sigma

/-- `Mach_Sigma` for a scalar `Mach` (`MassFlow.py:39-49`, branch `np.size(Mach) == 1`). -/
noncomputable def Mach_Sigma (newton : RootFinder) (sigma Mach gamma : ℝ) : Py ℝ :=
  newton (sigma_residual sigma gamma) Mach

/-- `Mach_Sigma` for an array `Mach` of size ≠ 1 (`MassFlow.py:39-49`, first branch): the given
Mach numbers only select, elementwise, the subsonic or supersonic initial guess (`np.where`
evaluates both guesses, a NaN in the unselected one is discarded), then scipy's vectorised newton
is run; the model runs the scalar solver elementwise (scipy iterates the whole array together,
which has the same fixed points). -/
noncomputable def Mach_Sigma_array (newton : RootFinder) (sigma Mach : List ℝ) (gamma : ℝ) :
    Py (List ℝ) :=
  (sigma.zip Mach).mapM fun (s, m) => do
    let m0 ← if m ≤ 1.0 then MachSub_sigma_init s gamma else MachSup_sigma_init s gamma
    newton (sigma_residual s gamma) m0

/-- `MachSub_Sigma` (`MassFlow.py:52-55`), scalar. -/
noncomputable def MachSub_Sigma (newton : RootFinder) (sigma gamma : ℝ) : Py ℝ := do
  let m ← MachSub_sigma_init sigma gamma
  Mach_Sigma newton sigma m gamma

/-- `MachSup_Sigma` (`MassFlow.py:58-63`), scalar. -/
noncomputable def MachSup_Sigma (newton : RootFinder) (sigma gamma : ℝ) : Py ℝ := do
  let m ← MachSup_sigma_init sigma gamma
  Mach_Sigma newton sigma m gamma

/-- `MachSub_Sigma` (`MassFlow.py:52-55`) for an array `sigma` of size ≠ 1: the subsonic guesses are
computed, then handed as `Mach` to `Mach_Sigma`, which uses them only to select a guess again. -/
noncomputable def MachSub_Sigma_array (newton : RootFinder) (sigma : List ℝ) (gamma : ℝ) : Py (List ℝ) := do
  let m ← sigma.mapM fun s => MachSub_sigma_init s gamma
  Mach_Sigma_array newton sigma m gamma

/-- `MachSup_Sigma` (`MassFlow.py:58-63`) for an array `sigma` of size ≠ 1. -/
noncomputable def MachSup_Sigma_array (newton : RootFinder) (sigma : List ℝ) (gamma : ℝ) : Py (List ℝ) := do
  let m ← sigma.mapM fun s => MachSup_sigma_init s gamma
  Mach_Sigma_array newton sigma m gamma

end Aerokit.MassFlow
