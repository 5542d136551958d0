import Verif.Model.MassFlow
import Verif.Model.DefaultGas

/-!
# Model of `notebooks/Sigma-approximation.ipynb`, cells 1 and 2

Approximations of the area function drawn next to it, and its two inverses.  `gamma` (cell 1, l. 2: `1.4`) is a parameter of the curves; `mf` is called
without it, with `defg._gamma = 1.4`.  `_M` (200 points from .01 to 4) is a parameter; scipy's `newton` is a parameter.  The figures are not modelled.
-/

namespace Aerokit.SigmaApprox
open MassFlow

/-- `rgam` (cell 1, l. 3) -/
noncomputable def rgam (gamma : ℝ) : Py ℝ := Py.div (gamma + 1.0) (gamma - 1.0)

/-- `(2./(gamma+1.))**(.5*rgam)/_M` (cell 1, l. 7), at a point -/
noncomputable def low (gamma m : ℝ) : Py ℝ := do
  let r ← rgam gamma
  let q ← Py.div 2.0 (gamma + 1.0)
  let w ← Py.pow q (0.5 * r)
  Py.div w m

/-- `((rgam+_M*_M))**(.5*(rgam-1))/rgam**(.5*rgam)` (cell 1, l. 7), at a point -/
noncomputable def high (gamma m : ℝ) : Py ℝ := do
  let r ← rgam gamma
  let w ← Py.pow (r + m * m) (0.5 * (r - 1))
  let d ← Py.pow r (0.5 * r)
  Py.div w d

/-- cell 1, l. 5 and cell 2: `_S`, `mf.MachSub_Sigma(_S)`, `mf.MachSup_Sigma(_S)` -/
noncomputable def inverses (newton : RootFinder) (M : List ℝ) : Py (List ℝ × List ℝ × List ℝ) := do
  let S ← M.mapM fun m => Sigma_Mach m DefaultGas.gamma0
  let a ← MachSub_Sigma_array newton S DefaultGas.gamma0
  let b ← MachSup_Sigma_array newton S DefaultGas.gamma0
  return (S, a, b)

end Aerokit.SigmaApprox
