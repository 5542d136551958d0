import Verif.Model.Riemann
import Verif.Model.Degree

/-!
# Model of `notebooks/Riemann-GuideVane.py`

A choked guide vane of angle `alpha` and the waves sent when the total pressure ahead of it is multiplied by `Ptot_ratio`.  The constants of
the script (`alpha = 50`, `p0c = 1e5`, `Ptot_ratio = 1.4`) are parameters; `scipy.optimize.newton` is one too, for the area ratio (`newtonS`)
and for the Riemann problems (`newtonR`).  The printed numbers are functions of the attributes of the result.
-/

namespace Aerokit.GuideVane
open Isentropic Model1D
open MassFlow (RootFinder)

/-- the variables of the script that are printed or whose methods are printed (`Riemann-GuideVane.py:22-87`) -/
structure Out where
  AoAc : ℝ
  M0 : ℝ
  q0 : State
  q1f : State
  pb1 : Riemann.Pb
  M10 : ℝ
  q10 : State
  pb2 : Riemann.Pb

/-- the initial state (`Riemann-GuideVane.py:22-37`) -/
noncomputable def initial (newtonS : RootFinder) (alpha p0c : ℝ) : Py (ℝ × ℝ × State) := do
  let AoAc ← Py.div 1.0 (degree.cos alpha)
  let M0 ← MassFlow.Mach_Sigma newtonS AoAc 0.2 DefaultGas.gamma0
  let k ← PtPs_Mach 1.0 DefaultGas.gamma0
  let Pt0 := p0c * k
  let k0 ← PtPs_Mach M0 DefaultGas.gamma0
  let p0 ← Py.div Pt0 k0
  let x ← Py.div (1.4 * p0) 1.0
  let a ← Py.sqrt x
  return (AoAc, M0, State.initDefault 1.0 (M0 * a) p0)

/-- hypothesis 1, the final state is imposed (`Riemann-GuideVane.py:51`) -/
noncomputable def final (q0 : State) (Ptot_ratio : ℝ) : State := State.initDefault (q0.rho * Ptot_ratio) q0.u (q0.p * Ptot_ratio)

/-- hypothesis 2, final total pressure and initial pressure (`Riemann-GuideVane.py:73-76`) -/
noncomputable def samePressure (q0 : State) (M0 Ptot_ratio : ℝ) : Py (ℝ × State) := do
  let Pt ← q0.Ptot
  let x ← Py.div (Pt * Ptot_ratio) q0.p
  let M10 ← Mach_PtPs x DefaultGas.gamma0
  let Pt ← q0.Ptot
  let y ← PtPs_Mach M10 DefaultGas.gamma0
  let p10 ← Py.div (Pt * Ptot_ratio) y
  let rt ← Py.div q0.p q0.rho
  let t0 ← TtTs_Mach M0 DefaultGas.gamma0
  let t1 ← TtTs_Mach M10 DefaultGas.gamma0
  let rt1 ← Py.div (rt * t0) t1
  let rho10 ← Py.div p10 rt1
  let a2 ← Py.div (1.4 * p10) rho10
  let a ← Py.sqrt a2
  return (M10, State.initDefault rho10 (M10 * a) p10)

/-- the script (`Riemann-GuideVane.py:13-87`) -/
noncomputable def run (newtonS newtonR : RootFinder) (alpha p0c Ptot_ratio : ℝ) : Py Out := do
  let i ← initial newtonS alpha p0c
  let q0 := i.2.2
  let q1f := final q0 Ptot_ratio
  let pb1 ← Riemann.init newtonR q1f q0
  let j ← samePressure q0 i.2.1 Ptot_ratio
  let pb2 ← Riemann.init newtonR j.2 q0
  return { AoAc := i.1, M0 := i.2.1, q0 := q0, q1f := q1f, pb1 := pb1, M10 := j.1, q10 := j.2, pb2 := pb2 }

end Aerokit.GuideVane
