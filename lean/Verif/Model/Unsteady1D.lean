import Verif.Model.Model1D

/-!
# Model of `aerokit/aero/unsteady1D.py`

Class `unsteady_state` adds only methods to `model1D.state`, so its objects are `Model1D.State`.
-/

namespace Aerokit.Unsteady1D
open Model1D Isentropic ShockWave

abbrev UState := Model1D.State

namespace UState

/-- `copy` (`unsteady1D.py:35-36`), a deep copy. -/
def copy (s : UState) : UState := s

/-- `copysymmetric` (`unsteady1D.py:38-39`). -/
def copysymmetric (s : UState) : UState := ⟨s.rho, -s.u, s.p, s.gamma⟩

/-- `_rankinehugoniot_from_ushock` (`unsteady1D.py:41-55`). -/
noncomputable def rankinehugoniot_from_ushock (s : UState) (ushock : ℝ) : Py UState := do
  let a ← s.asound
  let loc_Mn ← Py.div (s.u - ushock) a
  let rho_ratio ← Rho_ratio loc_Mn s.gamma
  let w ← Py.div (s.u - ushock) rho_ratio
  let pr ← Ps_ratio loc_Mn s.gamma
  return ⟨s.rho * rho_ratio, ushock + w, s.p * pr, s.gamma⟩

/-- `delta_u_expansion` (`unsteady1D.py:57-71`). -/
noncomputable def delta_u_expansion (s : UState) (p : ℝ) : Py ℝ := do
  let gmusd := 0.5 * (s.gamma - 1.0)
  let a ← s.asound
  let k ← Py.div a gmusd
  let r ← Py.div p s.p
  let e ← Py.div gmusd s.gamma
  let w ← Py.pow r e
  return k * (w - 1.0)

/-- `delta_u_shock` (`unsteady1D.py:73-87`). -/
noncomputable def delta_u_shock (s : UState) (p : ℝ) : Py ℝ := do
  let q ← Py.div 2.0 s.rho
  let x ← Py.div q ((s.gamma + 1.0) * p + (s.gamma - 1.0) * s.p)
  let r ← Py.sqrt x
  return (p - s.p) * r

/-- `rho_through_shock` (`unsteady1D.py:89-97`). -/
noncomputable def rho_through_shock (s : UState) (p : ℝ) : Py ℝ := do
  let gmusgpu ← Py.div (s.gamma - 1.0) (s.gamma + 1.0)
  let pratio ← Py.div p s.p
  Py.div (s.rho * (pratio + gmusgpu)) (1.0 + gmusgpu * pratio)

/-- `rho_through_isentropic` (`unsteady1D.py:99-103`). -/
noncomputable def rho_through_isentropic (s : UState) (p : ℝ) : Py ℝ := do
  let r ← Py.div p s.p
  let e ← Py.div 1.0 s.gamma
  let w ← Py.pow r e
  return s.rho * w

/-- `shock_downstream` (`unsteady1D.py:105-108`): body is only a docstring, returns `None`. -/
def shock_downstream (_ : UState) (_ : ℝ) : Option UState := none

end UState
end Aerokit.Unsteady1D
