import Verif.Model.Riemann

/-!
# Model of `aerokit/instance/unsteady_inflow.py`

`scipy.optimize.fsolve` is a parameter.  (It returns a length-1 array; the model uses the scalar.)
The object is modelled with its attributes optional: reading an attribute that was never assigned
raises `AttributeError`.
-/

namespace Aerokit.Inflow
open Model1D Unsteady1D
open MassFlow (RootFinder)

/-- attributes of an `inflow_pb` object (`unsteady_inflow.py:32-45`, assigned at l.97-108).
`waves` is the attribute `_waves`, read by `left_fastest`/`right_fastest` but assigned nowhere. -/
structure Pb where
  qR : UState
  pstar : Option ℝ := none
  ustar : Option ℝ := none
  qstarR : Option UState := none
  qstarL : Option UState := none
  waves : Option (List ℝ) := none

/-- reading an attribute -/
def attr {α : Type} : Option α → Py α
  | some a => .ok a
  | none => .error .attributeError

/-- `__init__` (`unsteady_inflow.py:44-45`) -/
def init (qinit : UState) : Pb := { qR := qinit }

/-- `left_fastest` (`unsteady_inflow.py:54-55`) -/
def Pb.left_fastest (s : Pb) : Py ℝ := do
  let w ← attr s.waves
  match w[0]? with
  | some x => pure x
  | none => .error .indexError

/-- `right_fastest` (`unsteady_inflow.py:57-58`) -/
def Pb.right_fastest (s : Pb) : Py ℝ := do
  let w ← attr s.waves
  match w[4]? with
  | some x => pure x
  | none => .error .indexError

/-- `ustar` (`unsteady_inflow.py:60-61`) -/
def Pb.getUstar (s : Pb) : Py ℝ := attr s.ustar
/-- `pstar` (`unsteady_inflow.py:63-64`) -/
def Pb.getPstar (s : Pb) : Py ℝ := attr s.pstar
/-- `qstarL` (`unsteady_inflow.py:66-67`) -/
def Pb.getQstarL (s : Pb) : Py UState := attr s.qstarL
/-- `qstarR` (`unsteady_inflow.py:69-70`) -/
def Pb.getQstarR (s : Pb) : Py UState := attr s.qstarR

/-- `_delta_uR` (`unsteady_inflow.py:72-78`) -/
noncomputable def delta_uR (qR : UState) (p : ℝ) : Py ℝ :=
  if p > qR.p then UState.delta_u_shock qR p else UState.delta_u_expansion qR p

/-- `_pt0_from_pstar_rtt0` (`unsteady_inflow.py:80-84`) -/
noncomputable def pt0_from_pstar_rtt0 (qR : UState) (p rtt0 : ℝ) : Py ℝ := do
  let d ← delta_uR qR p
  let ustar := qR.u + d
  let gam := qR.gamma
  let gsgmu ← Py.div gam (gam - 1.0)
  let q ← Py.div (0.5 * ustar ^ 2) (gsgmu * rtt0 - 0.5 * ustar ^ 2)
  let w ← Py.pow (1.0 + q) gsgmu
  return p * w

/-- `_pstar_estimate_expansion` (`unsteady_inflow.py:86-91`) -/
noncomputable def pstar_estimate_expansion (qR : UState) (pt0 : ℝ) : Py ℝ := Py.sqrt (qR.p * pt0)

/-- `dpt` inside `solve_with_pt0_rtt0` (`unsteady_inflow.py:94-95`) -/
noncomputable def dpt (qR : UState) (pt0 rtt0 p : ℝ) : Py ℝ := do
  let x ← pt0_from_pstar_rtt0 qR p rtt0
  return x - pt0

/-- `solve_with_pt0_rtt0` (`unsteady_inflow.py:93-109`): the new content of the object. -/
noncomputable def Pb.solve_with_pt0_rtt0 (fsolve : RootFinder) (s : Pb) (pt0 rtt0 : ℝ) : Py Pb := do
  let p0 ← pstar_estimate_expansion s.qR pt0
  let pstar ← fsolve (dpt s.qR pt0 rtt0) p0
  let d ← delta_uR s.qR pstar
  let ustar := s.qR.u + d
  let rho ← if pstar > s.qR.p then UState.rho_through_shock s.qR pstar
    else UState.rho_through_isentropic s.qR pstar
  let qsR : UState := ⟨rho, ustar, pstar, s.qR.gamma⟩
  let qsL ← s.qR.compute_from_pt_rtt_u pt0 rtt0 ustar
  return { s with pstar := some pstar, ustar := some ustar, qstarR := some qsR, qstarL := some qsL }

end Aerokit.Inflow
