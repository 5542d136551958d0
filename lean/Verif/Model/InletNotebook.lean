import Verif.Model.Model1D

/-!
# Model of `notebooks/aero/unsteady_inflow.ipynb`, cell 1 : the two reference flows of the inlet

The initial state, the two final states with imposed total pressure (same static pressure, same Mach number), their flow rates and the denominators of the
normalised curves, at one pressure ratio (one pass of the loop).  `M0` (here `0.3`) and `taux_tt` (here `1.`) are parameters of the cell: `M0` is kept,
`taux_tt` is 1.  The star states (`inlet.solve_with_pt0_rtt0`) are those of the model `Inflow` (C64, C117); the figures are not modelled.
-/

namespace Aerokit.InletNotebook
open Model1D

/-- `qi = uq.unsteady_state(rho=1., u=M0*np.sqrt(1.4), p=1.)` (cell 1, l. 2) -/
noncomputable def qi (M0 : ℝ) : Py State := do
  let a ← Py.sqrt 1.4
  return State.initDefault 1.0 (M0 * a) 1.0

/-- the three reference flow rates of a pass (cell 1, l. 22-33): `mf0`, `mff`, `mffb` -/
noncomputable def rates (M0 pi : ℝ) : Py (ℝ × ℝ × ℝ) := do
  let q ← qi M0
  let rtti ← q.rTtot
  let pt ← q.Ptot
  let qf ← (q.copy).compute_from_pt_rtt_p (pi * pt) (1.0 * rtti) q.p
  let qfb ← (q.copy).compute_from_pt_rtt_M (pi * pt) (1.0 * rtti) M0
  return (q.massflow, qf.massflow, qfb.massflow)

/-- a point of the normalised curves (cell 1, l. 49): `(mf - mf0)/(mff - mf0)` and `(mf - mf0)/(mffb - mf0)` for a flow rate `mf` -/
noncomputable def normalised (M0 pi mf : ℝ) : Py (ℝ × ℝ) := do
  let (mf0, mff, mffb) ← rates M0 pi
  let a ← Py.div (mf - mf0) (mff - mf0)
  let b ← Py.div (mf - mf0) (mffb - mf0)
  return (a, b)

end Aerokit.InletNotebook
