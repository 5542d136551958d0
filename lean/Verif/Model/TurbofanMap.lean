import Verif.Model.GasGenerator
import Mathlib.Algebra.Order.Floor.Ring

/-!
# `examples/turbofan.py` : efficiency and thrust of a family of turbofans

Simplifications: the arrays are lists of real numbers; numpy evaluates every entry of the two dimensional arrays by the scalar formulas
(a division or a root that numpy answers by `nan` and a warning is an error here); the contours that matplotlib draws from the arrays are
not modelled, only the arrays handed to it.
-/

namespace Aerokit.TurbofanMap

/-- `np.arange(start, stop, step)` (used at `turbofan.py:14,16`): numpy computes the number of entries as the ceiling of the quotient; real numbers here -/
noncomputable def arange (start stop step : ℝ) : List ℝ :=
  (List.range ⌈(stop - start) / step⌉.toNat).map fun k : ℕ => start + k * step

/-- `turbofan.py:8-10,12` -/
noncomputable def M0 : ℝ := 0.5
noncomputable def T0 : ℝ := 200.0
noncomputable def P0 : ℝ := 200e2
noncomputable def Ttmax : ℝ := 1600.0

/-- `Tt0 = T0*Is.TtTs_Mach(M0)` (`turbofan.py:13`) -/
noncomputable def Tt0 : Py ℝ := do
  let t ← Isentropic.TtTs_Mach M0 DefaultGas.gamma0
  return T0 * t

/-- `Opr` and `Bpr` (`turbofan.py:14-16`) -/
noncomputable def axes : Py (List ℝ × List ℝ) := do
  let Tt0 ← Tt0
  let Tt3 := arange (1.2 * Tt0) (0.5 * Ttmax) 50.0
  let Opr ← Tt3.mapM fun x => do
    let q ← Py.div x Tt0
    Py.pow q 3.2
  return (Opr, arange 0.2 10.0 0.2)

/-- the engine at one entry of the arrays (`turbofan.py:19-20`), before `update` -/
noncomputable def engine (opr bpr : ℝ) : Py Turbofan.Obj := do
  let r ← Py.div bpr (2.0 + bpr)
  return Turbofan.flight_conditions (Turbofan.new { OPR := opr, Tt4 := Ttmax, bpr := bpr, fanpower_ratio := r }) { T0 := T0, P0 := P0, M0 := M0 }

/-- one entry of `model.spec_thrust()` and `model.thermoprop_efficiency()` (`turbofan.py:21,23`) -/
noncomputable def point (opr bpr : ℝ) : Py (ℝ × ℝ) := do
  let o ← engine opr bpr
  let a ← Turbofan.update o
  let s ← Turbofan.spec_thrust a
  let e ← Turbofan.thermoprop_efficiency a
  return (s, e)

/-- the arrays drawn (`turbofan.py:17,19-28`): `np.meshgrid(Opr, Bpr)` has one row for every entry of `Bpr` and one column for every entry of `Opr` -/
noncomputable def drawn : Py (List (List (ℝ × ℝ))) := do
  let (Opr, Bpr) ← axes
  Bpr.mapM fun b => Opr.mapM fun p => point p b

end Aerokit.TurbofanMap
