import Verif.Model.Riemann
import Verif.Model.Unsteady1D

/-!
# Model of `notebooks/aero/Riemann-Shocktube.ipynb`, cells 3, 5, 7, 9, 11, 13

A shock tube filled with air, with helium at the end of the driven part: shock generation, interaction of the shock with the interface,
reflection on the right wall, second interaction with the interface, and the points of the `x/t` diagram.  `Pinit`, `Pratio` and `Tisoth` are
parameters (cell 3 sets `1.e5`, `2.38`, `293.15`); the gas constants are the numbers of the cell.  `scipy.optimize.newton`, used by the
Riemann solver, is a parameter.  The drawing itself is not modelled.  Cell 14 draws a wedge and has nothing to do with the shock tube.
-/

namespace Aerokit.Shocktube
open Model1D Unsteady1D
open MassFlow (RootFinder)

/-- gas constants (`Riemann-Shocktube.ipynb` cell 3, l. 4-7) -/
noncomputable def r_air : ℝ := 287.1
/-- cell 3, l. 5 -/
noncomputable def r_He : ℝ := 2078.
/-- cell 3, l. 6 -/
noncomputable def gam_air : ℝ := 1.4
/-- cell 3, l. 7 -/
noncomputable def gam_He : ℝ := 5. / 3.

/-- `x_int`, `x_Rwall`, `x_Lwall` (cell 11, l. 2-4) -/
noncomputable def x_int : ℝ := 2.5
/-- cell 11, l. 3 -/
noncomputable def x_Rwall : ℝ := 3.
/-- cell 11, l. 4 -/
noncomputable def x_Lwall : ℝ := -1.

/-- `xt_intersect` (cell 11, l. 6-8) -/
noncomputable def xt_intersect (x1 t1 u1 x2 t2 u2 : ℝ) : Py (ℝ × ℝ) := do
  let ti ← Py.div (-x2 + x1 + t2 * u2 - t1 * u1) (u2 - u1)
  return (x1 + u1 * (ti - t1), ti)

/-- the variables of the notebook that are printed or drawn, and the printed numbers -/
structure Out where
  /-- driver gas, driven gas, helium (`q20`, `q10`, `q00`) -/
  q20 : UState
  q10 : UState
  q00 : UState
  pb1 : Riemann.Pb
  pb2 : Riemann.Pb
  pbw : Riemann.Pb
  pb3 : Riemann.Pb
  /-- the two numbers printed by cell 3, the first one of cell 5, the two of cell 7 -/
  ratio1 : ℝ
  mach1 : ℝ
  ratio2 : ℝ
  ratioW : ℝ
  machW : ℝ
  t_shock_int : ℝ
  t_shock_wall : ℝ
  x_reshock : ℝ
  t_reshock : ℝ
  t_max : ℝ

/-- `q21`, `q11` (cell 3), `q12`, `q01` (cell 5), `q02` (cell 7), `q13`, `q03` (cell 9) -/
def Out.q21 (o : Out) : UState := o.pb1.qstarL
def Out.q11 (o : Out) : UState := o.pb1.qstarR
def Out.q12 (o : Out) : UState := o.pb2.qstarL
def Out.q01 (o : Out) : UState := o.pb2.qstarR
def Out.q02 (o : Out) : UState := o.pbw.qstarL
def Out.q13 (o : Out) : UState := o.pb3.qstarL
def Out.q03 (o : Out) : UState := o.pb3.qstarR

/-- cells 3 to 11 -/
noncomputable def run (newton : RootFinder) (Pinit Pratio Tisoth : ℝ) : Py Out := do
  -- cell 3
  let rho20 ← Py.div (Pinit * Pratio) (r_air * Tisoth)
  let q20 : UState := ⟨rho20, 0.0, Pinit * Pratio, gam_air⟩
  let rho10 ← Py.div Pinit (r_air * Tisoth)
  let q10 : UState := ⟨rho10, 0.0, Pinit, gam_air⟩
  let pb1 ← Riemann.init newton q20 q10
  let q11 := pb1.qstarR
  let ratio1 ← Py.div q11.p q10.p
  let a10 ← q10.asound
  let mach1 ← Py.div pb1.right_fastest a10
  -- cell 5
  let rho00 ← Py.div Pinit (r_He * Tisoth)
  let q00 : UState := ⟨rho00, 0.0, Pinit, gam_He⟩
  let pb2 ← Riemann.init newton q11 q00
  let q12 := pb2.qstarL
  let q01 := pb2.qstarR
  let ratio2 ← Py.div q01.p q00.p
  -- cell 7
  let q01gh := q01.copysymmetric
  let pbw ← Riemann.init newton q01 q01gh
  let q02 := pbw.qstarL
  let ratioW ← Py.div q02.p q01.p
  let a01 ← q01.asound
  let machW ← Py.div pbw.left_fastest a01
  -- cell 9
  let pb3 ← Riemann.init newton q12 q02
  -- cell 11
  let t_shock_int ← Py.div x_int pb1.right_fastest
  let d ← Py.div (x_Rwall - x_int) pb2.right_fastest
  let t_shock_wall := d + t_shock_int
  let x ← xt_intersect x_int t_shock_int q12.u x_Rwall t_shock_wall pbw.left_fastest
  return { q20 := q20, q10 := q10, q00 := q00, pb1 := pb1, pb2 := pb2, pbw := pbw, pb3 := pb3, ratio1 := ratio1, mach1 := mach1,
           ratio2 := ratio2, ratioW := ratioW, machW := machW, t_shock_int := t_shock_int, t_shock_wall := t_shock_wall,
           x_reshock := x.1, t_reshock := x.2, t_max := 1.2 * x.2 }

/-- `t_exp_wall` (cell 13): arrival of the head of the expansion at the left wall -/
noncomputable def Out.t_exp_wall (o : Out) : Py ℝ := do
  let w ← o.q20.left_acoustic
  Py.div x_Lwall w

/-- third abscissa of the reflected expansion (cell 13) -/
noncomputable def Out.x_reflected (o : Out) : Py ℝ := do
  let c ← o.q21.right_acoustic
  let t ← o.t_exp_wall
  return x_Lwall + c * (o.t_max - t)

/-- ordinate of the end `x_Lwall` of the tail of the expansion (cell 13) -/
noncomputable def Out.t_tail (o : Out) : Py ℝ := do
  let w ← o.q21.left_acoustic
  Py.div x_Lwall w

/-- last abscissa of the drawn trajectory of the shock (cell 13), and last abscissa of the interface -/
noncomputable def Out.x_shock_end (o : Out) : ℝ := o.x_reshock + o.pb3.left_fastest * (o.t_max - o.t_reshock)
noncomputable def Out.x_interface_end (o : Out) : ℝ := o.x_reshock + o.q13.u * (o.t_max - o.t_reshock)

end Aerokit.Shocktube
