import Verif.Model.Supersonic
import Verif.Model.Degree
import Verif.Model.ExpansionFan

/-!
# Model of `notebooks/aero/Caract-02-smooth wall.ipynb` (line numbers of the notebook file)

Simple waves of a supersonic flow along a curved wall.  The functions of the notebook read the global variables `ywall`, `om0`, `M0`, `gam` (set as default gamma by the
first cell) and call `scipy.optimize.newton` (in `Mach_PrandtlMeyer`) and `scipy.optimize.fsolve`: all are parameters here.  Scalars only; drawing is not modelled, but
the coordinates given to `plt.plot` are.
-/

namespace Aerokit.SmoothWall
open Supersonic
open MassFlow (RootFinder)

/-- the function `ywall` of a cell: the ordinate of the wall -/
abbrev Wall := ℝ → Py ℝ

/-- `ywall` of the first case (`Caract-02-smooth wall.ipynb:70-71`) -/
noncomputable def bump : Wall := fun x => do
  let q ← Py.div x 0.5
  return 0.1 * Real.exp (-(q ^ 2))

/-- `ywall` of the progressive expansion and compression (`Caract-02-smooth wall.ipynb:263-265`, `301-303`); `ang` is `-20.` or `15.`.  The three values given to
`np.where` are finite, so computing the unused ones has no effect. -/
noncomputable def ramp (ang : ℝ) : Wall := fun x => do
  let slope ← degree.tan ang
  return if x < 0 then 0 else if x < 1 then x ^ 2 * slope / 2 else slope * (x - 0.5)

/-- `kr` (`Caract-02-smooth wall.ipynb:379-381`) -/
noncomputable def kr (gam t : ℝ) : Py ℝ := do
  let gpusmu ← Py.div (gam + 1) (gam - 1)
  let i ← Py.div 1 gpusmu
  let s ← Py.sqrt (t ^ 2 + i)
  let q ← Py.div s t
  Py.pow q gpusmu

/-- `ywall` of the focused compression (`Caract-02-smooth wall.ipynb:372-386`) -/
noncomputable def focused (newton : RootFinder) (M0 gam : ℝ) : Wall := fun x => do
  let ang := 15
  let slope ← degree.tan ang
  let q0 ← Py.div 1 M0
  let mu0 ← degree.asin q0
  let om ← PrandtlMeyer_Mach M0 gam
  let M1 ← Mach_PrandtlMeyer newton (om - ang) gam
  let q1 ← Py.div 1 M1
  let mu1 ← degree.asin q1
  let t0 ← degree.tan mu0
  let t1 ← degree.tan mu1
  let k0 ← kr gam t0
  let k1 ← kr gam t1
  let rnorm ← Py.div 1 (k0 * degree.cos mu0 - k1 * degree.cos (slope + mu1))
  let yfoc := rnorm * k0 * degree.sin mu0
  let yend := yfoc - rnorm * k1 * degree.sin (slope + mu1)
  return if x < 0 then 0 else if x < 1 then slope / 2 * x else yend + slope * (x - 1)

/-- `wall_angle` (`Caract-02-smooth wall.ipynb:73-75`) -/
noncomputable def wall_angle (ywall : Wall) (x : ℝ) : Py ℝ := do
  let eps := 1e-4
  let a ← ywall (x + eps)
  let b ← ywall (x - eps)
  let q ← Py.div (a - b) (2 * eps)
  return degree.atan q

/-- `mach_wall` (`Caract-02-smooth wall.ipynb:121-122`) -/
noncomputable def mach_wall (newton : RootFinder) (gam om0 : ℝ) (ywall : Wall) (x : ℝ) : Py ℝ := do
  let a ← wall_angle ywall x
  Mach_PrandtlMeyer newton (om0 - a) gam

/-- the body of the loop of `mach` (`Caract-02-smooth wall.ipynb:128-134`): the new `mw` and `m` -/
noncomputable def pass (newton fsolve : RootFinder) (gam om0 : ℝ) (ywall : Wall) (x y m : ℝ) : Py (ℝ × ℝ) := do
  let om ← PrandtlMeyer_Mach m gam
  let th := om0 - om
  let q ← Py.div 1 m
  let mu ← degree.asin q
  let slope ← degree.tan (th + mu)
  let d ← Py.div y slope
  let xwall ← fsolve (fun xw => do
    let yw ← ywall xw
    return y - yw + slope * (xw - x)) (x - d)
  let mw ← mach_wall newton gam om0 ywall xwall
  return (mw, 0.5 * (m + mw))

/-- the `while` loop of `mach` (`Caract-02-smooth wall.ipynb:127`), with fuel -/
noncomputable def loop (newton fsolve : RootFinder) (gam om0 : ℝ) (ywall : Wall) (x y : ℝ) : ℕ → ℝ → ℝ → Py ℝ
  | 0, _, _ => .error .outOfFuel
  | n + 1, m, mw =>
    if |m - mw| > 1e-6 then do
      let r ← pass newton fsolve gam om0 ywall x y m
      loop newton fsolve gam om0 ywall x y n r.2 r.1
    else .ok m

/-- `mach` (`Caract-02-smooth wall.ipynb:124-135`); `om0` is the global variable (line 118, the Prandtl-Meyer angle of `M0`) -/
noncomputable def mach (newton fsolve : RootFinder) (gam M0 om0 : ℝ) (ywall : Wall) (fuel : ℕ) (x y : ℝ) : Py ℝ :=
  loop newton fsolve gam om0 ywall x y fuel M0 0

/-- the slope of the characteristic drawn from the wall at `xw`, in `plot_CP` and `plot_CP_focus` (`Caract-02-smooth wall.ipynb:140`, `330-331`) -/
noncomputable def cp_slope (newton : RootFinder) (gam om0 : ℝ) (ywall : Wall) (xw : ℝ) : Py ℝ := do
  let a ← wall_angle ywall xw
  let m ← mach_wall newton gam om0 ywall xw
  let q ← Py.div 1 m
  let mu ← degree.asin q
  degree.tan (a + mu)

/-- the two points given to `plt.plot` for one `xw` of `plot_CP` (`Caract-02-smooth wall.ipynb:140-142`) -/
noncomputable def cp_line (newton : RootFinder) (gam om0 : ℝ) (ywall : Wall) (xmax xw : ℝ) : Py ((ℝ × ℝ) × (ℝ × ℝ)) := do
  let slope ← cp_slope newton gam om0 ywall xw
  let y0 ← ywall xw
  return ((xw, y0), (xmax, y0 + slope * (xmax - xw)))

/-- `plot_CP` (`Caract-02-smooth wall.ipynb:137-142`): the lines drawn, for the abscissas `xs` of `np.linspace(xmin, xmax, n)` -/
noncomputable def plot_CP (newton : RootFinder) (gam om0 : ℝ) (ywall : Wall) (xmax : ℝ) (xs : List ℝ) : Py (List ((ℝ × ℝ) × (ℝ × ℝ))) :=
  xs.mapM (cp_line newton gam om0 ywall xmax)

/-- `xy_intersect_rate` (`Caract-02-smooth wall.ipynb:322-324`) -/
noncomputable def xy_intersect_rate (x1 y1 r1 x2 y2 r2 : ℝ) : Py (ℝ × ℝ) := do
  let xi ← Py.div (-y2 + y1 + x2 * r2 - x1 * r1) (r2 - r1)
  return (xi, y1 + r1 * (xi - x1))

/-- the line drawn for one `xw` of `plot_CP_focus` (`Caract-02-smooth wall.ipynb:329-336`): the default `eps = 1e-4` -/
noncomputable def focus_line (newton : RootFinder) (gam om0 : ℝ) (ywall : Wall) (xmax xw : ℝ) : Py ((ℝ × ℝ) × (ℝ × ℝ)) := do
  let xw2 := xw + 1e-4
  let slope ← cp_slope newton gam om0 ywall xw
  let slope2 ← cp_slope newton gam om0 ywall xw2
  let y0 ← ywall xw
  let y2 ← ywall xw2
  if slope < slope2 then do
    let p ← xy_intersect_rate xw y0 slope xw2 y2 slope2
    return ((xw, y0), (p.1, y0 + slope * (p.1 - xw)))
  else return ((xw, y0), (xmax, y0 + slope * (xmax - xw)))

/-- `flow_prop` (`Caract-02-smooth wall.ipynb:170-175`) -/
noncomputable def flow_prop (newton fsolve : RootFinder) (gam M0 om0 : ℝ) (ywall : Wall) (fuel : ℕ) (x y : ℝ) : Py ExpansionFan.Dirs := do
  let m ← mach newton fsolve gam M0 om0 ywall fuel x y
  let om ← PrandtlMeyer_Mach m gam
  let th := om0 - om
  let q ← Py.div 1 m
  let mu ← degree.asin q
  return { ang := th, cp := th + mu, cm := th - mu }

end Aerokit.SmoothWall
