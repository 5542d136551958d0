import Verif.Model.Supersonic
import Verif.Model.Degree

/-!
# Model of `notebooks/aero/Caract-01-expansion.ipynb` (line numbers of the notebook file)

Expansion of a uniform supersonic flow at a convex corner: the parameters of the case are global variables of the notebook (`none`: not yet assigned).  `gamma` is the
default one of the module (see C35), `scipy.optimize.newton` a parameter.  Drawing commands are not modelled, except for the global variables they need.
-/

namespace Aerokit.ExpansionFan
open Supersonic Isentropic
open MassFlow (RootFinder)

/-- the global variables assigned by `init_case` (`Caract-01-expansion.ipynb:67`) -/
structure Case where
  M0 : ℝ
  wang : ℝ
  wang0 : ℝ
  wang1 : ℝ
  om0 : ℝ
  om1 : ℝ
  M1 : ℝ
  p1p0 : ℝ
  mu0 : ℝ
  mu1 : ℝ

/-- `init_case` (`Caract-01-expansion.ipynb:66-78`); simplified: when it raises, the variables assigned before are not recorded -/
noncomputable def init_case (newton : RootFinder) (m ang : ℝ) : Py Case := do
  let M0 := m
  let wang := ang
  let wang0 := 0.0
  let wang1 := wang
  let wdev := wang1 - wang0
  let om0 ← PrandtlMeyer_Mach M0 DefaultGas.gamma0
  let om1 := om0 - wdev
  let M1 ← Mach_PrandtlMeyer newton om1 DefaultGas.gamma0
  let p1p0 ← IsentropicPsratio_Mach_deflection newton M1 wdev DefaultGas.gamma0
  let q0 ← Py.div 1.0 M0
  let mu0 ← degree.asin q0
  let q1 ← Py.div 1.0 M1
  let mu1 ← degree.asin q1
  return { M0 := M0, wang := wang, wang0 := wang0, wang1 := wang1, om0 := om0, om1 := om1, M1 := M1, p1p0 := p1p0, mu0 := mu0, mu1 := mu1 }

/-- what `plot_geom` needs (`Caract-01-expansion.ipynb:93-101`): the ordinate of the end of the wall; `xmax = 2` (line 63) -/
noncomputable def plot_geom (globals : Option Case) : Py ℝ :=
  match globals with
  | none => .error .nameError
  | some c => do
    let t ← degree.tan c.wang
    return 2.0 * t

/-- the two lines drawn by `plot_expansion` (`Caract-01-expansion.ipynb:124-126`): ordinates at `xmax` -/
noncomputable def plot_expansion (globals : Option Case) : Py (ℝ × ℝ) :=
  match globals with
  | none => .error .nameError
  | some c => do
    let t0 ← degree.tan (c.wang0 + c.mu0)
    let t1 ← degree.tan (c.wang1 + c.mu1)
    return (2.0 * t0, 2.0 * t1)

/-- the dictionary returned by `flow_prop`: keys `'ang'`, `'C+'`, `'C-'` -/
structure Dirs where
  ang : ℝ
  cp : ℝ
  cm : ℝ

/-- `flow_prop` (`Caract-01-expansion.ipynb:156-166`) -/
noncomputable def flow_prop (c : Case) (x y : ℝ) : Py Dirs := do
  let oang := degree.atan2 y x
  if oang > c.wang0 + c.mu0 then
    return { ang := c.wang0, cp := c.wang0 + c.mu0, cm := c.wang0 - c.mu0 }
  else if oang < c.wang1 + c.mu1 then
    return { ang := c.wang1, cp := c.wang1 + c.mu1, cm := c.wang1 - c.mu1 }
  else do
    let M ← Mach_PMFmmu (c.wang0 + c.om0 - oang) DefaultGas.gamma0
    let q ← Py.div 1.0 M
    let mu ← degree.asin q
    return { ang := oang - mu, cp := oang, cm := oang - 2 * mu }

/-- `step` of `integ` (`Caract-01-expansion.ipynb:169-170`) -/
noncomputable def step (x0 y0 ds ang : ℝ) : ℝ × ℝ := (x0 + ds * degree.cos ang, y0 + ds * degree.sin ang)

/-- the body of the two loops of `integ` (`Caract-01-expansion.ipynb:181-184`, `190-193`): the points reached by `n` steps -/
noncomputable def march (dir : ℝ → ℝ → Py ℝ) (ds : ℝ) : ℕ → ℝ → ℝ → Py (List (ℝ × ℝ))
  | 0, _, _ => .ok []
  | n + 1, sx, sy => do
    let a ← dir sx sy
    let p := step sx sy (0.5 * ds) a
    let b ← dir p.1 p.2
    let s := step sx sy ds b
    let rest ← march dir ds n s.1 s.2
    return s :: rest

/-- one half of `integ` (`Caract-01-expansion.ipynb:180-184` backward, `186-193` forward): `n` steps to the curvilinear abscissa `s`, no step if `n = 0` -/
noncomputable def half (dir : ℝ → ℝ → Py ℝ) (x y s : ℝ) (n : ℕ) : Py (List (ℝ × ℝ)) :=
  if 0 < n then do
    let ds ← Py.div s n
    march dir ds n x y
  else .ok []

/-- `integ` (`Caract-01-expansion.ipynb:168-195`): `dir x y` is `flow_prop(x, y)[ctype]`; the arrays `trajx`, `trajy` as a list of `npts+1` points.  Only for `smin ≤ 0 ≤ smax`,
as in the notebook (then `0 ≤ nforw ≤ npts`; with other values numpy's negative indices would matter): not modelled otherwise. -/
noncomputable def integ (dir : ℝ → ℝ → Py ℝ) (x y smin smax : ℝ) (npts : ℕ) : Py (List (ℝ × ℝ)) :=
  if smin ≤ 0 ∧ 0 ≤ smax then do
    let r ← Py.div (npts * smax) (smax - smin)
    let nforw := ⌊r⌋₊
    let nback := npts - nforw
    let back ← half dir x y smin nback
    let forw ← half dir x y smax nforw
    return back.reverse ++ (x, y) :: forw
  else .error .notImplementedError

end Aerokit.ExpansionFan
