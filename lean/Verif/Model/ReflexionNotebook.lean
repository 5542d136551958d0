import Verif.Model.WedgeNotebook

/-!
# Model of `notebooks/aero/Shock-21-reflexion.ipynb`

An attached oblique shock on a ramp and its regular reflection on the opposite wall, which turns the
flow back.  `Shock-21-reflexion-widget.ipynb` (cell 5, `plot_all`) evaluates the same statements for
the values of two sliders.

Simplifications: printed texts and figures, except the three points of the drawn shocks; cells 5 and
6 are those of `Shock-22-shock-expansion.ipynb` (`limits`, `Wedge.cell6`) with `wdev` for `wang1`;
`gam` is the value of every omitted `gamma`.
-/

namespace Aerokit.Reflexion
open ShockWave Wedge

/-- globals left by cell 8 (`Mn1` is overwritten by it) -/
structure Second where
  sig2 : ℝ
  Mn1 : ℝ
  p2p1 : ℝ
  Mn2 : ℝ
  M2 : ℝ
  p2p0 : ℝ

/-- reflected shock (`Shock-21-reflexion.ipynb`, cell 8; widget notebook, cell 5). -/
noncomputable def cell8 (wdev : ℝ) (c : First) (gam : ℝ) : Py Second := do
  let sig2 ← sigma_Mach_deflection c.M1 wdev none gam
  let Mn1 := c.M1 * degree.sin sig2
  let p2p1 ← Ps_ratio Mn1 gam
  let Mn2 ← downstream_Mn Mn1 gam
  let M2 ← Py.div Mn2 (degree.sin (sig2 - wdev))
  return { sig2, Mn1, p2p1, Mn2, M2, p2p0 := p2p1 * c.p1p0 }

/-- the points `[0, xup, xbot], [0, 1, yend]` joined by the drawn shocks (`Shock-21-reflexion.ipynb`, cell 9; widget notebook, cell 5). -/
noncomputable def points (yend wdev sig1 sig2 : ℝ) : Py (List (ℝ × ℝ)) := do
  let t1 ← degree.tan sig1
  let xup ← Py.div 1.0 t1
  let t2 ← degree.tan (sig2 - wdev)
  let q ← Py.div (1.0 - yend) t2
  let xbot := xup + q
  return [(0, 0), (xup, 1), (xbot, yend)]

/-- cells 5, 6, 8 and 9, for the globals `M0`, `wdev`, `gam` of cell 3 and `yend` of cell 9. -/
noncomputable def run (M0 wdev yend gam : ℝ) : Py (First × Second × List (ℝ × ℝ)) := do
  let _ ← limits M0 gam
  let c ← cell6 M0 wdev gam
  let s ← cell8 wdev c gam
  let l ← points yend wdev c.sig1 s.sig2
  return (c, s, l)

end Aerokit.Reflexion
