import Verif.Model.ShockWave
import Verif.Model.Supersonic

/-!
# Model of `notebooks/aero/Shock-22-shock-expansion.ipynb`

Supersonic flow over a roof-shaped obstacle: an attached oblique shock on the windward face (cells 5
and 6), a centred expansion at the ridge (cell 9), a second attached oblique shock at the trailing
edge (cell 11).  Angles are in degrees.

Simplifications: the figures (cells 3, 7, 9, 12, 14) and the printed texts are not modelled; the
module globals are the fields of the structures returned by the cells; `gam` is the value of every
omitted `gamma` (cell 3 sets the default gas to `gam = 1.4`, which is also its initial value).
-/

namespace Aerokit.Wedge
open ShockWave Supersonic

/-- `devmax`, `devsonic` (`Shock-22-shock-expansion.ipynb`, cell 5; again in cell 11 with `M2`). -/
noncomputable def limits (M gam : ℝ) : Py (ℝ × ℝ) := do
  let devmax ← dev_Max M gam
  let devsonic ← dev_Sonic M gam
  return (devmax, devsonic)

/-- globals left by cell 6 -/
structure First where
  sig1 : ℝ
  Mn0 : ℝ
  p1p0 : ℝ
  Mn1 : ℝ
  M1 : ℝ

/-- first shock (`Shock-22-shock-expansion.ipynb`, cell 6). -/
noncomputable def cell6 (M0 wang1 gam : ℝ) : Py First := do
  let wdev := wang1
  let sig1 ← sigma_Mach_deflection M0 wdev none gam
  let Mn0 := M0 * degree.sin sig1
  let p1p0 ← Ps_ratio Mn0 gam
  let Mn1 ← downstream_Mn Mn0 gam
  let M1 ← Py.div Mn1 (degree.sin (sig1 - wdev))
  return { sig1, Mn0, p1p0, Mn1, M1 }

/-- globals left by cell 9 -/
structure Fan where
  om1 : ℝ
  om2 : ℝ
  M2 : ℝ
  p2p0 : ℝ

/-- expansion (`Shock-22-shock-expansion.ipynb`, cell 9). -/
noncomputable def cell9 (newton : MassFlow.RootFinder) (wang1 wang2 : ℝ) (c : First) (gam : ℝ) : Py Fan := do
  let wdev := wang2 - wang1
  let om1 ← PrandtlMeyer_Mach c.M1 gam
  let om2 := om1 - wdev
  let M2 ← Mach_PrandtlMeyer newton om2 gam
  let r ← IsentropicPsratio_Mach_deflection newton c.M1 wdev gam
  return { om1, om2, M2, p2p0 := c.p1p0 * r }

/-- globals left by cell 11 -/
structure Last where
  sig2 : ℝ
  Mn2 : ℝ
  Mn3 : ℝ
  M3 : ℝ
  p3p0 : ℝ

/-- last shock (`Shock-22-shock-expansion.ipynb`, cell 11); `wang3 = 0.` -/
noncomputable def cell11 (wang2 : ℝ) (f : Fan) (gam : ℝ) : Py Last := do
  let wang3 := 0.0
  let wdev := wang3 - wang2
  let _ ← limits f.M2 gam
  let sig2 ← sigma_Mach_deflection f.M2 wdev none gam
  let Mn2 := f.M2 * degree.sin sig2
  let Mn3 ← downstream_Mn Mn2 gam
  let M3 ← Py.div Mn3 (degree.sin (sig2 - wdev))
  let r ← Ps_ratio Mn2 gam
  return { sig2, Mn2, Mn3, M3, p3p0 := f.p2p0 * r }

/-- cells 5, 6, 9 and 11 in order, for the globals `M0`, `wang1`, `wang2`, `gam` of cell 3. -/
noncomputable def run (newton : MassFlow.RootFinder) (M0 wang1 wang2 gam : ℝ) : Py (First × Fan × Last) := do
  let _ ← limits M0 gam
  let c ← cell6 M0 wang1 gam
  let f ← cell9 newton wang1 wang2 c gam
  let l ← cell11 wang2 f gam
  return (c, f, l)

end Aerokit.Wedge
