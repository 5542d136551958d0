import Verif.Model.Plot
import Verif.Model.Rayleigh

/-!
# Model of `examples/rayleigh-heating.py`, `examples/shockwave-polar.py` and `examples/shockwave-polar-p.py`

The curves and labels drawn for one Mach number, below the import statements (see `Model/Imports` for these).
`np.log10(np.logspace(a, b, n))` is `np.linspace(a, b, n)` over the reals.  Not modelled: titles, axes, styles, files.
-/

namespace Aerokit.Charts
open Plot Rayleigh

/-- the curve drawn for the initial Mach number `M0` (`rayleigh-heating.py:19-22`): abscissas `Ti` and ordinates `Mach` -/
noncomputable def heating (gam : ℝ) (npoints : ℕ) (M0 : ℝ) : List (Py ℝ) × List (Py ℝ) :=
  let Timax := maxTiratio_Mach M0 gam
  let Ti := linspace (.ok 1.0) Timax npoints
  let ratio := Ti.map fun t => do
    let t ← t
    let m ← Timax
    Py.div t m
  let Mach := if M0 < 1 then elementwise (fun r => SubMach_TiTicri r gam) ratio else elementwise (fun r => SupMach_TiTicri r gam) ratio
  (Ti, Mach)

/-- the initial Mach numbers of the chart (`rayleigh-heating.py:17`) -/
noncomputable def heatingMachs : List ℝ := [0.1, 0.2, 0.3, 0.4, 0.5, 0.6, 0.7, 0.8, 0.9, 1.2, 1.5, 2.0, 3.0, 4.0, 6.0, 10.0, 20.0]

/-- the chart (`rayleigh-heating.py:11-22`): `npoints = 100`, `gam = 1.4` -/
noncomputable def heatingChart : List (List (Py ℝ) × List (Py ℝ)) := heatingMachs.map (heating 1.4 100)

/-- a Python number used as an index (`shockwave-polar.py:25`, `shockwave-polar-p.py:32`) -/
inductive Num
  | int (n : ℤ)
  | float (x : ℝ)

/-- true division of two integers, a float (`shockwave-polar.py:25`) -/
noncomputable def truediv (a b : ℕ) : Num := .float ((a : ℝ) / (b : ℝ))

/-- `arr[i]` of numpy (`shockwave-polar.py:25`): an index that is a float is refused with `IndexError` -/
noncomputable def getitem (arr : List (Py ℝ)) : Num → Py (Py ℝ)
  | .float _ => .error .indexError
  | .int n =>
    let k := if n < 0 then n + arr.length else n
    if 0 ≤ k ∧ k < arr.length then .ok (arr.getD k.toNat (.error .nonFinite)) else .error .indexError

/-- the polar of one Mach number and the position of its label (`shockwave-polar.py:22-27`, with `npoints = 100`) -/
noncomputable def polar (gam : ℝ) (npoints : ℕ) (m : ℝ) : Py ((List (Py ℝ) × List (Py ℝ)) × Py ℝ × Py ℝ) := do
  let sig := linspace (machAngle m) (.ok 90.0) npoints
  let dev := elementwise (fun s => ShockWave.deflection_Mach_sigma m s gam) sig
  let x ← getitem dev (truediv npoints 2)
  let y ← getitem sig (truediv npoints 2)
  return ((dev, sig), x, y)

/-- the loop over `macharray` (`shockwave-polar.py:19-27`) -/
noncomputable def polarChart (gam : ℝ) (npoints : ℕ) (machs : List ℝ) : Py (List ((List (Py ℝ) × List (Py ℝ)) × Py ℝ × Py ℝ)) := machs.mapM (polar gam npoints)

/-- the pressure polar of one Mach number and the position of its label (`shockwave-polar-p.py:23-34`, with `npoints = 100`); the isentropic branch
is left out -/
noncomputable def polarP (gam : ℝ) (npoints : ℕ) (m : ℝ) : Py ((List (Py ℝ) × List (Py ℝ)) × Py ℝ × Py ℝ) := do
  let sig := linspace (machAngle m) (.ok 90.0) npoints
  let dev := elementwise (fun s => ShockWave.deflection_Mach_sigma m s gam) sig
  let kpsw := elementwise (fun s => ShockWave.Ps_ratio (m * degree.sin s) gam) sig
  let x ← getitem dev (truediv npoints 3)
  let y ← getitem kpsw (truediv npoints 3)
  return ((dev, kpsw), x, y)

/-- the loop over `macharray` (`shockwave-polar-p.py:19-34`) -/
noncomputable def polarPChart (gam : ℝ) (npoints : ℕ) (machs : List ℝ) : Py (List ((List (Py ℝ) × List (Py ℝ)) × Py ℝ × Py ℝ)) := machs.mapM (polarP gam npoints)

end Aerokit.Charts
