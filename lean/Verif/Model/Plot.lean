import Verif.Model.ShockWave
import Verif.Model.Supersonic

/-! # Model of `aerokit/aero/plot/shockpolar.py` and `aerokit/aero/plot/isentropicpolar.py`

The observable effect of these functions is the sequence of calls of `plot`: each call draws one series of points.  A coordinate is a `Py ℝ`:
numpy computes arrays elementwise and puts `nan` (here `.error .nonFinite`) where an element is outside the domain, without stopping.
Not modelled: colours, line styles and other keyword arguments handed to matplotlib, the choice of the axes (`ax`). -/

namespace Aerokit.Plot
open ShockWave Supersonic MassFlow

/-- what `plot` draws: a line (`color=…, linestyle=…`), or a marker, `'ro'` or `'ko'` -/
inductive Style
  | line
  | ro
  | ko
  deriving DecidableEq

/-- one call `plot(x, y, …)` (`shockpolar.py:45`, and all others); a scalar is a series of one point -/
structure Series where
  x : List (Py ℝ)
  y : List (Py ℝ)
  style : Style

/-- `np.linspace(a, b, n + 1)` (`shockpolar.py:42`, `shockpolar.py:97`, `isentropicpolar.py:47`): `a + i * ((b - a) / n)`, `i = 0 … n`; the single
point `a` when `n = 0`.  A `nan` bound makes all elements `nan`.  Simplification: `n` is a natural number. -/
noncomputable def linspace (a b : Py ℝ) (n : ℕ) : List (Py ℝ) :=
  (List.range (n + 1)).map fun (i : ℕ) => do
    let a ← a
    let b ← b
    return a + (i : ℝ) * ((b - a) / (n : ℝ))

/-- `f(arr)` for an elementwise `f` (`shockpolar.py:43`) -/
noncomputable def elementwise (f : ℝ → Py ℝ) (l : List (Py ℝ)) : List (Py ℝ) := l.map fun v => v >>= f

/-- `curve in ['right', 'both']` (`shockpolar.py:44`) -/
def isRight (curve : String) : Bool := ["right", "both"].contains curve
/-- `curve in ['left', 'both']` (`shockpolar.py:46`) -/
def isLeft (curve : String) : Bool := ["left", "both"].contains curve
/-- `curve in ['c+', 'C+', 'both']` (`isentropicpolar.py:51`) -/
def isPlus (curve : String) : Bool := ["c+", "C+", "both"].contains curve
/-- `curve in ['c-', 'C-', 'both']` (`isentropicpolar.py:56`) -/
def isMinus (curve : String) : Bool := ["c-", "C-", "both"].contains curve

/-- `deg.asin(1.0 / mach)` (`shockpolar.py:42`) -/
noncomputable def machAngle (mach : ℝ) : Py ℝ := do
  let q ← Py.div 1.0 mach
  degree.asin q

/-- `shockpolar.plot_theta_sigma` (`shockpolar.py:14-61`) -/
noncomputable def plot_theta_sigma (mach gamma : ℝ) (npts : ℕ) (curve : String) (devmax sonic : Bool) : List Series :=
  let sig := linspace (machAngle mach) (.ok 90.0) npts
  let dev := elementwise (fun s => deflection_Mach_sigma mach s gamma) sig
  (if isRight curve then [⟨dev, sig, .line⟩] else []) ++
  (if isLeft curve then [⟨elementwise (fun d => .ok (-d)) dev, sig, .line⟩] else []) ++
  (if devmax then
    let thet := dev_Max mach gamma
    let sig := sigma_DevMax mach gamma
    (if isRight curve then [⟨[thet], [sig], .ro⟩] else []) ++
    (if isLeft curve then [⟨elementwise (fun d => .ok (-d)) [thet], [sig], .ro⟩] else [])
   else []) ++
  (if sonic then
    let thet := dev_Sonic mach gamma
    let sig := sigma_Sonic mach gamma
    (if isRight curve then [⟨[thet], [sig], .ko⟩] else []) ++
    (if isLeft curve then [⟨elementwise (fun d => .ok (-d)) [thet], [sig], .ko⟩] else [])
   else [])

/-- `shockpolar.plot_theta_pressure` (`shockpolar.py:64-119`) -/
noncomputable def plot_theta_pressure (mach gamma : ℝ) (npts : ℕ) (thet_init p_init : ℝ) (curve : String) (devmax sonic : Bool) : List Series :=
  let sig := linspace (machAngle mach) (.ok 90.0) npts
  let dev := elementwise (fun s => deflection_Mach_sigma mach s gamma) sig
  let ps := elementwise (fun s => do let p ← Ps_ratio (mach * degree.sin s) gamma; return p_init * p) sig
  (if isRight curve then [⟨elementwise (fun d => .ok (thet_init + d)) dev, ps, .line⟩] else []) ++
  (if isLeft curve then [⟨elementwise (fun d => .ok (thet_init - d)) dev, ps, .line⟩] else []) ++
  (if devmax then
    let thet := dev_Max mach gamma
    let sig := sigma_DevMax mach gamma
    let ps := elementwise (fun s => do let p ← Ps_ratio (mach * degree.sin s) gamma; return p_init * p) [sig]
    (if isRight curve then [⟨elementwise (fun d => .ok (thet_init + d)) [thet], ps, .ro⟩] else []) ++
    (if isLeft curve then [⟨elementwise (fun d => .ok (thet_init - d)) [thet], ps, .ro⟩] else [])
   else []) ++
  (if sonic then
    let thet := dev_Sonic mach gamma
    let sig := sigma_Sonic mach gamma
    let ps := elementwise (fun s => do let p ← Ps_ratio (mach * degree.sin s) gamma; return p_init * p) [sig]
    (if isRight curve then [⟨elementwise (fun d => .ok (thet_init + d)) [thet], ps, .ko⟩] else []) ++
    (if isLeft curve then [⟨elementwise (fun d => .ok (thet_init - d)) [thet], ps, .ko⟩] else [])
   else [])

/-- `isentropicpolar.plot_theta_pressure` (`isentropicpolar.py:14-57`).  The arguments `devmax` and `sonic` are accepted and not used.
Simplification: `scipy.optimize.newton` on an array is taken elementwise. -/
noncomputable def plot_isentropic (newton : RootFinder) (mach : ℝ) (dev_range : ℝ × ℝ) (gamma : ℝ) (npts : ℕ) (thet_init p_init : ℝ)
    (curve : String) (_devmax _sonic : Bool) : List Series :=
  let dev := linspace (.ok dev_range.1) (.ok dev_range.2) npts
  let ps := elementwise (fun d => do let p ← IsentropicPsratio_Mach_deflection newton mach d gamma; return p_init * p) dev
  let ps' := elementwise (fun d => do let p ← IsentropicPsratio_Mach_deflection newton mach (-d) gamma; return p_init * p) dev
  (if isPlus curve then [⟨elementwise (fun d => .ok (thet_init + d)) dev, ps, .line⟩] else []) ++
  (if isMinus curve then [⟨elementwise (fun d => .ok (thet_init + d)) dev, ps', .line⟩] else [])

end Aerokit.Plot
