import Verif.Model.ArrayNewton

/-!
# Model of `examples/aero/validation_sigma_convergence.py`

The two panels of the figure.  The left one draws the result of the array search `Mach_Sigma(Sigma_Mach(Mach), Mach)` and the two initial guesses
against `Mach`; the right one the "Taylor expansions" of the area ratio.  Not modelled: axes limits, line styles.
-/

namespace Aerokit.SigmaPlot
open Nd
variable {ι : Type}

/-- `Mach = np.linspace(.05, mmax, n)` with `mmax = 5.` (`validation_sigma_convergence.py:6-8`), the same values as `m` (`:16`), with `n = 1000`. -/
noncomputable def script_Mach : Fin 1000 → ℝ := fun i => 0.05 + (i.val : ℝ) * ((5.0 - 0.05) / ((1000 : ℝ) - 1))

/-- `Sigma = mf.Sigma_Mach(Mach)`, `Mres = mf.Mach_Sigma(Sigma, Mach)` (`validation_sigma_convergence.py:9-10`); `gamma` is omitted. -/
noncomputable def Mres (Mach : Nd ι) : Py (Nd ι) :=
  let Sigma := ArrayFns.Sigma_Mach Mach (num (some DefaultGas.gamma0))
  ArrayNewton.Mach_Sigma Sigma Mach (num (some DefaultGas.gamma0))

/-- `gpuogmu=(g+1.)/(g-1.)` (`validation_sigma_convergence.py:17`) -/
noncomputable def gpuogmu (g : ℝ) : Py ℝ := Py.div (g + 1.0) (g - 1.0)

/-- `sig1 = 1./m /((g+1)/2.)**(gpuogmu/2.)` (`validation_sigma_convergence.py:18`), one entry of the array `m` -/
noncomputable def sig1 (g m : ℝ) : Py ℝ := do
  let k ← gpuogmu g
  let q ← Py.div 1.0 m
  let w ← Py.pow ((g + 1) / 2.0) (k / 2.0)
  Py.div q w

/-- `sig2 = (1.+(3-g)/4./(g-1.)*(m-1.)**2)` (`validation_sigma_convergence.py:19`), one entry -/
noncomputable def sig2 (g m : ℝ) : Py ℝ := do
  let c ← Py.div ((3 - g) / 4.0) (g - 1.0)
  return 1.0 + c * (m - 1.0) ^ (2:ℕ)

/-- `sig3 = ( m**2/gpuogmu )**(gpuogmu/2.) / m` (`validation_sigma_convergence.py:20`), one entry -/
noncomputable def sig3 (g m : ℝ) : Py ℝ := do
  let k ← gpuogmu g
  let q ← Py.div (m ^ (2:ℕ)) k
  let w ← Py.pow q (k / 2.0)
  Py.div w m

/-- the curves of the right panel at the Mach number `m` (`validation_sigma_convergence.py:21`), with `g=1.4` (`:5`); the last one has the omitted gamma -/
noncomputable def right_panel (m : ℝ) : List (Py ℝ) :=
  let g : ℝ := 1.4
  [sig1 g m, sig2 g m, sig3 g m, MassFlow.Sigma_Mach m DefaultGas.gamma0]

end Aerokit.SigmaPlot
