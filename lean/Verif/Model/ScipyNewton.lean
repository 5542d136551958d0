import Verif.Model.MassFlow

/-! # `scipy.optimize.newton` without derivative, for a scalar start

`MassFlow.py:48` calls `newton(sigma_of_mach, Minit)`, `Supersonic.py:68` calls `newton(omega_of_mach, 2.0 + 0.0 * omega)` and `riemann.py:186` calls
`newton(du, estimate, rtol=1e-10)`: without derivative scipy runs the secant method below, with its defaults `tol = 1.48e-08`, `rtol = 0.0`,
`maxiter = 50`, `disp = True`.  scipy is not part of the repository: this is the algorithm of
`scipy/optimize/_zeros_py.py` (unchanged since scipy 1.2), over the reals.  The other modules take the solver as a parameter; this one is an instance. -/

namespace Aerokit.ScipyNewton
open MassFlow (RootFinder)

/-- the new point, in the two forms scipy uses according to `abs(q1) > abs(q0)` (called from `MassFlow.py:48`) -/
noncomputable def newPoint (p0 p1 q0 q1 : ℝ) : Py ℝ :=
  if |q1| > |q0| then do
    let a ← Py.div (-q0) q1
    let b ← Py.div q0 q1
    Py.div (a * p1 + p0) (1 - b)
  else do
    let a ← Py.div (-q1) q0
    let b ← Py.div q1 q0
    Py.div (a * p0 + p1) (1 - b)

/-- the loop `for itr in range(maxiter)` (called from `MassFlow.py:48`): a flat secant raises unless the two points are equal; the search stops when
`np.isclose(p, p1, rtol=rtol, atol=tol)`; it raises when the number of iterations is exhausted -/
noncomputable def secantLoop (tol rtol : ℝ) (f : ℝ → Py ℝ) : ℕ → ℝ → ℝ → ℝ → ℝ → Py ℝ
  | 0, _, _, _, _ => .error .noConvergence
  | k + 1, p0, p1, q0, q1 =>
    if q1 = q0 then
      if p1 ≠ p0 then .error .noConvergence else .ok ((p1 + p0) / 2.0)
    else do
      let p ← newPoint p0 p1 q0 q1
      if |p - p1| ≤ tol + rtol * |p1| then return p
      else do
        let q ← f p
        secantLoop tol rtol f k p1 p q1 q

/-- the second point, `x0 * (1 + eps)` moved by `eps` (called from `MassFlow.py:48`) -/
noncomputable def second (x0 : ℝ) : ℝ :=
  let p1 := x0 * (1 + 1e-4)
  p1 + (if p1 ≥ 0 then 1e-4 else -1e-4)

/-- `newton(f, x0, tol=tol, rtol=rtol, maxiter=maxiter)` (called from `MassFlow.py:48`) -/
noncomputable def newton (tol rtol : ℝ) (maxiter : ℕ) : RootFinder := fun f x0 => do
  let p0 := x0
  let p1 := second x0
  let q0 ← f p0
  let q1 ← f p1
  if |q1| < |q0| then secantLoop tol rtol f maxiter p1 p0 q1 q0 else secantLoop tol rtol f maxiter p0 p1 q0 q1

/-- the defaults `tol = 1.48e-8`, `rtol = 0.0`, `maxiter = 50` (called from `MassFlow.py:48`) -/
noncomputable def scipy : RootFinder := newton 1.48e-8 0 50

end Aerokit.ScipyNewton
