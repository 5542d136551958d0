import Verif.Model.Py

/-!
# Model of `aerokit/aero/IterativeSolve.py`

`@np.vectorize` applies the function elementwise; the model is one element.  Printing (the
iteration warning) is modelled by the Boolean `warned` of the result.
-/

namespace Aerokit.IterativeSolve

/-- What a call to `secant_solve` returns and prints. -/
structure SecantResult where
  /-- the returned value `new_x` -/
  x : ℝ
  /-- the message "max number of iterations reached" was printed -/
  warned : Bool

/-- `itmax` (`IterativeSolve.py:10`). -/
def itmax : ℕ := 20

/-- The `while` loop and the final test (`IterativeSolve.py:16-29`).  The first argument is
`itmax - it`, the number of iterations still allowed, so `it < itmax` is "argument ≠ 0" and
`it == itmax` is "argument = 0". -/
noncomputable def secantLoop (f : ℝ → Py ℝ) (y tol : ℝ) :
    ℕ → (old_x old_y new_x : ℝ) → Py SecantResult
  | 0, _, _, new_x => .ok ⟨new_x, true⟩
  | left + 1, old_x, old_y, new_x =>
    if |new_x - old_x| > max tol (tol * |new_x|) then do
      let new_y ← f new_x
      let slope ← Py.div (new_x - old_x) (new_y - old_y)
      let next_x := new_x + slope * (y - new_y)
      secantLoop f y tol left new_x new_y next_x
    else .ok ⟨new_x, false⟩

/-- `secant_solve(f, y, x, tol)` with its printed warning (`IterativeSolve.py:4-29`); `it` starts
at 1, hence `itmax - 1` possible iterations. -/
noncomputable def secant_run (f : ℝ → Py ℝ) (y x tol : ℝ) : Py SecantResult := do
  let old_x := x
  let old_y ← f old_x
  let new_x := x * 0.999
  secantLoop f y tol (itmax - 1) old_x old_y new_x

/-- Default tolerance (`IterativeSolve.py:5`). -/
noncomputable def defaultTol : ℝ := 0.00001

/-- The value returned by `secant_solve(f, y, x)` (default `tol`). -/
noncomputable def secant_solve (f : ℝ → Py ℝ) (y x : ℝ) : Py ℝ := do
  let res ← secant_run f y x defaultTol
  return res.x

end Aerokit.IterativeSolve
