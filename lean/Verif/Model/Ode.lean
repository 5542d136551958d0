import Verif.Model.Py
import Mathlib.Algebra.BigOperators.Fin

/-!
# Model of `aerokit/common/_ode.py`

The right-hand side `F` may itself fail (`Py`).  `RK4` works on any real vector space (numpy array
or scalar `y`); `_rkf45` on numpy vectors of length `n`.  A `while` loop takes fuel and reports
`PyErr.outOfFuel` if it is still running.
-/

namespace Aerokit.Ode

section RK4
variable {E : Type} [AddCommGroup E] [Module ℝ E]

/-- `run_kut4` (`_ode.py:8-14`). -/
noncomputable def run_kut4 (F : ℝ → E → Py E) (x : ℝ) (y : E) (h : ℝ) : Py E := do
  let f0 ← F x y
  let K0 := h • f0
  let f1 ← F (x + h / 2.0) (y + (1 / 2.0 : ℝ) • K0)
  let K1 := h • f1
  let f2 ← F (x + h / 2.0) (y + (1 / 2.0 : ℝ) • K1)
  let K2 := h • f2
  let f3 ← F (x + h) (y + K2)
  let K3 := h • f3
  return (1 / 6.0 : ℝ) • (K0 + (2.0 : ℝ) • K1 + (2.0 : ℝ) • K2 + K3)

/-- The loop of `RK4` (`_ode.py:20-26`): returns the samples appended after the initial one. -/
noncomputable def RK4loop (F : ℝ → E → Py E) (xStop : ℝ) :
    ℕ → (x : ℝ) → (y : E) → (h : ℝ) → Py (List (ℝ × E))
  | fuel, x, y, h =>
    if x < xStop then
      match fuel with
      | 0 => .error .outOfFuel
      | fuel + 1 => do
        let h := min h (xStop - x)
        let dy ← run_kut4 F x y h
        let y := y + dy
        let x := x + h
        let rest ← RK4loop F xStop fuel x y h
        return (x, y) :: rest
    else .ok []

/-- `RK4(F, x, y, xStop, h)` (`_ode.py:7-27`); the two returned arrays `X`, `Y` are the two
components of the list of samples. -/
noncomputable def RK4 (fuel : ℕ) (F : ℝ → E → Py E) (x : ℝ) (y : E) (xStop h : ℝ) :
    Py (List (ℝ × E)) := do
  let rest ← RK4loop F xStop fuel x y h
  return (x, y) :: rest

end RK4

section RKF45
variable {n : ℕ}

/-- `_rkf45(F, x, y, h)` (`_ode.py:30-59`): increment `dy` and RMS error `e`. -/
noncomputable def rkf45 (F : ℝ → (Fin n → ℝ) → Py (Fin n → ℝ)) (x : ℝ) (y : Fin n → ℝ) (h : ℝ) :
    Py ((Fin n → ℝ) × ℝ) := do
  let f0 ← F x y
  let K0 := h • f0
  let f1 ← F (x + 1.0 / 5 * h) (y + (1.0 / 5 : ℝ) • K0)
  let K1 := h • f1
  let f2 ← F (x + 3.0 / 10 * h) (y + (3.0 / 40 : ℝ) • K0 + (9.0 / 40 : ℝ) • K1)
  let K2 := h • f2
  let f3 ← F (x + 3.0 / 5 * h)
    (y + (3.0 / 10 : ℝ) • K0 - (9.0 / 10 : ℝ) • K1 + (6.0 / 5 : ℝ) • K2)
  let K3 := h • f3
  let f4 ← F (x + h)
    (y - (11.0 / 54 : ℝ) • K0 + (5.0 / 2 : ℝ) • K1 - (70.0 / 27 : ℝ) • K2 + (35.0 / 27 : ℝ) • K3)
  let K4 := h • f4
  let f5 ← F (x + 7.0 / 8 * h)
    (y + (1631.0 / 55296 : ℝ) • K0 + (175.0 / 512 : ℝ) • K1 + (575.0 / 13824 : ℝ) • K2
      + (44275.0 / 110592 : ℝ) • K3 + (253.0 / 4096 : ℝ) • K4)
  let K5 := h • f5
  let C0 : ℝ := 37.0 / 378
  let C1 : ℝ := 0.0
  let C2 : ℝ := 250.0 / 621
  let C3 : ℝ := 125.0 / 594
  let C4 : ℝ := 0.0
  let C5 : ℝ := 512.0 / 1771
  let D0 : ℝ := 2825.0 / 27648
  let D1 : ℝ := 0.0
  let D2 : ℝ := 18575.0 / 48384
  let D3 : ℝ := 13525.0 / 55296
  let D4 : ℝ := 277.0 / 14336
  let D5 : ℝ := 1.0 / 4
  let dy := C0 • K0 + C1 • K1 + C2 • K2 + C3 • K3 + C4 • K4 + C5 • K5
  let E := (C0 - D0) • K0 + (C1 - D1) • K1 + (C2 - D2) • K2 + (C3 - D3) • K3 + (C4 - D4) • K4
    + (C5 - D5) • K5
  let q ← Py.div (∑ i, E i ^ 2) n
  let e ← Py.sqrt q
  return (dy, e)

/-- The step-size update of `RKF45` (`_ode.py:81-89`): new `h` and new `stopper`. -/
noncomputable def nextStep (xStop tol x h e : ℝ) (stopper : Bool) : Py (ℝ × Bool) := do
  let hNext ←
    if e ≠ 0.0 then do
      let q ← Py.div tol e
      let w ← Py.pow q 0.2
      pure (0.9 * h * w)
    else pure h
  if (0.0 < h) ↔ (x + hNext ≥ xStop) then return (xStop - x, true)
  else return (hNext, stopper)

/-- The `for i in range(10000)` loop of `RKF45` (`_ode.py:69-90`); the first argument is the number
of iterations left.  Returns the samples appended after the initial one. -/
noncomputable def RKF45loop (F : ℝ → (Fin n → ℝ) → Py (Fin n → ℝ)) (xStop tol : ℝ) :
    ℕ → (x : ℝ) → (y : Fin n → ℝ) → (h : ℝ) → (stopper : Bool) → Py (List (ℝ × (Fin n → ℝ)))
  | 0, _, _, _, _ => .ok []
  | left + 1, x, y, h, stopper => do
    let (dy, e) ← rkf45 F x y h
    if e ≤ tol then
      let y := y + dy
      let x := x + h
      if stopper then return [(x, y)]
      else
        let (h', stopper') ← nextStep xStop tol x h e stopper
        let rest ← RKF45loop F xStop tol left x y h' stopper'
        return (x, y) :: rest
    else
      let (h', stopper') ← nextStep xStop tol x h e stopper
      RKF45loop F xStop tol left x y h' stopper'

/-- `RKF45(F, x, y, xStop, h, tol)` (`_ode.py:62-90`). -/
noncomputable def RKF45 (F : ℝ → (Fin n → ℝ) → Py (Fin n → ℝ)) (x : ℝ) (y : Fin n → ℝ)
    (xStop h tol : ℝ) : Py (List (ℝ × (Fin n → ℝ))) := do
  let rest ← RKF45loop F xStop tol 10000 x y h false
  return (x, y) :: rest

end RKF45
end Aerokit.Ode
