import Verif.Model.ArrayFns
import Verif.Model.ScipyNewton
import Verif.Spec.Arrays

/-!
# `scipy.optimize.newton` on arrays, and the functions of aerokit that call it

`MassFlow.py:48` and `Supersonic.py:68` call `newton(f, x0)` without derivative.  When `x0` has more than one entry scipy
does not run the scalar secant method entry by entry but `_array_newton` (`scipy/optimize/_zeros_py.py`): another second point,
another stopping rule, one loop for the whole array, and failures that are warnings.  scipy is not part of the repository: the
algorithm is modelled over the reals, warnings are not modelled.
-/

namespace Aerokit.ArrayNewton
open Nd
variable {ι : Type}

/-- `dx = np.finfo(float).eps ** 0.33`, with `eps = 2 ** -52` (called from `MassFlow.py:48`). -/
noncomputable def dx : ℝ := ((1 / 2) ^ 52 : ℝ) ^ (0.33 : ℝ)

/-- The second points, `p * (1 + dx) + np.where(p >= 0, dx, -dx)` (called from `MassFlow.py:48`). -/
noncomputable def second (p : ℝ) : ℝ := p * (1 + dx) + (if p ≥ 0 then dx else -dx)

/-- The local variables of `_array_newton` (called from `MassFlow.py:48`). -/
structure State (ι : Type) where
  p : ι → ℝ
  p1 : ι → ℝ
  q0 : ι → ℝ
  q1 : ι → ℝ
  active : ι → Prop
  failures : ι → Prop
  nz_der : ι → Prop

/-- `nz_der = (q1 != q0)` (called from `MassFlow.py:48`). -/
def nonzero (s : State ι) (i : ι) : Prop := s.q1 i ≠ s.q0 i

/-- The secant step `dp = q1 * (p1 - p) / (q1 - q0)` (called from `MassFlow.py:48`). -/
noncomputable def step (s : State ι) (i : ι) : ℝ := s.q1 i * (s.p1 i - s.p i) / (s.q1 i - s.q0 i)

open Classical in
/-- The new points: `p1 - dp` where the secant is not flat, the middle of the two points where it is flat for the first time
(called from `MassFlow.py:48`). -/
noncomputable def move (s : State ι) (i : ι) : ℝ :=
  if nonzero s i then s.p1 i - step s i else if s.active i then (s.p1 i + s.p i) / 2.0 else s.p i

/-- `failures[nz_der] = np.abs(dp) >= tol` (called from `MassFlow.py:48`). -/
def fails (tol : ℝ) (s : State ι) (i : ι) : Prop :=
  (nonzero s i ∧ |step s i| ≥ tol) ∨ (¬ nonzero s i ∧ s.failures i)

open Classical in
/-- The loop `for iteration in range(maxiter)` (called from `MassFlow.py:48`); the first argument is the number of
iterations left.  Returns the variables after the loop. -/
noncomputable def loop (tol : ℝ) (f : (ι → ℝ) → Py (ι → ℝ)) : ℕ → State ι → Py (State ι)
  | 0, s => .ok s
  | k + 1, s =>
    if ¬ ∃ i, nonzero s i then
      .ok { s with p := (fun i => (s.p1 i + s.p i) / 2.0), nz_der := nonzero s }
    else if ¬ ∃ i, nonzero s i ∧ fails tol s i then
      .ok { s with p := move s, failures := fails tol s, nz_der := nonzero s, active := (fun i => s.active i ∧ nonzero s i) }
    else do
      let q ← f (move s)
      loop tol f k ⟨s.p1, move s, s.q1, q, fun i => s.active i ∧ nonzero s i, fails tol s, nonzero s⟩

open Classical in
/-- `_array_newton(f, x0, tol=tol, maxiter=maxiter)` (called from `MassFlow.py:48`): raises only when no derivative vanished
and every entry failed to converge. -/
noncomputable def arrayNewton (tol : ℝ) (maxiter : ℕ) (f : (ι → ℝ) → Py (ι → ℝ)) (x0 : ι → ℝ) : Py (ι → ℝ) := do
  let p1 := fun i => second (x0 i)
  let q0 ← f x0
  let q1 ← f p1
  let s ← loop tol f maxiter ⟨x0, p1, q0, q1, fun _ => True, fun _ => True, fun _ => True⟩
  if ∃ i, ¬ s.nz_der i ∧ s.failures i then .ok s.p
  else if ∀ i, s.failures i then .error .noConvergence
  else .ok s.p

open Classical in
/-- The entries of a value, if they are all finite (otherwise the model says nothing). -/
noncomputable def entries (X : Nd ι) : Py (ι → ℝ) :=
  if h : ∃ v : ι → ℝ, ∀ i, X.at' i = some (v i) then .ok h.choose else .error .nonFinite

open Classical in
/-- `scipy.optimize.newton(f, x0)` as called by `MassFlow.py:48` and `Supersonic.py:68`.  For a float `x0` it is the scalar
algorithm of `Model/ScipyNewton.lean`; if the function then returns an array of several entries, the test
`abs(q1) < abs(q0)` raises `ValueError`.  For an array with several entries it is `_array_newton`.  Arrays with no or one entry are
left out of the model. -/
noncomputable def newton (f : Nd ι → Nd ι) : Nd ι → Py (Nd ι)
  | num none => .error .nonFinite
  | num (some x) =>
    if (f (num (some x))).isArr then
      if Spec.Several ι then .error .valueError else .error .notImplementedError
    else do
      let m ← ScipyNewton.scipy (fun x => match f (num (some x)) with
        | num (some y) => .ok y
        | _ => .error .nonFinite) x
      return num (some m)
  | arr v => if Spec.Several ι then do
      let x0 ← entries (arr v)
      let p ← arrayNewton 1.48e-8 50 (fun p => entries (f (arr fun i => some (p i)))) x0
      return arr fun i => some (p i)
    else .error .notImplementedError

open Classical in
/-- `np.where(Mach <= 1.0, a, b)` (`MassFlow.py:41`): both values are computed, one is selected for each entry. -/
noncomputable def whereLe1 (Mach a b : Nd ι) : Nd ι := arr fun i =>
  match Mach.at' i with
  | some m => if m ≤ 1.0 then a.at' i else b.at' i
  | none => b.at' i

open Classical in
/-- `Mach_Sigma` (`MassFlow.py:39-49`) on numpy values (for an array `Mach` with several entries or a float). -/
noncomputable def Mach_Sigma (sigma Mach gamma : Nd ι) : Py (Nd ι) :=
  let Minit := if Mach.isArr ∧ Spec.Several ι then
      whereLe1 Mach (ArrayFns.MachSub_sigma sigma gamma) (ArrayFns.MachSup_sigma sigma gamma)
    else Mach
  newton (fun m => ArrayFns.Sigma_Mach m gamma - sigma) Minit

/-- `MachSub_Sigma` (`MassFlow.py:52-55`) on numpy values. -/
noncomputable def MachSub_Sigma (sigma gamma : Nd ι) : Py (Nd ι) :=
  Mach_Sigma sigma (ArrayFns.MachSub_sigma sigma gamma) gamma

/-- `MachSup_Sigma` (`MassFlow.py:58-63`) on numpy values. -/
noncomputable def MachSup_Sigma (sigma gamma : Nd ι) : Py (Nd ι) :=
  Mach_Sigma sigma (ArrayFns.MachSup_sigma sigma gamma) gamma

/-- `Mach_PrandtlMeyer` (`Supersonic.py:63-69`) on numpy values. -/
noncomputable def Mach_PrandtlMeyer (omega gamma : Nd ι) : Py (Nd ι) :=
  newton (fun m => ArrayFns.PrandtlMeyer_Mach m gamma - omega) (2.0 + 0.0 * omega)

end Aerokit.ArrayNewton
