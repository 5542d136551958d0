import Mathlib.Analysis.SpecialFunctions.Pow.Real
import Mathlib.Analysis.SpecialFunctions.Trigonometric.Arctan
import Mathlib.Analysis.SpecialFunctions.Trigonometric.Inverse
import Mathlib.Analysis.SpecialFunctions.Complex.Arg

/-!
# Python/numpy scalar semantics used by every model file

The aerokit code is numerical Python.  A Python expression is modelled as a value of type
`Py α = Except PyErr α`: either a result, or the way the evaluation fails.

Scalars are exact real numbers (floating point rounding is *not* modelled, see DESIGN.md).
Every partial operation (`/`, `np.sqrt`, `**`, `np.log`, `np.arcsin`, ...) is *checked*: outside
its real domain it yields `PyErr.nonFinite`, which stands for "numpy yields NaN or an infinity,
or pure Python raises ZeroDivisionError / returns a complex number".  The model says nothing about
what happens after a `nonFinite`, so no theorem can be true because `1 / 0 = 0` or `√(-1) = 0`.
-/

namespace Aerokit

/-- Ways in which a Python evaluation fails. -/
inductive PyErr
  /-- NaN / ±inf in numpy, `ZeroDivisionError`/`OverflowError`/complex result in pure Python -/
  | nonFinite
  | valueError
  | assertionError
  | keyError
  | typeError
  | indexError
  | attributeError
  | nameError
  | importError
  | notImplementedError
  | linAlgError
  /-- exception class `DictKeyError` of `stability/OrrSommerfeld.py:36` -/
  | dictKeyError
  /-- `RuntimeError` of a scipy root finder that did not converge -/
  | noConvergence
  /-- the fuel given to a `while` loop is exhausted (no Python counterpart: "still running") -/
  | outOfFuel
  deriving DecidableEq, Repr

/-- Result of evaluating a Python expression. -/
abbrev Py (α : Type) := Except PyErr α

namespace Py

variable {α β : Type}

@[simp] theorem ok_bind (a : α) (f : α → Py β) : ((Except.ok a : Py α) >>= f) = f a := rfl
@[simp] theorem error_bind (e : PyErr) (f : α → Py β) :
    ((Except.error e : Py α) >>= f) = Except.error e := rfl
@[simp] theorem pure_eq (a : α) : (pure a : Py α) = Except.ok a := rfl
@[simp] theorem map_ok (f : α → β) (a : α) : (f <$> (Except.ok a : Py α)) = Except.ok (f a) := rfl
@[simp] theorem map_error (f : α → β) (e : PyErr) :
    (f <$> (Except.error e : Py α)) = Except.error e := rfl

/-- `a / b` on floats; `b = 0` gives inf/NaN (numpy) or raises (Python). -/
noncomputable def div (a b : ℝ) : Py ℝ := if b = 0 then .error .nonFinite else .ok (a / b)

/-- `np.sqrt(a)` (NaN for negative `a`). -/
noncomputable def sqrt (a : ℝ) : Py ℝ := if a < 0 then .error .nonFinite else .ok (Real.sqrt a)

open Classical in
/-- `b ** e` for float `b`, `e`: finite iff `b > 0`, or `b = 0` and `e ≥ 0`, or `b < 0` and `e` is
an integer.  (On these sets Mathlib's `Real.rpow` is the usual power.) -/
noncomputable def pow (b e : ℝ) : Py ℝ :=
  if 0 < b ∨ (b = 0 ∧ 0 ≤ e) ∨ (b < 0 ∧ ∃ n : ℤ, e = n) then .ok (b ^ e) else .error .nonFinite

/-- `np.log(a)` (NaN or -inf for `a ≤ 0`). -/
noncomputable def log (a : ℝ) : Py ℝ := if 0 < a then .ok (Real.log a) else .error .nonFinite

/-- `np.arcsin(a)` (NaN outside `[-1, 1]`). -/
noncomputable def arcsin (a : ℝ) : Py ℝ :=
  if -1 ≤ a ∧ a ≤ 1 then .ok (Real.arcsin a) else .error .nonFinite

/-- `np.arccos(a)` (NaN outside `[-1, 1]`). -/
noncomputable def arccos (a : ℝ) : Py ℝ :=
  if -1 ≤ a ∧ a ≤ 1 then .ok (Real.arccos a) else .error .nonFinite

/-- `np.tan(a)`: no finite exact value where `cos a = 0`. -/
noncomputable def tan (a : ℝ) : Py ℝ :=
  if Real.cos a = 0 then .error .nonFinite else .ok (Real.tan a)

/-- `np.arctan2(y, x)`: the argument in `(-π, π]` of the vector `(x, y)` (signed zeros are not
modelled; `arctan2(0, 0) = 0`). -/
noncomputable def arctan2 (y x : ℝ) : ℝ := Complex.arg ⟨x, y⟩

/-- `np.radians` -/
noncomputable def radians (a : ℝ) : ℝ := a * (Real.pi / 180)

/-- `np.degrees` -/
noncomputable def degrees (a : ℝ) : ℝ := a * (180 / Real.pi)

/-! ### Evaluation lemmas: each primitive inside its domain -/

theorem div_ok {a b : ℝ} (h : b ≠ 0) : div a b = .ok (a / b) := by simp [div, h]
theorem sqrt_ok {a : ℝ} (h : 0 ≤ a) : sqrt a = .ok (Real.sqrt a) := by simp [sqrt, not_lt.mpr h]
theorem pow_ok {b : ℝ} (e : ℝ) (h : 0 < b) : pow b e = .ok (b ^ e) := by simp [pow, h]
theorem pow_zero_ok {e : ℝ} (h : 0 ≤ e) : pow 0 e = .ok ((0:ℝ) ^ e) := by simp [pow, h]
theorem pow_nonneg_ok {b e : ℝ} (h : 0 ≤ b) (he : 0 ≤ e) : pow b e = .ok (b ^ e) := by
  rcases h.eq_or_lt with h | h
  · subst h; exact pow_zero_ok he
  · exact pow_ok e h
theorem log_ok {a : ℝ} (h : 0 < a) : log a = .ok (Real.log a) := by simp [log, h]
theorem arcsin_ok {a : ℝ} (h : -1 ≤ a) (h' : a ≤ 1) : arcsin a = .ok (Real.arcsin a) := by
  simp [arcsin, h, h']
theorem arccos_ok {a : ℝ} (h : -1 ≤ a) (h' : a ≤ 1) : arccos a = .ok (Real.arccos a) := by
  simp [arccos, h, h']
theorem tan_ok {a : ℝ} (h : Real.cos a ≠ 0) : tan a = .ok (Real.tan a) := by simp [tan, h]

theorem div_err {a : ℝ} : div a 0 = .error .nonFinite := by simp [div]
theorem sqrt_err {a : ℝ} (h : a < 0) : sqrt a = .error .nonFinite := by simp [sqrt, h]
theorem log_err {a : ℝ} (h : a ≤ 0) : log a = .error .nonFinite := by simp [log, not_lt.mpr h]
theorem arcsin_err {a : ℝ} (h : 1 < a) : arcsin a = .error .nonFinite := by
  simp [arcsin, not_le.mpr h]

end Py
end Aerokit
