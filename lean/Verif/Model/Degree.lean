import Verif.Model.Py

/-! # Model of `aerokit/aero/degree.py` (trigonometry in degrees) -/

namespace Aerokit.degree

/-- `cos` (`degree.py:4-5`). -/
noncomputable def cos (a : ℝ) : ℝ := Real.cos (Py.radians a)
/-- `sin` (`degree.py:8-9`). -/
noncomputable def sin (a : ℝ) : ℝ := Real.sin (Py.radians a)
/-- `tan` (`degree.py:12-13`). -/
noncomputable def tan (a : ℝ) : Py ℝ := Py.tan (Py.radians a)
/-- `acos` (`degree.py:16-17`). -/
noncomputable def acos (a : ℝ) : Py ℝ := do
  let x ← Py.arccos a
  return Py.degrees x
/-- `asin` (`degree.py:20-21`). -/
noncomputable def asin (a : ℝ) : Py ℝ := do
  let x ← Py.arcsin a
  return Py.degrees x
/-- `atan` (`degree.py:24-25`). -/
noncomputable def atan (a : ℝ) : ℝ := Py.degrees (Real.arctan a)
/-- `atan2` (`degree.py:28-29`). -/
noncomputable def atan2 (a b : ℝ) : ℝ := Py.degrees (Py.arctan2 a b)

end Aerokit.degree
