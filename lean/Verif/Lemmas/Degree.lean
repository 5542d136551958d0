import Verif.Model.Degree
import Verif.Lemmas.Lits
import Mathlib.Tactic.Linarith
import Mathlib.Tactic.FieldSimp
import Mathlib.Tactic.Ring
import Mathlib.Tactic.Positivity

/-! Degree/radian conversions and `arctan2`. -/

namespace Aerokit.Py
open Real

theorem radians_degrees (x : ℝ) : radians (degrees x) = x := by
  have := Real.pi_ne_zero
  unfold radians degrees; field_simp

theorem degrees_radians (x : ℝ) : degrees (radians x) = x := by
  have := Real.pi_ne_zero
  unfold radians degrees; field_simp

theorem radians_sub (a b : ℝ) : radians (a - b) = radians a - radians b := by unfold radians; ring
theorem radians_add (a b : ℝ) : radians (a + b) = radians a + radians b := by unfold radians; ring
theorem degrees_sub (a b : ℝ) : degrees (a - b) = degrees a - degrees b := by unfold degrees; ring
theorem degrees_zero : degrees 0 = 0 := by simp [degrees]

theorem degrees_strictMono : StrictMono degrees := by
  intro a b h
  unfold degrees
  have : 0 < 180 / π := by have := Real.pi_pos; positivity
  exact mul_lt_mul_of_pos_right h this

theorem radians_strictMono : StrictMono radians := by
  intro a b h
  unfold radians
  have : 0 < π / 180 := by have := Real.pi_pos; positivity
  exact mul_lt_mul_of_pos_right h this

theorem degrees_lt {a b : ℝ} : degrees a < degrees b ↔ a < b := degrees_strictMono.lt_iff_lt
theorem degrees_le {a b : ℝ} : degrees a ≤ degrees b ↔ a ≤ b := degrees_strictMono.le_iff_le
theorem degrees_inj {a b : ℝ} : degrees a = degrees b ↔ a = b := degrees_strictMono.injective.eq_iff
theorem radians_lt {a b : ℝ} : radians a < radians b ↔ a < b := radians_strictMono.lt_iff_lt

theorem degrees_pi_div_two : degrees (π / 2) = 90 := by
  have := Real.pi_ne_zero
  unfold degrees; field_simp; norm_num
theorem radians_90 : radians 90 = π / 2 := by rw [← degrees_pi_div_two, radians_degrees]
theorem radians_zero : radians 0 = 0 := by simp [radians]

theorem radians_mem {σ : ℝ} (h0 : 0 < σ) (h1 : σ < 90) : 0 < radians σ ∧ radians σ < π / 2 := by
  constructor
  · rw [← radians_zero]; exact radians_lt.2 h0
  · rw [← radians_90]; exact radians_lt.2 h1

theorem degrees_mem {s : ℝ} (h0 : 0 < s) (h1 : s < π / 2) : 0 < degrees s ∧ degrees s < 90 := by
  constructor
  · rw [← degrees_zero]; exact degrees_lt.2 h0
  · rw [← degrees_pi_div_two]; exact degrees_lt.2 h1

theorem arctan2_pos (y : ℝ) {x : ℝ} (hx : 0 < x) : arctan2 y x = arctan (y / x) := by
  unfold arctan2
  have h1 := Complex.tan_arg ⟨x, y⟩
  have h2 : |Complex.arg ⟨x, y⟩| < π / 2 := Complex.abs_arg_lt_pi_div_two_iff.2 (Or.inl hx)
  rw [abs_lt] at h2
  rw [← Real.arctan_tan h2.1 h2.2, h1]

end Aerokit.Py

namespace Aerokit.degree

theorem asin_ok {x : ℝ} (h : -1 ≤ x) (h' : x ≤ 1) : asin x = .ok (Py.degrees (Real.arcsin x)) := by
  unfold asin; rw [Py.arcsin_ok h h']; rfl
theorem tan_ok {x : ℝ} (h : Real.cos (Py.radians x) ≠ 0) :
    degree.tan x = .ok (Real.tan (Py.radians x)) := by
  unfold degree.tan; exact Py.tan_ok h

end Aerokit.degree
