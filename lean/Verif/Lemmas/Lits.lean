import Verif.Model.Py
import Mathlib.Tactic.NormNum

/-! Python float literals as exact reals. -/

namespace Aerokit

theorem l0_0 : (0.0:ℝ) = 0 := by norm_num
theorem l0_2 : (0.2:ℝ) = 1/5 := by norm_num
theorem l0_5 : (0.5:ℝ) = 1/2 := by norm_num
theorem l1_0 : (1.0:ℝ) = 1 := by norm_num
theorem l1_4 : (1.4:ℝ) = 7/5 := by norm_num
theorem l1_5 : (1.5:ℝ) = 3/2 := by norm_num
theorem l2_0 : (2.0:ℝ) = 2 := by norm_num
theorem l3_0 : (3.0:ℝ) = 3 := by norm_num
theorem l4_0 : (4.0:ℝ) = 4 := by norm_num
theorem l10_0 : (10.0:ℝ) = 10 := by norm_num
theorem l27_0 : (27.0:ℝ) = 27 := by norm_num
theorem l90_0 : (90.0:ℝ) = 90 := by norm_num
theorem l180_0 : (180.0:ℝ) = 180 := by norm_num

/-- rewrite float literals to rational literals -/
macro "lits" : tactic => `(tactic| simp only [l0_0, l0_2, l0_5, l1_0, l1_4, l1_5, l2_0, l3_0, l4_0,
  l10_0, l27_0, l90_0, l180_0])

end Aerokit
