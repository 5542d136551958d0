import Verif.Lemmas.Degree

/-! # Property C76 : `aerokit/aero/degree.py` -/

namespace Aerokit.Props
open Real

theorem C76_pythagoras (a : ℝ) : degree.sin a ^ 2 + degree.cos a ^ 2 = 1 := Real.sin_sq_add_cos_sq _

theorem C76_shift (a : ℝ) : degree.cos a = degree.sin (a + 90) ∧ degree.sin (a + 360) = degree.sin a ∧
    degree.cos (a + 360) = degree.cos a ∧ degree.sin (-a) = -degree.sin a ∧ degree.cos (-a) = degree.cos a := by
  have h360 : Py.radians 360 = 2 * π := by unfold Py.radians; ring
  unfold degree.cos degree.sin
  rw [Py.radians_add, Py.radians_90, Real.sin_add_pi_div_two, Py.radians_add, h360, Real.sin_add_two_pi,
    Real.cos_add_two_pi]
  have hn : Py.radians (-a) = -Py.radians a := by unfold Py.radians; ring
  rw [hn, Real.sin_neg, Real.cos_neg]
  simp

/-- exact values at the cardinal angles -/
theorem C76_cardinal : degree.sin 0 = 0 ∧ degree.cos 0 = 1 ∧ degree.sin 90 = 1 ∧ degree.cos 90 = 0 ∧
    degree.sin 30 = 1 / 2 ∧ degree.cos 60 = 1 / 2 ∧ degree.cos 180 = -1 ∧ degree.tan 45 = .ok 1 ∧
    degree.tan 90 = .error .nonFinite := by
  have h30 : Py.radians 30 = π / 6 := by unfold Py.radians; ring
  have h60 : Py.radians 60 = π / 3 := by unfold Py.radians; ring
  have h45 : Py.radians 45 = π / 4 := by unfold Py.radians; ring
  have h180 : Py.radians 180 = π := by unfold Py.radians; ring
  unfold degree.sin degree.cos degree.tan
  rw [Py.radians_zero, Py.radians_90, h30, h60, h45, h180]
  refine ⟨Real.sin_zero, Real.cos_zero, Real.sin_pi_div_two, Real.cos_pi_div_two, Real.sin_pi_div_six,
    Real.cos_pi_div_three, Real.cos_pi, ?_, ?_⟩
  · rw [Py.tan_ok (by rw [Real.cos_pi_div_four]; positivity), Real.tan_pi_div_four]
  · simp [Py.tan]

/-- `asin`: defined exactly on [-1, 1], with value in [-90, 90], inverse of `sin` there. -/
theorem C76_asin (x : ℝ) :
    (-1 ≤ x ∧ x ≤ 1 → ∃ a, degree.asin x = .ok a ∧ -90 ≤ a ∧ a ≤ 90 ∧ degree.sin a = x) ∧
    ((∃ a, degree.asin x = .ok a) → -1 ≤ x ∧ x ≤ 1) ∧
    (∀ a, -90 ≤ a → a ≤ 90 → degree.asin (degree.sin a) = .ok a) := by
  refine ⟨fun ⟨h, h'⟩ => ⟨_, degree.asin_ok h h', ?_, ?_, ?_⟩, ?_, ?_⟩
  · rw [← Py.degrees_pi_div_two, ← show Py.degrees (-(π / 2)) = -Py.degrees (π / 2) by unfold Py.degrees; ring,
      Py.degrees_le]
    exact Real.neg_pi_div_two_le_arcsin x
  · rw [← Py.degrees_pi_div_two, Py.degrees_le]; exact Real.arcsin_le_pi_div_two x
  · unfold degree.sin; rw [Py.radians_degrees, Real.sin_arcsin h h']
  · rintro ⟨a, ha⟩
    by_contra hc
    simp [degree.asin, Py.arcsin, hc] at ha
  · intro a h1 h2
    unfold degree.sin
    rw [degree.asin_ok (Real.neg_one_le_sin _) (Real.sin_le_one _)]
    rw [Real.arcsin_sin, Py.degrees_radians]
    · have := Py.radians_strictMono.monotone h1
      rw [show Py.radians (-90) = -Py.radians 90 by unfold Py.radians; ring, Py.radians_90] at this
      exact this
    · have := Py.radians_strictMono.monotone h2
      rwa [Py.radians_90] at this

/-- `acos`: defined exactly on [-1, 1], with value in [0, 180], inverse of `cos` there. -/
theorem C76_acos (x : ℝ) :
    (-1 ≤ x ∧ x ≤ 1 → ∃ a, degree.acos x = .ok a ∧ 0 ≤ a ∧ a ≤ 180 ∧ degree.cos a = x) ∧
    ((∃ a, degree.acos x = .ok a) → -1 ≤ x ∧ x ≤ 1) ∧
    (∀ a, 0 ≤ a → a ≤ 180 → degree.acos (degree.cos a) = .ok a) := by
  have h180 : Py.radians 180 = π := by unfold Py.radians; ring
  have hok : ∀ {x}, -1 ≤ x → x ≤ 1 → degree.acos x = .ok (Py.degrees (Real.arccos x)) := by
    intro x h h'; unfold degree.acos; rw [Py.arccos_ok h h']; rfl
  refine ⟨fun ⟨h, h'⟩ => ⟨_, hok h h', ?_, ?_, ?_⟩, ?_, ?_⟩
  · rw [← Py.degrees_zero, Py.degrees_le]; exact Real.arccos_nonneg x
  · rw [← Py.degrees_radians 180, h180, Py.degrees_le]; exact Real.arccos_le_pi x
  · unfold degree.cos; rw [Py.radians_degrees, Real.cos_arccos h h']
  · rintro ⟨a, ha⟩
    by_contra hc
    simp [degree.acos, Py.arccos, hc] at ha
  · intro a h1 h2
    unfold degree.cos
    rw [hok (Real.neg_one_le_cos _) (Real.cos_le_one _)]
    rw [Real.arccos_cos, Py.degrees_radians]
    · have := Py.radians_strictMono.monotone h1
      rwa [Py.radians_zero] at this
    · have := Py.radians_strictMono.monotone h2
      rwa [h180] at this

/-- `atan`: total, value in (-90, 90), inverse of `tan` there. -/
theorem C76_atan (x : ℝ) :
    (-90 < degree.atan x ∧ degree.atan x < 90 ∧ degree.tan (degree.atan x) = .ok x) ∧
    (∀ a, -90 < a → a < 90 → ∃ t, degree.tan a = .ok t ∧ degree.atan t = a) := by
  refine ⟨⟨?_, ?_, ?_⟩, ?_⟩
  · unfold degree.atan
    rw [← Py.degrees_pi_div_two, ← show Py.degrees (-(π / 2)) = -Py.degrees (π / 2) by unfold Py.degrees; ring,
      Py.degrees_lt]
    exact Real.neg_pi_div_two_lt_arctan x
  · unfold degree.atan
    rw [← Py.degrees_pi_div_two, Py.degrees_lt]; exact Real.arctan_lt_pi_div_two x
  · unfold degree.atan
    rw [degree.tan_ok (by rw [Py.radians_degrees]; exact (Real.cos_arctan_pos x).ne'), Py.radians_degrees,
      Real.tan_arctan]
  · intro a h1 h2
    have h1' := Py.radians_strictMono h1
    rw [show Py.radians (-90) = -Py.radians 90 by unfold Py.radians; ring, Py.radians_90] at h1'
    have h2' := Py.radians_strictMono h2
    rw [Py.radians_90] at h2'
    refine ⟨_, degree.tan_ok (Real.cos_pos_of_mem_Ioo ⟨h1', h2'⟩).ne', ?_⟩
    unfold degree.atan
    rw [Real.arctan_tan h1' h2', Py.degrees_radians]

/-- `atan2(y, x)` is the polar angle of `(x, y)` in (-180, 180]. -/
theorem C76_atan2 (y x : ℝ) :
    -180 < degree.atan2 y x ∧ degree.atan2 y x ≤ 180 ∧
    x = Real.sqrt (x ^ 2 + y ^ 2) * degree.cos (degree.atan2 y x) ∧
    y = Real.sqrt (x ^ 2 + y ^ 2) * degree.sin (degree.atan2 y x) := by
  have h180 : Py.radians 180 = π := by unfold Py.radians; ring
  have hn : ‖(⟨x, y⟩ : ℂ)‖ = Real.sqrt (x ^ 2 + y ^ 2) := by
    rw [Complex.norm_def, Complex.normSq_mk]; congr 1; ring
  unfold degree.atan2 degree.cos degree.sin
  rw [Py.radians_degrees]
  unfold Py.arctan2
  refine ⟨?_, ?_, ?_, ?_⟩
  · have : -180 = Py.degrees (-π) := by
      rw [← h180, ← show Py.radians (-180) = -Py.radians 180 by unfold Py.radians; ring, Py.degrees_radians]
    rw [this, Py.degrees_lt]; exact Complex.neg_pi_lt_arg _
  · rw [← Py.degrees_radians 180, h180, Py.degrees_le]; exact Complex.arg_le_pi _
  · rw [← hn, Complex.norm_mul_cos_arg]
  · rw [← hn, Complex.norm_mul_sin_arg]

example : degree.asin (1/2) = .ok 30 := by
  have h := (C76_asin 0).2.2 30 (by norm_num) (by norm_num)
  rwa [C76_cardinal.2.2.2.2.1] at h

end Aerokit.Props
