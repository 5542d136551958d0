import Verif.Lemmas.ShockWave
import Verif.Lemmas.Degree

/-! Oblique shock: closed form of the deflection. -/

namespace Aerokit.ShockWave
open Real

/-- tangent of the deflection (theta-beta-M relation), `s` in radians -/
noncomputable def tanth (M s γ : ℝ) : ℝ :=
  2 * (cos s / sin s) * (M ^ 2 * sin s ^ 2 - 1) / ((γ + 1) * M ^ 2 + 2 - 2 * (M ^ 2 * sin s ^ 2))

theorem tanth_den_pos {M s γ : ℝ} (h : 1 < γ) : 0 < (γ + 1) * M ^ 2 + 2 - 2 * (M ^ 2 * sin s ^ 2) := by
  have h1 : sin s ^ 2 ≤ 1 := Real.sin_sq_le_one s
  have h2 := sq_nonneg M
  nlinarith [mul_nonneg (sub_nonneg.2 h.le) h2, mul_nonneg h2 (sub_nonneg.2 h1)]

theorem sin_cos_pos {s : ℝ} (h0 : 0 < s) (h1 : s < π / 2) : 0 < sin s ∧ 0 < cos s :=
  ⟨Real.sin_pos_of_pos_of_lt_pi h0 (by linarith [Real.pi_pos]),
   Real.cos_pos_of_mem_Ioo ⟨by linarith [Real.pi_pos], h1⟩⟩

/-- downstream flow angle relative to the shock: `arctan (tan s / rhr)` -/
theorem sub_arctan {M s γ : ℝ} (h : 1 < γ) (hM : M ≠ 0) (h0 : 0 < s) (h1 : s < π / 2) :
    s - arctan (tan s / rhr (M * sin s) γ) = arctan (tanth M s γ) := by
  obtain ⟨hS, hC⟩ := sin_cos_pos h0 h1
  have hr := rhr_pos h (mul_ne_zero hM hS.ne')
  have ht : 0 < tan s := Real.tan_pos_of_pos_of_lt_pi_div_two h0 h1
  have hq : 0 < tan s / rhr (M * sin s) γ := by positivity
  have e0 : s = arctan (tan s) := (Real.arctan_tan (by linarith [Real.pi_pos]) h1).symm
  have e1 : arctan (tan s) - arctan (tan s / rhr (M * sin s) γ)
      = arctan ((tan s + -(tan s / rhr (M * sin s) γ)) / (1 - tan s * -(tan s / rhr (M * sin s) γ))) := by
    rw [sub_eq_add_neg, ← arctan_neg, arctan_add]
    nlinarith [mul_pos ht hq]
  nth_rewrite 1 [e0]
  rw [e1]
  congr 1
  unfold tanth
  have hden := tanth_den_pos (M := M) (s := s) h
  have hE := rho_den_pos (M := M * sin s) h
  have hγ : 0 < γ + 1 := by linarith
  have hcs : cos s ^ 2 = 1 - sin s ^ 2 := by rw [Real.cos_sq']
  -- simplify the left-hand side
  have hdenL : 0 < 1 - tan s * -(tan s / rhr (M * sin s) γ) := by nlinarith [mul_pos ht hq]
  rw [div_eq_div_iff hdenL.ne' hden.ne', Real.tan_eq_sin_div_cos]
  unfold rhr
  obtain ⟨E, hEe⟩ : ∃ E, E = 2 + (γ - 1) * (M * sin s) ^ 2 := ⟨_, rfl⟩
  rw [← hEe] at hE ⊢
  have := hE.ne'
  field_simp
  rw [hcs, hEe]
  ring

theorem deflection_ok {M σ γ : ℝ} (h : 1 < γ) (hM : M ≠ 0) (h0 : 0 < σ) (h1 : σ < 90) :
    deflection_Mach_sigma M σ γ = .ok (Py.degrees (arctan (tanth M (Py.radians σ) γ))) := by
  obtain ⟨hs0, hs1⟩ := Py.radians_mem h0 h1
  obtain ⟨hS, hC⟩ := sin_cos_pos hs0 hs1
  unfold deflection_Mach_sigma
  simp only []
  rw [Py.tan_ok hC.ne', Py.ok_bind, Rho_ratio_ok h, Py.ok_bind,
    Py.arctan2_pos _ (rhr_pos h (mul_ne_zero hM hS.ne')), ← sub_arctan h hM hs0 hs1, Py.degrees_sub,
    Py.degrees_radians]
  rfl

end Aerokit.ShockWave
