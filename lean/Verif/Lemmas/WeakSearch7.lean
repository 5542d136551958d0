import Verif.Lemmas.WeakSearch6

/-! # The weak shock polar of air: starting points below the shock angle -/

namespace Aerokit.Props
open Real ShockWave

theorem arctan_add_le {a b : ℝ} (a0 : 0 ≤ a) (a1 : a < 1) (b0 : 0 ≤ b) (b1 : b < 1) : arctan (a + b) ≤ arctan a + arctan b := by
  have hab : a * b < 1 := by nlinarith
  rw [arctan_add hab]
  refine arctan_strictMono.monotone ?_
  rw [le_div_iff₀ (by linarith)]
  nlinarith [mul_nonneg a0 b0, mul_nonneg (mul_nonneg a0 b0) (add_nonneg a0 b0)]

/-- the slope of `tan β` times the relative distance to the Mach wave -/
theorem half_coef {u τ t : ℝ} (hu : 49/10 ≤ u) (τ0 : 0 < τ) (hτu : τ ^ 2 * (u - 1) = 1) (t0 : 0 < t) (ht : t ^ 2 ≤ 6) :
    (2 + 2/5 * u) * (t - τ) ≤ 12/5 * u * (2742/10000 * t) := by
  have key : ∀ v k : ℝ, u ≤ v → 0 ≤ k → k ^ 2 * 6 * (v - 1) ≤ 1 → k * t ≤ τ := by
    intro v k hv k0 hk
    refine le_of_sq_le_sq ?_ τ0.le
    have h1 : k ^ 2 * t ^ 2 * (u - 1) ≤ k ^ 2 * 6 * (v - 1) := by gcongr <;> linarith
    have : (k * t) ^ 2 * (u - 1) ≤ τ ^ 2 * (u - 1) := by rw [hτu, mul_pow]; linarith
    exact le_of_mul_le_mul_right this (by linarith)
  rcases le_total u (58/10) with h1 | h1
  · have := key (58/10) (186/1000) h1 (by norm_num) (by norm_num)
    nlinarith
  rcases le_total u (775/100) with h2 | h2
  · have := key (775/100) (157/1000) h2 (by norm_num) (by norm_num)
    nlinarith
  · nlinarith

/-- in air, from Mach √4.9 on, the starting point is at least half of the shock angle -/
theorem half_start {M s μ : ℝ} (hM : 1 < M) (hu : 49/10 ≤ M ^ 2) (hμ : μ = arcsin (1 / M)) (h1 : s < π / 2) (hs : μ < s) (hz : sin s ^ 2 ≤ 6/7) :
    betaRad M (7/5) s ≤ μ + s / 2 := by
  obtain ⟨μ0, μ1, μs, τ0, hτu, hτ⟩ := mach_tan hM hμ
  have hM0 : 0 < M := by linarith
  have h0 : 0 < s := by linarith
  obtain ⟨sS, sC⟩ := sin_cos_pos h0 h1
  obtain ⟨t, et⟩ : ∃ t, t = tan s := ⟨_, rfl⟩
  have t0 : 0 < t := by rw [et]; exact tan_pos_of_pos_of_lt_pi_div_two h0 h1
  have htc : t * cos s = sin s := by rw [et]; exact tan_mul_cos sC.ne'
  have hsc := sin_sq_add_cos_sq s
  have hc : 3779/10000 ≤ cos s := by
    by_contra hcon
    push Not at hcon
    nlinarith
  have ht6 : t ^ 2 ≤ 6 := by
    have : t ^ 2 * cos s ^ 2 ≤ 6 * cos s ^ 2 := by rw [← mul_pow, htc]; linarith
    exact le_of_mul_le_mul_right this (by positivity)
  obtain ⟨h, eh⟩ : ∃ h, h = tan (s / 2) := ⟨_, rfl⟩
  have hh : h * (1 + cos s) = sin s := by
    obtain ⟨-, hC2⟩ := sin_cos_pos (by linarith : 0 < s / 2) (by linarith : s / 2 < π / 2)
    have e1 : sin s = 2 * sin (s / 2) * cos (s / 2) := by rw [← sin_two_mul]; congr 1; ring
    have e2 : cos s = 2 * cos (s / 2) ^ 2 - 1 := by rw [← cos_two_mul]; congr 1; ring
    rw [eh, e1, e2, tan_eq_sin_div_cos]
    field_simp
    ring
  have hh0 : 0 < h := by rw [eh]; exact tan_pos_of_pos_of_lt_pi_div_two (by linarith) (by linarith)
  have hh1 : h < 1 := by
    have : sin s ≤ 1 := sin_le_one s
    nlinarith
  have hle : 2742/10000 * t ≤ h := by
    have h2 : 2742/10000 * (1 + cos s) ≤ cos s := by linarith
    have h3 := mul_le_mul_of_nonneg_left h2 t0.le
    rw [htc, ← hh] at h3
    refine le_of_mul_le_mul_right ?_ (by linarith : 0 < 1 + cos s)
    linarith
  have hτ1 : tan μ < 1 := by nlinarith
  have hb := half_coef hu τ0 hτu t0 ht6
  have hT : (2 + (2 + 2/5 * M ^ 2) * t ^ 2) / (12/5 * M ^ 2 * t) ≤ tan μ + h := by
    have hsub := beta_sub (by positivity : 0 < M ^ 2) τ0.ne' hτu t0
    have h4 : (t - tan μ) * ((2 + 2/5 * M ^ 2) * t - 2 / tan μ) / (12/5 * M ^ 2 * t) ≤ h := by
      rw [div_le_iff₀ (by positivity)]
      have h5 : 0 < 2 / tan μ := by positivity
      have h6 : tan μ < t := by rw [et]; exact tan_lt_tan_of_lt_of_lt_pi_div_two (by linarith [Real.pi_pos]) h1 hs
      have h7 : (t - tan μ) * ((2 + 2/5 * M ^ 2) * t - 2 / tan μ) ≤ (t - tan μ) * ((2 + 2/5 * M ^ 2) * t) := mul_le_mul_of_nonneg_left (by linarith) (by linarith)
      have h8 := mul_le_mul_of_nonneg_left hb t0.le
      have h9 : 12/5 * M ^ 2 * t * (2742/10000 * t) ≤ 12/5 * M ^ 2 * t * h := mul_le_mul_of_nonneg_left hle (by positivity)
      linarith
    linarith
  rw [beta_air hM0 h0 h1 et]
  refine (arctan_strictMono.monotone hT).trans ((arctan_add_le τ0.le hτ1 hh0.le hh1).trans ?_)
  rw [← hτ, eh, arctan_tan (by linarith) (by linarith)]

end Aerokit.Props
