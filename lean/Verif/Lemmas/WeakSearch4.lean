import Verif.Lemmas.WeakSearch3

/-! # The weak shock polar of air: numerical facts -/

namespace Aerokit.Props
open Real ShockWave

theorem lt_zm {M γ zm z : ℝ} (h : 1 < γ) (hM : 0 < M) (m0 : 0 < zm) (m1 : zm ≤ 1) (hm : 1 - betaSlope M γ zm = 0) (z0 : 0 < z) (z1 : z ≤ 1)
    (hN : 0 < 4 + 2 * (γ + 1) * M ^ 2 + (M ^ 2 * z) * (2 * (γ + 1) * M ^ 2 - 8) - 4 * γ * (M ^ 2 * z) ^ 2) : z < zm := by
  have d := obDen_pos h hM z0 z1
  have hs := slope_rat h hM z0 z1 m0 m1 hm
  have hR := obRat_pos (zm := zm) h hM m0 z0 z1
  have hp : 0 < 1 - betaSlope M γ z := by
    unfold betaSlope
    unfold obDen at d
    rw [sub_pos, div_lt_one d]
    have e : (2 + (γ - 1) * M ^ 2 * z) ^ 2 + ((γ + 1) * M ^ 2) ^ 2 * (z * (1 - z)) - (γ + 1) * M ^ 2 * (((γ - 1) * M ^ 2 + 4) * z - 2) =
        4 + 2 * (γ + 1) * M ^ 2 + (M ^ 2 * z) * (2 * (γ + 1) * M ^ 2 - 8) - 4 * γ * (M ^ 2 * z) ^ 2 := by ring
    linarith
  rw [hs] at hp
  have h2 := (mul_pos_iff_of_pos_right hR).1 hp
  rwa [sub_pos, one_div_lt_one_div m0 z0] at h2

theorem zm_le {M γ zm z : ℝ} (h : 1 < γ) (hM : 0 < M) (m0 : 0 < zm) (m1 : zm ≤ 1) (hm : 1 - betaSlope M γ zm = 0) (z0 : 0 < z) (z1 : z ≤ 1)
    (hN : 4 + 2 * (γ + 1) * M ^ 2 + (M ^ 2 * z) * (2 * (γ + 1) * M ^ 2 - 8) - 4 * γ * (M ^ 2 * z) ^ 2 ≤ 0) : zm ≤ z := by
  have d := obDen_pos h hM z0 z1
  have hs := slope_rat h hM z0 z1 m0 m1 hm
  have hR := obRat_pos (zm := zm) h hM m0 z0 z1
  have hp : 1 - betaSlope M γ z ≤ 0 := by
    unfold betaSlope
    unfold obDen at d
    rw [sub_nonpos, one_le_div d]
    have e : (2 + (γ - 1) * M ^ 2 * z) ^ 2 + ((γ + 1) * M ^ 2) ^ 2 * (z * (1 - z)) - (γ + 1) * M ^ 2 * (((γ - 1) * M ^ 2 + 4) * z - 2) =
        4 + 2 * (γ + 1) * M ^ 2 + (M ^ 2 * z) * (2 * (γ + 1) * M ^ 2 - 8) - 4 * γ * (M ^ 2 * z) ^ 2 := by ring
    linarith
  rw [hs] at hp
  by_contra hcon
  push Not at hcon
  have := mul_pos (sub_pos.2 (one_div_lt_one_div_of_lt z0 hcon)) hR
  linarith

/-- in air `sin² σm` is at least 0.816 -/
theorem zm_air {M zm : ℝ} (hM : 0 < M) (m0 : 0 < zm) (m1 : zm ≤ 1) (hm : 1 - betaSlope M (7/5) zm = 0) : 102/125 < zm := by
  refine lt_zm (by norm_num) hM m0 m1 hm (by norm_num) (by norm_num) ?_
  nlinarith [sq_nonneg (M ^ 2 - 46/10)]

/-- in air, from Mach √4.9 on, `sin² σm` is at most 6/7 and at least `4 / M²` -/
theorem zm_air_high {M zm : ℝ} (hM : 0 < M) (hu : 49/10 ≤ M ^ 2) (m0 : 0 < zm) (m1 : zm ≤ 1) (hm : 1 - betaSlope M (7/5) zm = 0) : zm ≤ 6/7 ∧ 4 ≤ M ^ 2 * zm := by
  refine ⟨zm_le (by norm_num) hM m0 m1 hm (by norm_num) (by norm_num) (by nlinarith), ?_⟩
  by_contra hcon
  push Not at hcon
  obtain ⟨z, hz⟩ : ∃ z, z = 4 / M ^ 2 := ⟨_, rfl⟩
  have hzM : M ^ 2 * z = 4 := by rw [hz]; field_simp
  have z0 : 0 < z := by rw [hz]; positivity
  have hlt : zm < z := lt_of_mul_lt_mul_left (by linarith : M ^ 2 * zm < M ^ 2 * z) (by positivity)
  -- use a point between
  have d := obDen_pos (γ := 7/5) (by norm_num) hM m0 m1
  have hN : 4 + 2 * (7/5 + 1) * M ^ 2 + (M ^ 2 * zm) * (2 * (7/5 + 1) * M ^ 2 - 8) - 4 * (7/5) * (M ^ 2 * zm) ^ 2 = 0 := by
    unfold betaSlope at hm
    unfold obDen at d
    rw [sub_eq_zero, eq_div_iff d.ne', one_mul] at hm
    linear_combination hm
  have hx : 0 < M ^ 2 * zm := by positivity
  nlinarith

/-- in air, up to Mach √4.9, `M² sin² σm` is at most 4 -/
theorem zm_air_low {M zm : ℝ} (hM : 0 < M) (hu : M ^ 2 ≤ 49/10) (m0 : 0 < zm) (m1 : zm ≤ 1) (hm : 1 - betaSlope M (7/5) zm = 0) : M ^ 2 * zm ≤ 4 := by
  by_contra hcon
  push Not at hcon
  have d := obDen_pos (γ := 7/5) (by norm_num) hM m0 m1
  have hN : 4 + 2 * (7/5 + 1) * M ^ 2 + (M ^ 2 * zm) * (2 * (7/5 + 1) * M ^ 2 - 8) - 4 * (7/5) * (M ^ 2 * zm) ^ 2 = 0 := by
    unfold betaSlope at hm
    unfold obDen at d
    rw [sub_eq_zero, eq_div_iff d.ne', one_mul] at hm
    linear_combination hm
  nlinarith

/-! ## the angle between the shock and the downstream flow -/

/-- `tan` of the angle between the shock and the downstream flow, in air -/
theorem beta_air {M s t : ℝ} (hM : 0 < M) (h0 : 0 < s) (h1 : s < π / 2) (ht : t = tan s) :
    betaRad M (7/5) s = arctan ((2 + (2 + 2/5 * M ^ 2) * t ^ 2) / (12/5 * M ^ 2 * t)) := by
  obtain ⟨hS, hC⟩ := sin_cos_pos h0 h1
  unfold betaRad
  congr 1
  rw [ht, tan_eq_sin_div_cos]
  have := sin_sq_add_cos_sq s
  field_simp
  linear_combination (-120) * this

/-- bounds of `tan μ - tan β` -/
theorem eps_air {u τ t : ℝ} (hu : 25/16 ≤ u) (hτ : 0 < τ) (hτu : τ ^ 2 * (u - 1) = 1) (ht : 0 < t) :
    τ - (2 + (2 + 2/5 * u) * t ^ 2) / (12/5 * u * t) ≤ 2/15 * t := by
  have hu0 : 0 < u := by linarith
  rw [sub_le_iff_le_add, ← sub_le_iff_le_add', le_div_iff₀ (by positivity)]
  have hτ2 : τ ^ 2 ≤ 16/9 := by
    by_contra hcon
    push Not at hcon
    nlinarith
  have e : 2 * ((2 + (2 + 2/5 * u) * t ^ 2) - (τ - 2/15 * t) * (12/5 * u * t)) = (2 - 6/5 * u * τ * t) ^ 2 + (64/25 - 36/25 * τ ^ 2) * t ^ 2 := by
    linear_combination (-(36/25) * (u + 1) * t ^ 2) * hτu
  have : 0 ≤ (64/25 - 36/25 * τ ^ 2) * t ^ 2 := mul_nonneg (by linarith) (sq_nonneg t)
  nlinarith [sq_nonneg (2 - 6/5 * u * τ * t)]

end Aerokit.Props
