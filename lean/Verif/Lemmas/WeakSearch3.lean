import Verif.Props.WeakSearch

/-! # The secant search of the weak shock angle, from the right: how much the slope of the polar varies -/

namespace Aerokit.Props
open Real ShockWave

/-- the slope of the polar times `z / ((zm - z) (1 + M² z))` increases -/
theorem slope_compare {M γ zm a b : ℝ} (h : 1 < γ) (hM : 1 < M) (m0 : 0 < zm) (m1 : zm ≤ 1) (hm : 1 - betaSlope M γ zm = 0) (ha : 1/2 ≤ M ^ 2 * a) (hab : a ≤ b) (hb : b ≤ zm) :
    (1 - betaSlope M γ a) * (a * (zm - b) * (1 + M ^ 2 * b)) ≤ (1 - betaSlope M γ b) * (b * (zm - a) * (1 + M ^ 2 * a)) := by
  have hM0 : 0 < M := by linarith
  have u1 : 1 < M ^ 2 := by nlinarith
  have a0 : 0 < a := pos_of_mul_pos_right (by linarith : 0 < M ^ 2 * a) (by positivity)
  have b0 : 0 < b := a0.trans_le hab
  have da := obDen_pos h hM0 a0 (by linarith)
  have db := obDen_pos h hM0 b0 (by linarith)
  have dm := obDen_pos h hM0 m0 m1
  rw [slope_rat h hM0 a0 (by linarith) m0 m1 hm, slope_rat h hM0 b0 (by linarith) m0 m1 hm]
  unfold obRat
  unfold betaSlope at hm
  unfold obDen at da db dm ⊢
  rw [sub_eq_zero, eq_div_iff dm.ne', one_mul] at hm
  obtain ⟨u, hu⟩ : ∃ u, u = M ^ 2 := ⟨_, rfl⟩
  rw [← hu] at u1 ha da db dm hm ⊢
  clear hM hM0 hu dm
  have u0 : 0 < u := by linarith
  obtain ⟨Da, hDa⟩ : ∃ D, D = (2 + (γ - 1) * u * a) ^ 2 + ((γ + 1) * u) ^ 2 * (a * (1 - a)) := ⟨_, rfl⟩
  obtain ⟨Db, hDb⟩ : ∃ D, D = (2 + (γ - 1) * u * b) ^ 2 + ((γ + 1) * u) ^ 2 * (b * (1 - b)) := ⟨_, rfl⟩
  obtain ⟨C, hC⟩ : ∃ C, C = 4 + 2 * ((γ + 1) * u) := ⟨_, rfl⟩
  obtain ⟨W, hW⟩ : ∃ W, W = 4 * γ + (γ + 1) ^ 2 * u := ⟨_, rfl⟩
  have hY : ∀ z, ((γ + 1) * u) ^ 2 * zm * z - ((γ - 1) * u) ^ 2 * zm * z + (4 + 2 * ((γ + 1) * u)) = C + 4 * γ * u ^ 2 * zm * z := by
    intro z; rw [hC]; ring
  rw [hY, hY, ← hDa, ← hDb]
  rw [← hDa] at da
  rw [← hDb] at db
  have g0 : 0 < γ + 1 := by linarith
  have C4 : 4 ≤ C := by
    rw [hC]
    have : 0 ≤ (γ + 1) * u := by positivity
    linarith
  have Cz : 4 * (u * zm) ≤ C := by
    rw [hC]
    have : u * zm ≤ u * 1 := mul_le_mul_of_nonneg_left m1 u0.le
    nlinarith
  have W0 : 0 < W := by rw [hW]; positivity
  -- the bracket
  have br : -(16 * (γ - 1) * u ^ 2) ≤ 4 * γ * u ^ 2 * zm * (u * W) - C * (u * (u * (W - 4)) - 4 * γ * u ^ 2) := by
    have hN : 4 * γ * u ^ 2 * zm ^ 2 = C + zm * (u * (C - 12)) := by rw [hC]; linear_combination (-1 : ℝ) * hm
    have e : zm * (4 * γ * u ^ 2 * zm * (u * W) - C * (u * (u * (W - 4)) - 4 * γ * u ^ 2)) =
        u * W * (C - 12 * (u * zm)) + zm * u ^ 2 * (4 * (1 + γ) * C) := by
      linear_combination (u * W) * hN
    have e2 : zm * -(16 * (γ - 1) * u ^ 2) = u * W * (-8 * (u * zm)) + zm * u ^ 2 * (4 * (1 + γ) * C) := by rw [hC, hW]; ring
    refine le_of_mul_le_mul_left ?_ m0
    rw [e, e2]
    have : u * W * (-8 * (u * zm)) ≤ u * W * (C - 12 * (u * zm)) := mul_le_mul_of_nonneg_left (by linarith) (by positivity)
    linarith
  have key : a * (C + 4 * γ * u ^ 2 * zm * a) * (1 + u * b) * Db ≤ b * (C + 4 * γ * u ^ 2 * zm * b) * (1 + u * a) * Da := by
    have e : b * (C + 4 * γ * u ^ 2 * zm * b) * (1 + u * a) * Da - a * (C + 4 * γ * u ^ 2 * zm * a) * (1 + u * b) * Db =
        (b - a) * (4 * C + 4 * (4 * γ * u ^ 2 * zm) * (a + b) + (C - 4) * (4 * γ * u ^ 2) * (a * b) * (u * (a + b)) + 16 * γ * u ^ 2 * (a * b) * (u * (a + b) - 1) + 16 * u ^ 2 * (a * b)
          + 4 * γ * u ^ 2 * zm * (4 * γ * u ^ 3) * (a ^ 2 * b ^ 2)
          + a * b * ((4 * γ * u ^ 2 * zm * (u * W) - C * (u * (u * (W - 4)) - 4 * γ * u ^ 2)) + 16 * (γ - 1) * u ^ 2)) := by
      rw [hDa, hDb, hW]; ring
    have p1 : 0 ≤ u * (a + b) - 1 := by nlinarith
    have p2 : 0 ≤ C - 4 := by linarith
    have p3 : 0 ≤ (4 * γ * u ^ 2 * zm * (u * W) - C * (u * (u * (W - 4)) - 4 * γ * u ^ 2)) + 16 * (γ - 1) * u ^ 2 := by linarith
    have p4 : 0 ≤ b - a := by linarith
    have p5 : 0 < γ := by linarith
    have p6 : 0 < C := by linarith
    have := mul_nonneg p4 (by positivity : 0 ≤ (4 * C + 4 * (4 * γ * u ^ 2 * zm) * (a + b) + (C - 4) * (4 * γ * u ^ 2) * (a * b) * (u * (a + b)) + 16 * γ * u ^ 2 * (a * b) * (u * (a + b) - 1) + 16 * u ^ 2 * (a * b)
          + 4 * γ * u ^ 2 * zm * (4 * γ * u ^ 3) * (a ^ 2 * b ^ 2)
          + a * b * ((4 * γ * u ^ 2 * zm * (u * W) - C * (u * (u * (W - 4)) - 4 * γ * u ^ 2)) + 16 * (γ - 1) * u ^ 2)))
    linarith
  obtain ⟨Ya, hYa⟩ : ∃ Y, Y = C + 4 * γ * u ^ 2 * zm * a := ⟨_, rfl⟩
  obtain ⟨Yb, hYb⟩ : ∃ Y, Y = C + 4 * γ * u ^ 2 * zm * b := ⟨_, rfl⟩
  rw [← hYa, ← hYb] at key ⊢
  have e1 : (1 / a - 1 / zm) * (a * Ya / Da) * (a * (zm - b) * (1 + u * b)) = ((zm - a) * (zm - b) / (zm * Da * Db)) * (a * Ya * (1 + u * b) * Db) := by field_simp
  have e2 : (1 / b - 1 / zm) * (b * Yb / Db) * (b * (zm - a) * (1 + u * a)) = ((zm - a) * (zm - b) / (zm * Da * Db)) * (b * Yb * (1 + u * a) * Da) := by field_simp
  rw [e1, e2]
  refine mul_le_mul_of_nonneg_left key (div_nonneg (mul_nonneg (by linarith) (by linarith)) (by positivity))

/-- so the slope varies little over a short interval away from the maximum -/
theorem slope_ratio {M γ zm a b f w κ : ℝ} (h : 1 < γ) (hM : 1 < M) (m0 : 0 < zm) (m1 : zm ≤ 1) (hm : 1 - betaSlope M γ zm = 0) (ha : 1/2 ≤ M ^ 2 * a) (hab : a ≤ b) (hb : b < zm)
    (hf : b * (1 + M ^ 2 * a) ≤ f * (a * (1 + M ^ 2 * b))) (f0 : 0 ≤ f) (hw : b - a ≤ w * (zm - b)) (hk : f * (1 + w) ≤ 1 + κ) : 0 < 1 - betaSlope M γ b ∧ 1 - betaSlope M γ a ≤ (1 + κ) * (1 - betaSlope M γ b) := by
  have hM0 : 0 < M := by linarith
  have a0 : 0 < a := pos_of_mul_pos_right (by linarith : 0 < M ^ 2 * a) (by positivity)
  have b0 : 0 < b := a0.trans_le hab
  have hc := slope_compare h hM m0 m1 hm ha hab hb.le
  have hp : 0 < 1 - betaSlope M γ b := by
    rw [slope_rat h hM0 b0 (by linarith) m0 m1 hm]
    exact mul_pos (sub_pos.2 (one_div_lt_one_div_of_lt b0 hb)) (obRat_pos h hM0 m0 b0 (by linarith))
  refine ⟨hp, ?_⟩
  have hq : 0 < a * (zm - b) * (1 + M ^ 2 * b) := by
    have : 0 < zm - b := by linarith
    positivity
  refine le_of_mul_le_mul_right (hc.trans ?_) hq
  have h1 : zm - a ≤ (1 + w) * (zm - b) := by linarith
  have h2 : b * (zm - a) * (1 + M ^ 2 * a) ≤ (1 + κ) * (a * (zm - b) * (1 + M ^ 2 * b)) := by
    have g1 := mul_le_mul_of_nonneg_left h1 (by positivity : 0 ≤ b * (1 + M ^ 2 * a))
    have zb : 0 < zm - b := by linarith
    have hw1 : 0 ≤ (1 + w) * (zm - b) := by linarith
    have g2 := mul_le_mul_of_nonneg_right hf hw1
    have g3 := mul_le_mul_of_nonneg_right hk hq.le
    linarith
  have := mul_le_mul_of_nonneg_left h2 hp.le
  linarith

end Aerokit.Props
