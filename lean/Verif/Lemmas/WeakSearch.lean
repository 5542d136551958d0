import Verif.Props.ObliqueDefault
import Verif.Lemmas.OldPM
import Mathlib.Analysis.Calculus.MeanValue

/-! # The secant search of the weak shock angle, from the left: speed of convergence -/

namespace Aerokit.Props
open Real ShockWave

/-! ## the slope of the polar -/

/-- denominator of `betaSlope` -/
noncomputable def obDen (M γ z : ℝ) : ℝ := (2 + (γ - 1) * M ^ 2 * z) ^ 2 + ((γ + 1) * M ^ 2) ^ 2 * (z * (1 - z))

/-- slope of the polar divided by `1/z - 1/zm` -/
noncomputable def obRat (M γ zm z : ℝ) : ℝ :=
  z * (((γ + 1) * M ^ 2) ^ 2 * zm * z - ((γ - 1) * M ^ 2) ^ 2 * zm * z + (4 + 2 * ((γ + 1) * M ^ 2))) / obDen M γ z

theorem obDen_pos {M γ z : ℝ} (h : 1 < γ) (hM : 0 < M) (z0 : 0 < z) (z1 : z ≤ 1) : 0 < obDen M γ z := by
  unfold obDen
  have h1 : 0 < (γ - 1) * M ^ 2 * z := by have : 0 < γ - 1 := by linarith
                                          positivity
  have h2 : 0 ≤ z * (1 - z) := mul_nonneg z0.le (by linarith)
  positivity

theorem slope_rat {M γ z zm : ℝ} (h : 1 < γ) (hM : 0 < M) (z0 : 0 < z) (z1 : z ≤ 1) (m0 : 0 < zm) (m1 : zm ≤ 1) (hm : 1 - betaSlope M γ zm = 0) :
    1 - betaSlope M γ z = (1 / z - 1 / zm) * obRat M γ zm z := by
  have d := obDen_pos h hM z0 z1
  have dm := obDen_pos h hM m0 m1
  unfold betaSlope at hm ⊢
  unfold obRat
  unfold obDen at d dm ⊢
  obtain ⟨B, hB⟩ : ∃ B, B = (γ + 1) * M ^ 2 := ⟨_, rfl⟩
  obtain ⟨k, hk⟩ : ∃ k, k = (γ - 1) * M ^ 2 := ⟨_, rfl⟩
  rw [← hB, ← hk] at d dm hm ⊢
  rw [sub_eq_zero, eq_div_iff dm.ne', one_mul] at hm
  rw [one_sub_div d.ne', mul_div_assoc', div_left_inj' d.ne']
  field_simp
  linear_combination z * hm

theorem obRat_mono {M γ zm a b : ℝ} (h : 1 < γ) (hM : 0 < M) (m0 : 0 < zm) (a0 : 0 < a) (hab : a ≤ b) (hb : b ≤ 1) : obRat M γ zm a ≤ obRat M γ zm b := by
  have da := obDen_pos h hM a0 (hab.trans hb)
  have db := obDen_pos h hM (a0.trans_le hab) hb
  unfold obRat
  rw [div_le_div_iff₀ da db]
  unfold obDen
  have hB0 : 0 < (γ + 1) * M ^ 2 := by have : 0 < γ + 1 := by linarith
                                       positivity
  have hk0 : 0 < (γ - 1) * M ^ 2 := by have : 0 < γ - 1 := by linarith
                                       positivity
  have hkB : (γ - 1) * M ^ 2 ≤ (γ + 1) * M ^ 2 := by nlinarith [sq_nonneg M]
  obtain ⟨B, hB⟩ : ∃ B, B = (γ + 1) * M ^ 2 := ⟨_, rfl⟩
  obtain ⟨k, hk⟩ : ∃ k, k = (γ - 1) * M ^ 2 := ⟨_, rfl⟩
  rw [← hB, ← hk] at hkB ⊢
  rw [← hB] at hB0
  rw [← hk] at hk0
  obtain ⟨A, hA⟩ : ∃ A, A = B ^ 2 - k ^ 2 := ⟨_, rfl⟩
  have A0 : 0 ≤ A := by rw [hA]; nlinarith
  have key : b * (B ^ 2 * zm * b - k ^ 2 * zm * b + (4 + 2 * B)) * ((2 + k * a) ^ 2 + B ^ 2 * (a * (1 - a))) -
      a * (B ^ 2 * zm * a - k ^ 2 * zm * a + (4 + 2 * B)) * ((2 + k * b) ^ 2 + B ^ 2 * (b * (1 - b))) =
      (b - a) * (4 * (A * zm) * (a + b) + 4 * (4 + 2 * B) + A * zm * (4 * k + B ^ 2) * (a * b) + (4 + 2 * B) * A * (a * b)) := by rw [hA]; ring
  have b0 := a0.trans_le hab
  have hp : 0 ≤ (b - a) * (4 * (A * zm) * (a + b) + 4 * (4 + 2 * B) + A * zm * (4 * k + B ^ 2) * (a * b) + (4 + 2 * B) * A * (a * b)) := by
    refine mul_nonneg (by linarith) ?_
    positivity
  linarith

theorem obRat_pos {M γ zm z : ℝ} (h : 1 < γ) (hM : 0 < M) (m0 : 0 < zm) (z0 : 0 < z) (z1 : z ≤ 1) : 0 < obRat M γ zm z := by
  have d := obDen_pos h hM z0 z1
  have hB0 : 0 < (γ + 1) * M ^ 2 := by have : 0 < γ + 1 := by linarith
                                       positivity
  have hk0 : 0 < (γ - 1) * M ^ 2 := by have : 0 < γ - 1 := by linarith
                                       positivity
  have hkB : (γ - 1) * M ^ 2 ≤ (γ + 1) * M ^ 2 := by nlinarith [sq_nonneg M]
  unfold obRat
  refine div_pos (mul_pos z0 ?_) d
  have : 0 ≤ (((γ + 1) * M ^ 2) ^ 2 - ((γ - 1) * M ^ 2) ^ 2) * (zm * z) := mul_nonneg (by nlinarith) (by positivity)
  nlinarith

/-! ## comparison with `-cot s - s / zm` -/

/-- deflection in radians -/
noncomputable def devRad (M γ s : ℝ) : ℝ := s - betaRad M γ s

/-- comparison function -/
noncomputable def cmp (zm s : ℝ) : ℝ := -(cos s / sin s) - s / zm

theorem sin_pos' {s : ℝ} (h0 : 0 < s) (h1 : s < π / 2) : 0 < sin s := (sin_cos_pos h0 h1).1

theorem hasDerivAt_devRad {M γ s : ℝ} (h : 1 < γ) (hM : 0 < M) (h0 : 0 < s) (h1 : s < π / 2) :
    HasDerivAt (devRad M γ) (1 - betaSlope M γ (sin s ^ 2)) s :=
  (hasDerivAt_id s).fun_sub (hasDerivAt_betaRad h hM h0 h1)

theorem hasDerivAt_cmp {zm s : ℝ} (h0 : 0 < s) (h1 : s < π / 2) : HasDerivAt (cmp zm) (1 / sin s ^ 2 - 1 / zm) s := by
  have hS := sin_pos' h0 h1
  have d := ((Real.hasDerivAt_cos s).fun_div (Real.hasDerivAt_sin s) hS.ne').fun_neg.fun_sub ((hasDerivAt_id s).div_const zm)
  refine d.congr_deriv ?_
  have := sin_sq_add_cos_sq s
  field_simp
  linarith

theorem cmp_diff {zm x y : ℝ} (hx : sin x ≠ 0) (hy : sin y ≠ 0) : cmp zm y - cmp zm x = sin (y - x) / (sin x * sin y) - (y - x) / zm := by
  unfold cmp
  rw [sin_sub]
  field_simp
  ring

/-- on an interval, the increment of the deflection is that of `cmp` times a value of `obRat` -/
theorem dev_cmp {M γ sm x y : ℝ} (h : 1 < γ) (hM : 0 < M) (hx : 0 < x) (hxy : x < y) (hy : y ≤ sm) (hs : sm < π / 2) (hm : 1 - betaSlope M γ (sin sm ^ 2) = 0) :
    ∃ c, x < c ∧ c < y ∧ devRad M γ y - devRad M γ x = (cmp (sin sm ^ 2) y - cmp (sin sm ^ 2) x) * obRat M γ (sin sm ^ 2) (sin c ^ 2) ∧ 0 < cmp (sin sm ^ 2) y - cmp (sin sm ^ 2) x := by
  have lt : ∀ s, s < sm → s < π / 2 := fun s h => h.trans hs
  have in2 : ∀ s ∈ Set.Icc x y, 0 < s ∧ s < π / 2 := fun s h => ⟨hx.trans_le h.1, (h.2.trans hy).trans_lt hs⟩
  have hsm0 : 0 < sm := hx.trans (hxy.trans_le hy)
  have zm0 := sin_pos' hsm0 hs
  have vpos : ∀ s ∈ Set.Ioo x y, 0 < 1 / sin s ^ 2 - 1 / sin sm ^ 2 := by
    intro s hs'
    have s0 := sin_pos' (hx.trans hs'.1) (lt s (hs'.2.trans_le hy))
    have : sin s < sin sm := sin_lt_sin_of_lt_of_le_pi_div_two (by linarith [hs'.1, Real.pi_pos]) hs.le (hs'.2.trans_le hy)
    rw [sub_pos]
    exact one_div_lt_one_div_of_lt (by positivity) (by nlinarith)
  obtain ⟨c, hc, e⟩ := exists_ratio_hasDerivAt_eq_ratio_slope (devRad M γ) (fun s => 1 - betaSlope M γ (sin s ^ 2)) hxy
    (fun s hs' => (hasDerivAt_devRad h hM (in2 s hs').1 (in2 s hs').2).continuousAt.continuousWithinAt)
    (fun s hs' => hasDerivAt_devRad h hM (in2 s ⟨hs'.1.le, hs'.2.le⟩).1 (in2 s ⟨hs'.1.le, hs'.2.le⟩).2)
    (cmp (sin sm ^ 2)) (fun s => 1 / sin s ^ 2 - 1 / sin sm ^ 2)
    (fun s hs' => (hasDerivAt_cmp (in2 s hs').1 (in2 s hs').2).continuousAt.continuousWithinAt)
    (fun s hs' => hasDerivAt_cmp (in2 s ⟨hs'.1.le, hs'.2.le⟩).1 (in2 s ⟨hs'.1.le, hs'.2.le⟩).2)
  obtain ⟨c', hc', e'⟩ := exists_hasDerivAt_eq_slope (cmp (sin sm ^ 2)) (fun s => 1 / sin s ^ 2 - 1 / sin sm ^ 2) hxy
    (fun s hs' => (hasDerivAt_cmp (in2 s hs').1 (in2 s hs').2).continuousAt.continuousWithinAt)
    (fun s hs' => hasDerivAt_cmp (in2 s ⟨hs'.1.le, hs'.2.le⟩).1 (in2 s ⟨hs'.1.le, hs'.2.le⟩).2)
  have hv := vpos c hc
  have c0 := sin_pos' (hx.trans hc.1) (lt c (hc.2.trans_le hy))
  refine ⟨c, hc.1, hc.2, ?_, ?_⟩
  · rw [slope_rat (zm := sin sm ^ 2) h hM (by positivity) (by nlinarith [sin_sq_le_one c]) (by positivity) (sin_sq_le_one sm) hm] at e
    have : (devRad M γ y - devRad M γ x) * (1 / sin c ^ 2 - 1 / sin sm ^ 2) =
        ((cmp (sin sm ^ 2) y - cmp (sin sm ^ 2) x) * obRat M γ (sin sm ^ 2) (sin c ^ 2)) * (1 / sin c ^ 2 - 1 / sin sm ^ 2) := by
      rw [← e]; ring
    exact mul_right_cancel₀ hv.ne' this
  · have := vpos c' hc'
    rw [e'] at this
    have := mul_pos this (sub_pos.2 hxy)
    rwa [div_mul_cancel₀ _ (sub_pos.2 hxy).ne'] at this

theorem dev_compare {M γ sm x y r : ℝ} (h : 1 < γ) (hM : 0 < M) (hx : 0 < x) (hxy : x < y) (hyr : y < r) (hr : r ≤ sm) (hs : sm < π / 2) (hm : 1 - betaSlope M γ (sin sm ^ 2) = 0) :
    (devRad M γ y - devRad M γ x) * (cmp (sin sm ^ 2) r - cmp (sin sm ^ 2) y) ≤ (devRad M γ r - devRad M γ y) * (cmp (sin sm ^ 2) y - cmp (sin sm ^ 2) x) ∧
    0 < devRad M γ y - devRad M γ x ∧ 0 < devRad M γ r - devRad M γ y ∧ 0 < cmp (sin sm ^ 2) y - cmp (sin sm ^ 2) x ∧ 0 < cmp (sin sm ^ 2) r - cmp (sin sm ^ 2) y := by
  obtain ⟨c, c1, c2, c3, c4⟩ := dev_cmp h hM hx hxy (by linarith) hs hm
  obtain ⟨d, d1, d2, d3, d4⟩ := dev_cmp h hM (hx.trans hxy) hyr hr hs hm
  have sc := sin_pos' (hx.trans c1) (by linarith)
  have sd := sin_pos' (hx.trans (hxy.trans d1)) (by linarith)
  have hcd : sin c ≤ sin d := sin_le_sin_of_le_of_le_pi_div_two (by linarith [Real.pi_pos]) (by linarith) (by linarith)
  have zm0 := sin_pos' (hx.trans (hxy.trans (hyr.trans_le hr))) hs
  have hR := obRat_mono (zm := sin sm ^ 2) h hM (by positivity) (by positivity : 0 < sin c ^ 2) (pow_le_pow_left₀ sc.le hcd 2) (sin_sq_le_one d)
  have hR0 := obRat_pos (zm := sin sm ^ 2) h hM (by positivity) (by positivity : 0 < sin c ^ 2) (sin_sq_le_one c)
  have hR1 := hR0.trans_le hR
  rw [c3, d3]
  refine ⟨?_, by positivity, by positivity, c4, d4⟩
  have := mul_le_mul_of_nonneg_left hR (mul_nonneg c4.le d4.le)
  nlinarith

end Aerokit.Props
