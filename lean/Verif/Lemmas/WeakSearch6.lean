import Verif.Lemmas.WeakSearch5

/-! # The weak shock polar of air: the starting point `μ + d` -/

namespace Aerokit.Props
open Real ShockWave IterativeSolve ScipyNewton

/-- the Mach angle by its tangent -/
theorem mach_tan {M μ : ℝ} (hM : 1 < M) (hμ : μ = arcsin (1 / M)) :
    0 < μ ∧ μ < π / 2 ∧ sin μ = 1 / M ∧ 0 < tan μ ∧ tan μ ^ 2 * (M ^ 2 - 1) = 1 ∧ μ = arctan (tan μ) := by
  have hM0 : 0 < M := by linarith
  have h1 : 0 < μ := by rw [hμ]; exact arcsin_pos.2 (by positivity)
  have h2 : μ < π / 2 := by rw [hμ]; exact arcsin_lt_pi_div_two.2 (by rw [div_lt_one hM0]; exact hM)
  have h3 : sin μ = 1 / M := by rw [hμ]; exact sin_arcsin (by have : 0 < 1 / M := by positivity
                                                              linarith) (by rw [div_le_one hM0]; exact hM.le)
  obtain ⟨hS, hC⟩ := sin_cos_pos h1 h2
  refine ⟨h1, h2, h3, tan_pos_of_pos_of_lt_pi_div_two h1 h2, ?_, (arctan_tan (by linarith) h2).symm⟩
  have h4 := sin_sq_add_cos_sq μ
  rw [tan_eq_sin_div_cos, div_pow, div_mul_eq_mul_div, div_eq_one_iff_eq (by positivity)]
  rw [h3] at h4 ⊢
  have : (1 / M) ^ 2 * (M ^ 2 - 1) = 1 - (1 / M) ^ 2 := by field_simp
  linarith

/-- quadratic in `tan σ` behind `β - μ` -/
theorem beta_sub {u τ t : ℝ} (hu : 0 < u) (hτ : τ ≠ 0) (hτu : τ ^ 2 * (u - 1) = 1) (ht : 0 < t) :
    (2 + (2 + 2/5 * u) * t ^ 2) / (12/5 * u * t) - τ = (t - τ) * ((2 + 2/5 * u) * t - 2 / τ) / (12/5 * u * t) := by
  rw [div_sub' (by positivity)]
  congr 1
  have e : (2:ℝ) / τ = 2 * τ * (u - 1) := by
    rw [div_eq_iff hτ]; linarith
  have e2 : τ * (2 / τ) = 2 := by field_simp
  rw [show (t - τ) * ((2 + 2/5 * u) * t - 2 / τ) = (2 + 2/5 * u) * t ^ 2 - (2 / τ) * t - τ * (2 + 2/5 * u) * t + τ * (2 / τ) by ring, e2, e]
  ring

theorem devRad_slope {M γ a b : ℝ} (h : 1 < γ) (hM : 0 < M) (a0 : 0 < a) (hab : a < b) (hb : b < π / 2) :
    ∃ c, a < c ∧ c < b ∧ devRad M γ b - devRad M γ a = (1 - betaSlope M γ (sin c ^ 2)) * (b - a) := by
  obtain ⟨c, hc, hs⟩ := exists_hasDerivAt_eq_slope (devRad M γ) (fun s => 1 - betaSlope M γ (sin s ^ 2)) hab
    (fun z hz => (hasDerivAt_devRad h hM (a0.trans_le hz.1) (hz.2.trans_lt hb)).continuousAt.continuousWithinAt)
    (fun z hz => hasDerivAt_devRad h hM (a0.trans hz.1) (hz.2.trans hb))
  rw [eq_div_iff (by linarith)] at hs
  exact ⟨c, hc.1, hc.2, hs.symm⟩

theorem sin_sq_mono {a b : ℝ} (h0 : 0 ≤ a) (h : a ≤ b) (h1 : b ≤ π / 2) : sin a ^ 2 ≤ sin b ^ 2 :=
  pow_le_pow_left₀ (sin_nonneg_of_nonneg_of_le_pi h0 (by linarith [Real.pi_pos])) (sin_le_sin_of_le_of_le_pi_div_two (by linarith [Real.pi_pos]) h1 h) 2

/-- the Mach wave does not deflect the flow -/
theorem beta_mach {M μ : ℝ} (hM : 1 < M) (hμ : μ = arcsin (1 / M)) : betaRad M (7/5) μ = μ := by
  obtain ⟨h1, h2, -, h4, h5, h6⟩ := mach_tan hM hμ
  have hM0 : 0 < M := by linarith
  have e := beta_sub (by positivity : 0 < M ^ 2) h4.ne' h5 h4
  rw [sub_self, zero_mul, zero_div, sub_eq_zero] at e
  rw [beta_air hM0 h1 h2 rfl, e, ← h6]

set_option maxHeartbeats 1000000 in
/-- facts about the starting point when it is above the shock angle -/
theorem air_right {M s μ β zm : ℝ} (hM : 1 < M) (hμ : μ = arcsin (1 / M)) (h1 : s < π / 2) (hs : μ < s) (hβ : β = betaRad M (7/5) s) (hlt : β < μ)
    (m1 : zm ≤ 1) (hz : 102/125 < zm) (hm : 1 - betaSlope M (7/5) zm = 0) :
    μ - β ≤ 47/1000 ∧ tan (μ - β) ≤ 2/15 * tan s ∧ μ - β ≤ 2/3 * (s - μ) ∧ s + (μ - β) < π / 2 ∧ sin (s + (μ - β)) ^ 2 ≤ 1021/2000 := by
  obtain ⟨μ0, μ1, μs, τ0, hτu, hτ⟩ := mach_tan hM hμ
  have hM0 : 0 < M := by linarith
  have h0 : 0 < s := by linarith
  have bm := beta_mach hM hμ
  obtain ⟨τ, eτ⟩ : ∃ τ, τ = tan μ := ⟨_, rfl⟩
  obtain ⟨t, et⟩ : ∃ t, t = tan s := ⟨_, rfl⟩
  obtain ⟨u, eu⟩ : ∃ u, u = M ^ 2 := ⟨_, rfl⟩
  have u0 : 1 < u := by rw [eu]; nlinarith
  have t0 : 0 < t := by rw [et]; exact tan_pos_of_pos_of_lt_pi_div_two h0 h1
  have τt : τ < t := by rw [eτ, et]; exact tan_lt_tan_of_lt_of_lt_pi_div_two (by linarith [Real.pi_pos]) h1 hs
  have hb := beta_air hM0 h0 h1 et
  rw [← hβ] at hb
  rw [← eτ] at τ0 hτu hτ
  rw [← et]
  rw [← eu] at hb hτu
  obtain ⟨T, eT⟩ : ∃ T, T = (2 + (2 + 2/5 * u) * t ^ 2) / (12/5 * u * t) := ⟨_, rfl⟩
  have hsub := beta_sub (by linarith : 0 < u) τ0.ne' hτu t0
  rw [← eT] at hb hsub
  have T0 : 0 < T := by rw [eT]; positivity
  have Tτ : T < τ := by
    rw [hb] at hlt
    rw [hτ] at hlt
    exact arctan_strictMono.lt_iff_lt.1 hlt
  -- the other root
  have hroot : (2 + 2/5 * u) * t < 2 / τ := by
    by_contra hcon
    push Not at hcon
    have : 0 ≤ T - τ := by
      rw [hsub]
      exact div_nonneg (mul_nonneg (by linarith) (by linarith)) (by positivity)
    linarith
  have e2 : (2:ℝ) / τ = 2 * τ * (u - 1) := by rw [div_eq_iff τ0.ne']; linarith
  have u25 : 5/2 ≤ u := by
    by_contra hcon
    push Not at hcon
    rw [e2] at hroot
    have h3 : (2 + 2/5 * u) * τ < 2 * τ * (u - 1) := lt_trans (mul_lt_mul_of_pos_left τt (by linarith)) hroot
    nlinarith
  have hε := eps_air' u25 τ0 hτu t0
  have hε2 := eps_air (by linarith : 25/16 ≤ u) τ0 hτu t0
  rw [← eT] at hε hε2
  have hD1 : μ - β ≤ 47/1000 := by
    rw [hτ, hb]
    exact (arctan_sub_le Tτ.le).trans hε
  have hD2 : tan (μ - β) ≤ 2/15 * t := by
    rw [hτ, hb]
    exact (tan_arctan_sub_le T0.le Tτ.le).trans hε2
  have hD3 : μ - β ≤ 2/3 * (s - μ) := by
    obtain ⟨c, c1, c2, hc⟩ := devRad_slope (M := M) (γ := 7/5) (by norm_num) hM0 μ0 hs h1
    have hcs := sin_sq_mono μ0.le c1.le (by linarith : c ≤ π / 2)
    have h3 := betaSlope_mono (γ := 7/5) (by norm_num) hM0 (sq_nonneg _) hcs (sin_sq_le_one _)
    have h4 : betaSlope M (7/5) (sin μ ^ 2) = 5 / (3 * M ^ 2) - 2/3 := by
      rw [μs]
      unfold betaSlope
      have : (2 + (7/5 - 1) * M ^ 2 * (1 / M) ^ 2) ^ 2 + ((7/5 + 1) * M ^ 2) ^ 2 * ((1 / M) ^ 2 * (1 - (1 / M) ^ 2)) = 144/25 * M ^ 2 := by
        field_simp
        ring
      rw [this]
      field_simp
      ring
    have h5 : 0 < 5 / (3 * M ^ 2) := by positivity
    have h6 : (1 - betaSlope M (7/5) (sin c ^ 2)) * (s - μ) ≤ 5/3 * (s - μ) := mul_le_mul_of_nonneg_right (by linarith) (by linarith)
    rw [← hc] at h6
    unfold devRad at h6
    rw [bm, ← hβ] at h6
    linarith
  -- the shock whose deflection angle from the shock is the Mach angle
  obtain ⟨w, ew⟩ : ∃ w, w = (2 / τ) / (2 + 2/5 * u) := ⟨_, rfl⟩
  have w0 : 0 < w := by rw [ew]; positivity
  have hw : (2 + 2/5 * u) * w = 2 / τ := by rw [ew]; field_simp
  have tw : t < w := by
    rw [ew, lt_div_iff₀ (by positivity)]; linarith
  obtain ⟨r, er⟩ : ∃ r, r = arctan w := ⟨_, rfl⟩
  have r1 : r < π / 2 := by rw [er]; exact arctan_lt_pi_div_two w
  have hsr : s < r := by
    rw [er]
    have := arctan_strictMono tw
    rwa [et, arctan_tan (by linarith) h1] at this
  have hrb : betaRad M (7/5) r = μ := by
    rw [beta_air hM0 (by linarith) r1 (t := w) (by rw [er, tan_arctan]), ← eu]
    have := beta_sub (by linarith : 0 < u) τ0.ne' hτu w0
    rw [hw, sub_self, mul_zero, zero_div, sub_eq_zero] at this
    rw [this, ← hτ]
  have hrs : sin r ^ 2 ≤ 1021/2000 := by
    have e : sin r ^ 2 = w ^ 2 / (1 + w ^ 2) := by
      rw [er, sin_arctan, div_pow, sq_sqrt (by positivity)]
    rw [e, div_le_iff₀ (by positivity)]
    have hw2 : (2 + 2/5 * u) ^ 2 * w ^ 2 = 4 * (u - 1) := by
      rw [← mul_pow, hw, div_pow, div_eq_iff (by positivity)]
      linear_combination -4 * hτu
    refine le_of_mul_le_mul_left ?_ (by positivity : 0 < (2 + 2/5 * u) ^ 2)
    have : (2 + 2/5 * u) ^ 2 * (1021/2000 * (1 + w ^ 2)) = 1021/2000 * ((2 + 2/5 * u) ^ 2 + (2 + 2/5 * u) ^ 2 * w ^ 2) := by ring
    rw [this, hw2]
    nlinarith [sq_nonneg (u - 7)]
  have hsum : s + (μ - β) ≤ r := by
    obtain ⟨c, c1, c2, hc⟩ := devRad_slope (M := M) (γ := 7/5) (by norm_num) hM0 h0 hsr r1
    have hcs := sin_sq_mono (by linarith : 0 ≤ c) c2.le r1.le
    have h3 := betaSlope_mono (γ := 7/5) (by norm_num) hM0 (sq_nonneg _) (by linarith : sin c ^ 2 ≤ zm) m1
    have h6 : 0 ≤ (1 - betaSlope M (7/5) (sin c ^ 2)) * (r - s) := mul_nonneg (by linarith) (by linarith)
    rw [← hc] at h6
    unfold devRad at h6
    rw [hrb, ← hβ] at h6
    linarith
  exact ⟨hD1, hD2, hD3, by linarith, (sin_sq_mono (by linarith) hsum r1.le).trans hrs⟩

theorem sin_sq_lip {a b : ℝ} (h : a ≤ b) : sin b ^ 2 - sin a ^ 2 ≤ b - a := by
  have e : sin b ^ 2 - sin a ^ 2 = sin (b + a) * sin (b - a) := by
    rw [sin_add, sin_sub]
    linear_combination sin a ^ 2 * sin_sq_add_cos_sq b - sin b ^ 2 * sin_sq_add_cos_sq a
  rw [e]
  refine (le_abs_self _).trans ?_
  rw [abs_mul]
  calc |sin (b + a)| * |sin (b - a)| ≤ 1 * |b - a| := mul_le_mul (abs_sin_le_one _) (abs_sin_le_abs) (abs_nonneg _) zero_le_one
    _ = b - a := by rw [one_mul, abs_of_nonneg (by linarith)]

set_option maxHeartbeats 1000000 in
/-- the ratio of the slopes around a shock angle below the starting point -/
theorem air_ratio {M s D μ zm : ℝ} (hM : 1 < M) (hμ0 : 0 < μ) (hμ : sin μ = 1 / M) (hs : μ < s) (D0 : 0 ≤ D) (h1 : D ≤ 47/1000) (h2 : tan D ≤ 2/15 * tan s) (h3 : D ≤ 2/3 * (s - μ))
    (h4 : s + D < π / 2) (h5 : sin (s + D) ^ 2 ≤ 1021/2000) (m0 : 0 < zm) (m1 : zm ≤ 1) (hz : 102/125 < zm) (hm : 1 - betaSlope M (7/5) zm = 0) :
    0 < 1 - betaSlope M (7/5) (sin (s + D) ^ 2) ∧ 1 - betaSlope M (7/5) (sin (s - 45/100 * D) ^ 2) ≤ (1 + 45/100) * (1 - betaSlope M (7/5) (sin (s + D) ^ 2)) := by
  have hM0 : 0 < M := by linarith
  have s0 : 0 < s := by linarith
  obtain ⟨sS, sC⟩ := sin_cos_pos s0 (by linarith : s < π / 2)
  have hD2 : D < π / 2 := by linarith
  have dC : 0 < cos D := cos_pos_of_mem_Ioo ⟨by linarith [Real.pi_pos], hD2⟩
  have hsd : sin D = tan D * cos D := (tan_mul_cos dC.ne').symm
  have hst : sin s = tan s * cos s := (tan_mul_cos sC.ne').symm
  have hk : cos s * sin D ≤ 2/15 * (cos D * sin s) := by
    rw [hsd, hst]
    have := mul_le_mul_of_nonneg_right h2 (mul_pos sC dC).le
    linarith
  have b1 : sin (s + D) ≤ 17/15 * (cos D * sin s) := by rw [sin_add]; linarith
  have a1 : 94/100 * (cos D * sin s) ≤ sin (s - 45/100 * D) := by
    have hconc := strictConcaveOn_sin_Icc.concaveOn.2 (show s - D ∈ Set.Icc 0 π from ⟨by linarith, by linarith [Real.pi_pos]⟩) (show s ∈ Set.Icc 0 π from ⟨s0.le, by linarith [Real.pi_pos]⟩)
      (show (0:ℝ) ≤ 45/100 by norm_num) (show (0:ℝ) ≤ 55/100 by norm_num) (by norm_num)
    simp only [smul_eq_mul] at hconc
    rw [show 45/100 * (s - D) + 55/100 * s = s - 45/100 * D by ring, sin_sub] at hconc
    have : cos D * sin s ≤ 1 * sin s := mul_le_mul_of_nonneg_right (cos_le_one D) sS.le
    linarith
  have hA0 : 0 < s - 45/100 * D := by linarith
  have aS : 0 < sin (s - 45/100 * D) := sin_pos_of_pos_of_lt_pi hA0 (by linarith [Real.pi_pos])
  have bS : 0 < sin (s + D) := sin_pos_of_pos_of_lt_pi (by linarith) (by linarith [Real.pi_pos])
  have hρ : sin (s + D) ≤ 170/141 * sin (s - 45/100 * D) := by linarith
  have hab := sin_sq_mono hA0.le (by linarith : s - 45/100 * D ≤ s + D) h4.le
  have hρ2 : sin (s + D) ^ 2 ≤ (170/141) ^ 2 * sin (s - 45/100 * D) ^ 2 := by
    rw [← mul_pow]; exact pow_le_pow_left₀ bS.le hρ 2
  have hMa : 1 ≤ M ^ 2 * sin (s - 45/100 * D) ^ 2 := by
    have := sin_sq_mono hμ0.le (by linarith : μ ≤ s - 45/100 * D) (by linarith)
    rw [hμ] at this
    have h := mul_le_mul_of_nonneg_left this (sq_nonneg M)
    have e : M ^ 2 * (1 / M) ^ 2 = 1 := by field_simp
    linarith
  have hdiff := sin_sq_lip (by linarith : s - 45/100 * D ≤ s + D)
  obtain ⟨a, ea⟩ : ∃ a, a = sin (s - 45/100 * D) ^ 2 := ⟨_, rfl⟩
  obtain ⟨b, eb⟩ : ∃ b, b = sin (s + D) ^ 2 := ⟨_, rfl⟩
  rw [← ea] at hdiff hMa hρ2 hab ⊢
  rw [← eb] at hdiff hρ2 hab h5 ⊢
  have b0 : 0 < b := by rw [eb]; positivity
  refine slope_ratio (f := 237/200) (w := 2236/10000) (by norm_num) hM m0 m1 hm (by linarith) hab (by linarith) ?_ (by norm_num) (by linarith) (by norm_num)
  have h6 : 1 * b ≤ M ^ 2 * a * b := mul_le_mul_of_nonneg_right hMa b0.le
  linarith

/-- the ratio of the slopes close to the starting point -/
theorem air_ratio_near {M s μ zm : ℝ} (hM : 1 < M) (hμ0 : 0 < μ) (hμ : sin μ = 1 / M) (hs : μ < s)
    (h4 : s < π / 2) (h5 : sin s ^ 2 ≤ 1021/2000) (m0 : 0 < zm) (m1 : zm ≤ 1) (hz : 102/125 < zm) (hm : 1 - betaSlope M (7/5) zm = 0) :
    10005/10000 * s < π / 2 ∧ 0 < 1 - betaSlope M (7/5) (sin (10005/10000 * s) ^ 2) ∧
      1 - betaSlope M (7/5) (sin (9985/10000 * s) ^ 2) ≤ (1 + 45/100) * (1 - betaSlope M (7/5) (sin (10005/10000 * s) ^ 2)) := by
  have s0 : 0 < s := by linarith
  have hs1 : s ≤ 1 := by
    by_contra hcon
    push Not at hcon
    have h6 := sin_sq_mono (by norm_num) hcon.le h4.le
    have h7 := sin_gt_sub_cube (x := 1) (by norm_num) 
    nlinarith
  have hB : 10005/10000 * s < π / 2 := by linarith [Real.pi_gt_three]
  have hab := sin_sq_mono (by linarith : 0 ≤ 9985/10000 * s) (by linarith : 9985/10000 * s ≤ 10005/10000 * s) hB.le
  have hdiff := sin_sq_lip (by linarith : 9985/10000 * s ≤ 10005/10000 * s)
  have hdiff2 := sin_sq_lip (by linarith : s ≤ 10005/10000 * s)
  have hA : 9985/10000 * sin s ≤ sin (9985/10000 * s) := by
    have hconc := strictConcaveOn_sin_Icc.concaveOn.2 (show (0:ℝ) ∈ Set.Icc 0 π from ⟨le_rfl, Real.pi_pos.le⟩) (show s ∈ Set.Icc 0 π from ⟨s0.le, by linarith [Real.pi_pos]⟩)
      (show (0:ℝ) ≤ 15/10000 by norm_num) (show (0:ℝ) ≤ 9985/10000 by norm_num) (by norm_num)
    simpa using hconc
  have hMa : 9/10 ≤ M ^ 2 * sin (9985/10000 * s) ^ 2 := by
    have h6 := sin_sq_mono hμ0.le hs.le h4.le
    rw [hμ] at h6
    have h := mul_le_mul_of_nonneg_left h6 (sq_nonneg M)
    have e : M ^ 2 * (1 / M) ^ 2 = 1 := by field_simp
    have h7 : (9985/10000) ^ 2 * sin s ^ 2 ≤ sin (9985/10000 * s) ^ 2 := by
      rw [← mul_pow]; exact pow_le_pow_left₀ (mul_nonneg (by norm_num) (sin_pos' s0 h4).le) hA 2
    have h8 := mul_le_mul_of_nonneg_left h7 (sq_nonneg M)
    linarith
  have hAB : 9985/10005 * sin (10005/10000 * s) ≤ sin (9985/10000 * s) := by
    have hconc := strictConcaveOn_sin_Icc.concaveOn.2 (show (0:ℝ) ∈ Set.Icc 0 π from ⟨le_rfl, Real.pi_pos.le⟩) (show 10005/10000 * s ∈ Set.Icc 0 π from ⟨by linarith, by linarith [Real.pi_pos]⟩)
      (show (0:ℝ) ≤ 20/10005 by norm_num) (show (0:ℝ) ≤ 9985/10005 by norm_num) (by norm_num)
    simp only [smul_eq_mul, mul_zero, zero_add, sin_zero] at hconc
    rwa [show (9985/10005 : ℝ) * (10005/10000 * s) = 9985/10000 * s by ring] at hconc
  have bS : 0 < sin (10005/10000 * s) := sin_pos' (by linarith) hB
  have hρ2 : (9985/10005) ^ 2 * sin (10005/10000 * s) ^ 2 ≤ sin (9985/10000 * s) ^ 2 := by
    rw [← mul_pow]; exact pow_le_pow_left₀ (by positivity) hAB 2
  obtain ⟨a, ea⟩ : ∃ a, a = sin (9985/10000 * s) ^ 2 := ⟨_, rfl⟩
  obtain ⟨b, eb⟩ : ∃ b, b = sin (10005/10000 * s) ^ 2 := ⟨_, rfl⟩
  rw [← ea] at hdiff hMa hρ2 hab ⊢
  rw [← eb] at hdiff hdiff2 hρ2 hab ⊢
  have b0 : 0 < b := by rw [eb]; positivity
  refine ⟨hB, slope_ratio (f := 237/200) (w := 2236/10000) (by norm_num) hM m0 m1 hm (by linarith) hab (by linarith) ?_ (by norm_num) (by linarith) (by norm_num)⟩
  have h6 : 9/10 * b ≤ M ^ 2 * a * b := mul_le_mul_of_nonneg_right hMa b0.le
  linarith

end Aerokit.Props
