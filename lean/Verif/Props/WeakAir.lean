import Verif.Lemmas.WeakSearch7
import Verif.Props.WeakSearch
import Verif.Props.ObliqueDefault

/-! # C98: convergence of the weak shock search in air -/

namespace Aerokit.Props
open Real ShockWave IterativeSolve ScipyNewton

theorem radians_linear (a b : ℝ) : Py.radians (a + b) = Py.radians a + Py.radians b ∧ Py.radians (a * b) = a * Py.radians b := by
  unfold Py.radians; constructor <;> ring

set_option maxHeartbeats 1000000 in
/-- the search from above -/
theorem air_right_converges {M σ σm s0 μ : ℝ} (hM : 1 < M) (hm : sigma_DevMax M (7/5) = .ok σm) (hσ : σ ≤ σm) (hμ : μ = Py.degrees (arcsin (1 / M))) (hlt : μ < σ)
    (hs : s0 = μ + devDeg M (7/5) σ) (hs0 : σ < s0) :
    ∃ m, secant_run (fun s => deflection_Mach_sigma M s (7/5)) (devDeg M (7/5) σ) s0 defaultTol = .ok ⟨m, false⟩ := by
  have hM0 : 0 < M := by linarith
  have hγ : (1:ℝ) < 7/5 := by norm_num
  obtain ⟨m0, m90, hsl⟩ := slope_at_max hγ hM hm
  obtain ⟨zm, ez⟩ : ∃ zm, zm = sin (Py.radians σm) ^ 2 := ⟨_, rfl⟩
  have zm0 : 0 < zm := by rw [ez]; have := sin_pos' (Py.radians_mem m0 m90).1 (Py.radians_mem m0 m90).2; positivity
  have zm1 : zm ≤ 1 := by rw [ez]; exact sin_sq_le_one _
  rw [← ez] at hsl
  have hz := zm_air hM0 zm0 zm1 hsl
  have hμr : Py.radians μ = arcsin (1 / M) := by rw [hμ, Py.radians_degrees]
  obtain ⟨μ0, μ1, μs, -⟩ := mach_tan hM hμr
  have hσ0 : 0 < σ := by
    have : 0 < μ := by rw [hμ]; exact (mach_angle hM).2.1
    linarith
  have hσ90 : σ < 90 := by linarith
  obtain ⟨s1, s2⟩ := Py.radians_mem hσ0 hσ90
  obtain ⟨s, es⟩ : ∃ s, s = Py.radians σ := ⟨_, rfl⟩
  obtain ⟨D, eD⟩ : ∃ D, D = Py.radians μ - betaRad M (7/5) s := ⟨_, rfl⟩
  have hs0r : Py.radians s0 = s + D := by
    rw [hs, (radians_linear _ _).1, eD, es]
    unfold devDeg
    rw [sub_eq_add_neg, (radians_linear _ _).1]
    have : Py.radians (-Py.degrees (betaRad M (7/5) (Py.radians σ))) = -betaRad M (7/5) (Py.radians σ) := by
      have h := Py.radians_degrees (betaRad M (7/5) (Py.radians σ))
      unfold Py.radians at h ⊢
      linarith
    rw [this]
    ring
  have D0 : 0 < D := by
    have := Py.radians_strictMono hs0
    rw [hs0r, ← es] at this
    linarith
  have hμs : Py.radians μ < s := by rw [es]; exact Py.radians_strictMono hlt
  obtain ⟨a1, a2, a3, a4, a5⟩ := air_right hM hμr (by rw [es]; exact s2 : s < π / 2) hμs rfl (by linarith) zm1 hz hsl
  rw [← eD] at a1 a2 a3 a4 a5
  have hs090 : s0 < 90 := by
    by_contra hcon
    push Not at hcon
    have := Py.radians_strictMono.monotone hcon
    rw [hs0r] at this
    have e : Py.radians 90 = π / 2 := by unfold Py.radians; ring
    linarith
  have h999 : s0 * 0.999 = 999/1000 * s0 := by norm_num; ring
  have hDdeg : Py.radians (s0 - σ) = D := by
    rw [sub_eq_add_neg, (radians_linear _ _).1, hs0r]
    unfold Py.radians at es ⊢
    rw [es]; ring
  have hdeg5 : s0 - σ ≤ 5 := by
    by_contra hcon
    push Not at hcon
    have := Py.radians_strictMono hcon
    rw [hDdeg] at this
    unfold Py.radians at this
    have := Real.pi_gt_three
    linarith
  rcases le_total σ (s0 * 0.999) with hc | hc
  · -- both starting points are above the shock angle
    obtain ⟨r1, r2⟩ := air_ratio hM μ0 μs hμs D0.le a1 a2 a3 a4 a5 zm0 zm1 hz hsl
    have hA : Py.radians (σ - 45/100 * (s0 - σ)) = s - 45/100 * D := by
      rw [← hDdeg, es]; unfold Py.radians; ring
    have hApos : 0 < σ - 45/100 * (s0 - σ) := by
      by_contra hcon
      push Not at hcon
      have := Py.radians_strictMono.monotone hcon
      rw [hA] at this
      have e : Py.radians 0 = 0 := by unfold Py.radians; ring
      linarith
    refine weak_slopes_run (A := σ - 45/100 * (s0 - σ)) (B := s0) (d := s0 - σ) hγ hM0 hApos (by linarith) le_rfl hs090 ⟨by linarith, hs0.le⟩ ?_ ?_ ?_ le_rfl (by linarith) hdeg5
    · rw [hs0r]; exact r1
    · rw [hs0r, hA]; exact r2
    · rw [abs_of_nonneg (by linarith), h999]; linarith
  · -- the second starting point is below the shock angle
    rw [h999] at hc
    obtain ⟨b0, b1, b2⟩ := air_ratio_near (s := s + D) hM μ0 μs (by linarith) a4 a5 zm0 zm1 hz hsl
    have hA : Py.radians (9985/10000 * s0) = 9985/10000 * (s + D) := by rw [(radians_linear _ _).2, hs0r]
    have hB : Py.radians (10005/10000 * s0) = 10005/10000 * (s + D) := by rw [(radians_linear _ _).2, hs0r]
    have hB90 : 10005/10000 * s0 < 90 := by
      by_contra hcon
      push Not at hcon
      have := Py.radians_strictMono.monotone hcon
      rw [hB] at this
      have e : Py.radians 90 = π / 2 := by unfold Py.radians; ring
      linarith
    refine weak_slopes_run (A := 9985/10000 * s0) (B := 10005/10000 * s0) (d := 1/1000 * s0) hγ hM0 (by linarith) (by rw [h999]; linarith) (by linarith) hB90 ⟨by linarith, by linarith⟩ ?_ ?_ ?_ (by linarith) (by linarith) (by linarith)
    · rw [hB]; exact b1
    · rw [hB, hA]; exact b2
    · rw [h999, abs_le]; constructor <;> linarith

set_option maxHeartbeats 1000000 in
/-- the search from below -/
theorem air_left_converges {M σ σm s0 μ : ℝ} (hM1 : 101/100 ≤ M) (hm : sigma_DevMax M (7/5) = .ok σm) (hσ : σ ≤ σm) (hμ : μ = Py.degrees (arcsin (1 / M))) (hlt : μ < σ)
    (hd : 0 < devDeg M (7/5) σ) (hs : s0 = μ + devDeg M (7/5) σ) (hs0 : s0 ≤ σ) (h01 : 1/100 < s0)
    (hw : M ^ 2 * sin (Py.radians σ) ^ 2 - 1 ≤ 95/100 * (M ^ 2 * sin (Py.radians σm) ^ 2 - 1)) :
    ∃ m, secant_run (fun s => deflection_Mach_sigma M s (7/5)) (devDeg M (7/5) σ) s0 defaultTol = .ok ⟨m, false⟩ := by
  have hM : 1 < M := by linarith
  have hM0 : 0 < M := by linarith
  have hγ : (1:ℝ) < 7/5 := by norm_num
  obtain ⟨m0, m90, hsl⟩ := slope_at_max hγ hM hm
  obtain ⟨zm, ez⟩ : ∃ zm, zm = sin (Py.radians σm) ^ 2 := ⟨_, rfl⟩
  have zm0 : 0 < zm := by rw [ez]; have := sin_pos' (Py.radians_mem m0 m90).1 (Py.radians_mem m0 m90).2; positivity
  have zm1 : zm ≤ 1 := by rw [ez]; exact sin_sq_le_one _
  rw [← ez] at hsl
  have hμr : Py.radians μ = arcsin (1 / M) := by rw [hμ, Py.radians_degrees]
  obtain ⟨μ0, μ1, μs, -⟩ := mach_tan hM hμr
  have hμ0 : 0 < μ := by rw [hμ]; exact (mach_angle hM).2.1
  have hσ0 : 0 < σ := by linarith
  have hσ90 : σ < 90 := by linarith
  obtain ⟨s1, s2⟩ := Py.radians_mem hσ0 hσ90
  obtain ⟨r1, r2⟩ := Py.radians_mem (by linarith : 0 < s0) (by linarith)
  rcases le_total (M ^ 2) (49/10) with hu | hu
  · refine weak_converges hγ hM1 hm hσ ?_ h01 hs0 (by rw [← ez]; exact zm_air_low hM0 hu zm0 zm1 hsl) hw
    rw [← μs]
    exact sin_le_sin_of_le_of_le_pi_div_two (by linarith [Real.pi_pos]) r2.le (Py.radians_strictMono.monotone (by linarith))
  · obtain ⟨k1, k2⟩ := zm_air_high hM0 hu zm0 zm1 hsl
    have hz : sin (Py.radians σ) ^ 2 ≤ zm := by
      rw [ez]; exact sin_sq_mono s1.le (Py.radians_strictMono.monotone hσ) (Py.radians_mem m0 m90).2.le
    have hβ := half_start hM hu hμr s2 (Py.radians_strictMono hlt) (hz.trans k1)
    have hhalf : σ / 2 ≤ s0 := by
      have hb : Py.degrees (betaRad M (7/5) (Py.radians σ)) ≤ μ + σ / 2 := by
        have e : Py.degrees (Py.radians (μ + σ / 2)) = μ + σ / 2 := Py.degrees_radians _
        rw [← e]
        unfold Py.degrees
        refine mul_le_mul_of_nonneg_right ?_ (by positivity)
        have e2 : Py.radians (μ + σ / 2) = Py.radians μ + Py.radians σ / 2 := by unfold Py.radians; ring
        rw [e2]; exact hβ
      rw [hs]; unfold devDeg; linarith
    refine weak_core (η := 3/80) hγ hM hm hσ h01 hs0 (by norm_num) le_rfl ?_ ?_
    · rw [← ez, div_le_iff₀ zm0]
      rw [← ez] at hw
      have hM2 : 0 < M ^ 2 := by positivity
      refine le_of_mul_le_mul_left ?_ hM2
      linarith
    · intro x hx
      have h999 : s0 * 0.999 = 999/1000 * s0 := by norm_num; ring
      rw [h999] at hx
      have hS := sin_pos' s1 s2
      unfold relSin
      have hx0 : 0 < x := by linarith [hx.1]
      have hq0 : 0 ≤ x / σ := by positivity
      have hq1 : x / σ ≤ 1 := by rw [div_le_one hσ0]; exact hx.2
      have hconc := strictConcaveOn_sin_Icc.concaveOn.2 (show (0:ℝ) ∈ Set.Icc 0 π from ⟨le_rfl, Real.pi_pos.le⟩) (show Py.radians σ ∈ Set.Icc 0 π from ⟨s1.le, by linarith [Real.pi_pos]⟩)
        (show (0:ℝ) ≤ 1 - x / σ by linarith) hq0 (by ring)
      simp only [smul_eq_mul, mul_zero, zero_add, sin_zero] at hconc
      have e : x / σ * Py.radians σ = Py.radians x := by unfold Py.radians; field_simp
      rw [e] at hconc
      have h5 : 999/2000 ≤ x / σ := by rw [le_div_iff₀ hσ0]; linarith [hx.1]
      have h6 : 999/2000 ≤ sin (Py.radians x) / sin (Py.radians σ) := by
        rw [le_div_iff₀ hS]
        exact (mul_le_mul_of_nonneg_right h5 hS.le).trans hconc
      linarith

/-- C98 (convergence in air): from Mach 1.01 on, without upper bound, for any positive deflection whose weak shock has a pressure rise of at
most 95 % of that of the shock of maximal deflection, `sigma_Mach_deflection(M, d)` with the default start converges without the
warning, to an angle of the weak branch whose deflection is within `(2 + 2.4 M²) · 10⁻⁵ · max(1, angle)` of the request. The start
`μ + d` has to exceed 0.01 degree, which holds up to Mach 5700 whatever the deflection. -/
theorem C98_air_converges (M d σ σm μ p pm : ℝ) (hM1 : 1.01 ≤ M) (hd : 0 < d)
    (hm : sigma_DevMax M 1.4 = Except.ok σm) (hσ0 : 0 < σ) (hσ : σ ≤ σm) (hdev : deflection_Mach_sigma M σ 1.4 = Except.ok d)
    (hμ : degree.asin (1 / M) = Except.ok μ) (hs : 0.01 < μ + d)
    (hp : Ps_ratio (M * degree.sin σ) 1.4 = Except.ok p) (hpm : Ps_ratio (M * degree.sin σm) 1.4 = Except.ok pm)
    (hw : p - 1 ≤ 0.95 * (pm - 1)) :
    ∃ x θ, secant_run (fun s => deflection_Mach_sigma M s 1.4) d (μ + d) defaultTol = Except.ok ⟨x, false⟩ ∧
      sigma_Mach_deflection M d none 1.4 = Except.ok x ∧ 0 < x ∧ x ≤ σm ∧
      deflection_Mach_sigma M x 1.4 = Except.ok θ ∧ |θ - d| ≤ (2 + 2.4 * M ^ 2) * (0.00001 * max 1 x) := by
  have e14 : (1.4:ℝ) = 7/5 := by norm_num
  have hM1' : 101/100 ≤ M := by norm_num at hM1 ⊢; exact hM1
  have hM : 1 < M := by linarith
  have hM0 : 0 < M := by linarith
  have hγ : (1:ℝ) < 1.4 := by norm_num
  have h01 : 1/100 < μ + d := by norm_num at hs ⊢; exact hs
  have eμ : μ = Py.degrees (arcsin (1 / M)) := by rw [(mach_angle hM).1] at hμ; exact (Except.ok.inj hμ).symm
  obtain ⟨m0, m90, -⟩ := slope_at_max hγ hM hm
  have hσ90 : σ < 90 := by linarith
  have hlt : μ < σ := by
    obtain ⟨θ, μ', g1, g2, -, -, -, g3, -⟩ := C14_sign M σ 1.4 hγ hM hσ0 hσ90
    have e1 : μ' = μ := by rw [hμ] at g2; exact (Except.ok.inj g2).symm
    have e3 : θ = d := by rw [hdev] at g1; exact (Except.ok.inj g1).symm
    rw [e1, e3] at g3
    exact g3.1 hd
  have hy : devDeg M 1.4 σ = d := by rw [deflection_dev hγ hM0 hσ0 hσ90] at hdev; exact Except.ok.inj hdev
  obtain ⟨res, θ, a1, a2, a3, a4, a5, a6⟩ := C98_default_positive M 1.4 d σ σm μ hγ hM hm hσ0 hσ hdev hd hμ hs
  have hrun : ∃ x, secant_run (fun s => deflection_Mach_sigma M s 1.4) d (μ + d) defaultTol = Except.ok ⟨x, false⟩ := by
    rw [← hy]
    rcases le_or_gt (μ + d) σ with hle | hgt
    · have hw' : M ^ 2 * sin (Py.radians σ) ^ 2 - 1 ≤ 95/100 * (M ^ 2 * sin (Py.radians σm) ^ 2 - 1) := by
        rw [Ps_ratio_ok hγ] at hp hpm
        rw [← Except.ok.inj hp, ← Except.ok.inj hpm] at hw
        unfold psr degree.sin at hw
        norm_num at hw ⊢
        linarith
      rw [e14] at hm hy ⊢
      refine air_left_converges hM1' hm hσ eμ hlt (by rw [hy]; exact hd) rfl ?_ ?_ hw'
      · rw [hy]; exact hle
      · rw [hy]; exact h01
    · rw [e14] at hm hy ⊢
      refine air_right_converges hM hm hσ eμ hlt rfl ?_
      rw [hy]; exact hgt
  obtain ⟨x, hx⟩ := hrun
  rw [hx] at a1
  have := Except.ok.inj a1
  subst this
  refine ⟨x, θ, hx, a2, a3, a4, a5, (a6 rfl).trans (le_of_eq ?_)⟩
  norm_num

/-- the hypotheses of `C98_air_converges` hold at Mach 3 for a shock between the Mach wave and the shock of maximum deflection -/
example : ∃ σm σ d μ p pm : ℝ, sigma_DevMax 3 1.4 = Except.ok σm ∧ 0 < σ ∧ σ ≤ σm ∧ deflection_Mach_sigma 3 σ 1.4 = Except.ok d ∧ 0 < d ∧
    degree.asin (1 / 3) = Except.ok μ ∧ 0.01 < μ + d ∧
    Ps_ratio (3 * degree.sin σ) 1.4 = Except.ok p ∧ Ps_ratio (3 * degree.sin σm) 1.4 = Except.ok pm ∧ p - 1 ≤ 0.95 * (pm - 1) := by
  have hM : (1:ℝ) < 3 := by norm_num
  have hγ : (1:ℝ) < 1.4 := by norm_num
  obtain ⟨σm, θm, μ, g1, g2, g3, g4, g5, -⟩ := C17_max_deflection 3 1.4 hγ hM
  have eμ : μ = Py.degrees (arcsin (1 / 3)) := by rw [(mach_angle hM).1] at g3; exact (Except.ok.inj g3).symm
  obtain ⟨-, -, hsin, -⟩ := mach_tan (μ := Py.radians μ) hM (by rw [eμ, Py.radians_degrees])
  have hμ0 : 0 < μ := by rw [eμ]; exact (mach_angle hM).2.1
  obtain ⟨m0, m90, hsl⟩ := slope_at_max hγ hM g1
  have hpos : (1006/1000 : ℝ) < 3 ^ 2 * sin (Py.radians σm) ^ 2 :=
    max_normal hγ (by norm_num) (by have := sin_pos' (Py.radians_mem m0 m90).1 (Py.radians_mem m0 m90).2; positivity) (sin_sq_le_one _) hsl
  have hcont : ContinuousOn (fun s => (3:ℝ) ^ 2 * sin (Py.radians s) ^ 2) (Set.Icc μ σm) := by
    unfold Py.radians; fun_prop
  have hmid := intermediate_value_Ioo g4.le hcont (show 1 + 1/2 * ((3:ℝ) ^ 2 * sin (Py.radians σm) ^ 2 - 1) ∈ _ by
    constructor
    · rw [hsin]; norm_num at hpos ⊢; linarith
    · linarith)
  obtain ⟨σ, hσ, e⟩ := hmid
  simp only [] at e
  obtain ⟨d, μ2, h1, h2, -, -, -, h4, -⟩ := C14_sign 3 σ 1.4 hγ hM (by linarith [hσ.1]) (by linarith [hσ.2])
  have : μ2 = μ := by rw [g3] at h2; exact (Except.ok.inj h2).symm
  subst this
  refine ⟨σm, σ, d, _, _, _, g1, by linarith [hσ.1], hσ.2.le, h1, h4.2 hσ.1, g3, ?_, Ps_ratio_ok hγ, Ps_ratio_ok hγ, ?_⟩
  · have h5 := sin_le (x := Py.radians μ2) (by unfold Py.radians; positivity)
    rw [hsin] at h5
    unfold Py.radians at h5
    have := Real.pi_le_four
    have := h4.2 hσ.1
    norm_num
    nlinarith
  · unfold psr degree.sin
    rw [mul_pow, mul_pow, e]
    norm_num at hpos ⊢
    linarith

end Aerokit.Props
