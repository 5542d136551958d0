import Verif.Lemmas.ShockCubic
import Verif.Lemmas.DevMax

/-! # Properties C14–C18 : oblique shocks, `aerokit/aero/ShockWave.py` -/

namespace Aerokit.Props
open Isentropic ShockWave Real

/-- C14: the deflection `θ` satisfies `tan(σ-θ)·Rho_ratio(M sin σ) = tan σ` with `0 < σ-θ < 90`
(which determines `θ`). -/
theorem C14_theta_beta_mach (M σ γ : ℝ) (hγ : 1 < γ) (hM : 0 < M) (h0 : 0 < σ) (h1 : σ < 90) :
    ∃ θ r t t', deflection_Mach_sigma M σ γ = Except.ok θ ∧
      Rho_ratio (M * degree.sin σ) γ = Except.ok r ∧ degree.tan σ = Except.ok t ∧
      degree.tan (σ - θ) = Except.ok t' ∧ t' * r = t ∧ 0 < σ - θ ∧ σ - θ < 90 := by
  obtain ⟨s0, s1⟩ := Py.radians_mem h0 h1
  obtain ⟨hS, hC⟩ := sin_cos_pos s0 s1
  have hr := rhr_pos hγ (mul_ne_zero hM.ne' hS.ne')
  have ht : 0 < tan (Py.radians σ) := Real.tan_pos_of_pos_of_lt_pi_div_two s0 s1
  obtain ⟨b, hb⟩ : ∃ b, b = arctan (tan (Py.radians σ) / rhr (M * sin (Py.radians σ)) γ) := ⟨_, rfl⟩
  have hb0 : 0 < b := by rw [hb]; exact Real.arctan_pos.2 (by positivity)
  have hb1 : b < π / 2 := by rw [hb]; exact Real.arctan_lt_pi_div_two _
  have hd : deflection_Mach_sigma M σ γ = Except.ok (σ - Py.degrees b) := by
    rw [deflection_ok hγ hM.ne' h0 h1, ← sub_arctan hγ hM.ne' s0 s1, ← hb, Py.degrees_sub,
      Py.degrees_radians]
  have e : σ - (σ - Py.degrees b) = Py.degrees b := by ring
  refine ⟨_, _, _, tan b, hd, Rho_ratio_ok hγ, degree.tan_ok hC.ne', ?_, ?_, ?_⟩
  · rw [e, degree.tan_ok, Py.radians_degrees]
    rw [Py.radians_degrees]; exact (sin_cos_pos hb0 hb1).2.ne'
  · rw [hb, tan_arctan, degree.sin]; field_simp
  · rw [e]; exact Py.degrees_mem hb0 hb1

/-- C14: the deflection vanishes at the Mach angle, is positive strictly above it and negative
strictly below it. -/
theorem C14_sign (M σ γ : ℝ) (hγ : 1 < γ) (hM : 1 < M) (h0 : 0 < σ) (h1 : σ < 90) :
    ∃ θ μ, deflection_Mach_sigma M σ γ = Except.ok θ ∧ degree.asin (1 / M) = Except.ok μ ∧
      0 < μ ∧ μ < 90 ∧ (θ = 0 ↔ σ = μ) ∧ (0 < θ ↔ μ < σ) ∧ (θ < 0 ↔ σ < μ) := by
  obtain ⟨s0, s1⟩ := Py.radians_mem h0 h1
  obtain ⟨hS, hC⟩ := sin_cos_pos s0 s1
  have hM0 : 0 < M := by linarith
  have hq0 : 0 < 1 / M := by positivity
  have hq1 : 1 / M < 1 := by rw [div_lt_one hM0]; exact hM
  have hden := tanth_den_pos (M := M) (s := Py.radians σ) hγ
  have m0 : 0 < arcsin (1 / M) := Real.arcsin_pos.2 hq0
  have m1 : arcsin (1 / M) < π / 2 := Real.arcsin_lt_pi_div_two.2 hq1
  have hmu := Py.degrees_mem m0 m1
  have hσ : σ = Py.degrees (Py.radians σ) := (Py.degrees_radians σ).symm
  -- σ compared with μ through the sine
  have hlt : Py.degrees (arcsin (1 / M)) < σ ↔ 1 < M * sin (Py.radians σ) := by
    conv_lhs => rw [hσ]
    rw [Py.degrees_lt, Real.arcsin_lt_iff_lt_sin' ⟨by linarith [Real.pi_pos], s1.le⟩,
      div_lt_iff₀' hM0]
  have hgt : σ < Py.degrees (arcsin (1 / M)) ↔ M * sin (Py.radians σ) < 1 := by
    conv_lhs => rw [hσ]
    rw [Py.degrees_lt, Real.lt_arcsin_iff_sin_lt' ⟨by linarith [Real.pi_pos], s1⟩,
      lt_div_iff₀' hM0]
  have hsq : M ^ 2 * sin (Py.radians σ) ^ 2 = (M * sin (Py.radians σ)) ^ 2 := by ring
  have hMs : 0 < M * sin (Py.radians σ) := by positivity
  have hθpos : 0 < Py.degrees (arctan (tanth M (Py.radians σ) γ)) ↔ 1 < M * sin (Py.radians σ) := by
    rw [← Py.degrees_zero, Py.degrees_lt, Real.arctan_pos]
    unfold tanth
    rw [hsq]
    have hcot : 0 < 2 * (cos (Py.radians σ) / sin (Py.radians σ)) := by positivity
    rw [hsq] at hden
    constructor
    · intro h
      by_contra hn
      push Not at hn
      have : (M * sin (Py.radians σ)) ^ 2 - 1 ≤ 0 := by nlinarith
      have := div_nonpos_of_nonpos_of_nonneg (mul_nonpos_of_nonneg_of_nonpos hcot.le this) hden.le
      linarith
    · intro h
      have : 0 < (M * sin (Py.radians σ)) ^ 2 - 1 := by nlinarith
      exact div_pos (mul_pos hcot this) hden
  have hθneg : Py.degrees (arctan (tanth M (Py.radians σ) γ)) < 0 ↔ M * sin (Py.radians σ) < 1 := by
    rw [← Py.degrees_zero, Py.degrees_lt, Real.arctan_lt_zero]
    unfold tanth
    rw [hsq]
    have hcot : 0 < 2 * (cos (Py.radians σ) / sin (Py.radians σ)) := by positivity
    rw [hsq] at hden
    constructor
    · intro h
      by_contra hn
      push Not at hn
      have : 0 ≤ (M * sin (Py.radians σ)) ^ 2 - 1 := by nlinarith
      have := div_nonneg (mul_nonneg hcot.le this) hden.le
      linarith
    · intro h
      have : (M * sin (Py.radians σ)) ^ 2 - 1 < 0 := by nlinarith
      exact div_neg_of_neg_of_pos (mul_neg_of_pos_of_neg hcot this) hden
  refine ⟨_, _, deflection_ok hγ hM0.ne' h0 h1, degree.asin_ok (by linarith) hq1.le, hmu.1, hmu.2,
    ?_, ?_, ?_⟩
  · constructor
    · intro h
      have a := mt hθpos.2 (by rw [h]; exact lt_irrefl _)
      have b := mt hθneg.2 (by rw [h]; exact lt_irrefl _)
      rw [← hlt] at a; rw [← hgt] at b
      exact le_antisymm (not_lt.1 a) (not_lt.1 b)
    · intro h
      have a : ¬ Py.degrees (arcsin (1 / M)) < σ := by rw [← h]; exact lt_irrefl _
      have b : ¬ σ < Py.degrees (arcsin (1 / M)) := by rw [← h]; exact lt_irrefl _
      rw [hlt, ← hθpos] at a; rw [hgt, ← hθneg] at b
      exact le_antisymm (not_lt.1 a) (not_lt.1 b)
  · rw [hθpos, hlt]
  · rw [hθneg, hgt]

example : (1:ℝ) < 1.4 ∧ (1:ℝ) < 2 ∧ (0:ℝ) < 45 ∧ (45:ℝ) < 90 := by norm_num

/-- an angle in (0,90) is recovered from its cotangent -/
theorem angle_of_cot {σ : ℝ} (h0 : 0 < σ) (h1 : σ < 90) :
    0 < cos (Py.radians σ) / sin (Py.radians σ) ∧
    σ = Py.degrees (arctan (1 / (cos (Py.radians σ) / sin (Py.radians σ)))) := by
  obtain ⟨s0, s1⟩ := Py.radians_mem h0 h1
  obtain ⟨hS, hC⟩ := sin_cos_pos s0 s1
  refine ⟨by positivity, ?_⟩
  rw [one_div_div, ← Real.tan_eq_sin_div_cos, arctan_tan (by linarith [Real.pi_pos]) s1,
    Py.degrees_radians]

theorem cot_of_angle {x : ℝ} (hx : 0 < x) :
    0 < Py.degrees (arctan (1 / x)) ∧ Py.degrees (arctan (1 / x)) < 90 ∧
    cos (Py.radians (Py.degrees (arctan (1 / x)))) / sin (Py.radians (Py.degrees (arctan (1 / x)))) = x := by
  have h0 : 0 < arctan (1 / x) := Real.arctan_pos.2 (by positivity)
  have h1 : arctan (1 / x) < π / 2 := Real.arctan_lt_pi_div_two _
  have h2 := Py.degrees_mem h0 h1
  refine ⟨h2.1, h2.2, ?_⟩
  rw [Py.radians_degrees, ← inv_div, ← Real.tan_eq_sin_div_cos, tan_arctan]; simp

/-- the discriminant decides whether an attached shock exists -/
theorem attached_disc {M d γ σ : ℝ} (hγ : 1 < γ) (hM : 1 < M) (d0 : 0 < d) (d1 : d < 90)
    (h0 : 0 < σ) (h1 : σ < 90) (hσ : deflection_Mach_sigma M σ γ = .ok d) :
    rke M (tan (Py.radians d)) γ ^ 2 ≤ 4 * rkd M (tan (Py.radians d)) γ ^ 3 := by
  by_contra hn
  push Not at hn
  obtain ⟨g0, g1⟩ := Py.radians_mem d0 d1
  have hT : 0 < tan (Py.radians d) := Real.tan_pos_of_pos_of_lt_pi_div_two g0 g1
  have := (deflection_iff hγ (by linarith) h0 h1 d0 d1).1 hσ
  refine no_pos_root _ _ _ _ _ rfl rfl ?_ ?_ ?_ hn _ (angle_of_cot h0 h1).1 this
  · unfold rka; have : 0 < γ + 1 := by linarith
    positivity
  · unfold rkb; nlinarith
  · unfold rkc; have : 0 < γ - 1 := by linarith
    positivity

/-- C15: if some shock angle gives the deflection `d` (attached shock), then `weaksigma` and
`strongsigma` return shock angles in (0,90) giving exactly this deflection, weak ≤ strong, and these
are all the shock angles giving this deflection. -/
theorem C15_attached (M d γ : ℝ) (hγ : 1 < γ) (hM : 1 < M) (d0 : 0 < d) (d1 : d < 90)
    (hatt : ∃ σ, 0 < σ ∧ σ < 90 ∧ deflection_Mach_sigma M σ γ = Except.ok d) :
    ∃ w s, weaksigma_Mach_deflection M d γ = Except.ok w ∧
      strongsigma_Mach_deflection M d γ = Except.ok s ∧ 0 < w ∧ w ≤ s ∧ s < 90 ∧
      deflection_Mach_sigma M w γ = Except.ok d ∧ deflection_Mach_sigma M s γ = Except.ok d ∧
      ∀ σ, 0 < σ → σ < 90 → deflection_Mach_sigma M σ γ = Except.ok d → σ = w ∨ σ = s := by
  obtain ⟨σ0, hs0, hs1, hσ0⟩ := hatt
  have hM0 : M ≠ 0 := by linarith
  obtain ⟨x1, x2, x3, hx2, hx12, hx3, hf, hw, hs⟩ :=
    weak_strong_ok hγ hM d0 d1 (attached_disc hγ hM d0 d1 hs0 hs1 hσ0)
  have hx1 : 0 < x1 := lt_of_lt_of_le hx2 hx12
  obtain ⟨w0, w1, hwx⟩ := cot_of_angle hx1
  obtain ⟨t0, t1, htx⟩ := cot_of_angle hx2
  refine ⟨_, _, hw, hs, w0, ?_, t1, ?_, ?_, ?_⟩
  · rw [Py.degrees_le, Real.arctan_le_arctan_iff]
    exact one_div_le_one_div_of_le hx2 hx12
  · rw [deflection_iff hγ hM0 w0 w1 d0 d1, hwx, hf]; simp
  · rw [deflection_iff hγ hM0 t0 t1 d0 d1, htx, hf]; simp
  · intro σ g0 g1 hσ
    obtain ⟨hc, hcσ⟩ := angle_of_cot g0 g1
    rw [deflection_iff hγ hM0 g0 g1 d0 d1, hf] at hσ
    rcases mul_eq_zero.1 hσ with h | h
    · rcases mul_eq_zero.1 h with h | h
      · left; rw [hcσ, sub_eq_zero.1 h]
      · right; rw [hcσ, sub_eq_zero.1 h]
    · have : cos (Py.radians σ) / sin (Py.radians σ) = x3 := sub_eq_zero.1 h
      linarith

/-- C15: if no shock angle gives the deflection `d` (detached shock), the functions return the Mach
angle and 90 degrees. -/
theorem C15_detached (M d γ : ℝ) (hγ : 1 < γ) (hM : 1 < M) (d0 : 0 < d) (d1 : d < 90)
    (hdet : ¬ ∃ σ, 0 < σ ∧ σ < 90 ∧ deflection_Mach_sigma M σ γ = Except.ok d) :
    weaksigma_Mach_deflection M d γ = degree.asin (1 / M) ∧
    strongsigma_Mach_deflection M d γ = Except.ok 90 := by
  have hM0 : M ≠ 0 := by linarith
  have hn : 4 * rkd M (tan (Py.radians d)) γ ^ 3 < rke M (tan (Py.radians d)) γ ^ 2 := by
    by_contra hn
    push Not at hn
    obtain ⟨x1, x2, x3, hx2, hx12, hx3, hf, hw, hs⟩ := weak_strong_ok hγ hM d0 d1 hn
    obtain ⟨t0, t1, htx⟩ := cot_of_angle hx2
    refine hdet ⟨_, t0, t1, ?_⟩
    rw [deflection_iff hγ hM0 t0 t1 d0 d1, htx, hf]; simp
  constructor
  · unfold weaksigma_Mach_deflection
    rw [cubic_ok d0 d1, Py.ok_bind]; lits
    rw [if_pos (by linarith), Py.div_ok hM0, Py.ok_bind]
  · unfold strongsigma_Mach_deflection
    rw [cubic_ok d0 d1, Py.ok_bind]; lits
    rw [if_pos (by linarith)]; rfl

/-- non-vacuity: at Mach 2, γ = 1.4, the deflection of the 45° shock is attached -/
example : ∃ d, 0 < d ∧ d < 90 ∧ ∃ σ, 0 < σ ∧ σ < 90 ∧ deflection_Mach_sigma 2 σ 1.4 = Except.ok d := by
  obtain ⟨θ, r, t, t', h1, _, _, _, _, h2, h3⟩ :=
    C14_theta_beta_mach 2 45 1.4 (by norm_num) (by norm_num) (by norm_num) (by norm_num)
  obtain ⟨θ', μ, g1, g2, _, _, _, g3, _⟩ :=
    C14_sign 2 45 1.4 (by norm_num) (by norm_num) (by norm_num) (by norm_num)
  have e : θ' = θ := by rw [g1] at h1; injection h1
  have hμ : μ = 30 := by
    rw [degree.asin_ok (by norm_num) (by norm_num)] at g2
    have : Py.degrees (arcsin (1 / 2)) = μ := by injection g2
    rw [← this, ← Real.sin_pi_div_six, Real.arcsin_sin (by linarith [Real.pi_pos]) (by linarith [Real.pi_pos])]
    unfold Py.degrees; have := Real.pi_ne_zero; field_simp; norm_num
  refine ⟨θ, ?_, by linarith, 45, by norm_num, by norm_num, h1⟩
  rw [← e]; exact g3.2 (by rw [hμ]; norm_num)

/-- C16: at the angle `sigma_Sonic(M)` the flow behind the shock is exactly sonic. -/
theorem C16_sonic_downstream (M γ : ℝ) (hγ : 1 < γ) (hM : 1 < M) :
    ∃ σ p, sigma_Sonic M γ = Except.ok σ ∧ 0 < σ ∧ σ < 90 ∧
      Ps_ratio (M * degree.sin σ) γ = Except.ok p ∧
      downstreamMach_Mach_ShockPsratio M p γ = Except.ok 1 := by
  obtain ⟨xs, hx1, _, hxm, hroot, hσ⟩ := sigma_Sonic_ok hγ hM.le
  have hM0 : 0 < M := by linarith
  obtain ⟨a0, a1, hx, q1, q0⟩ := shock_angle hM0 (by linarith) (hxm hM)
  have hdeg := Py.degrees_mem a0 a1
  refine ⟨_, _, hσ, hdeg.1, hdeg.2, Ps_ratio_ok hγ, ?_⟩
  rw [degree.sin, Py.radians_degrees]
  obtain ⟨hS, hC⟩ := sin_cos_pos a0 a1
  obtain ⟨N, hN⟩ : ∃ N, N = M * sin (arcsin √(xs / M ^ 2)) := ⟨_, rfl⟩
  have hN0 : 0 < N := by rw [hN]; positivity
  have hN2 : N ^ 2 = xs := by rw [hN, mul_pow]; exact hx
  have hN1 : 1 ≤ N := by
    by_contra hn; push Not at hn; nlinarith
  have hNM : N < M := by
    have := hxm hM
    rw [← hN2] at this
    exact lt_of_pow_lt_pow_left₀ 2 hM0.le this
  rw [← hN]
  have hinv : Mn_Ps_ratio (psr N γ) γ = .ok N := by
    unfold Mn_Ps_ratio; lits
    rw [Py.div_ok (by linarith), Py.ok_bind]
    have h1 : γ + 1 ≠ 0 := by linarith
    have h2 : γ ≠ 0 := by linarith
    have : 1 + (psr N γ - 1) * (γ + 1) / (2 * γ) = N ^ 2 := by unfold psr; field_simp; ring
    rw [this, Py.sqrt_ok (sq_nonneg N), Real.sqrt_sq hN0.le]
  obtain ⟨M2, θ, hM2, hM2pos, _, _, _, _, htt⟩ := downstreamMach_ok hγ hN1 hNM hinv
  rw [hM2]
  congr 1
  -- T2/T1 = tt M / tt 1
  have hγ1 : γ + 1 ≠ 0 := by linarith
  have hE := rho_den_pos (M := N) hγ
  have hkt : psr N γ / rhr N γ * tt 1 γ = tt M γ := by
    unfold psr rhr tt
    rw [hN2] at hE ⊢
    have hxs : xs ≠ 0 := by linarith
    obtain ⟨E, hE'⟩ : ∃ E, E = 2 + (γ - 1) * xs := ⟨_, rfl⟩
    rw [← hE'] at hE ⊢
    have := hE.ne'
    field_simp
    rw [hE']
    linear_combination (γ - 1) * (γ + 1) * hroot
  have hpos : 0 < psr N γ / rhr N γ := div_pos (psr_pos hγ (dom_of_one_le hγ hN1)) (rhr_pos hγ hN0.ne')
  have h2 : tt M2 γ = tt 1 γ := by
    have : tt M2 γ * (psr N γ / rhr N γ) = tt 1 γ * (psr N γ / rhr N γ) := by
      rw [htt, ← hkt]; ring
    exact mul_right_cancel₀ hpos.ne' this
  unfold tt at h2
  have h3 : M2 ^ 2 = 1 ^ 2 := by
    have : (γ - 1) / 2 ≠ 0 := by linarith
    exact mul_left_cancel₀ this (by linarith)
  exact (pow_left_inj₀ hM2pos.le zero_le_one (by norm_num)).1 h3

/-- C16: at `M = 1` the sonic angle is 90 degrees (and the normal downstream Mach number is 1). -/
theorem C16_mach_one (γ : ℝ) (hγ : 1 < γ) :
    sigma_Sonic 1 γ = Except.ok 90 ∧ downstream_Mn (1 * degree.sin 90) γ = Except.ok 1 := by
  obtain ⟨xs, hx1, hxm, _, _, hσ⟩ := sigma_Sonic_ok hγ (le_refl 1)
  have : xs = 1 := le_antisymm (by simpa using hxm) hx1
  constructor
  · rw [hσ, this]; simp [Py.degrees_pi_div_two]
  · rw [degree.sin, Py.radians_90, Real.sin_pi_div_two, mul_one,
      downstream_Mn_ok hγ (dom_of_one_le hγ le_rfl)]
    have : mn2 1 γ = 1 := by
      unfold mn2
      rw [div_eq_one_iff_eq]
      · ring
      · have := (dom_iff hγ).1 (dom_of_one_le hγ (le_refl 1)); exact this.ne'
    rw [this, Real.sqrt_one]

example : (1:ℝ) < 1.4 ∧ (1:ℝ) < 2 := by norm_num

/-- C17: `sigma_DevMax(M)` is strictly between the Mach angle and 90 degrees, and `dev_Max(M)` is
the strict maximum of the deflection over all shock angles in (0,90). -/
theorem C17_max_deflection (M γ : ℝ) (hγ : 1 < γ) (hM : 1 < M) :
    ∃ σm θm μ, sigma_DevMax M γ = Except.ok σm ∧ dev_Max M γ = Except.ok θm ∧
      degree.asin (1 / M) = Except.ok μ ∧ μ < σm ∧ σm < 90 ∧
      ∀ σ, 0 < σ → σ < 90 → ∃ θ, deflection_Mach_sigma M σ γ = Except.ok θ ∧ θ ≤ θm ∧
        (θ = θm ↔ σ = σm) := by
  obtain ⟨xs, hx1, hxm, hroot, hσ⟩ := sigma_DevMax_ok hγ hM
  have hM0 : 0 < M := by linarith
  obtain ⟨a0, a1, hx, q1, q0⟩ := shock_angle hM0 (by linarith) hxm
  have hdeg := Py.degrees_mem a0 a1
  obtain ⟨sm, hsm⟩ : ∃ sm, sm = arcsin √(xs / M ^ 2) := ⟨_, rfl⟩
  rw [← hsm] at a0 a1 hx hdeg hσ
  have hdm := deflection_ok hγ hM0.ne' hdeg.1 hdeg.2
  rw [Py.radians_degrees] at hdm
  obtain ⟨θ1, μ, g1, g2, gμ0, gμ1, _, g3, g4⟩ := C14_sign M (Py.degrees sm) γ hγ hM hdeg.1 hdeg.2
  obtain ⟨ltm0, ltm⟩ := log_tanth hγ hM0.ne' a0 a1 (by rw [hx]; exact hx1)
  rw [hx] at ltm
  have hθ1 : 0 < θ1 := by
    have : θ1 = Py.degrees (arctan (tanth M sm γ)) := by rw [g1] at hdm; injection hdm
    rw [this, ← Py.degrees_zero, Py.degrees_lt, Real.arctan_pos]; exact ltm0
  refine ⟨_, Py.degrees (arctan (tanth M sm γ)), μ, hσ, ?_, g2, g3.1 hθ1, hdeg.2, ?_⟩
  · unfold dev_Max; rw [hσ, Py.ok_bind, hdm]
  intro σ h0 h1
  obtain ⟨s0, s1⟩ := Py.radians_mem h0 h1
  refine ⟨_, deflection_ok hγ hM0.ne' h0 h1, ?_⟩
  rw [Py.degrees_le, Py.degrees_inj, Real.arctan_le_arctan_iff, Real.arctan_injective.eq_iff]
  have hσs : σ = Py.degrees sm ↔ Py.radians σ = sm := by
    constructor
    · intro h; rw [h, Py.radians_degrees]
    · intro h; rw [← h, Py.degrees_radians]
  rw [hσs]
  by_cases hx' : 1 < M ^ 2 * sin (Py.radians σ) ^ 2
  · obtain ⟨lt0, lt⟩ := log_tanth hγ hM0.ne' s0 s1 hx'
    obtain ⟨x, hxe⟩ : ∃ x, x = M ^ 2 * sin (Py.radians σ) ^ 2 := ⟨_, rfl⟩
    have hC := (sin_cos_pos s0 s1).2
    have hS := (sin_cos_pos s0 s1).1
    have hxlt : x < M ^ 2 := by
      rw [hxe]
      have : M ^ 2 * sin (Py.radians σ) ^ 2 = M ^ 2 - M ^ 2 * cos (Py.radians σ) ^ 2 := by
        rw [Real.cos_sq']; ring
      rw [this]; have : 0 < M ^ 2 * cos (Py.radians σ) ^ 2 := by positivity
      linarith
    rw [← hxe] at lt hx'
    have hstrict : x ≠ xs → tanth M (Py.radians σ) γ < tanth M sm γ := by
      intro hne
      have hl : ldev (M ^ 2) γ x < ldev (M ^ 2) γ xs := by
        rcases lt_or_gt_of_ne hne with hlt | hlt
        · exact ldev_mono hγ hx1 hxm hroot ⟨hx', hlt.le⟩ ⟨hx1, le_rfl⟩ hlt
        · exact ldev_anti hγ hx1 hroot ⟨le_rfl, hxm⟩ ⟨hlt.le, hxlt⟩ hlt
      rw [← Real.log_lt_log_iff lt0 ltm0]; linarith
    have heq : Py.radians σ = sm ↔ x = xs := by
      constructor
      · intro h; rw [hxe, h, hx]
      · intro h
        rw [hxe, ← hx] at h
        have h' : sin (Py.radians σ) ^ 2 = sin sm ^ 2 := mul_left_cancel₀ (by positivity) h
        have hSm := (sin_cos_pos a0 a1).1
        have h'' : sin (Py.radians σ) = sin sm := (pow_left_inj₀ hS.le hSm.le (by norm_num)).1 h'
        exact Real.injOn_sin ⟨by linarith [Real.pi_pos], s1.le⟩ ⟨by linarith [Real.pi_pos], a1.le⟩ h''
    by_cases hxx : x = xs
    · have := heq.2 hxx
      rw [this]; simp
    · have := hstrict hxx
      exact ⟨this.le, ⟨fun h => absurd h this.ne, fun h => absurd (heq.1 h) hxx⟩⟩
  · have hle : tanth M (Py.radians σ) γ ≤ 0 := by
      unfold tanth
      obtain ⟨hS, hC⟩ := sin_cos_pos s0 s1
      apply div_nonpos_of_nonpos_of_nonneg _ (tanth_den_pos hγ).le
      apply mul_nonpos_of_nonneg_of_nonpos (by positivity)
      linarith
    refine ⟨by linarith, ⟨fun h => by linarith, fun h => ?_⟩⟩
    rw [h, hx] at hx'; exact absurd hx1 hx'

example : (1:ℝ) < 1.4 ∧ (1:ℝ) < 3 := by norm_num

/-- C18: for every shock strength between the Mach wave and the normal shock, the returned downstream
Mach number conserves the tangential velocity and the total temperature (with the static temperature
ratio of the normal shock), and its normal component is `downstream_Mn`. -/
theorem C18_downstream_mach (M p γ N : ℝ) (hγ : 1 < γ) (hp : Mn_Ps_ratio p γ = Except.ok N)
    (hN : 1 ≤ N) (hNM : N < M) :
    ∃ M2 σ θ kt m t t2, downstreamMach_Mach_ShockPsratio M p γ = Except.ok M2 ∧
      degree.asin (N / M) = Except.ok σ ∧ deflection_Mach_ShockPsratio M p γ = Except.ok θ ∧
      Ts_ratio N γ = Except.ok kt ∧ downstream_Mn N γ = Except.ok m ∧
      TtTs_Mach M γ = Except.ok t ∧ TtTs_Mach M2 γ = Except.ok t2 ∧
      0 < M2 ∧ M2 * degree.sin (σ - θ) = m ∧
      M2 * degree.cos (σ - θ) * Real.sqrt kt = M * degree.cos σ ∧ t2 * kt = t := by
  obtain ⟨M2, θ, h1, h2, h3, h4, h5, h6, h7⟩ := downstreamMach_ok hγ hN hNM hp
  exact ⟨M2, _, θ, _, _, _, _, h1, h4, h3, Ts_ratio_ok hγ (by linarith),
    downstream_Mn_ok hγ (dom_of_one_le hγ hN), TtTs_Mach_ok _ _, TtTs_Mach_ok _ _, h2, h5, h6, h7⟩

/-- non-vacuity: the shock of strength 4.5 (Mn = 2) in a Mach 3 flow -/
example : Mn_Ps_ratio 4.5 1.4 = Except.ok 2 ∧ (1:ℝ) ≤ 2 ∧ (2:ℝ) < 3 := by
  refine ⟨?_, by norm_num, by norm_num⟩
  unfold Mn_Ps_ratio
  rw [Py.div_ok (by norm_num), Py.ok_bind, Py.sqrt_ok (by norm_num)]
  congr 1
  rw [show (1 + (4.5 - 1.0) * (1.4 + 1.0) / (2.0 * 1.4) : ℝ) = 2 ^ 2 by norm_num, Real.sqrt_sq (by norm_num)]

end Aerokit.Props
