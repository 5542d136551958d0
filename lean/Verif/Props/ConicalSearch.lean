import Verif.Props.Conical
import Verif.Props.Solve
import Verif.Props.Propulsion
import Verif.Props.ObliqueSearch

/-! # Property C108 : inverse searches on conical shocks (`ShockWave.py:392-429`) -/

namespace Aerokit.Props

open ShockWave IterativeSolve

/-- C108 (shock angle), partial: a shock angle returned by `conical_sigma_Mach_walldeflection` is the last of a sequence of at most 19 secant iterates
of the wall deflection of the conical flow at the upstream Mach number, started at the Mach angle plus the deflection; when fewer
than 19 were used the last two are within `10⁻⁵ max(1, σ)`.  Missing: that the wall deflection there is the requested one. -/
theorem C108_sigma_partial (fuel : ℕ) (Mach deflection gamma σ : ℝ)
    (h : conical_sigma_Mach_walldeflection fuel Mach deflection gamma = .ok σ) :
    1 ≤ |Mach| ∧ ∃ (μ : ℝ) (k : ℕ) (s : ℕ → ℝ), degree.asin (1 / Mach) = .ok μ ∧ k ≤ 19 ∧ s 0 = μ + deflection ∧
      s 1 = 0.999 * (μ + deflection) ∧ σ = s (k + 1) ∧
      (∀ i < k, IsSecantStep (fun sig => conical_deflection_Mach_sigma fuel Mach sig gamma 1.0e-6) deflection (s i) (s (i + 1)) (s (i + 2))) ∧
      (k ≠ 19 → |s (k + 1) - s k| ≤ 0.00001 * max 1 |s (k + 1)|) := by
  unfold conical_sigma_Mach_walldeflection secant_solve at h
  have h1 : (1.0:ℝ) = 1 := by norm_num
  by_cases hM : Mach = 0
  · rw [hM, Py.div_err, Py.error_bind] at h; cases h
  rw [Py.div_ok hM, Py.ok_bind, h1] at h
  cases eμ : degree.asin (1 / Mach) with
  | error e => rw [eμ] at h; cases h
  | ok μ =>
    rw [eμ, Py.ok_bind] at h
    refine ⟨?_, μ, ?_⟩
    · by_contra hlt
      have hlt := not_le.1 hlt
      have hb : 1 < |1 / Mach| := by
        rw [abs_div, abs_one, one_lt_div (abs_pos.2 hM)]; exact hlt
      have : degree.asin (1 / Mach) = .error .nonFinite := by
        unfold degree.asin Py.arcsin
        rw [if_neg (fun hh => absurd (abs_le.2 ⟨hh.1, hh.2⟩) (not_le.2 hb))]
        rfl
      rw [this] at eμ; cases eμ
    cases er : secant_run (fun sig => conical_deflection_Mach_sigma fuel Mach sig gamma 1.0e-6) deflection (μ + deflection) defaultTol with
    | error e => rw [er] at h; cases h
    | ok res =>
      rw [er, Py.ok_bind, Py.pure_eq] at h
      have hσ := Except.ok.inj h
      subst hσ
      obtain ⟨k, s, p1, p2, p3, p4, p5, p6, p7, -⟩ := C28_returns_secant_iterate _ _ _ _ _ er
      refine ⟨k, s, rfl, p1, p2, p3, p5, p4, fun hk => ?_⟩
      have hw : res.warned = false := by
        cases hw : res.warned with
        | false => rfl
        | true => exact absurd (p6.1 hw) hk
      refine (p7 hw).trans (le_of_eq ?_)
      unfold defaultTol
      rw [mul_max_of_nonneg _ _ (by norm_num), mul_one]

/-- C108 (shock angle): when the Mach angle plus the deflection already is the shock angle of the requested cone, it is returned (if it exceeds 0.01
degree and the deflection is not stationary there). -/
theorem C108_sigma_exact (fuel : ℕ) (Mach deflection gamma μ d : ℝ) (hM : Mach ≠ 0) (hμ : degree.asin (1 / Mach) = .ok μ)
    (hs : 0.01 < |μ + deflection|) (h0 : conical_deflection_Mach_sigma fuel Mach (μ + deflection) gamma 1.0e-6 = .ok deflection)
    (h1 : conical_deflection_Mach_sigma fuel Mach ((μ + deflection) * 0.999) gamma 1.0e-6 = .ok d) (hd : d ≠ deflection) :
    conical_sigma_Mach_walldeflection fuel Mach deflection gamma = .ok (μ + deflection) := by
  unfold conical_sigma_Mach_walldeflection
  rw [Py.div_ok hM, Py.ok_bind, show (1.0:ℝ) = 1 by norm_num, hμ, Py.ok_bind]
  exact secant_exact_start _ _ _ _ hs h0 h1 hd

/-- C108 (Mach number), partial: a Mach number returned by `conical_Mach_walldeflection_sigma` is the last of at most 19 secant iterates of the wall
deflection as a function of the Mach number, the shock angle being the given one, larger than the deflection; they start at
`1/sin(σ - δ/2)`.  Missing: that the wall deflection there is the requested one. -/
theorem C108_mach_partial (fuel : ℕ) (deflection sigma gamma m : ℝ)
    (h : conical_Mach_walldeflection_sigma fuel deflection sigma gamma = .ok m) :
    deflection < sigma ∧ degree.sin (sigma - 0.5 * deflection) ≠ 0 ∧ ∃ (k : ℕ) (s : ℕ → ℝ), k ≤ 19 ∧
      s 0 = 1 / degree.sin (sigma - 0.5 * deflection) ∧ s 1 = 0.999 * s 0 ∧ m = s (k + 1) ∧
      (∀ i < k, IsSecantStep (fun mach => conical_deflection_Mach_sigma fuel mach sigma gamma 1.0e-6) deflection (s i) (s (i + 1)) (s (i + 2))) ∧
      (k ≠ 19 → |s (k + 1) - s k| ≤ 0.00001 * max 1 |s (k + 1)|) := by
  unfold conical_Mach_walldeflection_sigma secant_solve at h
  split_ifs at h with hs
  have h1 : (1.0:ℝ) = 1 := by norm_num
  by_cases hz : degree.sin (sigma - 0.5 * deflection) = 0
  · rw [hz, Py.div_err, Py.error_bind] at h; cases h
  rw [Py.div_ok hz, Py.ok_bind, h1] at h
  refine ⟨hs, hz, ?_⟩
  cases er : secant_run (fun mach => conical_deflection_Mach_sigma fuel mach sigma gamma 1.0e-6) deflection
      (1 / degree.sin (sigma - 0.5 * deflection)) defaultTol with
  | error e => rw [er] at h; cases h
  | ok res =>
    rw [er, Py.ok_bind, Py.pure_eq] at h
    have hσ := Except.ok.inj h
    subst hσ
    obtain ⟨k, s, p1, p2, p3, p4, p5, p6, p7, -⟩ := C28_returns_secant_iterate _ _ _ _ _ er
    refine ⟨k, s, p1, p2, by rw [p3, p2], p5, p4, fun hk => ?_⟩
    have hw : res.warned = false := by
      cases hw : res.warned with
      | false => rfl
      | true => exact absurd (p6.1 hw) hk
    refine (p7 hw).trans (le_of_eq ?_)
    unfold defaultTol
    rw [mul_max_of_nonneg _ _ (by norm_num), mul_one]

/-- C108 (Mach number): an exact start is returned. -/
theorem C108_mach_exact (fuel : ℕ) (deflection sigma gamma m d : ℝ) (hs : deflection < sigma)
    (hz : degree.sin (sigma - 0.5 * deflection) ≠ 0) (hm : m = 1 / degree.sin (sigma - 0.5 * deflection))
    (hm1 : 0.01 < |m|) (h0 : conical_deflection_Mach_sigma fuel m sigma gamma 1.0e-6 = .ok deflection)
    (h1 : conical_deflection_Mach_sigma fuel (m * 0.999) sigma gamma 1.0e-6 = .ok d) (hd : d ≠ deflection) :
    conical_Mach_walldeflection_sigma fuel deflection sigma gamma = .ok m := by
  unfold conical_Mach_walldeflection_sigma
  rw [if_pos hs, Py.div_ok hz, Py.ok_bind, show (1.0:ℝ) = 1 by norm_num, ← hm]
  exact secant_exact_start _ _ _ _ hm1 h0 h1 hd

/-! ### cases where the searches return

For a shock angle below the tolerance `10⁻⁶` degree the integration loop is not entered. -/

section
open Real

theorem conical_small {M σ : ℝ} (h0 : 0 < σ) (h1 : σ < 1.0e-6) (hM : 0 < M) (hMn : 0.9 ≤ M * sin (Py.radians σ)) :
    conical_deflection_Mach_sigma 0 M σ 1.4 1.0e-6 = .ok (0.5 * (devDeg M 1.4 σ + σ)) := by
  have hg : (1:ℝ) < 1.4 := by norm_num
  have h90 : σ < 90 := h1.trans (by norm_num)
  obtain ⟨s0, s1⟩ := Py.radians_mem h0 h90
  obtain ⟨hS, hC⟩ := sin_cos_pos s0 s1
  have hd : dom (M * sin (Py.radians σ)) 1.4 := by
    unfold dom
    have : (0.9:ℝ) ^ 2 ≤ (M * sin (Py.radians σ)) ^ 2 := pow_le_pow_left₀ (by norm_num) hMn 2
    refine lt_of_lt_of_le ?_ this
    norm_num
  have hb : 0 < sin (Py.radians (σ - devDeg M 1.4 σ)) := by
    have e : σ - devDeg M 1.4 σ = Py.degrees (betaRad M 1.4 (Py.radians σ)) := by unfold devDeg; ring
    rw [e, Py.radians_degrees]
    unfold betaRad
    have hp : 0 < (2 + (1.4 - 1) * M ^ 2 * sin (Py.radians σ) ^ 2) / ((1.4 + 1) * M ^ 2 * (sin (Py.radians σ) * cos (Py.radians σ))) := by
      have : (0:ℝ) < 1.4 - 1 := by norm_num
      positivity
    exact sin_pos_of_pos_of_lt_pi (arctan_pos.2 hp) (by linarith [arctan_lt_pi_div_two ((2 + (1.4 - 1) * M ^ 2 * sin (Py.radians σ) ^ 2) / ((1.4 + 1) * M ^ 2 * (sin (Py.radians σ) * cos (Py.radians σ)))), pi_pos])
  unfold conical_deflection_Mach_sigma
  rw [deflection_dev hg hM h0 h90, Py.ok_bind]
  unfold degree.sin
  rw [downstream_Mn_ok hg hd, Py.ok_bind, Py.div_ok hb.ne', Py.ok_bind]
  simp only []
  unfold conical_loop
  rw [if_neg (by rw [abs_of_pos h0]; exact not_le.2 h1)]
  rfl

/-- the deflection tends to the one of a larger Mach number strictly -/
theorem devDeg_ne {M M' σ : ℝ} (h0 : 0 < σ) (h1 : σ < 90) (hM : 0 < M) (hlt : M < M') : devDeg M 1.4 σ ≠ devDeg M' 1.4 σ := by
  obtain ⟨s0, s1⟩ := Py.radians_mem h0 h1
  obtain ⟨hS, hC⟩ := sin_cos_pos s0 s1
  have hM' : 0 < M' := hM.trans hlt
  intro e
  unfold devDeg at e
  have e1 : betaRad M 1.4 (Py.radians σ) = betaRad M' 1.4 (Py.radians σ) := by
    have : Py.degrees (betaRad M 1.4 (Py.radians σ)) = Py.degrees (betaRad M' 1.4 (Py.radians σ)) := by linarith
    have := congrArg Py.radians this
    rwa [Py.radians_degrees, Py.radians_degrees] at this
  unfold betaRad at e1
  have e2 := arctan_injective e1
  rw [div_eq_div_iff (by positivity) (by positivity)] at e2
  have e3 : (sin (Py.radians σ) * cos (Py.radians σ)) * (M' ^ 2 - M ^ 2) = 0 := by
    linear_combination e2 / (2 * (1.4 + 1))
  rcases mul_eq_zero.1 e3 with h | h
  · exact (mul_pos hS hC).ne' h
  · have : M ^ 2 < M' ^ 2 := pow_lt_pow_left₀ hlt hM.le two_ne_zero
    linarith

/-- C108_sigma: a case where a shock angle is returned -/
theorem conical_sigma_returns : ∃ (Mach deflection σ : ℝ), conical_sigma_Mach_walldeflection 0 Mach deflection 1.4 = .ok σ := by
  obtain ⟨x, hx⟩ : ∃ x : ℝ, x = 0.5e-6 := ⟨_, rfl⟩
  have hx0 : 0 < x := by rw [hx]; norm_num
  have hx1 : x < 1.0e-6 := by rw [hx]; norm_num
  obtain ⟨s0, s1⟩ := Py.radians_mem hx0 (hx1.trans (by norm_num))
  obtain ⟨hS, hC⟩ := sin_cos_pos s0 s1
  obtain ⟨M, hM⟩ : ∃ M, M = 2 / sin (Py.radians x) := ⟨_, rfl⟩
  have hM0 : 0 < M := by rw [hM]; positivity
  have hS1 : sin (Py.radians x) ≤ 1 := sin_le_one _
  have hM1 : 1 < M := by rw [hM, one_lt_div hS]; linarith
  obtain ⟨hμ, -, -⟩ := mach_angle hM1
  obtain ⟨μ, hμe⟩ : ∃ μ, μ = Py.degrees (arcsin (1 / M)) := ⟨_, rfl⟩
  rw [← hμe] at hμ
  have hc := conical_small hx0 hx1 hM0 (by rw [hM, div_mul_cancel₀ _ hS.ne']; norm_num)
  refine ⟨M, x - μ, 0.999 * x, ?_⟩
  unfold conical_sigma_Mach_walldeflection secant_solve
  rw [Py.div_ok hM0.ne', Py.ok_bind, show (1.0:ℝ) = 1 by norm_num, hμ, Py.ok_bind, add_sub_cancel]
  rw [C29_false (fun sig => conical_deflection_Mach_sigma 0 M sig 1.4 1.0e-6) _ (x - μ) x hc
    (by rw [abs_of_pos hx0, hx]; norm_num)]
  rfl

/-- C108_mach: a case where the hypotheses of `C108_mach_exact` (hence of `C108_mach_partial`) are met -/
example : ∃ deflection sigma m d : ℝ, deflection < sigma ∧ degree.sin (sigma - 0.5 * deflection) ≠ 0 ∧
    m = 1 / degree.sin (sigma - 0.5 * deflection) ∧ 0.01 < |m| ∧
    conical_deflection_Mach_sigma 0 m sigma 1.4 1.0e-6 = .ok deflection ∧
    conical_deflection_Mach_sigma 0 (m * 0.999) sigma 1.4 1.0e-6 = .ok d ∧ d ≠ deflection := by
  obtain ⟨x, hx⟩ : ∃ x : ℝ, x = 0.5e-6 := ⟨_, rfl⟩
  have hx0 : 0 < x := by rw [hx]; norm_num
  have hx1 : x < 1.0e-6 := by rw [hx]; norm_num
  have hx90 : x < 90 := hx1.trans (by norm_num)
  obtain ⟨s0, s1⟩ := Py.radians_mem hx0 hx90
  obtain ⟨hS, hC⟩ := sin_cos_pos s0 s1
  obtain ⟨s, hs⟩ : ∃ s, s = Py.radians x := ⟨_, rfl⟩
  rw [← hs] at s0 s1 hS hC
  -- in radians: X(M) = s - (dev + s)/4, dev = s - beta
  have hX : ∀ M, Py.radians (x - 0.5 * (0.5 * (devDeg M 1.4 x + x))) = s / 2 + betaRad M 1.4 s / 4 := by
    intro M
    have : x - 0.5 * (0.5 * (devDeg M 1.4 x + x)) = x / 2 + Py.degrees (betaRad M 1.4 (Py.radians x)) / 4 := by
      unfold devDeg; ring
    rw [this, ← hs]
    have e1 := Py.radians_degrees (betaRad M 1.4 s)
    unfold Py.radians at e1 hs ⊢
    rw [add_mul, div_mul_eq_mul_div, div_mul_eq_mul_div, e1, ← hs]
  obtain ⟨G, hG⟩ : ∃ G : ℝ → ℝ, G = fun M => M * sin (s / 2 + betaRad M 1.4 s / 4) := ⟨_, rfl⟩
  have hab : 1 / sin s ≤ 2 / sin s := div_le_div_of_nonneg_right (by norm_num) hS.le
  have ha0 : 0 < 1 / sin s := by positivity
  have hcont : ContinuousOn G (Set.Icc (1 / sin s) (2 / sin s)) := by
    rw [hG]
    intro M hM
    have hM0 : 0 < M := ha0.trans_le hM.1
    have hden : (1.4 + 1) * M ^ 2 * (sin s * cos s) ≠ 0 := by positivity
    have hbc : ContinuousAt (fun M => betaRad M 1.4 s) M := by
      unfold betaRad
      refine continuous_arctan.continuousAt.comp (ContinuousAt.div ?_ ?_ hden) <;> fun_prop
    exact (continuousAt_id.mul (continuous_sin.continuousAt.comp (continuousAt_const.add (hbc.div_const 4)))).continuousWithinAt
  have hb0 : ∀ M, 0 < M → 0 < betaRad M 1.4 s := by
    intro M hM
    unfold betaRad
    have : (0:ℝ) < 1.4 - 1 := by norm_num
    exact arctan_pos.2 (by positivity)
  have hb1 : betaRad (1 / sin s) 1.4 s = s := by
    unfold betaRad
    have : (2 + (1.4 - 1) * (1 / sin s) ^ 2 * sin s ^ 2) / ((1.4 + 1) * (1 / sin s) ^ 2 * (sin s * cos s)) = tan s := by
      rw [tan_eq_sin_div_cos]; field_simp; norm_num
    rw [this, arctan_tan (by linarith [pi_pos]) s1]
  have hGa : G (1 / sin s) ≤ 1 := by
    rw [hG]
    simp only [hb1]
    rw [one_div, inv_mul_le_iff₀ hS, mul_one]
    exact sin_le_sin_of_le_of_le_pi_div_two (by linarith [pi_pos]) s1.le (by linarith)
  have hGb : 1 ≤ G (2 / sin s) := by
    rw [hG]
    simp only []
    have hβ := hb0 (2 / sin s) (by positivity)
    have hβ' : betaRad (2 / sin s) 1.4 s < π / 2 := arctan_lt_pi_div_two _
    have e : sin s = 2 * sin (s / 2) * cos (s / 2) := by rw [← sin_two_mul]; ring_nf
    have m1 : sin (s / 2) ≤ sin (s / 2 + betaRad (2 / sin s) 1.4 s / 4) :=
      sin_le_sin_of_le_of_le_pi_div_two (by linarith [pi_pos]) (by linarith) (by linarith)
    have m2 : 0 < sin (s / 2) := sin_pos_of_pos_of_lt_pi (by linarith) (by linarith [pi_pos])
    rw [div_mul_eq_mul_div, one_le_div hS]
    have := cos_le_one (s / 2)
    nlinarith
  obtain ⟨m, hm, hm1⟩ := intermediate_value_Icc hab hcont ⟨hGa, hGb⟩
  have hm0 : 0 < m := ha0.trans_le hm.1
  have hms : 1 ≤ m * sin s := by
    have := mul_le_mul_of_nonneg_right hm.1 hS.le
    rwa [div_mul_cancel₀ _ hS.ne'] at this
  rw [hG] at hm1
  simp only [] at hm1
  rw [← hX m] at hm1
  have hβ := hb0 m hm0
  have hpos : 0 < sin (Py.radians (x - 0.5 * (0.5 * (devDeg m 1.4 x + x)))) := by
    by_contra h
    have : m * sin (Py.radians (x - 0.5 * (0.5 * (devDeg m 1.4 x + x)))) ≤ 0 := mul_nonpos_of_nonneg_of_nonpos hm0.le (not_lt.1 h)
    linarith
  have hme : m = 1 / sin (Py.radians (x - 0.5 * (0.5 * (devDeg m 1.4 x + x)))) := by
    rw [eq_div_iff hpos.ne']; exact hm1
  have hdl : devDeg m 1.4 x < x := by
    unfold devDeg
    rw [← hs]
    have : 0 < Py.degrees (betaRad m 1.4 s) := by unfold Py.degrees; positivity
    linarith
  refine ⟨0.5 * (devDeg m 1.4 x + x), x, m, 0.5 * (devDeg (m * 0.999) 1.4 x + x), by linarith, hpos.ne', hme, ?_, ?_, ?_, ?_⟩
  · rw [abs_of_pos hm0]
    have : m * sin s ≤ m * 1 := mul_le_mul_of_nonneg_left (sin_le_one _) hm0.le
    linarith
  · exact conical_small hx0 hx1 hm0 (by rw [← hs]; linarith)
  · exact conical_small hx0 hx1 (by positivity) (by rw [← hs]; nlinarith)
  · have := devDeg_ne hx0 hx90 (by positivity : 0 < m * 0.999) (by linarith : m * 0.999 < m)
    intro e
    exact this (by linarith)

end

end Aerokit.Props
