import Verif.Props.SecantTwoSided
import Verif.Props.ObliqueSearch
import Mathlib.Analysis.SpecialFunctions.Trigonometric.Bounds

/-! # Property C98 (continued): the default start of `sigma_Mach_deflection` -/

namespace Aerokit.Props
open Isentropic ShockWave IterativeSolve Real

theorem start_alg {A τ l v : ℝ} (hA0 : 0 < A) (hA1 : A < 1) (hτ : 0 < τ) (hy : τ ^ 2 * (1 - A) ≤ A) (hl : 1 < l)
    (hq : A * (1 + l) < 1) (hv : τ * l / (1 + τ * l) < v) (T t : ℝ) (hT : T = τ * (A * l + (1 - A) / l)) (ht : t = τ * l) :
    0 < 1 + T ^ 2 - (1 + t ^ 2) * (A - τ ^ 2 * (1 - A) / t ^ 2) ∧
      τ - T < (1 + T ^ 2 - (1 + t ^ 2) * (A - τ ^ 2 * (1 - A) / t ^ 2)) * v := by
  have hl0 : 0 < l := by linarith
  have hAl : A * l < 1 - A := by linarith
  have hτ1 : τ < 1 := by
    by_contra h
    have h1 : 1 ≤ τ ^ 2 := by nlinarith
    have : (1 - A) * 1 ≤ (1 - A) * τ ^ 2 := mul_le_mul_of_nonneg_left h1 (by linarith)
    nlinarith
  obtain ⟨P, hP⟩ : ∃ P, P = 1 + T ^ 2 - (1 + t ^ 2) * (A - τ ^ 2 * (1 - A) / t ^ 2) := ⟨_, rfl⟩
  obtain ⟨i, hi⟩ : ∃ i, i = 1 / l := ⟨_, rfl⟩
  have hil : i * l = 1 := by rw [hi]; field_simp
  have hi0 : 0 < i := by rw [hi]; positivity
  obtain ⟨y, hyd⟩ : ∃ y, y = τ ^ 2 := ⟨_, rfl⟩
  have hy0 : 0 < y := by rw [hyd]; positivity
  have eP : P = (1 - A) * (1 + i ^ 2) + y * (1 - A) * ((1 + 2 * A) - A * l ^ 2 + (1 - A) * i ^ 2) := by
    rw [hP, hT, ht, hi, hyd]
    field_simp
    ring
  have hP1 : 1 - A - A * l ≤ P := by
    obtain ⟨θ, hθ⟩ : ∃ θ, θ = y * (1 - A) / A := ⟨_, rfl⟩
    have hθ1 : θ ≤ 1 := by rw [hθ, div_le_one hA0, hyd]; exact hy
    have hθ0 : 0 ≤ θ := by rw [hθ]; have : 0 < 1 - A := by linarith
                           positivity
    have e2 : y * (1 - A) = θ * A := by rw [hθ]; field_simp
    have e3 : P - (1 - A - A * l) = (1 - θ) * ((1 - A) * i ^ 2 + A * l)
        + θ * (A + A * l * (1 - A * l) + 2 * A ^ 2 + (1 - A ^ 2) * i ^ 2) := by
      rw [eP, e2]; ring
    have a1 : 0 ≤ (1 - A) * i ^ 2 + A * l := by
      have : 0 < 1 - A := by linarith
      positivity
    have a2 : 0 ≤ A + A * l * (1 - A * l) + 2 * A ^ 2 + (1 - A ^ 2) * i ^ 2 := by
      have b1 : 0 ≤ 1 - A * l := by linarith
      have b2 : 0 ≤ 1 - A ^ 2 := by nlinarith
      positivity
    have := mul_nonneg (sub_nonneg.2 hθ1) a1
    have := mul_nonneg hθ0 a2
    linarith
  have hw : 0 < 1 - A - A * l := by linarith
  have hP0 : 0 < P := by linarith
  rw [← hP]
  refine ⟨hP0, ?_⟩
  have e4 : τ - T = τ * (l - 1) * i * (1 - A - A * l) := by
    rw [hT, hi]; field_simp; ring
  rw [e4]
  have hv2 : τ * (l - 1) * i < v := by
    refine lt_of_le_of_lt ?_ hv
    rw [le_div_iff₀ (by positivity), hi]
    rw [show τ * (l - 1) * (1 / l) * (1 + τ * l) = τ * ((l - 1) * (1 + τ * l)) / l by field_simp, div_le_iff₀ hl0,
      mul_assoc]
    refine mul_le_mul_of_nonneg_left ?_ hτ.le
    nlinarith [mul_pos (sub_pos.2 hτ1) (mul_pos hl0 (sub_pos.2 hl))]
  have hv0 : 0 < τ * (l - 1) * i := by
    have : 0 < l - 1 := by linarith
    positivity
  calc τ * (l - 1) * i * (1 - A - A * l) < v * (1 - A - A * l) := mul_lt_mul_of_pos_right hv2 hw
    _ ≤ v * P := mul_le_mul_of_nonneg_left hP1 (by linarith)
    _ = P * v := by ring

theorem tan_ratio_le_sin {v : ℝ} (hv0 : 0 < v) (h1 : v < π / 2) : tan v / (1 + tan v) ≤ sin v := by
  obtain ⟨hS, hC⟩ := sin_cos_pos hv0 h1
  have ht := Real.tan_pos_of_pos_of_lt_pi_div_two hv0 h1
  have hsc : sin v ^ 2 + cos v ^ 2 = 1 := Real.sin_sq_add_cos_sq v
  rw [div_le_iff₀ (by linarith), Real.tan_eq_sin_div_cos]
  have h7 : 1 ≤ sin v + cos v := by nlinarith only [hsc, mul_pos hS hC, hS, hC]
  rw [show sin v * (1 + sin v / cos v) = sin v * (cos v + sin v) / cos v by field_simp]
  gcongr
  have := mul_le_mul_of_nonneg_left h7 hS.le
  linarith

theorem arctan_le_self' {x : ℝ} (hx : 0 ≤ x) : arctan x ≤ x := by
  have h := Real.le_tan (Real.arctan_nonneg.2 hx) (Real.arctan_lt_pi_div_two x)
  rwa [Real.tan_arctan] at h

/-- between the Mach angle and the angle where the downstream flow makes the Mach angle with the shock, the tangent to the
polar at `v` crosses the level `v - μ` at a positive angle -/
theorem start_slope {M γ v : ℝ} (h : 1 < γ) (hM : 1 < M) (h0 : arcsin (1 / M) < v) (h1 : v < π / 2)
    (hb : betaRad M γ v < arcsin (1 / M)) :
    0 < 1 - betaSlope M γ (sin v ^ 2) ∧ arcsin (1 / M) - betaRad M γ v < (1 - betaSlope M γ (sin v ^ 2)) * v := by
  have hM0 : 0 < M := by linarith
  have hM2 : 1 < M ^ 2 := by nlinarith
  have hq0 : 0 < 1 / M := by positivity
  have hq1 : 1 / M < 1 := by rw [div_lt_one hM0]; exact hM
  have hμ0 : 0 < arcsin (1 / M) := Real.arcsin_pos.2 hq0
  have hv0 : 0 < v := hμ0.trans h0
  have hμ1 : arcsin (1 / M) < π / 2 := h0.trans h1
  obtain ⟨hS, hC⟩ := sin_cos_pos hv0 h1
  obtain ⟨t, htd⟩ : ∃ t, t = tan v := ⟨_, rfl⟩
  have ht0 : 0 < t := by rw [htd]; exact Real.tan_pos_of_pos_of_lt_pi_div_two hv0 h1
  obtain ⟨τ, hτd⟩ : ∃ τ, τ = tan (arcsin (1 / M)) := ⟨_, rfl⟩
  have hτ0 : 0 < τ := by rw [hτd]; exact Real.tan_pos_of_pos_of_lt_pi_div_two hμ0 hμ1
  have hτt : τ < t := by
    rw [hτd, htd]; exact Real.tan_lt_tan_of_lt_of_lt_pi_div_two (by linarith) h1 h0
  have hτ2 : τ ^ 2 * (M ^ 2 - 1) = 1 := by
    rw [hτd, Real.tan_arcsin, div_pow, Real.sq_sqrt (by nlinarith [sq_nonneg (1 / M)])]
    have : 1 - (1 / M) ^ 2 = (M ^ 2 - 1) / M ^ 2 := by field_simp
    rw [this]
    have : M ^ 2 - 1 ≠ 0 := by linarith
    field_simp
  have hg : 0 < γ + 1 := by linarith
  have hg1 : 0 < γ - 1 := by linarith
  obtain ⟨B, hBd⟩ : ∃ B, B = (γ + 1) * M ^ 2 := ⟨_, rfl⟩
  have hB : 0 < B := by rw [hBd]; positivity
  obtain ⟨k, hkd⟩ : ∃ k, k = (γ - 1) * M ^ 2 := ⟨_, rfl⟩
  have hk : 0 < k := by rw [hkd]; positivity
  have hkB : k + 2 * M ^ 2 = B := by rw [hkd, hBd]; ring
  obtain ⟨A, hA⟩ : ∃ A, A = (k + 2) / B := ⟨_, rfl⟩
  have hA0 : 0 < A := by rw [hA]; positivity
  have hA1 : A < 1 := by rw [hA, div_lt_one hB]; linarith
  have ha : τ ^ 2 * (1 - A) = 2 / B := by
    have : 1 - A = 2 / B * (M ^ 2 - 1) := by
      rw [hA]; field_simp; linarith
    rw [this, mul_left_comm, hτ2, mul_one]
  obtain ⟨T, hTd⟩ : ∃ T, T = (2 + (γ - 1) * M ^ 2 * sin v ^ 2) / ((γ + 1) * M ^ 2 * (sin v * cos v)) := ⟨_, rfl⟩
  have hbeta : betaRad M γ v = arctan T := by unfold betaRad; rw [← hTd]
  have hts : t * cos v = sin v := by rw [htd, Real.tan_eq_sin_div_cos]; field_simp
  have hsc : sin v ^ 2 + cos v ^ 2 = 1 := Real.sin_sq_add_cos_sq v
  have hc2 : (1 + t ^ 2) * cos v ^ 2 = 1 := by
    have : t ^ 2 * cos v ^ 2 = sin v ^ 2 := by rw [← mul_pow, hts]
    linarith
  have hT : T = A * t + τ ^ 2 * (1 - A) / t := by
    rw [ha, hTd, ← hBd, ← hkd, hA, ← hts]
    rw [div_eq_iff (by positivity)]
    field_simp
    have : (k + 2) * t ^ 2 * cos v ^ 2 + 2 * cos v ^ 2 = 2 + k * (t ^ 2 * cos v ^ 2) := by
      linear_combination 2 * hc2
    nlinarith [this]
  have hT0 : 0 < T := by
    rw [hTd]; positivity
  have hTτ : T < τ := by
    rw [hbeta] at hb
    have := Real.tan_lt_tan_of_lt_of_lt_pi_div_two (Real.neg_pi_div_two_lt_arctan T) hμ1 hb
    rwa [Real.tan_arctan, ← hτd] at this
  obtain ⟨l, hl⟩ : ∃ l, l = t / τ := ⟨_, rfl⟩
  have ht : t = τ * l := by rw [hl]; field_simp
  have hl1 : 1 < l := by rw [hl, lt_div_iff₀ hτ0, one_mul]; exact hτt
  have hl0 : 0 < l := by linarith
  have hT2 : T = τ * (A * l + (1 - A) / l) := by
    rw [hT, ht]; field_simp
  have hq : A * (1 + l) < 1 := by
    have e : τ - T = τ * (l - 1) / l * (1 - A * (1 + l)) := by
      rw [hT2]; field_simp; ring
    have h5 : 0 < τ * (l - 1) / l := by
      have : 0 < l - 1 := by linarith
      positivity
    have : 0 < τ * (l - 1) / l * (1 - A * (1 + l)) := by rw [← e]; linarith
    have := (mul_pos_iff_of_pos_left h5).1 this
    linarith
  have hyA : τ ^ 2 * (1 - A) ≤ A := by
    rw [ha, hA]; gcongr; linarith
  have hv : τ * l / (1 + τ * l) < v := by
    rw [← ht]
    have h6 : t / (1 + t) ≤ sin v := by rw [htd]; exact tan_ratio_le_sin hv0 h1
    exact lt_of_le_of_lt h6 (Real.sin_lt hv0)
  obtain ⟨p1, p2⟩ := start_alg hA0 hA1 hτ0 hyA hl1 hq hv T t hT2 ht
  have hslope : (1 - betaSlope M γ (sin v ^ 2)) * (1 + T ^ 2) = 1 + T ^ 2 - (1 + t ^ 2) * (A - τ ^ 2 * (1 - A) / t ^ 2) := by
    rw [ha]
    have hT3 : T * (B * (sin v * cos v)) = 2 + k * sin v ^ 2 := by
      rw [hTd, ← hBd, ← hkd]; field_simp
    have e1 : (2 + k * sin v ^ 2) ^ 2 + B ^ 2 * (sin v ^ 2 * (1 - sin v ^ 2)) = (1 + T ^ 2) * (B * (sin v * cos v)) ^ 2 := by
      rw [← hT3]
      linear_combination (-(B ^ 2 * sin v ^ 2)) * hsc
    have e2 : betaSlope M γ (sin v ^ 2) * (1 + T ^ 2) = (1 + t ^ 2) * (A - 2 / B / t ^ 2) := by
      have num : (k + 4) * sin v ^ 2 - 2 = cos v ^ 2 * ((k + 2) * t ^ 2 - 2) := by
        rw [← hts]; linear_combination 2 * hc2
      have h1t : 1 + t ^ 2 = 1 / cos v ^ 2 := by
        rw [eq_div_iff (by positivity)]; exact hc2
      unfold betaSlope
      rw [← hBd, ← hkd, e1, hA, num, h1t, ← hts]
      have hT4 : 1 + T ^ 2 ≠ 0 := by positivity
      field_simp
    rw [sub_mul, one_mul, e2]
  have hT5 : 0 < 1 + T ^ 2 := by positivity
  rw [← hslope] at p1 p2
  have hs0 : 0 < 1 - betaSlope M γ (sin v ^ 2) := (mul_pos_iff_of_pos_right hT5).1 p1
  refine ⟨hs0, ?_⟩
  have hμτ : arcsin (1 / M) = arctan τ := by
    rw [hτd, Real.arctan_tan (by linarith) hμ1]
  have hD : arcsin (1 / M) - betaRad M γ v ≤ (τ - T) / (1 + τ * T) := by
    rw [hμτ, hbeta, sub_eq_add_neg, ← Real.arctan_neg, Real.arctan_add (by have := mul_pos hτ0 hT0; rw [mul_neg]; linarith only [this])]
    rw [show τ + -T = τ - T by ring, show 1 - τ * -T = 1 + τ * T by ring]
    exact arctan_le_self' (div_nonneg (by linarith) (by positivity))
  refine lt_of_le_of_lt hD ?_
  rw [div_lt_iff₀ (by positivity)]
  have e3 : (1 - betaSlope M γ (sin v ^ 2)) * v * (1 + T ^ 2) ≤ (1 - betaSlope M γ (sin v ^ 2)) * v * (1 + τ * T) := by
    refine mul_le_mul_of_nonneg_left ?_ (mul_nonneg hs0.le hv0.le)
    have := mul_le_mul_of_nonneg_right hTτ.le hT0.le
    rw [pow_two]; linarith only [this]
  calc τ - T < (1 - betaSlope M γ (sin v ^ 2)) * (1 + T ^ 2) * v := p2
    _ = (1 - betaSlope M γ (sin v ^ 2)) * v * (1 + T ^ 2) := by ring
    _ ≤ _ := e3

/-- degrees version: `s` is a possible start, at which the deflection exceeds `s - μ` -/
theorem start_slope_deg {M γ s : ℝ} (h : 1 < γ) (hM : 1 < M) (h0 : Py.degrees (arcsin (1 / M)) < s) (h1 : s < 90)
    (hb : s - Py.degrees (arcsin (1 / M)) < devDeg M γ s) :
    0 < 1 - betaSlope M γ (sin (Py.radians s) ^ 2) ∧
      devDeg M γ s - (s - Py.degrees (arcsin (1 / M))) < (1 - betaSlope M γ (sin (Py.radians s) ^ 2)) * s := by
  have hp := Real.pi_pos
  have hμ0 : 0 < arcsin (1 / M) := Real.arcsin_pos.2 (by positivity)
  have hs0 : 0 < s := by
    have : 0 < Py.degrees (arcsin (1 / M)) := by unfold Py.degrees; positivity
    linarith
  obtain ⟨r0, r1⟩ := Py.radians_mem hs0 h1
  have hlt : arcsin (1 / M) < Py.radians s := by
    have := Py.radians_strictMono h0
    rwa [Py.radians_degrees] at this
  have hD : devDeg M γ s - (s - Py.degrees (arcsin (1 / M))) = (arcsin (1 / M) - betaRad M γ (Py.radians s)) * (180 / π) := by
    unfold devDeg Py.degrees; ring
  have hb' : betaRad M γ (Py.radians s) < arcsin (1 / M) := by
    have : 0 < (arcsin (1 / M) - betaRad M γ (Py.radians s)) * (180 / π) := by rw [← hD]; linarith
    have := (mul_pos_iff_of_pos_right (by positivity : 0 < 180 / π)).1 this
    linarith
  obtain ⟨a1, a2⟩ := start_slope h hM hlt r1 hb'
  refine ⟨a1, ?_⟩
  rw [hD]
  have := mul_lt_mul_of_pos_right a2 (by positivity : 0 < 180 / π)
  refine this.trans_eq ?_
  rw [mul_assoc]
  congr 1
  unfold Py.radians
  field_simp

theorem devDeg_tangent {M γ z x : ℝ} (h : 1 < γ) (hM : 0 < M) (hz : 0 < z) (hzx : z ≤ x) (hx : x < 90) :
    devDeg M γ z ≤ devDeg M γ x - (1 - betaSlope M γ (sin (Py.radians x) ^ 2)) * (x - z) := by
  rcases hzx.eq_or_lt with e | e
  · rw [e]; simp
  obtain ⟨c, hc, hs⟩ := exists_hasDerivAt_eq_slope (devDeg M γ) (fun σ => 1 - betaSlope M γ (sin (Py.radians σ) ^ 2)) e
    (fun σ hσ => (hasDerivAt_devDeg h hM (hz.trans_le hσ.1) (hσ.2.trans_lt hx)).continuousAt.continuousWithinAt)
    (fun σ hσ => hasDerivAt_devDeg h hM (hz.trans hσ.1) (hσ.2.trans hx))
  rw [eq_div_iff (by linarith)] at hs
  obtain ⟨a0, a1⟩ := Py.radians_mem (hz.trans hc.1) (hc.2.trans hx)
  obtain ⟨b0, b1⟩ := Py.radians_mem (hz.trans e) hx
  have hle : sin (Py.radians c) ≤ sin (Py.radians x) :=
    Real.sin_le_sin_of_le_of_le_pi_div_two (by linarith) b1.le (Py.radians_strictMono.monotone hc.2.le)
  have h2 : sin (Py.radians c) ^ 2 ≤ sin (Py.radians x) ^ 2 := pow_le_pow_left₀ (sin_cos_pos a0 a1).1.le hle 2
  have h3 := betaSlope_mono h hM (sq_nonneg _) h2 (Real.sin_sq_le_one _)
  have : (1 - betaSlope M γ (sin (Py.radians x) ^ 2)) * (x - z) ≤ (1 - betaSlope M γ (sin (Py.radians c) ^ 2)) * (x - z) :=
    mul_le_mul_of_nonneg_right (by linarith) (by linarith)
  linarith

/-- the default start is never beyond the angle of maximal deflection -/
theorem default_start_le {M γ d σ σm : ℝ} (hγ : 1 < γ) (hM : 1 < M) (hm : sigma_DevMax M γ = .ok σm) (hσ0 : 0 < σ) (hσ : σ ≤ σm)
    (hdev : devDeg M γ σ = d) : Py.degrees (arcsin (1 / M)) + d ≤ σm := by
  have hM0 : 0 < M := by linarith
  obtain ⟨σ', h1, h2, h3, h4⟩ := devDeg_max hγ hM
  have : σ' = σm := by rw [h1] at hm; exact Except.ok.inj hm
  subst this
  by_contra hcon
  rw [not_le] at hcon
  have hmax : d ≤ devDeg M γ σ' := by
    rcases eq_or_ne σ σ' with e | e
    · rw [← e, hdev]
    · rw [← hdev]; exact (h4 σ hσ0 (lt_of_le_of_lt hσ h3) e).le
  have hμ : Py.degrees (arcsin (1 / M)) < σ' := by
    obtain ⟨σm, θm, μ, g1, g2, g3, g4, -⟩ := C17_max_deflection M γ hγ hM
    have e1 : σm = σ' := by rw [g1] at h1; exact Except.ok.inj h1
    have e2 : μ = Py.degrees (arcsin (1 / M)) := by rw [(mach_angle hM).1] at g3; exact (Except.ok.inj g3).symm
    rw [← e1, ← e2]; exact g4
  obtain ⟨p, -⟩ := start_slope_deg hγ hM hμ h3 (by linarith)
  have hloc : IsLocalMax (devDeg M γ) σ' := by
    filter_upwards [Ioo_mem_nhds h2 h3] with z hz
    rcases eq_or_ne z σ' with e | e
    · rw [e]
    · exact (h4 z hz.1 hz.2 e).le
  have := hloc.hasDerivAt_eq_zero (hasDerivAt_devDeg hγ hM0 h2 h3)
  linarith

/-- C98 (start above the weak angle), partial: for an attached weak shock of angle `σ` and a start `s0` between `σ` and
`sigma_DevMax` from which the tangent to the polar (slope `m`) meets the requested deflection at a positive angle, the search always
returns; without the warning the deflection of the result is within `(2 + (γ+1) M²) · 10⁻⁵ · max(1, angle)` of the request.
Missing: starts from which the first step leaves the range of shock angles. -/
theorem C98_start_above_partial (M γ d σ σm s0 m θ0 : ℝ) (hγ : 1 < γ) (hM : 1 < M)
    (hm : sigma_DevMax M γ = Except.ok σm) (hσ0 : 0 < σ) (hdev : deflection_Mach_sigma M σ γ = Except.ok d) (hd : 0 < d)
    (hs : 0.01 < s0) (hs0 : σ ≤ s0) (hsm : s0 ≤ σm) (hdev0 : deflection_Mach_sigma M s0 γ = Except.ok θ0) (hm0 : 0 < m)
    (hder : ∀ z θ, 0 < z → z ≤ s0 → deflection_Mach_sigma M z γ = Except.ok θ → θ ≤ θ0 - m * (s0 - z)) (hpos : θ0 - d < m * s0) :
    ∃ res θ, secant_run (fun s => deflection_Mach_sigma M s γ) d s0 defaultTol = Except.ok res ∧
      sigma_Mach_deflection M d (some s0) γ = Except.ok res.x ∧
      sigma_Mach_deflection M (-d) (some s0) γ = Except.ok (-res.x) ∧
      0 < res.x ∧ res.x ≤ s0 ∧ deflection_Mach_sigma M res.x γ = Except.ok θ ∧
      (res.warned = false → |θ - d| ≤ (2 + (γ + 1) * M ^ 2) * (0.00001 * max 1 res.x)) := by
  have hM0 : 0 < M := by linarith
  obtain ⟨σ', h1, h2, h3, -⟩ := devDeg_max hγ hM
  have : σ' = σm := by rw [h1] at hm; exact Except.ok.inj hm
  subst this
  have hs1 : (0:ℝ) < s0 := lt_trans (by norm_num) hs
  have hs90 : s0 < 90 := lt_of_le_of_lt hsm h3
  have hok : ∀ z, 0 < z → z ≤ s0 → deflection_Mach_sigma M z γ = .ok (devDeg M γ z) := fun z a b =>
    deflection_dev hγ hM0 a (lt_of_le_of_lt b hs90)
  have e0 : devDeg M γ s0 = θ0 := by rw [hok s0 hs1 le_rfl] at hdev0; exact Except.ok.inj hdev0
  have hy : devDeg M γ σ = d := by rw [hok σ hσ0 hs0] at hdev; exact Except.ok.inj hdev
  have htan : ∀ z, 0 < z → z ≤ s0 → devDeg M γ z ≤ devDeg M γ s0 - m * (s0 - z) := fun z a b => by
    rw [e0]; exact hder z _ a b (hok z a b)
  obtain ⟨lo, hlo⟩ : ∃ lo, lo = min (s0 - (θ0 - d) / m) (0.999 * s0) := ⟨_, rfl⟩
  have hlo0 : 0 < lo := by
    rw [hlo]
    refine lt_min ?_ (by positivity)
    rw [sub_pos, div_lt_iff₀ hm0]; linarith
  have hlo1 : lo ≤ 0.999 * s0 := by rw [hlo]; exact min_le_right _ _
  have hlo2 : lo ≤ s0 - (θ0 - d) / m := by rw [hlo]; exact min_le_left _ _
  have hlr : lo ≤ σ := by
    refine hlo2.trans ?_
    have := htan σ hσ0 hs0
    rw [hy, e0] at this
    have : s0 - σ ≤ (θ0 - d) / m := by rw [le_div_iff₀ hm0]; linarith
    linarith
  have htl : devDeg M γ s0 - d ≤ m * (s0 - lo) := by
    have : (θ0 - d) / m ≤ s0 - lo := by linarith
    rw [div_le_iff₀ hm0] at this
    rw [e0]; linarith
  have hmem : ∀ z ∈ Set.Icc lo s0, 0 < z ∧ z ≤ s0 := fun z hz => ⟨hlo0.trans_le hz.1, hz.2⟩
  have hL0 : 0 ≤ 1 + (γ + 1) * M ^ 2 / 2 := by
    have : 0 < γ + 1 := by linarith
    positivity
  obtain ⟨res, a1, a2, a3, a5⟩ := C95_beyond (fun s => deflection_Mach_sigma M s γ) (devDeg M γ) lo σ d
    (1 + (γ + 1) * M ^ 2 / 2) m s0 hs hlo1 hlr hs0 (fun z hz => hok z (hmem z hz).1 (hmem z hz).2)
    ((devDeg_strictMono hγ hM hm).1.mono (fun z hz => ⟨(hmem z hz).1, (hmem z hz).2.trans hsm⟩))
    ((devDeg_concave hγ hM0).subset (fun z hz => ⟨(hmem z hz).1, lt_of_le_of_lt (hmem z hz).2 hs90⟩) (convex_Icc _ _)) hy hm0
    (fun z hz => htan z (hmem z hz).1 (hmem z hz).2) htl hL0
    (fun a ha b hb hab => devDeg_lipschitz hγ hM0 (hmem a ha).1 hab (lt_of_le_of_lt (hmem b hb).2 hs90))
  have hres0 : 0 < res.x := by linarith
  refine ⟨res, _, a1, ?_, ?_, hres0, a3, hok _ hres0 a3, fun hw => ?_⟩
  · unfold sigma_Mach_deflection secant_solve
    simp only [Py.pure_eq, Py.ok_bind, abs_of_pos hd, a1, sign_pos hd]
    simp
  · unfold sigma_Mach_deflection secant_solve
    simp only [Py.pure_eq, Py.ok_bind, abs_neg, abs_of_pos hd, a1, sign_neg (neg_neg_of_pos hd)]
    simp
  · have := a5 hw
    rw [abs_of_pos hres0] at this
    refine this.trans (le_of_eq ?_)
    ring

/-- C98 (default start, positive deflections): whatever the Mach number, the gas and the attached deflection `d` (that of a weak shock
of angle `σ`), `sigma_Mach_deflection(M, d)` returns an angle of the weak branch; without the warning its deflection is
within `(2 + (γ+1) M²) · 10⁻⁵ · max(1, angle)` of the request. -/
theorem C98_default_positive (M γ d σ σm μ : ℝ) (hγ : 1 < γ) (hM : 1 < M) (hm : sigma_DevMax M γ = Except.ok σm) (hσ0 : 0 < σ)
    (hσ : σ ≤ σm) (hdev : deflection_Mach_sigma M σ γ = Except.ok d) (hd : 0 < d) (hμ : degree.asin (1 / M) = Except.ok μ)
    (hs : 0.01 < μ + d) :
    ∃ res θ, secant_run (fun s => deflection_Mach_sigma M s γ) d (μ + d) defaultTol = Except.ok res ∧
      sigma_Mach_deflection M d none γ = Except.ok res.x ∧ 0 < res.x ∧ res.x ≤ σm ∧
      deflection_Mach_sigma M res.x γ = Except.ok θ ∧
      (res.warned = false → |θ - d| ≤ (2 + (γ + 1) * M ^ 2) * (0.00001 * max 1 res.x)) := by
  have hM0 : 0 < M := by linarith
  have eμ : μ = Py.degrees (arcsin (1 / M)) := by rw [(mach_angle hM).1] at hμ; exact (Except.ok.inj hμ).symm
  obtain ⟨σ', h1, h2, h3, h4⟩ := devDeg_max hγ hM
  have : σ' = σm := by rw [h1] at hm; exact Except.ok.inj hm
  subst this
  rw [C98_default_start M γ d μ hμ hM0.ne']
  have hk : 0 ≤ (γ + 1) * M ^ 2 := by
    have : 0 < γ + 1 := by linarith
    positivity
  rcases le_total (μ + d) σ with hle | hle
  · obtain ⟨res, θ, a1, a2, -, a3, a4, a5, a6, a7⟩ := C98_explicit_start_partial M γ d σ σ' (μ + d) hγ hM hd hm hσ0 hσ hdev hs hle
    have hr0 : 0 < res.x := lt_of_lt_of_le (lt_trans (by norm_num) hs) a3
    refine ⟨res, θ, a1, a2, hr0, a4.trans hσ, a5, fun hw => ?_⟩
    rw [abs_sub_comm, abs_of_nonneg (by linarith)]
    refine (a7 hw).trans (mul_le_mul_of_nonneg_right (by linarith) ?_)
    have : (0:ℝ) ≤ max 1 res.x := le_max_of_le_left zero_le_one
    positivity
  · have hs90 := lt_of_le_of_lt hσ h3
    have hy : devDeg M γ σ = d := by rw [deflection_dev hγ hM0 hσ0 hs90] at hdev; exact Except.ok.inj hdev
    have hsm : μ + d ≤ σ' := by rw [eμ]; exact default_start_le hγ hM hm hσ0 hσ hy
    have hsm' := lt_of_le_of_lt hsm h3
    have hs0 : (0:ℝ) < μ + d := lt_trans (by norm_num) hs
    rcases hle.eq_or_lt with e | e
    · obtain ⟨res, θ, a1, a2, -, a3, a4, a5, a6, a7⟩ := C98_explicit_start_partial M γ d σ σ' (μ + d) hγ hM hd hm hσ0 hσ hdev hs e.ge
      have hr0 : 0 < res.x := lt_of_lt_of_le hs0 a3
      refine ⟨res, θ, a1, a2, hr0, a4.trans hσ, a5, fun hw => ?_⟩
      rw [abs_sub_comm, abs_of_nonneg (by linarith)]
      refine (a7 hw).trans (mul_le_mul_of_nonneg_right (by linarith) ?_)
      have : (0:ℝ) ≤ max 1 res.x := le_max_of_le_left zero_le_one
      positivity
    · have hlt : devDeg M γ σ < devDeg M γ (μ + d) := (devDeg_strictMono hγ hM hm).1 ⟨hσ0, hσ⟩ ⟨hs0, hsm⟩ e
      obtain ⟨p1, p2⟩ := start_slope_deg hγ hM (s := μ + d) (by linarith) hsm' (by linarith)
      obtain ⟨res, θ, a1, a2, -, a3, a4, a5, a6⟩ := C98_start_above_partial M γ d σ σ' (μ + d)
        (1 - betaSlope M γ (sin (Py.radians (μ + d)) ^ 2)) _ hγ hM hm hσ0 hdev hd hs hle hsm (deflection_dev hγ hM0 hs0 hsm') p1
        (fun z θ hz hzs hθ => by
          rw [deflection_dev hγ hM0 hz (lt_of_le_of_lt hzs hsm')] at hθ
          rw [← Except.ok.inj hθ]
          exact devDeg_tangent hγ hM0 hz hzs hsm')
        (by
          have : devDeg M γ (μ + d) - (μ + d - Py.degrees (arcsin (1 / M))) = devDeg M γ (μ + d) - d := by rw [← eμ]; ring
          linarith)
      exact ⟨res, θ, a1, a2, a3, a4.trans hsm, a5, a6⟩

/-- the hypotheses of `C98_default_positive` hold at Mach 2 in air for the shock half-way between the Mach wave and the
shock of maximum deflection -/
example : ∃ σm σ μ d : ℝ, sigma_DevMax 2 1.4 = Except.ok σm ∧ 0 < σ ∧ σ ≤ σm ∧ deflection_Mach_sigma 2 σ 1.4 = Except.ok d ∧
    0 < d ∧ degree.asin (1 / 2) = Except.ok μ ∧ 0.01 < μ + d := by
  obtain ⟨σm, θm, μ, g1, g2, g3, g4, g5, -⟩ := C17_max_deflection 2 1.4 (by norm_num) (by norm_num)
  obtain ⟨_, μ', -, k2, k3, -⟩ := C14_sign 2 45 1.4 (by norm_num) (by norm_num) (by norm_num) (by norm_num)
  have : μ' = μ := by rw [g3] at k2; exact (Except.ok.inj k2).symm
  subst this
  obtain ⟨d, μ2, h1, h2, -, -, -, h4, -⟩ := C14_sign 2 ((μ' + σm) / 2) 1.4 (by norm_num) (by norm_num) (by linarith) (by linarith)
  have : μ2 = μ' := by rw [g3] at h2; exact (Except.ok.inj h2).symm
  subst this
  have hd := h4.2 (by linarith)
  have hμ : μ2 = 30 := by
    have e := (mach_angle (M := 2) (by norm_num)).1
    rw [g3] at e
    have e := Except.ok.inj e
    rw [e, Real.arcsin_eq_of_sin_eq (x := π / 6) (by rw [Real.sin_pi_div_six]) ⟨by have := Real.pi_pos; linarith, by have := Real.pi_pos; linarith⟩]
    unfold Py.degrees
    have := Real.pi_ne_zero
    field_simp; norm_num
  refine ⟨σm, (μ2 + σm) / 2, μ2, d, g1, by linarith, by linarith, h1, hd, g3, ?_⟩
  rw [hμ]; norm_num; linarith

end Aerokit.Props
