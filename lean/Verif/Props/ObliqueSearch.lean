import Verif.Props.SecantBounds
import Verif.Props.Oblique
import Verif.Props.Propulsion
import Mathlib.Analysis.SpecialFunctions.Trigonometric.ArctanDeriv
import Mathlib.Analysis.Convex.Deriv

/-! # Properties C97, C98 : deflection as a function of the shock angle, and `sigma_Mach_deflection` -/

namespace Aerokit.Props
open Isentropic ShockWave IterativeSolve Real

/-- angle of the downstream flow with the shock, `s` in radians -/
noncomputable def betaRad (M γ s : ℝ) : ℝ :=
  arctan ((2 + (γ - 1) * M ^ 2 * sin s ^ 2) / ((γ + 1) * M ^ 2 * (sin s * cos s)))

/-- value of `deflection_Mach_sigma` on `(0, 90)` -/
noncomputable def devDeg (M γ σ : ℝ) : ℝ := σ - Py.degrees (betaRad M γ (Py.radians σ))

theorem deflection_dev {M σ γ : ℝ} (h : 1 < γ) (hM : 0 < M) (h0 : 0 < σ) (h1 : σ < 90) :
    deflection_Mach_sigma M σ γ = .ok (devDeg M γ σ) := by
  obtain ⟨hs0, hs1⟩ := Py.radians_mem h0 h1
  obtain ⟨hS, hC⟩ := sin_cos_pos hs0 hs1
  rw [deflection_ok h hM.ne' h0 h1, ← sub_arctan h hM.ne' hs0 hs1, Py.degrees_sub, Py.degrees_radians]
  unfold devDeg betaRad
  congr 4
  have hE := rho_den_pos (M := M * sin (Py.radians σ)) h
  have hγ : 0 < γ + 1 := by linarith
  rw [Real.tan_eq_sin_div_cos]
  unfold rhr
  obtain ⟨E, hEe⟩ : ∃ E, E = 2 + (γ - 1) * (M * sin (Py.radians σ)) ^ 2 := ⟨_, rfl⟩
  rw [← hEe] at hE ⊢
  have e : 2 + (γ - 1) * M ^ 2 * sin (Py.radians σ) ^ 2 = E := by rw [hEe]; ring
  rw [e]
  field_simp

/-- derivative of `betaRad`, as a function of `z = sin² s` -/
noncomputable def betaSlope (M γ z : ℝ) : ℝ :=
  (γ + 1) * M ^ 2 * (((γ - 1) * M ^ 2 + 4) * z - 2) /
    ((2 + (γ - 1) * M ^ 2 * z) ^ 2 + ((γ + 1) * M ^ 2) ^ 2 * (z * (1 - z)))

theorem hasDerivAt_betaRad {M γ s : ℝ} (h : 1 < γ) (hM : 0 < M) (h0 : 0 < s) (h1 : s < π / 2) :
    HasDerivAt (betaRad M γ) (betaSlope M γ (sin s ^ 2)) s := by
  obtain ⟨hS, hC⟩ := sin_cos_pos h0 h1
  have hB : 0 < (γ + 1) * M ^ 2 := by have : 0 < γ + 1 := by linarith
                                      positivity
  obtain ⟨B, hBd⟩ : ∃ B, B = (γ + 1) * M ^ 2 := ⟨_, rfl⟩
  obtain ⟨k, hkd⟩ : ∃ k, k = (γ - 1) * M ^ 2 := ⟨_, rfl⟩
  have hk : 0 < k := by rw [hkd]; have : 0 < γ - 1 := by linarith
                        positivity
  unfold betaRad betaSlope
  rw [← hBd, ← hkd]
  rw [← hBd] at hB
  have dS := Real.hasDerivAt_sin s
  have dC := Real.hasDerivAt_cos s
  have dn : HasDerivAt (fun s => 2 + k * sin s ^ 2) (2 * k * (sin s * cos s)) s := by
    refine (((dS.fun_pow 2).const_mul k).const_add 2).congr_deriv ?_
    push_cast; ring
  have dd : HasDerivAt (fun s => B * (sin s * cos s)) (B * (cos s ^ 2 - sin s ^ 2)) s := by
    refine ((dS.fun_mul dC).const_mul B).congr_deriv ?_
    ring
  have hd0 : 0 < B * (sin s * cos s) := by positivity
  refine ((dn.fun_div dd hd0.ne').arctan).congr_deriv ?_
  have hcs : cos s ^ 2 = 1 - sin s ^ 2 := by rw [Real.cos_sq']
  have hden : 0 < (2 + k * sin s ^ 2) ^ 2 + B ^ 2 * (sin s ^ 2 * (1 - sin s ^ 2)) := by
    rw [← hcs]; positivity
  have e1 : (B * (sin s * cos s)) ^ 2 = B ^ 2 * (sin s ^ 2 * (1 - sin s ^ 2)) := by rw [← hcs]; ring
  have e2 : 2 * k * (sin s * cos s) * (B * (sin s * cos s)) - (2 + k * sin s ^ 2) * (B * (cos s ^ 2 - sin s ^ 2))
      = B * ((k + 4) * sin s ^ 2 - 2) := by
    have : (2 * k * (sin s * cos s) * (B * (sin s * cos s))) = 2 * k * B * (sin s ^ 2 * cos s ^ 2) := by ring
    rw [this, hcs]; ring
  rw [e2, div_pow, e1]
  rw [e1.symm] at hden ⊢
  obtain ⟨D, hD⟩ : ∃ D, D = B * (sin s * cos s) := ⟨_, rfl⟩
  rw [← hD] at hd0 hden ⊢
  obtain ⟨n, hn⟩ : ∃ n, n = 2 + k * sin s ^ 2 := ⟨_, rfl⟩
  rw [← hn] at hden ⊢
  have e3 : 1 + n ^ 2 / D ^ 2 = (n ^ 2 + D ^ 2) / D ^ 2 := by field_simp; ring
  rw [e3]
  field_simp

theorem betaSlope_mono {M γ z w : ℝ} (h : 1 < γ) (hM : 0 < M) (hz : 0 ≤ z) (hzw : z ≤ w) (hw : w ≤ 1) :
    betaSlope M γ z ≤ betaSlope M γ w := by
  have hM2 : 0 < M ^ 2 := by positivity
  obtain ⟨B, hBd⟩ : ∃ B, B = (γ + 1) * M ^ 2 := ⟨_, rfl⟩
  obtain ⟨k, hkd⟩ : ∃ k, k = (γ - 1) * M ^ 2 := ⟨_, rfl⟩
  have hk : 0 < k := by rw [hkd]; have : 0 < γ - 1 := by linarith
                        positivity
  have hBk : k < B := by rw [hkd, hBd]; nlinarith
  have hder : ∀ x ∈ Set.Icc (0:ℝ) 1, HasDerivAt (betaSlope M γ)
      (B * ((k + 4) * (4 + (B ^ 2 - k ^ 2) * x ^ 2) + 8 * k + 4 * k ^ 2 * x + 2 * B ^ 2 - 4 * B ^ 2 * x) /
        ((2 + k * x) ^ 2 + B ^ 2 * (x * (1 - x))) ^ 2) x := by
    intro x hx
    have hden : 0 < (2 + k * x) ^ 2 + B ^ 2 * (x * (1 - x)) := by
      have : 0 ≤ B ^ 2 * (x * (1 - x)) := mul_nonneg (sq_nonneg _) (mul_nonneg hx.1 (by linarith [hx.2]))
      have : 0 < 2 + k * x := by have := mul_nonneg hk.le hx.1; linarith
      positivity
    have dx := hasDerivAt_id x
    have dN : HasDerivAt (fun x : ℝ => B * ((k + 4) * x - 2)) (B * (k + 4)) x := by
      refine (((dx.const_mul (k + 4)).sub_const 2).const_mul B).congr_deriv ?_
      simp
    have dD : HasDerivAt (fun x : ℝ => (2 + k * x) ^ 2 + B ^ 2 * (x * (1 - x))) (2 * k * (2 + k * x) + B ^ 2 * (1 - 2 * x)) x := by
      refine (((((dx.const_mul k).const_add 2).fun_pow 2)).fun_add ((dx.fun_mul (dx.const_sub 1)).const_mul (B ^ 2))).congr_deriv ?_
      simp; ring
    have := dN.fun_div dD hden.ne'
    have e : betaSlope M γ = fun x => B * ((k + 4) * x - 2) / ((2 + k * x) ^ 2 + B ^ 2 * (x * (1 - x))) := by
      funext x; unfold betaSlope; rw [← hBd, ← hkd]
    rw [e]
    refine this.congr_deriv ?_
    congr 1
    ring
  have hmono : MonotoneOn (betaSlope M γ) (Set.Icc 0 1) := by
    refine monotoneOn_of_deriv_nonneg (convex_Icc _ _) (fun x hx => (hder x hx).continuousAt.continuousWithinAt)
      (fun x hx => (hder x (interior_subset hx)).differentiableAt.differentiableWithinAt) ?_
    intro x hx
    have hx' := interior_subset hx
    rw [(hder x hx').deriv]
    apply div_nonneg _ (sq_nonneg _)
    apply mul_nonneg (by linarith)
    have hx0 := hx'.1
    have hx1 := hx'.2
    have hsq : 0 ≤ B ^ 2 - k ^ 2 := by nlinarith
    have e : (k + 4) * (4 + (B ^ 2 - k ^ 2) * x ^ 2) + 8 * k + 4 * k ^ 2 * x + 2 * B ^ 2 - 4 * B ^ 2 * x
        = (16 + 12 * k) + k * ((B ^ 2 - k ^ 2) * x ^ 2) + 2 * B ^ 2 * (1 - 2 * x + 2 * x ^ 2) + 4 * k ^ 2 * (x * (1 - x)) := by ring
    rw [e]
    have a1 : 0 ≤ k * ((B ^ 2 - k ^ 2) * x ^ 2) := by positivity
    have a2 : 0 ≤ 1 - 2 * x + 2 * x ^ 2 := by nlinarith [sq_nonneg (1 - 2 * x)]
    have a3 : 0 ≤ x * (1 - x) := mul_nonneg hx0 (by linarith)
    positivity
  exact hmono ⟨hz, hzw.trans hw⟩ ⟨hz.trans hzw, hw⟩ hzw

theorem betaSlope_lower {M γ z : ℝ} (h : 1 < γ) (hM : 0 < M) (hz : 0 ≤ z) (hz1 : z ≤ 1) :
    -((γ + 1) * M ^ 2 / 2) ≤ betaSlope M γ z := by
  have := betaSlope_mono h hM le_rfl hz hz1
  refine le_trans (le_of_eq ?_) this
  unfold betaSlope
  norm_num
  ring

theorem hasDerivAt_devDeg {M γ σ : ℝ} (h : 1 < γ) (hM : 0 < M) (h0 : 0 < σ) (h1 : σ < 90) :
    HasDerivAt (devDeg M γ) (1 - betaSlope M γ (sin (Py.radians σ) ^ 2)) σ := by
  obtain ⟨hs0, hs1⟩ := Py.radians_mem h0 h1
  have dr : HasDerivAt Py.radians (π / 180) σ := by
    unfold Py.radians
    simpa using (hasDerivAt_id σ).mul_const (π / 180)
  have d1 := HasDerivAt.comp (h₂ := betaRad M γ) (h := Py.radians) σ (hasDerivAt_betaRad h hM hs0 hs1) dr
  have d2 := (hasDerivAt_id σ).fun_sub (d1.mul_const (180 / π))
  have e : devDeg M γ = fun i => id i - (betaRad M γ ∘ Py.radians) i * (180 / π) := by
    funext z; unfold devDeg Py.degrees; rfl
  rw [e]
  refine d2.congr_deriv ?_
  have := Real.pi_ne_zero
  field_simp

theorem devDeg_concave {M γ : ℝ} (h : 1 < γ) (hM : 0 < M) : ConcaveOn ℝ (Set.Ioo 0 90) (devDeg M γ) := by
  have hd : ∀ σ ∈ Set.Ioo (0:ℝ) 90, HasDerivAt (devDeg M γ) (1 - betaSlope M γ (sin (Py.radians σ) ^ 2)) σ :=
    fun σ hσ => hasDerivAt_devDeg h hM hσ.1 hσ.2
  refine AntitoneOn.concaveOn_of_deriv (convex_Ioo _ _)
    (fun σ hσ => (hd σ hσ).continuousAt.continuousWithinAt)
    (fun σ hσ => (hd σ (interior_subset hσ)).differentiableAt.differentiableWithinAt) ?_
  intro a ha b hb hab
  have ha' := interior_subset ha
  have hb' := interior_subset hb
  rw [(hd a ha').deriv, (hd b hb').deriv]
  obtain ⟨a0, a1⟩ := Py.radians_mem ha'.1 ha'.2
  obtain ⟨b0, b1⟩ := Py.radians_mem hb'.1 hb'.2
  have hle : sin (Py.radians a) ≤ sin (Py.radians b) :=
    Real.sin_le_sin_of_le_of_le_pi_div_two (by linarith) b1.le (Py.radians_strictMono.monotone hab)
  have h2 : sin (Py.radians a) ^ 2 ≤ sin (Py.radians b) ^ 2 :=
    pow_le_pow_left₀ (sin_cos_pos a0 a1).1.le hle 2
  have := betaSlope_mono h hM (sq_nonneg _) h2 (Real.sin_sq_le_one _)
  linarith

theorem devDeg_lipschitz {M γ a b : ℝ} (h : 1 < γ) (hM : 0 < M) (ha : 0 < a) (hab : a < b) (hb : b < 90) :
    devDeg M γ b - devDeg M γ a ≤ (1 + (γ + 1) * M ^ 2 / 2) * (b - a) := by
  obtain ⟨c, hc, hs⟩ := exists_hasDerivAt_eq_slope (devDeg M γ) (fun σ => 1 - betaSlope M γ (sin (Py.radians σ) ^ 2)) hab
    (fun σ hσ => (hasDerivAt_devDeg h hM (ha.trans_le hσ.1) (hσ.2.trans_lt hb)).continuousAt.continuousWithinAt)
    (fun σ hσ => hasDerivAt_devDeg h hM (ha.trans hσ.1) (hσ.2.trans hb))
  rw [eq_div_iff (by linarith)] at hs
  rw [← hs]
  have := betaSlope_lower h hM (sq_nonneg (sin (Py.radians c))) (Real.sin_sq_le_one _)
  exact mul_le_mul_of_nonneg_right (by linarith) (by linarith)

/-- C97: at a fixed upstream Mach number the deflection is a concave function of the shock angle on
(0,90) degrees: the deflection at an intermediate angle is at least the interpolated deflection. -/
theorem C97_concave (M γ σ₁ σ₂ t : ℝ) (hγ : 1 < γ) (hM : 0 < M) (h1 : 0 < σ₁) (h1' : σ₁ < 90) (h2 : 0 < σ₂)
    (h2' : σ₂ < 90) (ht : 0 ≤ t) (ht' : t ≤ 1) :
    ∃ θ₁ θ₂ θ, deflection_Mach_sigma M σ₁ γ = Except.ok θ₁ ∧ deflection_Mach_sigma M σ₂ γ = Except.ok θ₂ ∧
      deflection_Mach_sigma M (t * σ₁ + (1 - t) * σ₂) γ = Except.ok θ ∧ t * θ₁ + (1 - t) * θ₂ ≤ θ := by
  have hc := (devDeg_concave hγ hM).2 ⟨h1, h1'⟩ ⟨h2, h2'⟩ ht (by linarith : 0 ≤ 1 - t) (by ring)
  have hm := (convex_Ioo (0:ℝ) 90) ⟨h1, h1'⟩ ⟨h2, h2'⟩ ht (by linarith : 0 ≤ 1 - t) (by ring)
  simp only [smul_eq_mul] at hc hm
  exact ⟨_, _, _, deflection_dev hγ hM h1 h1', deflection_dev hγ hM h2 h2', deflection_dev hγ hM hm.1 hm.2, hc⟩

theorem devDeg_max {M γ : ℝ} (hγ : 1 < γ) (hM : 1 < M) : ∃ σm, sigma_DevMax M γ = .ok σm ∧ 0 < σm ∧ σm < 90 ∧
    ∀ σ, 0 < σ → σ < 90 → σ ≠ σm → devDeg M γ σ < devDeg M γ σm := by
  obtain ⟨σm, θm, μ, h1, h2, h3, h4, h5, h6⟩ := C17_max_deflection M γ hγ hM
  obtain ⟨_, μ', -, g2, g3, -⟩ := C14_sign M 45 γ hγ hM (by norm_num) (by norm_num)
  have : μ = μ' := by rw [h3] at g2; exact Except.ok.inj g2
  have hm0 : 0 < σm := by linarith
  have hM0 : 0 < M := by linarith
  have hval : ∀ σ, 0 < σ → σ < 90 → devDeg M γ σ ≤ θm ∧ (devDeg M γ σ = θm ↔ σ = σm) := by
    intro σ a b
    obtain ⟨θ, k1, k2, k3⟩ := h6 σ a b
    rw [deflection_dev hγ hM0 a b] at k1
    have := Except.ok.inj k1
    rw [this]; exact ⟨k2, k3⟩
  refine ⟨σm, h1, hm0, h5, fun σ a b hne => ?_⟩
  have e := (hval σm hm0 h5).2.2 rfl
  rw [e]
  obtain ⟨k1, k2⟩ := hval σ a b
  exact lt_of_le_of_ne k1 (fun hh => hne (k2.1 hh))

theorem devDeg_strictMono {M γ σm : ℝ} (hγ : 1 < γ) (hM : 1 < M) (hm : sigma_DevMax M γ = .ok σm) :
    StrictMonoOn (devDeg M γ) (Set.Ioc 0 σm) ∧ StrictAntiOn (devDeg M γ) (Set.Ico σm 90) := by
  obtain ⟨σ', h1, h2, h3, h4⟩ := devDeg_max hγ hM
  have : σ' = σm := by rw [h1] at hm; exact Except.ok.inj hm
  subst this
  have hc := devDeg_concave hγ (by linarith : 0 < M)
  constructor
  · intro a ha b hb hab
    have hmax := h4 a ha.1 (by linarith [hb.2]) (by intro e; linarith [hb.2])
    rcases hb.2.eq_or_lt with e | e
    · rw [e]; exact hmax
    · have hs := hc.slope_anti_adjacent ⟨ha.1, by linarith [hb.2]⟩ ⟨h2, h3⟩ hab e
      rw [div_le_div_iff₀ (by linarith) (by linarith)] at hs
      by_contra hcon
      push Not at hcon
      have h5 := h4 b hb.1 (by linarith) (by intro e'; linarith)
      nlinarith [mul_pos (sub_pos.2 h5) (sub_pos.2 hab), mul_nonneg (sub_nonneg.2 hcon) (sub_nonneg.2 e.le)]
  · intro a ha b hb hab
    rcases ha.1.eq_or_lt with e | e
    · rw [← e]; exact h4 b (by linarith [ha.1]) hb.2 (by intro e'; linarith)
    · have hs := hc.slope_anti_adjacent ⟨h2, h3⟩ ⟨by linarith, hb.2⟩ e hab
      rw [div_le_div_iff₀ (by linarith) (by linarith)] at hs
      by_contra hcon
      push Not at hcon
      have h5 := h4 a (by linarith) ha.2 (by intro e'; linarith)
      nlinarith [mul_pos (sub_pos.2 h5) (sub_pos.2 hab), mul_nonneg (sub_nonneg.2 hcon) (sub_nonneg.2 e.le)]

/-- C97: the deflection increases strictly with the shock angle up to `sigma_DevMax` (weak shocks) and
decreases strictly beyond it (strong shocks). -/
theorem C97_monotone (M γ σm a b : ℝ) (hγ : 1 < γ) (hM : 1 < M) (hm : sigma_DevMax M γ = Except.ok σm)
    (ha : 0 < a) (hab : a < b) (hb : b < 90) :
    ∃ θa θb, deflection_Mach_sigma M a γ = Except.ok θa ∧ deflection_Mach_sigma M b γ = Except.ok θb ∧
      (b ≤ σm → θa < θb) ∧ (σm ≤ a → θb < θa) := by
  have hM0 : 0 < M := by linarith
  obtain ⟨h1, h2⟩ := devDeg_strictMono hγ hM hm
  exact ⟨_, _, deflection_dev hγ hM0 ha (hab.trans hb), deflection_dev hγ hM0 (ha.trans hab) hb,
    fun h => h1 ⟨ha, hab.le.trans h⟩ ⟨ha.trans hab, h⟩ hab, fun h => h2 ⟨h, hab.trans hb⟩ ⟨h.trans hab.le, hb⟩ hab⟩

example : ∃ σm, sigma_DevMax 2 1.4 = Except.ok σm ∧ 0 < σm := by
  obtain ⟨σm, h, h0, -⟩ := devDeg_max (M := 2) (γ := 1.4) (by norm_num) (by norm_num)
  exact ⟨σm, h, h0⟩

/-- C98 (explicit starting angle), partial: for an attached weak shock of angle `σ` and a start `s0` at
or below `σ`, the search always returns an angle between `s0` and `σ` whose deflection does not exceed
the request; without the warning the deflection is within `(1 + (γ+1) M²/2) · 10⁻⁵ · max(1, angle)` of
it, and the opposite deflection gives the opposite angle.  Starts above the weak angle: `C98_start_above_partial`,
`C98_default_positive`. -/
theorem C98_explicit_start_partial (M γ d σ σm s0 : ℝ) (hγ : 1 < γ) (hM : 1 < M) (hd : 0 < d)
    (hm : sigma_DevMax M γ = Except.ok σm) (hσ0 : 0 < σ) (hσ : σ ≤ σm) (hdev : deflection_Mach_sigma M σ γ = Except.ok d)
    (hs : 0.01 < s0) (hs0 : s0 ≤ σ) :
    ∃ res θ, secant_run (fun s => deflection_Mach_sigma M s γ) d s0 defaultTol = Except.ok res ∧
      sigma_Mach_deflection M d (some s0) γ = Except.ok res.x ∧
      sigma_Mach_deflection M (-d) (some s0) γ = Except.ok (-res.x) ∧
      s0 ≤ res.x ∧ res.x ≤ σ ∧ deflection_Mach_sigma M res.x γ = Except.ok θ ∧ θ ≤ d ∧
      (res.warned = false → d - θ ≤ (1 + (γ + 1) * M ^ 2 / 2) * (0.00001 * max 1 res.x)) := by
  have hM0 : 0 < M := by linarith
  obtain ⟨σ', h1, h2, h3, -⟩ := devDeg_max hγ hM
  have : σ' = σm := by rw [h1] at hm; exact Except.ok.inj hm
  subst this
  have hs1 : (0:ℝ) < s0 := lt_trans (by norm_num) hs
  have hlo : 0 < 0.999 * s0 := by positivity
  have hmem : ∀ z ∈ Set.Icc (0.999 * s0) σ, 0 < z ∧ z < 90 := fun z hz =>
    ⟨hlo.trans_le hz.1, lt_of_le_of_lt (hz.2.trans hσ) h3⟩
  have hsub : Set.Icc (0.999 * s0) σ ⊆ Set.Ioc 0 σ' := fun z hz => ⟨(hmem z hz).1, hz.2.trans hσ⟩
  have hy : devDeg M γ σ = d := by
    rw [deflection_dev hγ hM0 hσ0 (lt_of_le_of_lt hσ h3)] at hdev; exact Except.ok.inj hdev
  have hL0 : 0 ≤ 1 + (γ + 1) * M ^ 2 / 2 := by
    have : 0 < γ + 1 := by linarith
    positivity
  obtain ⟨res, a1, a2, a3, a4, a5⟩ := C95_one_sided (fun s => deflection_Mach_sigma M s γ) (devDeg M γ) (0.999 * s0) σ d
    (1 + (γ + 1) * M ^ 2 / 2) s0 hs le_rfl hs0 (fun z hz => deflection_dev hγ hM0 (hmem z hz).1 (hmem z hz).2)
    ((devDeg_strictMono hγ hM hm).1.mono hsub)
    ((devDeg_concave hγ hM0).subset (fun z hz => hmem z hz) (convex_Icc _ _)) hy hL0
    (fun a ha b hb hab => devDeg_lipschitz hγ hM0 (hmem a ha).1 hab (hmem b hb).2)
  have hres0 : 0 < res.x := by linarith
  refine ⟨res, _, a1, ?_, ?_, a2, a3, deflection_dev hγ hM0 hres0 (lt_of_le_of_lt (a3.trans hσ) h3), a4, fun hw => ?_⟩
  · unfold sigma_Mach_deflection secant_solve
    simp only [Py.pure_eq, Py.ok_bind, abs_of_pos hd, a1, sign_pos hd]
    simp
  · unfold sigma_Mach_deflection secant_solve
    simp only [Py.pure_eq, Py.ok_bind, abs_neg, abs_of_pos hd, a1, sign_neg (neg_neg_of_pos hd)]
    simp
  · have := a5 hw
    rwa [abs_of_pos hres0] at this

/-- C98 (default starting angle): omitting `init` is the same as starting at the Mach angle plus the
(signed) deflection. -/
theorem C98_default_start (M γ d μ : ℝ) (hμ : degree.asin (1 / M) = Except.ok μ) (hM : M ≠ 0) :
    sigma_Mach_deflection M d none γ = sigma_Mach_deflection M d (some (μ + d)) γ := by
  unfold sigma_Mach_deflection
  lits
  rw [Py.div_ok hM, Py.ok_bind, hμ, Py.ok_bind]

/-- C98: with an explicit starting angle, opposite deflections give opposite angles (or the same
exception). -/
theorem C98_odd (M γ d s0 : ℝ) :
    sigma_Mach_deflection M (-d) (some s0) γ = (sigma_Mach_deflection M d (some s0) γ).map (fun s => -s) := by
  unfold sigma_Mach_deflection
  simp only [Py.pure_eq, Py.ok_bind, abs_neg]
  rcases secant_solve (fun sig => deflection_Mach_sigma M sig γ) |d| s0 with e | v
  · rfl
  · simp only [Py.ok_bind, Py.map_ok, Left.sign_neg]
    push_cast; rw [mul_neg]; rfl

theorem mach_angle {M : ℝ} (hM : 1 < M) : degree.asin (1 / M) = .ok (Py.degrees (arcsin (1 / M))) ∧
    0 < Py.degrees (arcsin (1 / M)) ∧ Py.degrees (arcsin (1 / M)) < 90 := by
  have hM0 : 0 < M := by linarith
  have hq0 : 0 < 1 / M := by positivity
  have hq1 : 1 / M < 1 := by rw [div_lt_one hM0]; exact hM
  refine ⟨degree.asin_ok (by linarith) hq1.le, Py.degrees_mem (Real.arcsin_pos.2 hq0) ?_⟩
  have := Real.arcsin_lt_pi_div_two.2 hq1
  exact this

/-- C98 is false of the code at zero deflection: the weak solution is the Mach angle, the search finds
it, and the function multiplies it by `sign(0) = 0`: it returns 0 degrees, which is not a shock angle. -/
theorem C98_zero_false (M γ : ℝ) (hγ : 1 < γ) (hM : 1 < M) :
    ∃ μ, degree.asin (1 / M) = Except.ok μ ∧ 0 < μ ∧ deflection_Mach_sigma M μ γ = Except.ok 0 ∧
      (0.01 < μ → sigma_Mach_deflection M 0 none γ = Except.ok 0) := by
  obtain ⟨h1, h2, h3⟩ := mach_angle hM
  obtain ⟨μ, hμ⟩ : ∃ μ, μ = Py.degrees (arcsin (1 / M)) := ⟨_, rfl⟩
  rw [← hμ] at h1 h2 h3
  obtain ⟨θ, μ', a1, a2, -, -, a3, -, -⟩ := C14_sign M μ γ hγ hM h2 h3
  have e : μ' = μ := by rw [h1] at a2; exact (Except.ok.inj a2).symm
  have hθ : θ = 0 := a3.2 e.symm
  rw [hθ] at a1
  refine ⟨μ, h1, h2, a1, fun hs => ?_⟩
  obtain ⟨θ', μ'', b1, b2, -, -, -, -, b5⟩ := C14_sign M (μ * 0.999) γ hγ hM (by positivity) (by norm_num; linarith)
  have e' : μ'' = μ := by rw [h1] at b2; exact (Except.ok.inj b2).symm
  have hneg : θ' < 0 := b5.2 (by rw [e']; norm_num; linarith)
  have hsol := secant_exact_start (fun s => deflection_Mach_sigma M s γ) 0 θ' μ (by rwa [abs_of_pos h2]) a1 b1 hneg.ne
  rw [C98_default_start M γ 0 μ h1 (by linarith)]
  unfold sigma_Mach_deflection
  simp only [Py.pure_eq, Py.ok_bind, abs_zero, add_zero, hsol]
  simp

/-- C98 is false of the code for negative deflections: the default start is the Mach angle PLUS the
negative deflection.  For the deflection `-μ` the search starts at 0, in the dead zone of the secant
solver, and 0 is returned with no warning. -/
theorem C98_negative_false (M γ μ : ℝ) (hγ : 1 < γ) (hM : 1 < M) (hμ : degree.asin (1 / M) = Except.ok μ) :
    sigma_Mach_deflection M (-μ) none γ = Except.ok 0 := by
  rw [C98_default_start M γ (-μ) μ hμ (by linarith), add_neg_cancel]
  have hf : ∃ v, deflection_Mach_sigma M 0 γ = .ok v := by
    unfold deflection_Mach_sigma
    simp only [Py.radians_zero, Real.sin_zero, mul_zero]
    rw [Py.tan_ok (by simp), Py.ok_bind, Rho_ratio_ok hγ, Py.ok_bind]
    exact ⟨_, rfl⟩
  obtain ⟨v, hv⟩ := hf
  have := C29_false (fun s => deflection_Mach_sigma M s γ) v |-μ| 0 hv (by norm_num)
  unfold sigma_Mach_deflection secant_solve
  simp only [Py.pure_eq, Py.ok_bind, this]
  simp

/-- such a deflection is attainable: at Mach 3 a weak shock turns the flow by the Mach angle -/
example : ∃ μ σ, degree.asin (1 / 3) = Except.ok μ ∧ 0 < σ ∧ σ ≤ 45 ∧ deflection_Mach_sigma 3 σ 1.4 = Except.ok μ := by
  obtain ⟨h1, h2, h3⟩ := mach_angle (M := 3) (by norm_num)
  obtain ⟨μ, hμ⟩ : ∃ μ, μ = Py.degrees (arcsin (1 / 3)) := ⟨_, rfl⟩
  rw [← hμ] at h1 h2 h3
  have hγ : (1:ℝ) < 1.4 := by norm_num
  have h30 : μ < 30 := by
    have e : Py.degrees (arcsin (1 / 2)) = 30 := by
      rw [← Real.sin_pi_div_six, Real.arcsin_sin (by linarith [Real.pi_pos]) (by linarith [Real.pi_pos])]
      unfold Py.degrees; have := Real.pi_ne_zero; field_simp; norm_num
    rw [hμ, ← e, Py.degrees_lt]
    exact Real.arcsin_lt_arcsin (by norm_num) (by norm_num) (by norm_num)
  obtain ⟨θ, μ', a1, a2, -, -, a3, -, -⟩ := C14_sign 3 μ 1.4 hγ (by norm_num) h2 h3
  have e : μ' = μ := by rw [h1] at a2; exact (Except.ok.inj a2).symm
  have hθ : θ = 0 := a3.2 e.symm
  have f0 : devDeg 3 1.4 μ = 0 := by
    rw [deflection_dev hγ (by norm_num) h2 h3, hθ] at a1; exact Except.ok.inj a1
  have f1 : μ ≤ devDeg 3 1.4 45 := by
    have k := deflection_ok (M := 3) (σ := 45) hγ (by norm_num) (by norm_num) (by norm_num)
    rw [deflection_dev hγ (by norm_num) (by norm_num) (by norm_num)] at k
    rw [Except.ok.inj k, hμ, Py.degrees_le, Real.arcsin_eq_arctan (by norm_num)]
    apply Real.arctan_mono
    have e45 : Py.radians 45 = π / 4 := by unfold Py.radians; ring
    unfold tanth
    rw [e45, Real.sin_pi_div_four, Real.cos_pi_div_four]
    have h22 : √2 ^ 2 = 2 := Real.sq_sqrt (by norm_num)
    have h20 : 0 < √2 := by positivity
    have h2h : (√2 / 2) ^ 2 = 1 / 2 := by rw [div_pow, h22]; norm_num
    rw [div_self (by positivity), h2h]
    have : (9/10 : ℝ) ≤ √(1 - (1/3) ^ 2) := by
      apply Real.le_sqrt_of_sq_le; norm_num
    rw [div_le_iff₀ (by linarith)]
    norm_num at this ⊢
    linarith
  have hcont : ContinuousOn (devDeg 3 1.4) (Set.Icc μ 45) := fun z hz =>
    (hasDerivAt_devDeg hγ (by norm_num) (h2.trans_le hz.1) (lt_of_le_of_lt hz.2 (by norm_num))).continuousAt.continuousWithinAt
  obtain ⟨σ, hσ, hv⟩ := intermediate_value_Icc (by linarith) hcont ⟨by rw [f0]; exact h2.le, f1⟩
  refine ⟨μ, σ, h1, h2.trans_le hσ.1, hσ.2, ?_⟩
  · rw [deflection_dev hγ (by norm_num) (h2.trans_le hσ.1) (lt_of_le_of_lt hσ.2 (by norm_num)), hv]

end Aerokit.Props
