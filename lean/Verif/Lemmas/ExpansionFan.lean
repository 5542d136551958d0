import Verif.Model.ExpansionFan
import Verif.Props.Supersonic
import Verif.Lemmas.Engine

/-! # Lemmas on the centred expansion (`Props/ExpansionFan.lean`) -/

namespace Aerokit.Props
open Isentropic Supersonic MassFlow Real ExpansionFan

/-- the Mach number at the ray of parameter `t` of a centred expansion -/
noncomputable def fanM (γ t : ℝ) : ℝ := √((pmC γ * tan t) ^ 2 + 1)

theorem one_le_fanM (γ t : ℝ) : 1 ≤ fanM γ t := by
  unfold fanM
  have := sq_nonneg (pmC γ * tan t)
  rw [Real.one_le_sqrt]; linarith

theorem fanM_beta {γ t : ℝ} (hγ : 1 < γ) (h0 : 0 ≤ t) (h1 : t < π / 2) : √(fanM γ t ^ 2 - 1) = pmC γ * tan t := by
  have := one_lt_pmC hγ
  unfold fanM
  rw [Real.sq_sqrt (by positivity), add_sub_cancel_right, Real.sqrt_sq]
  exact mul_nonneg (by linarith) (Real.tan_nonneg_of_nonneg_of_le_pi_div_two h0 h1.le)

/-- `ω - μ` in closed form -/
theorem pm_sub_mu {γ M : ℝ} (hM : 1 ≤ M) :
    Py.degrees (pmRad (pmC γ) (√(M ^ 2 - 1))) - Py.degrees (arcsin (1 / M)) = Py.degrees (pmC γ * arctan (√(M ^ 2 - 1) / pmC γ)) - 90 := by
  rw [← Py.degrees_pi_div_two]
  unfold pmRad
  rw [arctan_beta hM]
  unfold Py.degrees; ring

theorem PMFmmu_fan {γ t : ℝ} (hγ : 1 < γ) (h0 : 0 ≤ t) (h1 : t < π / 2) :
    ∃ w μ, Mach_PMFmmu (Py.degrees (pmC γ * t) - 90) γ = .ok (fanM γ t) ∧ PrandtlMeyer_Mach (fanM γ t) γ = .ok w ∧ degree.asin (1 / fanM γ t) = .ok μ ∧
      w = μ + (Py.degrees (pmC γ * t) - 90) := by
  have hM := one_le_fanM γ t
  obtain ⟨w, μ, a1, a2, a3⟩ := C20_inverse (fanM γ t) γ hγ hM
  have hc := one_lt_pmC hγ
  have e : w - μ = Py.degrees (pmC γ * t) - 90 := by
    rw [PM_ok hγ (by nlinarith)] at a1
    rw [degree.asin_ok (by have : 0 < 1 / fanM γ t := by positivity
                           linarith) (by rw [div_le_one (by linarith)]; exact hM)] at a2
    rw [← Except.ok.inj a1, ← Except.ok.inj a2, pm_sub_mu hM, fanM_beta hγ h0 h1, mul_div_cancel_left₀ _ (by linarith), Real.arctan_tan (by linarith) h1]
  rw [e] at a3
  exact ⟨w, μ, a3, a1, a2, by linarith⟩

/-- the parameter of a ray -/
theorem fan_parameter {γ M : ℝ} (hγ : 1 < γ) (hM : 1 ≤ M) :
    0 ≤ arctan (√(M ^ 2 - 1) / pmC γ) ∧ arctan (√(M ^ 2 - 1) / pmC γ) < π / 2 ∧ fanM γ (arctan (√(M ^ 2 - 1) / pmC γ)) = M := by
  have hc := one_lt_pmC hγ
  refine ⟨Real.arctan_nonneg.2 (by positivity), Real.arctan_lt_pi_div_two _, ?_⟩
  unfold fanM
  rw [Real.tan_arctan, mul_div_cancel₀ _ (by linarith), Real.sq_sqrt (by nlinarith), sub_add_cancel, Real.sqrt_sq (by linarith)]

theorem fanM_mono {γ s t : ℝ} (hγ : 1 < γ) (h0 : 0 ≤ s) (hst : s ≤ t) (h1 : t < π / 2) : fanM γ s ≤ fanM γ t := by
  have hc := one_lt_pmC hγ
  unfold fanM
  apply Real.sqrt_le_sqrt
  have a : 0 ≤ tan s := Real.tan_nonneg_of_nonneg_of_le_pi_div_two h0 (by linarith)
  have b : tan s ≤ tan t := Real.strictMonoOn_tan.monotoneOn ⟨by linarith, by linarith⟩ ⟨by linarith, h1⟩ hst
  have : pmC γ * tan s ≤ pmC γ * tan t := by gcongr
  have : 0 ≤ pmC γ * tan s := by positivity
  nlinarith

/-- `PrandtlMeyer_Mach` is monotone -/
theorem pm_mono {M N γ w w' : ℝ} (hγ : 1 < γ) (hM : 1 ≤ M) (hMN : M ≤ N) (h : PrandtlMeyer_Mach M γ = .ok w) (h' : PrandtlMeyer_Mach N γ = .ok w') : w ≤ w' := by
  rcases hMN.eq_or_lt with e | e
  · subst e; rw [h] at h'; exact (Except.ok.inj h').le
  · obtain ⟨a, b, ha, hb, hab⟩ := C19_strictly_increasing M N γ hγ hM e
    rw [h] at ha; rw [h'] at hb
    rw [Except.ok.inj ha, Except.ok.inj hb]; exact hab.le

theorem pm_lt_of {M N γ w w' : ℝ} (hγ : 1 < γ) (hN : 1 ≤ N) (h : PrandtlMeyer_Mach M γ = .ok w) (h' : PrandtlMeyer_Mach N γ = .ok w')
    (hw : w < w') : M < N := by
  by_contra hn
  push Not at hn
  have := pm_mono hγ hN hn h' h
  linarith

/-- the values computed by `init_case` -/
theorem init_case_inv {newton : RootFinder} {m ang : ℝ} {c : Case} (hn : Spec.SoundRootFinder newton) (h : init_case newton m ang = .ok c) :
    c.M0 = m ∧ c.wang = ang ∧ c.wang0 = 0 ∧ c.wang1 = ang ∧ PrandtlMeyer_Mach m DefaultGas.gamma0 = .ok c.om0 ∧ c.om1 = c.om0 - ang ∧
      PrandtlMeyer_Mach c.M1 DefaultGas.gamma0 = .ok (c.om0 - ang) ∧ IsentropicPsratio_Mach_deflection newton c.M1 ang DefaultGas.gamma0 = .ok c.p1p0 ∧
      degree.asin (1 / m) = .ok c.mu0 ∧ degree.asin (1 / c.M1) = .ok c.mu1 := by
  unfold init_case at h
  have z : (0.0 : ℝ) = 0 := by norm_num
  have o : (1.0 : ℝ) = 1 := by norm_num
  simp only [z, o, sub_zero] at h
  obtain ⟨om0, h1, h⟩ := Py.bind_inv h
  obtain ⟨M1, h2, h⟩ := Py.bind_inv h
  obtain ⟨p, h3, h⟩ := Py.bind_inv h
  obtain ⟨q0, h4, h⟩ := Py.bind_inv h
  obtain ⟨mu0, h5, h⟩ := Py.bind_inv h
  obtain ⟨q1, h6, h⟩ := Py.bind_inv h
  obtain ⟨mu1, h7, h8⟩ := Py.bind_inv h
  obtain ⟨-, h4⟩ := Py.div_inv h4
  obtain ⟨-, h6⟩ := Py.div_inv h6
  subst h4 h6
  have h8 := Except.ok.inj h8
  subst h8
  exact ⟨rfl, rfl, rfl, rfl, h1, rfl, pm_of_residual (hn _ _ _ h2), h3, h5, h7⟩

end Aerokit.Props
