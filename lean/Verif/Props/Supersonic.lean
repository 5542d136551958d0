import Verif.Model.Supersonic
import Verif.Lemmas.MassFlow
import Verif.Lemmas.Degree
import Verif.Spec.Solver
import Mathlib.Analysis.SpecialFunctions.Trigonometric.ArctanDeriv

/-! # Properties C19–C21 : Prandtl–Meyer expansion, `aerokit/aero/Supersonic.py` -/

namespace Aerokit.Props
open Isentropic Supersonic MassFlow Real

/-- Prandtl–Meyer function in radians as a function of `β = √(M²-1)` -/
noncomputable def pmRad (c β : ℝ) : ℝ := c * arctan (β / c) - arctan β

/-- `√((γ+1)/(γ-1))` -/
noncomputable def pmC (γ : ℝ) : ℝ := √((γ + 1) / (γ - 1))

theorem one_lt_pmC {γ : ℝ} (h : 1 < γ) : 1 < pmC γ := by
  unfold pmC
  rw [Real.lt_sqrt (by norm_num), one_pow, lt_div_iff₀ (by linarith)]; linarith

theorem PM_ok {M γ : ℝ} (h : 1 < γ) (hM : 1 ≤ M ^ 2) :
    PrandtlMeyer_Mach M γ = .ok (Py.degrees (pmRad (pmC γ) (√(M ^ 2 - 1)))) := by
  unfold PrandtlMeyer_Mach
  lits
  rw [Py.sqrt_ok (by linarith), Py.ok_bind, Py.div_ok (by linarith), Py.ok_bind,
    Py.sqrt_ok (by apply div_nonneg <;> linarith), Py.ok_bind, Py.div_ok]
  · rfl
  · have := one_lt_pmC h; unfold pmC at this; linarith

theorem PM_err {M γ : ℝ} (hM : M ^ 2 < 1) : PrandtlMeyer_Mach M γ = .error .nonFinite := by
  unfold PrandtlMeyer_Mach
  lits
  rw [Py.sqrt_err (by linarith)]; rfl

theorem hasDerivAt_pmRad {c : ℝ} (hc : 0 < c) (β : ℝ) :
    HasDerivAt (pmRad c) (1 / (1 + (β / c) ^ 2) - 1 / (1 + β ^ 2)) β := by
  have d1 : HasDerivAt (fun β : ℝ => β / c) (1 / c) β := by
    simpa using (hasDerivAt_id β).div_const c
  have d := (d1.arctan.const_mul c).sub (Real.hasDerivAt_arctan β)
  refine d.congr_deriv ?_
  field_simp

theorem pmRad_strictMono {c : ℝ} (hc : 1 < c) : StrictMonoOn (pmRad c) (Set.Ici 0) := by
  apply strictMonoOn_of_deriv_pos (convex_Ici 0)
  · intro x _; exact (hasDerivAt_pmRad (by linarith) x).continuousAt.continuousWithinAt
  · intro x hx
    rw [interior_Ici] at hx
    have hx0 : 0 < x := hx
    rw [(hasDerivAt_pmRad (by linarith) x).deriv, sub_pos]
    apply one_div_lt_one_div_of_lt (by positivity)
    have : x / c < x := div_lt_self hx0 hc
    have : 0 < x / c := by positivity
    nlinarith

theorem pmRad_zero (c : ℝ) : pmRad c 0 = 0 := by simp [pmRad]

theorem pmRad_lt {c β : ℝ} (hc : 1 < c) (hβ : 0 ≤ β) : pmRad c β < π / 2 * (c - 1) := by
  rcases hβ.eq_or_lt with h | h
  · rw [← h, pmRad_zero]; have := Real.pi_pos; apply mul_pos <;> linarith
  · unfold pmRad
    have h1 : arctan (β / c)⁻¹ = π / 2 - arctan (β / c) :=
      Real.arctan_inv_of_pos (div_pos h (by linarith))
    have h2 : arctan β⁻¹ = π / 2 - arctan β := Real.arctan_inv_of_pos h
    have h3 : 0 < arctan β⁻¹ := Real.arctan_pos.2 (by positivity)
    have h4 : arctan β⁻¹ ≤ arctan (β / c)⁻¹ := by
      apply Real.arctan_mono
      apply inv_anti₀ (div_pos h (by linarith))
      exact (div_lt_self h hc).le
    nlinarith

/-- C19: value 0 at `M = 1`. -/
theorem C19_zero_at_sonic (γ : ℝ) (hγ : 1 < γ) : PrandtlMeyer_Mach 1 γ = Except.ok 0 := by
  rw [PM_ok hγ (by norm_num)]; simp [pmRad_zero, Py.degrees_zero]

/-- C19: strictly increasing on `[1, ∞)`. -/
theorem C19_strictly_increasing (M N γ : ℝ) (hγ : 1 < γ) (hM : 1 ≤ M) (hMN : M < N) :
    ∃ w w', PrandtlMeyer_Mach M γ = Except.ok w ∧ PrandtlMeyer_Mach N γ = Except.ok w' ∧ w < w' := by
  have h1 : 1 ≤ M ^ 2 := one_le_pow₀ hM
  have h2 : M ^ 2 < N ^ 2 := by nlinarith
  refine ⟨_, _, PM_ok hγ h1, PM_ok hγ (by linarith), ?_⟩
  rw [Py.degrees_lt]
  exact pmRad_strictMono (one_lt_pmC hγ) (Set.mem_Ici.2 (Real.sqrt_nonneg _))
    (Set.mem_Ici.2 (Real.sqrt_nonneg _)) (Real.sqrt_lt_sqrt (by linarith) (by linarith))

/-- C19: non-negative and below the maximum turning angle. -/
theorem C19_bounds (M γ : ℝ) (hγ : 1 < γ) (hM : 1 ≤ M) :
    ∃ w, PrandtlMeyer_Mach M γ = Except.ok w ∧ 0 ≤ w ∧
      w < 90 * (Real.sqrt ((γ + 1) / (γ - 1)) - 1) := by
  have h1 : 1 ≤ M ^ 2 := one_le_pow₀ hM
  refine ⟨_, PM_ok hγ h1, ?_, ?_⟩
  · rw [← Py.degrees_zero, Py.degrees_le, ← pmRad_zero (pmC γ)]
    exact (pmRad_strictMono (one_lt_pmC hγ)).monotoneOn (Set.mem_Ici.2 le_rfl)
      (Set.mem_Ici.2 (Real.sqrt_nonneg _)) (Real.sqrt_nonneg _)
  · have e : 90 * (√((γ + 1) / (γ - 1)) - 1) = Py.degrees (π / 2 * (pmC γ - 1)) := by
      have := Real.pi_ne_zero
      unfold Py.degrees pmC; field_simp; ring
    rw [e, Py.degrees_lt]
    exact pmRad_lt (one_lt_pmC hγ) (Real.sqrt_nonneg _)

/-- C19: no value for subsonic Mach numbers. -/
theorem C19_subsonic (M γ : ℝ) (hM : |M| < 1) : PrandtlMeyer_Mach M γ = Except.error .nonFinite :=
  PM_err (by rw [← sq_abs]; nlinarith [abs_nonneg M])

/-- C19: every turning angle between 0 and the maximum is reached by exactly one Mach number. -/
theorem C19_bijective (w γ : ℝ) (hγ : 1 < γ) (h0 : 0 ≤ w)
    (h1 : w < 90 * (Real.sqrt ((γ + 1) / (γ - 1)) - 1)) :
    ∃! M, 1 ≤ M ∧ PrandtlMeyer_Mach M γ = Except.ok w := by
  have hc := one_lt_pmC hγ
  have hc0 : 0 < pmC γ := by linarith
  have e : 90 * (√((γ + 1) / (γ - 1)) - 1) = Py.degrees (π / 2 * (pmC γ - 1)) := by
    have := Real.pi_ne_zero
    unfold Py.degrees pmC; field_simp; ring
  have hw : Py.radians w < π / 2 * (pmC γ - 1) := by
    rw [e] at h1; rw [← Py.degrees_lt, Py.degrees_radians]; exact h1
  have hw0 : 0 ≤ Py.radians w := by
    rw [← Py.radians_zero]; exact Py.radians_strictMono.monotone h0
  have htop : Filter.Tendsto Real.arctan Filter.atTop (nhds (π / 2)) :=
    Real.tendsto_arctan_atTop.mono_right nhdsWithin_le_nhds
  have hlim : Filter.Tendsto (pmRad (pmC γ)) Filter.atTop (nhds (pmC γ * (π / 2) - π / 2)) := by
    apply Filter.Tendsto.sub _ htop
    apply Filter.Tendsto.const_mul
    exact htop.comp (Filter.tendsto_id.atTop_div_const hc0)
  have hev := (tendsto_order.1 hlim).1 (Py.radians w) (by linarith)
  obtain ⟨B, hB⟩ := (hev.and (Filter.eventually_ge_atTop 0)).exists
  have hcont : ContinuousOn (pmRad (pmC γ)) (Set.Icc 0 B) :=
    fun x _ => (hasDerivAt_pmRad hc0 x).continuousAt.continuousWithinAt
  obtain ⟨β, hβ, hβw⟩ := intermediate_value_Icc hB.2 hcont ⟨by rw [pmRad_zero]; exact hw0, hB.1.le⟩
  have hM : 1 ≤ √(β ^ 2 + 1) := by rw [Real.one_le_sqrt]; nlinarith [sq_nonneg β]
  have hsq : √(β ^ 2 + 1) ^ 2 = β ^ 2 + 1 := Real.sq_sqrt (by positivity)
  have hval : PrandtlMeyer_Mach (√(β ^ 2 + 1)) γ = Except.ok w := by
    rw [PM_ok hγ (by rw [hsq]; nlinarith [sq_nonneg β]), hsq]
    simp only [add_sub_cancel_right]
    rw [Real.sqrt_sq hβ.1, hβw, Py.degrees_radians]
  refine ⟨_, ⟨hM, hval⟩, ?_⟩
  rintro N ⟨hN, hNw⟩
  by_contra hne
  rcases lt_or_gt_of_ne hne with hlt | hlt
  · obtain ⟨a, b, ha, hb, hab⟩ := C19_strictly_increasing _ _ γ hγ hN hlt
    rw [hNw] at ha; rw [hval] at hb
    have : w = a := by injection ha
    have : w = b := by injection hb
    linarith
  · obtain ⟨a, b, ha, hb, hab⟩ := C19_strictly_increasing _ _ γ hγ hM hlt
    rw [hNw] at hb; rw [hval] at ha
    have : w = a := by injection ha
    have : w = b := by injection hb
    linarith

example : (1:ℝ) < 1.4 ∧ (1:ℝ) ≤ 2 ∧ (2:ℝ) < 3 ∧ |(0.5:ℝ)| < 1 := by
  refine ⟨by norm_num, by norm_num, by norm_num, ?_⟩; rw [abs_of_pos] <;> norm_num

/-- `arctan √(M²-1) = π/2 - arcsin(1/M)` -/
theorem arctan_beta {M : ℝ} (hM : 1 ≤ M) : arctan (√(M ^ 2 - 1)) = π / 2 - arcsin (1 / M) := by
  have hM0 : 0 < M := by linarith
  have h1 : 1 ≤ M ^ 2 := one_le_pow₀ hM
  have h2 : 1 + √(M ^ 2 - 1) ^ 2 = M ^ 2 := by rw [Real.sq_sqrt (by linarith)]; ring
  have h3 : arctan (√(M ^ 2 - 1)) = arccos (1 / M) := by
    rw [← Real.arccos_cos (Real.arctan_nonneg.2 (Real.sqrt_nonneg _))
      (by linarith [Real.arctan_lt_pi_div_two (√(M ^ 2 - 1)), Real.pi_pos]), Real.cos_arctan, h2,
      Real.sqrt_sq hM0.le]
  rw [h3, Real.arccos]

/-- C20: `Mach_PMFmmu` inverts `omega - mu`. -/
theorem C20_inverse (M γ : ℝ) (hγ : 1 < γ) (hM : 1 ≤ M) :
    ∃ w μ, PrandtlMeyer_Mach M γ = Except.ok w ∧ degree.asin (1 / M) = Except.ok μ ∧
      Mach_PMFmmu (w - μ) γ = Except.ok M := by
  have hM0 : 0 < M := by linarith
  have h1 : 1 ≤ M ^ 2 := one_le_pow₀ hM
  have hq : 1 / M ≤ 1 := by rw [div_le_one hM0]; exact hM
  have hq0 : 0 < 1 / M := by positivity
  have hc := one_lt_pmC hγ
  have hc0 : pmC γ ≠ 0 := by linarith
  refine ⟨_, _, PM_ok hγ h1, degree.asin_ok (by linarith) hq, ?_⟩
  have e : Py.degrees (pmRad (pmC γ) (√(M ^ 2 - 1))) - Py.degrees (arcsin (1 / M)) + 90
      = pmC γ * Py.degrees (arctan (√(M ^ 2 - 1) / pmC γ)) := by
    rw [← Py.degrees_pi_div_two]
    unfold pmRad
    rw [arctan_beta hM]
    unfold Py.degrees; ring
  unfold Mach_PMFmmu
  lits
  rw [Py.div_ok (by linarith), Py.ok_bind, Py.sqrt_ok (by apply div_nonneg <;> linarith), Py.ok_bind, e]
  change (do
    let a ← Py.div (pmC γ * Py.degrees (arctan (√(M ^ 2 - 1) / pmC γ))) (pmC γ)
    let t ← degree.tan a
    Py.sqrt ((pmC γ * t) ^ 2 + 1)) = _
  have hcos : cos (Py.radians (Py.degrees (arctan (√(M ^ 2 - 1) / pmC γ)))) ≠ 0 := by
    rw [Py.radians_degrees]; exact (Real.cos_arctan_pos _).ne'
  rw [Py.div_ok hc0, Py.ok_bind, mul_div_cancel_left₀ _ hc0, degree.tan_ok hcos, Py.ok_bind,
    Py.radians_degrees, tan_arctan, mul_div_cancel₀ _ hc0, Real.sq_sqrt (by linarith),
    Py.sqrt_ok (by linarith)]
  congr 1
  rw [show M ^ 2 - 1 + 1 = M ^ 2 by ring, Real.sqrt_sq hM0.le]

example : (1:ℝ) < 1.4 ∧ (1:ℝ) ≤ 2 := by norm_num

theorem pm_of_residual {w γ m : ℝ} (h : pm_residual w γ m = .ok 0) :
    PrandtlMeyer_Mach m γ = .ok w := by
  unfold pm_residual at h
  cases hs : PrandtlMeyer_Mach m γ with
  | error e => rw [hs] at h; cases h
  | ok s =>
    rw [hs] at h
    simp only [Py.ok_bind, Py.pure_eq] at h
    have : s - w = 0 := by injection h
    rw [show s = w by linarith]

theorem sq_of_PM {m w γ : ℝ} (h : PrandtlMeyer_Mach m γ = .ok w) : 1 ≤ m ^ 2 := by
  by_contra hn
  rw [PM_err (not_le.1 hn)] at h; cases h

/-- C21: Mach → omega → Mach is the identity for every sound root finder returning a non-negative
Mach number. -/
theorem C21_omega_roundtrip (newton : RootFinder) (hn : Spec.SoundRootFinder newton)
    (M γ w m : ℝ) (hγ : 1 < γ) (hM : 1 ≤ M) (hw : PrandtlMeyer_Mach M γ = Except.ok w)
    (hm : Mach_PrandtlMeyer newton w γ = Except.ok m) (hpos : 0 ≤ m) : m = M := by
  have h1 := pm_of_residual (hn _ _ _ hm)
  have hsq := sq_of_PM h1
  have hm1 : 1 ≤ m := by
    by_contra h; push Not at h; nlinarith
  by_contra hne
  rcases lt_or_gt_of_ne hne with hlt | hlt
  · obtain ⟨a, b, ha, hb, hab⟩ := C19_strictly_increasing _ _ γ hγ hm1 hlt
    rw [h1] at ha; rw [hw] at hb
    have : w = a := by injection ha
    have : w = b := by injection hb
    linarith
  · obtain ⟨a, b, ha, hb, hab⟩ := C19_strictly_increasing _ _ γ hγ hM hlt
    rw [h1] at hb; rw [hw] at ha
    have : w = a := by injection ha
    have : w = b := by injection hb
    linarith

/-- C21: the pressure ratio found for a deflection `dev` gives back the deflection `-dev` (the two
functions use opposite sign conventions), whichever root the (sound) root finder returns. -/
theorem C21_pressure_deflection (newton : RootFinder) (hn : Spec.SoundRootFinder newton)
    (M γ dev p : ℝ) (hγ : 1 < γ)
    (hp : IsentropicPsratio_Mach_deflection newton M dev γ = Except.ok p) :
    deflection_Mach_IsentropicPsratio M p γ = Except.ok (-dev) := by
  unfold IsentropicPsratio_Mach_deflection at hp
  cases hw : PrandtlMeyer_Mach M γ with
  | error e => rw [hw] at hp; cases hp
  | ok w =>
    rw [hw, Py.ok_bind] at hp
    cases hm : Mach_PrandtlMeyer newton (w - dev) γ with
    | error e => rw [hm] at hp; cases hp
    | ok m =>
      have h2 := pm_of_residual (hn _ _ _ hm)
      have hsq := sq_of_PM h2
      have t1 := Real.rpow_pos_of_pos (tt_pos (M := M) hγ) (γ / (γ - 1))
      have t2 := Real.rpow_pos_of_pos (tt_pos (M := m) hγ) (γ / (γ - 1))
      rw [hm, Py.ok_bind, PtPs_Mach_ok hγ, Py.ok_bind, PtPs_Mach_ok hγ, Py.ok_bind,
        Py.div_ok t2.ne'] at hp
      have hp' : tt M γ ^ (γ / (γ - 1)) / tt m γ ^ (γ / (γ - 1)) = p := by injection hp
      have hpp : 0 < p := by rw [← hp']; positivity
      have hq : tt M γ ^ (γ / (γ - 1)) / p = tt m γ ^ (γ / (γ - 1)) := by
        rw [← hp']; field_simp
      have habs : tt m γ = tt |m| γ := by unfold tt; rw [sq_abs]
      have hPMabs : PrandtlMeyer_Mach |m| γ = PrandtlMeyer_Mach m γ := by
        unfold PrandtlMeyer_Mach; rw [sq_abs]
      unfold deflection_Mach_IsentropicPsratio
      rw [PtPs_Mach_ok hγ, Py.ok_bind, Py.div_ok hpp.ne', Py.ok_bind, hq,
        Mach_PtPs_ok hγ (Real.one_le_rpow (one_le_tt hγ) (gam_exp_pos hγ).le),
        rpow_rpow_cancel hγ (tt_pos hγ).le, habs, sqrt_tt hγ (abs_nonneg m), Py.ok_bind, hw, Py.ok_bind,
        hPMabs, h2, Py.ok_bind]
      simp only [Py.pure_eq]; congr 1; ring

/-- non-vacuity: an expansion from Mach 1 exists for a sound root finder -/
example : ∃ newton : RootFinder, Spec.SoundRootFinder newton ∧
    ∃ p, IsentropicPsratio_Mach_deflection newton 1 (-10) 1.4 = Except.ok p := by
  obtain ⟨nf, h1, h2⟩ := Spec.exists_soundRootFinder
  refine ⟨nf, h1, ?_⟩
  have hγ : (1:ℝ) < 1.4 := by norm_num
  obtain ⟨M, ⟨hM, hPM⟩, _⟩ := C19_bijective 10 1.4 hγ (by norm_num) (by
    have : (2:ℝ) < √((1.4 + 1) / (1.4 - 1)) := by rw [Real.lt_sqrt (by norm_num)]; norm_num
    linarith)
  have hr : pm_residual (0 - -10) 1.4 M = .ok 0 := by
    unfold pm_residual; rw [hPM]; simp
  obtain ⟨m, hm⟩ := h2 (pm_residual (0 - -10) 1.4) (2.0 + 0.0 * (0 - -10)) ⟨M, hr⟩
  refine ⟨tt 1 1.4 ^ ((1.4:ℝ) / (1.4 - 1)) / tt m 1.4 ^ ((1.4:ℝ) / (1.4 - 1)), ?_⟩
  · unfold IsentropicPsratio_Mach_deflection Mach_PrandtlMeyer
    rw [C19_zero_at_sonic 1.4 hγ, Py.ok_bind, hm, Py.ok_bind, PtPs_Mach_ok hγ, Py.ok_bind,
      PtPs_Mach_ok hγ, Py.ok_bind, Py.div_ok (Real.rpow_pos_of_pos (tt_pos hγ) _).ne']

end Aerokit.Props
