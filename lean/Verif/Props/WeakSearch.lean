import Verif.Lemmas.WeakSearch2
import Verif.Lemmas.ShockWave

/-! # Property C98 (continued): the search of the weak shock angle converges -/

namespace Aerokit.Props
open Real ShockWave IterativeSolve

/-- the bounds of the successive points -/
theorem weak_descends : Descends (3/80) (27/2) (27/2) [1059/100, 4303/500, 1333/200, 5037/1000, 921/250, 2601/1000, 439/250, 279/250, 6487/10000, 131/400,
    1303/10000, 3403/100000, 4203/1000000, 361/2500000, 3061/5000000000, 8853/100000000000000, 8853/100000000000000] := by
  repeat' first | trivial | refine ⟨⟨by norm_num, by norm_num⟩, by norm_num, by norm_num, ?_⟩

theorem devDeg_devRad (M γ s : ℝ) : devDeg M γ s = Py.degrees (devRad M γ (Py.radians s)) := by
  unfold devDeg devRad
  rw [Py.degrees_sub, Py.degrees_radians]

/-- at the angle of maximal deflection the slope of the polar is zero -/
theorem slope_at_max {M γ σm : ℝ} (hγ : 1 < γ) (hM : 1 < M) (hm : sigma_DevMax M γ = .ok σm) :
    0 < σm ∧ σm < 90 ∧ 1 - betaSlope M γ (sin (Py.radians σm) ^ 2) = 0 := by
  obtain ⟨σ', h1, h2, h3, h4⟩ := devDeg_max hγ hM
  have : σ' = σm := by rw [h1] at hm; exact Except.ok.inj hm
  subst this
  refine ⟨h2, h3, ?_⟩
  have hloc : IsLocalMax (devDeg M γ) σ' := by
    filter_upwards [Ioo_mem_nhds h2 h3] with z hz
    rcases eq_or_ne z σ' with e | e
    · rw [e]
    · exact (h4 z hz.1 hz.2 e).le
  exact hloc.hasDerivAt_eq_zero (hasDerivAt_devDeg hγ (by linarith) h2 h3)

/-- from Mach 1.01 on the normal Mach number of the shock of maximal deflection exceeds 1.002996 -/
theorem max_normal {M γ zm : ℝ} (hγ : 1 < γ) (hM : 101/100 ≤ M) (m0 : 0 < zm) (m1 : zm ≤ 1) (hm : 1 - betaSlope M γ zm = 0) : 1006/1000 < M ^ 2 * zm := by
  have hM0 : 0 < M := by linarith
  have hM2 : 10201/10000 ≤ M ^ 2 := by nlinarith
  obtain ⟨z, hz⟩ : ∃ z, z = 1006/1000 / M ^ 2 := ⟨_, rfl⟩
  have z0 : 0 < z := by rw [hz]; positivity
  have z1 : z ≤ 1 := by rw [hz, div_le_one (by positivity)]; linarith
  have hzM : M ^ 2 * z = 1006/1000 := by rw [hz]; field_simp
  have d := obDen_pos hγ hM0 z0 z1
  have hs := slope_rat hγ hM0 z0 z1 m0 m1 hm
  have hR := obRat_pos (zm := zm) hγ hM0 m0 z0 z1
  have hp : 0 < 1 - betaSlope M γ z := by
    unfold betaSlope
    unfold obDen at d
    rw [sub_pos, div_lt_one d]
    have e : (2 + (γ - 1) * M ^ 2 * z) ^ 2 + ((γ + 1) * M ^ 2) ^ 2 * (z * (1 - z)) - (γ + 1) * M ^ 2 * (((γ - 1) * M ^ 2 + 4) * z - 2) =
        4 + 2 * (γ + 1) * M ^ 2 + (M ^ 2 * z) * (2 * (γ + 1) * M ^ 2 - 8) - 4 * γ * (M ^ 2 * z) ^ 2 := by ring
    rw [hzM] at e
    have := mul_le_mul_of_nonneg_left hM2 (by linarith : 0 ≤ γ + 1)
    nlinarith
  rw [hs] at hp
  have h2 := (mul_pos_iff_of_pos_right hR).1 hp
  rw [sub_pos, div_lt_div_iff₀ m0 z0] at h2
  have := mul_lt_mul_of_pos_left h2 (by positivity : 0 < M ^ 2)
  nlinarith

theorem q_bound {q t : ℝ} (q1 : 1/2 ≤ q) (q2 : q ≤ 9971/10000) (h : 999/1000 * q ≤ t) : 1 - t ≤ 5/100 * (1 - q ^ 2) * (27/2) := by
  have := mul_nonneg (sub_nonneg.2 q1) (sub_nonneg.2 q2)
  nlinarith

/-- the last distance of the list is below the tolerance -/
theorem weak_tol {z σ : ℝ} (z0 : 0 < Py.radians z) (hz : Py.radians z ≤ Py.radians σ) (hσ : Py.radians σ < π / 2)
    (h1 : 4/9 * (Py.radians σ - Py.radians z) ^ 2 ≤ 1 - cos (Py.radians σ - Py.radians z)) (h2 : 1 - cos (Py.radians σ - Py.radians z) ≤ relSin (Py.radians σ) (Py.radians z))
    (h3 : relSin (Py.radians σ) (Py.radians z) ≤ 3/80 * (8853/100000000000000)) : σ - z ≤ defaultTol * z := by
  have hp := Real.pi_pos
  have r0 : 0 < Py.radians σ := by linarith
  have h5 : Py.radians σ - Py.radians z ≤ 1/100000 * Py.radians z := by
    rcases le_total 1 (Py.radians σ) with hr | hr
    · by_contra hcon
      push Not at hcon
      have h6 : 1/200000 < Py.radians σ - Py.radians z := by linarith
      have h7 : (1/200000 : ℝ) ^ 2 < (Py.radians σ - Py.radians z) ^ 2 := pow_lt_pow_left₀ h6 (by norm_num) (by norm_num)
      norm_num at h7 h3
      linarith
    · have hS := sin_pos' r0 hσ
      have hc : 1/2 ≤ cos (Py.radians σ) := by
        have := one_sub_sq_div_two_le_cos (x := Py.radians σ)
        nlinarith
      have hmv : (Py.radians σ - Py.radians z) * cos (Py.radians σ) ≤ sin (Py.radians σ) - sin (Py.radians z) := by
        rcases hz.eq_or_lt with e | e
        · rw [e]; simp
        obtain ⟨c, hc1, hc2⟩ := exists_hasDerivAt_eq_slope sin cos e continuous_sin.continuousOn (fun x _ => hasDerivAt_sin x)
        rw [eq_div_iff (by linarith)] at hc2
        have : cos (Py.radians σ) ≤ cos c := cos_le_cos_of_nonneg_of_le_pi (by linarith [hc1.1]) (by linarith) hc1.2.le
        rw [← hc2, mul_comm]
        exact mul_le_mul_of_nonneg_right this (by linarith)
      have hE : sin (Py.radians σ) - sin (Py.radians z) = relSin (Py.radians σ) (Py.radians z) * sin (Py.radians σ) := by
        unfold relSin; field_simp
      rw [hE] at hmv
      have h6 : relSin (Py.radians σ) (Py.radians z) * sin (Py.radians σ) ≤ 3/80 * (8853/100000000000000) * Py.radians σ :=
        mul_le_mul h3 (sin_le r0.le) hS.le (by norm_num)
      have h7 : (Py.radians σ - Py.radians z) * (1/2) ≤ (Py.radians σ - Py.radians z) * cos (Py.radians σ) := mul_le_mul_of_nonneg_left hc (by linarith)
      have h8 := h7.trans (hmv.trans h6)
      norm_num at h8 ⊢
      linarith
  have e : ∀ u : ℝ, u = Py.radians u * (180 / π) := fun u => by unfold Py.radians; field_simp
  have h9 := mul_le_mul_of_nonneg_right h5 (by positivity : 0 ≤ 180 / π)
  rw [sub_mul, mul_assoc, ← e, ← e] at h9
  unfold defaultTol
  norm_num
  linarith

set_option maxHeartbeats 1000000 in
/-- the search from the left converges, given the distance of the starting point in terms of the slope at the root -/
theorem weak_core {M γ σ σm s0 η : ℝ} (hγ : 1 < γ) (hM : 1 < M) (hm : sigma_DevMax M γ = .ok σm) (hσ : σ ≤ σm)
    (hs : 1/100 < s0) (hs0 : s0 ≤ σ) (η0 : 0 < η) (η1 : η ≤ 3/80) (hl : sin (Py.radians σ) ^ 2 / sin (Py.radians σm) ^ 2 ≤ 1 - η)
    (hE : ∀ x ∈ Set.Icc (s0 * 0.999) σ, relSin (Py.radians σ) (Py.radians x) ≤ η * (27/2)) :
    ∃ m, secant_run (fun s => deflection_Mach_sigma M s γ) (devDeg M γ σ) s0 defaultTol = .ok ⟨m, false⟩ := by
  have hM0 : 0 < M := by linarith
  have hp := Real.pi_pos
  obtain ⟨m0, m90, hsl⟩ := slope_at_max hγ hM hm
  have s00 : 0 < s0 := by linarith
  have σ0 : 0 < σ := by linarith
  have σ90 : σ < 90 := by linarith
  have rad : ∀ s, 0 < s → s < 90 → 0 < Py.radians s ∧ Py.radians s < π / 2 := fun s a b => Py.radians_mem a b
  have rmono : ∀ a b, a ≤ b → Py.radians a ≤ Py.radians b := fun a b h => Py.radians_strictMono.monotone h
  obtain ⟨a, ha⟩ : ∃ a, a = s0 * 0.999 := ⟨_, rfl⟩
  rw [← ha] at hE
  have ha' : a = 999/1000 * s0 := by rw [ha]; norm_num; ring
  have a0 : 0 < a := by rw [ha']; positivity
  have as0 : a < s0 := by rw [ha']; linarith
  have aσ : a ≤ σ := by linarith
  have mem : ∀ x ∈ Set.Icc a σ, 0 < x ∧ x < 90 := fun x hx => ⟨a0.trans_le hx.1, hx.2.trans_lt σ90⟩
  have hr2 := (rad σ σ0 σ90)
  have hdist0 : ∀ x ∈ Set.Icc a σ, 0 ≤ Py.radians σ - Py.radians x := fun x hx => sub_nonneg.2 (rmono _ _ hx.2)
  have hcos : ∀ x ∈ Set.Icc a σ, 1 - cos (Py.radians σ - Py.radians x) ≤ relSin (Py.radians σ) (Py.radians x) := fun x hx =>
    one_sub_cos_le (rmono _ _ hx.2) hr2.1 hr2.2 (by linarith [(rad x (mem x hx).1 (mem x hx).2).1])
  have hdist : ∀ x ∈ Set.Icc a σ, Py.radians σ - Py.radians x ≤ 23/20 := by
    intro x hx
    by_contra hcon
    push Not at hcon
    have h1 : cos (Py.radians σ - Py.radians x) ≤ cos (23/20) := cos_le_cos_of_nonneg_of_le_pi (by norm_num) (by linarith [(rad x (mem x hx).1 (mem x hx).2).1]) hcon.le
    have h2 := one_sub_cos_ge (e := 23/20) (by norm_num) le_rfl
    have h3 := hcos x hx
    have h4 := hE x hx
    norm_num at h2
    linarith
  have hlt : ∀ x ∈ Set.Icc a σ, ∀ y ∈ Set.Icc a σ, x < y → devDeg M γ x < devDeg M γ y := fun x hx y hy h =>
    (devDeg_strictMono hγ hM hm).1 ⟨(mem x hx).1, hx.2.trans hσ⟩ ⟨(mem y hy).1, hy.2.trans hσ⟩ h
  have conc : ∀ x ∈ Set.Icc a σ, ∀ y ∈ Set.Icc a σ, x < y → (devDeg M γ σ - devDeg M γ y) * (y - x) ≤ (devDeg M γ y - devDeg M γ x) * (σ - y) := by
    intro x hx y hy h
    rcases hy.2.eq_or_lt with e | e
    · rw [e]; simp
    have := (devDeg_concave hγ hM0).slope_anti_adjacent ⟨(mem x hx).1, (mem x hx).2⟩ ⟨σ0, σ90⟩ h e
    rwa [div_le_div_iff₀ (by linarith) (by linarith)] at this
  have hf : ∀ x ∈ Set.Icc a σ, deflection_Mach_sigma M x γ = .ok (devDeg M γ x) := fun x hx => deflection_dev hγ hM0 (mem x hx).1 (mem x hx).2
  have ht : (0:ℝ) < defaultTol := by unfold defaultTol; norm_num
  -- first turn
  have aI : a ∈ Set.Icc a σ := ⟨le_rfl, aσ⟩
  have sI : s0 ∈ Set.Icc a σ := ⟨as0.le, hs0⟩
  have hg := hlt a aI s0 sI as0
  obtain ⟨c, hc⟩ : ∃ c, c = a + (a - s0) / (devDeg M γ a - devDeg M γ s0) * (devDeg M γ σ - devDeg M γ a) := ⟨_, rfl⟩
  have hc' : (c - s0) * (devDeg M γ s0 - devDeg M γ a) = (devDeg M γ σ - devDeg M γ s0) * (s0 - a) := by
    have : devDeg M γ a - devDeg M γ s0 ≠ 0 := by linarith
    rw [hc]; field_simp; ring
  have hdy : 0 ≤ devDeg M γ σ - devDeg M γ s0 := by
    rcases hs0.eq_or_lt with e | e
    · rw [e, sub_self]
    · exact (sub_pos.2 (hlt s0 sI σ ⟨aσ, le_rfl⟩ e)).le
  have hsc : s0 ≤ c := by
    have : 0 ≤ (c - s0) * (devDeg M γ s0 - devDeg M γ a) := by rw [hc']; exact mul_nonneg hdy (by linarith)
    have := nonneg_of_mul_nonneg_left this (by linarith)
    linarith
  have hcr : c ≤ σ := by
    have h3 := conc a aI s0 sI as0
    rw [← hc'] at h3
    have := le_of_mul_le_mul_left (by linarith : (devDeg M γ s0 - devDeg M γ a) * (c - s0) ≤ (devDeg M γ s0 - devDeg M γ a) * (σ - s0)) (by linarith)
    linarith
  have cI : c ∈ Set.Icc a σ := ⟨as0.le.trans hsc, hcr⟩
  have hbig : |a - s0| > max defaultTol (defaultTol * |a|) := by
    rw [abs_of_neg (by linarith), abs_of_pos a0, ha']
    unfold defaultTol
    refine max_lt ?_ ?_ <;> norm_num <;> linarith
  have run : secant_run (fun s => deflection_Mach_sigma M s γ) (devDeg M γ σ) s0 defaultTol =
      secantLoop (fun s => deflection_Mach_sigma M s γ) (devDeg M γ σ) defaultTol 18 a (devDeg M γ a) c := by
    unfold secant_run
    simp only []
    rw [hf s0 sI, Py.ok_bind, ← ha, show itmax - 1 = 18 + 1 from rfl, secantLoop, if_pos hbig]
    simp only []
    rw [hf a aI, Py.ok_bind, Py.div_ok (by linarith), Py.ok_bind, ← hc]
  rw [run]
  have loop := weak_loop (G := devDeg M γ) (e := fun x => relSin (Py.radians σ) (Py.radians x)) (f := fun s => deflection_Mach_sigma M s γ) (a := a) (r := σ)
    (d := devDeg M γ σ) (tol := defaultTol) (η0 := 3/80) a0.le η0 η1 (by norm_num) hl rfl hf hlt conc (fun x hx => by have := hcos x hx; have := cos_le_one (Py.radians σ - Py.radians x); linarith)
    (by
      intro x hx y hy z hz hxy hyσ hyz heq
      have k : (Py.radians z - Py.radians y) * (devRad M γ (Py.radians y) - devRad M γ (Py.radians x)) =
          (devRad M γ (Py.radians σ) - devRad M γ (Py.radians y)) * (Py.radians y - Py.radians x) := by
        rw [devDeg_devRad, devDeg_devRad, devDeg_devRad] at heq
        unfold Py.degrees at heq
        have e : ∀ u v : ℝ, Py.radians u - Py.radians v = (u - v) * (π / 180) := fun u v => by unfold Py.radians; ring
        rw [e, e]
        have h180 : (0:ℝ) < 180 / π := by positivity
        refine mul_right_cancel₀ h180.ne' ?_
        linear_combination (π / 180) * heq
      exact weak_step hγ hM0 (rad x (mem x hx).1 (mem x hx).2).1 (Py.radians_strictMono hxy) (Py.radians_strictMono hyσ) (rmono _ _ hσ) (rad σm m0 m90).2 hsl
        (hdist y hy) (rmono _ _ hyz) (rmono _ _ hz.2) k) ht
    _ (27/2) (27/2) a c weak_descends (by norm_num) (by norm_num) aI cI (as0.le.trans hsc) (hE a aI) (hE c cI)
    (by
      intro z hz hez
      simp only [lastTwo] at hez
      have h1 := one_sub_cos_ge (hdist0 z hz) (hdist z hz)
      have h2 := hcos z hz
      exact weak_tol (rad z (mem z hz).1 (mem z hz).2).1 (rmono _ _ hz.2) hr2.2 h1 h2 (hez.trans (mul_le_mul_of_nonneg_right η1 (by norm_num))))
  exact loop

set_option maxHeartbeats 1000000 in
/-- the search from the left converges -/
theorem weak_converges {M γ σ σm s0 : ℝ} (hγ : 1 < γ) (hM1 : 101/100 ≤ M) (hm : sigma_DevMax M γ = .ok σm) (hσ : σ ≤ σm)
    (hμ : 1 / M ≤ sin (Py.radians s0)) (hs : 1/100 < s0) (hs0 : s0 ≤ σ)
    (hM2 : M ^ 2 * sin (Py.radians σm) ^ 2 ≤ 4)
    (hw : M ^ 2 * sin (Py.radians σ) ^ 2 - 1 ≤ 95/100 * (M ^ 2 * sin (Py.radians σm) ^ 2 - 1)) :
    ∃ m, secant_run (fun s => deflection_Mach_sigma M s γ) (devDeg M γ σ) s0 defaultTol = .ok ⟨m, false⟩ := by
  have hM : 1 < M := by linarith
  have hM0 : 0 < M := by linarith
  have hp := Real.pi_pos
  obtain ⟨m0, m90, hsl⟩ := slope_at_max hγ hM hm
  have s00 : 0 < s0 := by linarith
  have σ0 : 0 < σ := by linarith
  have σ90 : σ < 90 := by linarith
  have rad : ∀ s, 0 < s → s < 90 → 0 < Py.radians s ∧ Py.radians s < π / 2 := fun s a b => Py.radians_mem a b
  have rmono : ∀ a b, a ≤ b → Py.radians a ≤ Py.radians b := fun a b h => Py.radians_strictMono.monotone h
  have Sm := sin_pos' (rad σm m0 m90).1 (rad σm m0 m90).2
  have Sr := sin_pos' (rad σ σ0 σ90).1 (rad σ σ0 σ90).2
  have hX := max_normal hγ hM1 (by positivity) (sin_sq_le_one _) hsl
  have hSm1 := sin_le_one (Py.radians σm)
  have hrm : sin (Py.radians σ) ≤ sin (Py.radians σm) :=
    sin_le_sin_of_le_of_le_pi_div_two (by linarith [(rad σ σ0 σ90).1]) (rad σm m0 m90).2.le (rmono _ _ hσ)
  -- q
  obtain ⟨q, hq⟩ : ∃ q, q = 1 / (M * sin (Py.radians σm)) := ⟨_, rfl⟩
  have q0 : 0 < q := by rw [hq]; positivity
  have hq1 : q ^ 2 * (M ^ 2 * sin (Py.radians σm) ^ 2) = 1 := by rw [hq]; field_simp
  have q1 : 1/2 ≤ q := by
    rw [hq, div_le_div_iff₀ (by norm_num) (by positivity), one_mul, one_mul]
    refine abs_le_of_sq_le_sq' (by rw [mul_pow]; linarith) (by norm_num) |>.2
  have q2 : q ≤ 9971/10000 := by
    by_contra hcon
    push Not at hcon
    have h1 : (9971/10000) ^ 2 ≤ q ^ 2 := pow_le_pow_left₀ (by norm_num) hcon.le 2
    have := mul_le_mul h1 hX.le (by norm_num) (sq_nonneg q)
    rw [hq1] at this
    norm_num at this
  obtain ⟨η, hη⟩ : ∃ η, η = 5/100 * (1 - q ^ 2) := ⟨_, rfl⟩
  have η0 : 0 < η := by rw [hη]; nlinarith
  have η1 : η ≤ 3/80 := by rw [hη]; nlinarith
  have hl : sin (Py.radians σ) ^ 2 / sin (Py.radians σm) ^ 2 ≤ 1 - η := by
    rw [div_le_iff₀ (by positivity), hη]
    have h3 := mul_le_mul_of_nonneg_left hw (sq_nonneg q)
    have e1 : q ^ 2 * (M ^ 2 * sin (Py.radians σ) ^ 2 - 1) = q ^ 2 * M ^ 2 * sin (Py.radians σ) ^ 2 - q ^ 2 := by ring
    have e2 : q ^ 2 * (95/100 * (M ^ 2 * sin (Py.radians σm) ^ 2 - 1)) = 95/100 * (1 - q ^ 2) := by linear_combination (95/100) * hq1
    rw [e1, e2] at h3
    have h4 := mul_le_mul_of_nonneg_right h3 (sq_nonneg (sin (Py.radians σm)))
    have e3 : (q ^ 2 * M ^ 2 * sin (Py.radians σ) ^ 2 - q ^ 2) * sin (Py.radians σm) ^ 2 = sin (Py.radians σ) ^ 2 * (q ^ 2 * (M ^ 2 * sin (Py.radians σm) ^ 2)) - q ^ 2 * sin (Py.radians σm) ^ 2 := by ring
    rw [e3, hq1] at h4
    linarith
  -- the interval
  obtain ⟨a, ha⟩ : ∃ a, a = s0 * 0.999 := ⟨_, rfl⟩
  have ha' : a = 999/1000 * s0 := by rw [ha]; norm_num; ring
  have a0 : 0 < a := by rw [ha']; positivity
  have as0 : a < s0 := by rw [ha']; linarith
  have aσ : a ≤ σ := by linarith
  have mem : ∀ x ∈ Set.Icc a σ, 0 < x ∧ x < 90 := fun x hx => ⟨a0.trans_le hx.1, hx.2.trans_lt σ90⟩
  have hsin : ∀ x ∈ Set.Icc a σ, 999/1000 * (1 / M) ≤ sin (Py.radians x) := by
    intro x hx
    have h1 : sin (Py.radians a) ≤ sin (Py.radians x) := sin_le_sin_of_le_of_le_pi_div_two (by linarith [(rad a a0 (by linarith)).1]) (rad x (mem x hx).1 (mem x hx).2).2.le (rmono _ _ hx.1)
    refine le_trans ?_ h1
    have h2 := strictConcaveOn_sin_Icc.concaveOn.2 (x := 0) (y := Py.radians s0) ⟨le_rfl, hp.le⟩ ⟨(rad s0 s00 (by linarith)).1.le, by linarith [(rad s0 s00 (by linarith)).2]⟩
      (by norm_num : (0:ℝ) ≤ 1/1000) (by norm_num : (0:ℝ) ≤ 999/1000) (by norm_num)
    simp only [smul_eq_mul, mul_zero, zero_add, sin_zero] at h2
    have e : 999/1000 * Py.radians s0 = Py.radians a := by rw [ha']; unfold Py.radians; ring
    rw [e] at h2
    have := mul_le_mul_of_nonneg_left hμ (by norm_num : (0:ℝ) ≤ 999/1000)
    linarith
  have hE : ∀ x ∈ Set.Icc a σ, relSin (Py.radians σ) (Py.radians x) ≤ η * (27/2) := by
    intro x hx
    have h1 : 999/1000 * q ≤ sin (Py.radians x) / sin (Py.radians σ) := by
      rw [le_div_iff₀ Sr]
      refine le_trans ?_ (hsin x hx)
      rw [mul_assoc]
      refine mul_le_mul_of_nonneg_left ?_ (by norm_num)
      rw [hq, div_mul_eq_mul_div, one_mul, div_le_div_iff₀ (by positivity) hM0]
      nlinarith
    unfold relSin
    rw [hη]
    exact q_bound q1 q2 h1
  rw [ha] at hE
  exact weak_core hγ hM hm hσ hs hs0 η0 η1 hl hE

theorem mach_angle_sin {M μ : ℝ} (hM : 1 < M) (h2 : M ≤ 2) (hμ : degree.asin (1 / M) = Except.ok μ) :
    μ = Py.degrees (arcsin (1 / M)) ∧ sin (Py.radians μ) = 1 / M ∧ 1/100 < μ ∧ μ < 90 := by
  have hM0 : 0 < M := by linarith
  have hp := Real.pi_pos
  obtain ⟨m1, m2, m3⟩ := mach_angle hM
  have e : μ = Py.degrees (arcsin (1 / M)) := by rw [m1] at hμ; exact (Except.ok.inj hμ).symm
  have hq1 : 1 / M < 1 := by rw [div_lt_one hM0]; exact hM
  have hq0 : 0 < 1 / M := by positivity
  have hs : sin (Py.radians μ) = 1 / M := by rw [e, Py.radians_degrees, sin_arcsin (by linarith) hq1.le]
  rw [← e] at m2 m3
  refine ⟨e, hs, ?_, m3⟩
  have h1 := sin_le (Py.radians_mem m2 m3).1.le
  have h3 : 1/2 ≤ 1 / M := by rw [div_le_div_iff₀ (by norm_num) hM0]; linarith
  rw [hs] at h1
  unfold Py.radians at h1
  have := Real.pi_le_four
  nlinarith

/-- C98 (convergence): from Mach 1.01 to 2, for any gas and any weak shock whose pressure rise is at most 95 % of that of the shock of
maximal deflection, `sigma_Mach_deflection` started anywhere between the Mach angle and the shock angle converges without the
warning, to an angle at or below the shock angle whose deflection is the requested one to the residual
`(1 + (γ+1) M²/2) · 10⁻⁵ · max(1, angle)`. -/
theorem C98_converges (M γ d σ σm s0 μ p pm : ℝ) (hγ : 1 < γ) (hM1 : 1.01 ≤ M) (hM2 : M ≤ 2) (hd : 0 < d)
    (hm : sigma_DevMax M γ = Except.ok σm) (hσ : σ ≤ σm) (hdev : deflection_Mach_sigma M σ γ = Except.ok d)
    (hμ : degree.asin (1 / M) = Except.ok μ) (hs : μ ≤ s0) (hs0 : s0 ≤ σ)
    (hp : Ps_ratio (M * degree.sin σ) γ = Except.ok p) (hpm : Ps_ratio (M * degree.sin σm) γ = Except.ok pm)
    (hw : p - 1 ≤ 0.95 * (pm - 1)) :
    ∃ x θ, secant_run (fun s => deflection_Mach_sigma M s γ) d s0 defaultTol = Except.ok ⟨x, false⟩ ∧
      sigma_Mach_deflection M d (some s0) γ = Except.ok x ∧ sigma_Mach_deflection M (-d) (some s0) γ = Except.ok (-x) ∧
      s0 ≤ x ∧ x ≤ σ ∧ deflection_Mach_sigma M x γ = Except.ok θ ∧ θ ≤ d ∧
      d - θ ≤ (1 + (γ + 1) * M ^ 2 / 2) * (0.00001 * max 1 x) := by
  have hM1' : 101/100 ≤ M := by norm_num at hM1 ⊢; exact hM1
  have hM : 1 < M := by linarith
  have hM0 : 0 < M := by linarith
  obtain ⟨-, hsin, hμ1, hμ2⟩ := mach_angle_sin hM hM2 hμ
  obtain ⟨m0, m90, -⟩ := slope_at_max hγ hM hm
  have hσ0 : 0 < σ := by linarith
  have hσ90 : σ < 90 := by linarith
  have hy : devDeg M γ σ = d := by rw [deflection_dev hγ hM0 hσ0 hσ90] at hdev; exact Except.ok.inj hdev
  have hs1 : 1/100 < s0 := by linarith
  have hsμ : 1 / M ≤ sin (Py.radians s0) := by
    rw [← hsin]
    have r := Py.radians_mem (by linarith : 0 < μ) hμ2
    exact sin_le_sin_of_le_of_le_pi_div_two (by linarith [Real.pi_pos]) (Py.radians_mem (by linarith : 0 < s0) (by linarith)).2.le (Py.radians_strictMono.monotone hs)
  have hw' : M ^ 2 * sin (Py.radians σ) ^ 2 - 1 ≤ 95/100 * (M ^ 2 * sin (Py.radians σm) ^ 2 - 1) := by
    rw [Ps_ratio_ok hγ] at hp hpm
    rw [← Except.ok.inj hp, ← Except.ok.inj hpm] at hw
    unfold psr degree.sin at hw
    have hk : 0 < 2 * γ / (γ + 1) := by
      have : 0 < γ + 1 := by linarith
      positivity
    refine le_of_mul_le_mul_left ?_ hk
    norm_num at hw ⊢
    linarith
  obtain ⟨x, hx⟩ := weak_converges hγ hM1' hm hσ hsμ hs1 hs0 (by
    have := sin_sq_le_one (Py.radians σm)
    have : M ^ 2 ≤ 4 := by nlinarith
    nlinarith [sq_nonneg M]) hw'
  rw [hy] at hx
  obtain ⟨res, θ, a1, a2, a2', a3, a4, a5, a6, a7⟩ := C98_explicit_start_partial M γ d σ σm s0 hγ hM hd hm hσ0 hσ hdev (by norm_num at hs1 ⊢; exact hs1) hs0
  rw [hx] at a1
  have := Except.ok.inj a1
  subst this
  exact ⟨x, θ, hx, a2, a2', a3, a4, a5, a6, a7 rfl⟩

/-- the default start is at or below the weak angle when the polar leaves the Mach wave with a slope of at most one -/
theorem default_start_below {M γ d σ σm μ : ℝ} (hγ : 1 < γ) (hM : 1 < M) (hM2 : M ≤ 2) (hg : M ^ 2 * (3 - γ) ≤ 4) (hd : 0 < d) (hσ0 : 0 < σ) (hσ90 : σ < 90)
    (hdev : deflection_Mach_sigma M σ γ = Except.ok d) (hμ : degree.asin (1 / M) = Except.ok μ) : μ + d ≤ σ := by
  have hM0 : 0 < M := by linarith
  obtain ⟨-, hsin, hμ1, hμ2⟩ := mach_angle_sin hM hM2 hμ
  have hμ0 : 0 < μ := by linarith
  obtain ⟨θ, μ', g1, g2, -, -, -, g3, -⟩ := C14_sign M σ γ hγ hM hσ0 hσ90
  obtain ⟨θ', μ'', k1, k2, -, -, k3, -⟩ := C14_sign M μ γ hγ hM hμ0 hμ2
  have e1 : μ' = μ := by rw [hμ] at g2; exact (Except.ok.inj g2).symm
  have e2 : μ'' = μ := by rw [hμ] at k2; exact (Except.ok.inj k2).symm
  have e3 : θ = d := by rw [hdev] at g1; exact (Except.ok.inj g1).symm
  have e4 : θ' = 0 := k3.2 e2.symm
  rw [e1, e3] at g3
  have hlt := g3.1 hd
  rw [deflection_dev hγ hM0 hμ0 hμ2, e4] at k1
  rw [deflection_dev hγ hM0 hσ0 hσ90] at hdev
  have d0 : devDeg M γ μ = 0 := Except.ok.inj k1
  have d1 : devDeg M γ σ = d := Except.ok.inj hdev
  obtain ⟨c, hc, hs⟩ := exists_hasDerivAt_eq_slope (devDeg M γ) (fun σ => 1 - betaSlope M γ (sin (Py.radians σ) ^ 2)) hlt
    (fun z hz => (hasDerivAt_devDeg hγ hM0 (hμ0.trans_le hz.1) (hz.2.trans_lt hσ90)).continuousAt.continuousWithinAt)
    (fun z hz => hasDerivAt_devDeg hγ hM0 (hμ0.trans hz.1) (hz.2.trans hσ90))
  rw [eq_div_iff (by linarith), d0, d1] at hs
  obtain ⟨a0, a1⟩ := Py.radians_mem (hμ0.trans hc.1) (hc.2.trans hσ90)
  have hle : 1 / M ≤ sin (Py.radians c) := by
    rw [← hsin]
    exact sin_le_sin_of_le_of_le_pi_div_two (by linarith [(Py.radians_mem hμ0 hμ2).1, Real.pi_pos]) a1.le (Py.radians_strictMono.monotone hc.1.le)
  have h3 := betaSlope_mono hγ hM0 (sq_nonneg _) (pow_le_pow_left₀ (by positivity) hle 2) (sin_sq_le_one _)
  have h4 : 0 ≤ betaSlope M γ ((1 / M) ^ 2) := by
    have hz1 : (1 / M) ^ 2 ≤ 1 := by rw [div_pow, one_pow, div_le_one (by positivity)]; nlinarith
    have dn := obDen_pos hγ hM0 (by positivity : 0 < (1 / M) ^ 2) hz1
    unfold betaSlope
    unfold obDen at dn
    refine div_nonneg ?_ dn.le
    have e : (γ + 1) * M ^ 2 * (((γ - 1) * M ^ 2 + 4) * (1 / M) ^ 2 - 2) = (γ + 1) * (4 - M ^ 2 * (3 - γ)) := by field_simp; ring
    rw [e]
    exact mul_nonneg (by linarith) (by linarith)
  have h5 : (1 - betaSlope M γ (sin (Py.radians c) ^ 2)) * (σ - μ) ≤ 1 * (σ - μ) := mul_le_mul_of_nonneg_right (by linarith) (by linarith)
  linarith

/-- C98 (convergence from the default start): from Mach 1.01 to `2/√(3-γ)` (1.58 in air) and at most 2, for any positive deflection whose weak
shock has a pressure rise of at most 95 % of that of the shock of maximal deflection, `sigma_Mach_deflection(M, d)` converges
without the warning, with the residual of `C98_converges`. -/
theorem C98_default_converges (M γ d σ σm p pm : ℝ) (hγ : 1 < γ) (hM1 : 1.01 ≤ M) (hM2 : M ≤ 2) (hg : M ^ 2 * (3 - γ) ≤ 4) (hd : 0 < d)
    (hm : sigma_DevMax M γ = Except.ok σm) (hσ0 : 0 < σ) (hσ : σ ≤ σm) (hdev : deflection_Mach_sigma M σ γ = Except.ok d)
    (hp : Ps_ratio (M * degree.sin σ) γ = Except.ok p) (hpm : Ps_ratio (M * degree.sin σm) γ = Except.ok pm)
    (hw : p - 1 ≤ 0.95 * (pm - 1)) :
    ∃ μ x θ, degree.asin (1 / M) = Except.ok μ ∧
      secant_run (fun s => deflection_Mach_sigma M s γ) d (μ + d) defaultTol = Except.ok ⟨x, false⟩ ∧
      sigma_Mach_deflection M d none γ = Except.ok x ∧ μ + d ≤ x ∧ x ≤ σ ∧
      deflection_Mach_sigma M x γ = Except.ok θ ∧ θ ≤ d ∧ d - θ ≤ (1 + (γ + 1) * M ^ 2 / 2) * (0.00001 * max 1 x) := by
  have hM : 1 < M := lt_of_lt_of_le (by norm_num) hM1
  have hμ := (mach_angle hM).1
  obtain ⟨m0, m90, -⟩ := slope_at_max hγ hM hm
  have hst := default_start_below (σm := σm) hγ hM hM2 hg hd hσ0 (by linarith) hdev hμ
  obtain ⟨x, θ, a1, a2, -, a3, a4, a5, a6, a7⟩ := C98_converges M γ d σ σm _ _ p pm hγ hM1 hM2 hd hm hσ hdev hμ (by linarith) hst hp hpm hw
  exact ⟨_, x, θ, hμ, a1, by rw [C98_default_start M γ d _ hμ (by linarith)]; exact a2, a3, a4, a5, a6, a7⟩

/-- the hypotheses of `C98_converges` and `C98_default_converges` hold at Mach 1.5 in air for a shock between the Mach wave and the
shock of maximum deflection -/
example : ∃ σm σ d p pm : ℝ, sigma_DevMax 1.5 1.4 = Except.ok σm ∧ 0 < σ ∧ σ ≤ σm ∧ deflection_Mach_sigma 1.5 σ 1.4 = Except.ok d ∧ 0 < d ∧
    Ps_ratio (1.5 * degree.sin σ) 1.4 = Except.ok p ∧ Ps_ratio (1.5 * degree.sin σm) 1.4 = Except.ok pm ∧ p - 1 ≤ 0.95 * (pm - 1) ∧
    (1.5:ℝ) ^ 2 * (3 - 1.4) ≤ 4 := by
  have hM : (1:ℝ) < 1.5 := by norm_num
  have hγ : (1:ℝ) < 1.4 := by norm_num
  obtain ⟨σm, θm, μ, g1, g2, g3, g4, g5, -⟩ := C17_max_deflection 1.5 1.4 hγ hM
  obtain ⟨-, hsin, hμ1, hμ2⟩ := mach_angle_sin hM (by norm_num) g3
  obtain ⟨m0, m90, hsl⟩ := slope_at_max hγ hM g1
  -- by continuity, an angle where the pressure rise is half of the maximum
  have hpos : (1006/1000 : ℝ) < 1.5 ^ 2 * sin (Py.radians σm) ^ 2 :=
    max_normal hγ (by norm_num) (by have := sin_pos' (Py.radians_mem m0 m90).1 (Py.radians_mem m0 m90).2; positivity) (sin_sq_le_one _) hsl
  have hcont : ContinuousOn (fun s => (1.5:ℝ) ^ 2 * sin (Py.radians s) ^ 2) (Set.Icc μ σm) := by
    unfold Py.radians; fun_prop
  have hmid := intermediate_value_Ioo g4.le hcont (show 1 + 1/2 * ((1.5:ℝ) ^ 2 * sin (Py.radians σm) ^ 2 - 1) ∈ _ by
    constructor
    · rw [hsin]; norm_num at hpos ⊢; linarith
    · linarith)
  obtain ⟨σ, hσ, e⟩ := hmid
  simp only [] at e
  obtain ⟨d, μ2, h1, h2, -, -, -, h4, -⟩ := C14_sign 1.5 σ 1.4 hγ hM (by linarith [hσ.1]) (by linarith [hσ.2])
  have : μ2 = μ := by rw [g3] at h2; exact (Except.ok.inj h2).symm
  subst this
  refine ⟨σm, σ, d, _, _, g1, by linarith [hσ.1], hσ.2.le, h1, h4.2 hσ.1, Ps_ratio_ok hγ, Ps_ratio_ok hγ, ?_, by norm_num⟩
  unfold psr degree.sin
  rw [mul_pow, mul_pow, e]
  norm_num at hpos ⊢
  linarith

end Aerokit.Props
