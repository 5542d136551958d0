import Verif.Lemmas.SecantPM4

/-! # C141 — the Prandtl–Meyer inversion with the real `scipy.optimize.newton` -/

namespace Aerokit.Props
open Real Supersonic Isentropic ScipyNewton

theorem pm_value {γ M w : ℝ} (hγ : 1 < γ) (hM : 1 ≤ M) (hw : PrandtlMeyer_Mach M γ = .ok w) : w = pmDeg γ M := by
  rw [PM_ok hγ (by nlinarith)] at hw
  exact (Except.ok.inj hw).symm

theorem pm_residual_deg {γ m M e : ℝ} (h : |pmr γ m - pmr γ M| ≤ e) (he : e ≤ 1.48e-8) : |pmDeg γ m - pmDeg γ M| ≤ 1e-6 := by
  have hp := Real.pi_gt_three
  have h1 : (180 : ℝ) / π ≤ 60 := by rw [div_le_iff₀ (by linarith)]; linarith
  have h0 : 0 ≤ 180 / π := by positivity
  rw [pmDeg_eq_pmr, pmDeg_eq_pmr, ← mul_sub, abs_mul, abs_of_nonneg h0]
  calc 180 / π * |pmr γ m - pmr γ M| ≤ 60 * 1.48e-8 := mul_le_mul h1 (h.trans he) (abs_nonneg _) (by norm_num)
    _ ≤ 1e-6 := by norm_num

/-- C141 (convergence, default gas), partial: for the turning angle of any Mach number from 1 to 10⁸, `Mach_PrandtlMeyer` with scipy's own secant
iteration (start 2, 50 iterations, step tolerance 1.48e-8) returns a Mach number of at least 1 whose Prandtl–Meyer angle is within 10⁻⁶ degree of the
request.  Missing: the angles between that of Mach 10⁸ and the largest turning angle (less than `10⁻⁵` degree apart), other gases below Mach 2.0003. -/
theorem C141_inverse_partial (M w : ℝ) (h1 : 1 ≤ M) (h2 : M ≤ 10 ^ 8) (hw : PrandtlMeyer_Mach M 1.4 = Except.ok w) :
    ∃ m w', Mach_PrandtlMeyer scipy w 1.4 = Except.ok m ∧ 1 ≤ m ∧ PrandtlMeyer_Mach m 1.4 = Except.ok w' ∧ |w' - w| ≤ 1e-6 := by
  have hg : (1.4 : ℝ) = 7 / 5 := by norm_num
  rw [hg] at hw ⊢
  rw [pm_value (by norm_num) h1 hw]
  have fin : ∀ m, Mach_PrandtlMeyer scipy (pmDeg (7/5) M) (7/5) = .ok m → 1 ≤ m → |pmr (7/5) m - pmr (7/5) M| ≤ 1.48e-8 →
      ∃ m w', Mach_PrandtlMeyer scipy (pmDeg (7/5) M) (7/5) = Except.ok m ∧ 1 ≤ m ∧ PrandtlMeyer_Mach m (7/5) = Except.ok w' ∧ |w' - pmDeg (7/5) M| ≤ 1e-6 := by
    intro m e1 e2 e3
    exact ⟨m, pmDeg (7/5) m, e1, e2, PM_ok (by norm_num) (by nlinarith), pm_residual_deg e3 le_rfl⟩
  have lip : ∀ m, 1 ≤ m → |m - M| ≤ 1e-8 → |pmr (7/5) m - pmr (7/5) M| ≤ 1.48e-8 := by
    intro m m1 hm
    rcases lt_trichotomy m M with h | h | h
    · have := (pra_int (lo := 0) m1 h fun x q1 q2 => ⟨sl_nonneg (by linarith), sl_top (by linarith)⟩).2
      have l := pmr_lt (γ := 7/5) (by norm_num) m1 h
      unfold pra at this
      rw [abs_of_neg (by linarith)] at hm ⊢
      norm_num at hm this ⊢; linarith
    · rw [h]; norm_num
    · have := (pra_int (lo := 0) h1 h fun x q1 q2 => ⟨sl_nonneg (by linarith), sl_top (by linarith)⟩).2
      have l := pmr_lt (γ := 7/5) (by norm_num) h1 h
      unfold pra at this
      rw [abs_of_pos (by linarith)] at hm ⊢
      norm_num at hm this ⊢; linarith
  rcases le_total M 1.2 with h | h
  · obtain ⟨m, e1, e2, e3⟩ := pm_low h1 h
    exact fin m e1 e2 e3
  rcases le_or_gt M 2 with h' | h'
  · obtain ⟨m, e1, e2, e3⟩ := pm_mid h h'
    have m1 : 1 ≤ m := by norm_num at e2; linarith
    exact fin m e1 m1 (lip m m1 e3)
  rcases le_total M (20003/10000) with h'' | h''
  · obtain ⟨m, e1, e2, e3⟩ := pm_between h' h''
    have m1 : 1 ≤ m := by norm_num at e2; linarith
    exact fin m e1 m1 (lip m m1 e3)
  · obtain ⟨m, e1, e2, e3, e4, e5⟩ := pm_left (γ := 7/5) (by norm_num) (by norm_num; linarith) h2
    refine fin m e1 (by linarith) ?_
    rcases e3.eq_or_lt with e | e
    · rw [e]; norm_num
    · have l := pmr_lt (γ := 7/5) (by norm_num) (by linarith : (1:ℝ) ≤ m) e
      rw [abs_of_neg (by linarith)]; linarith

/-- non-vacuity: Mach 1.1, an angle of about 1.3 degrees -/
example : ∃ w m, PrandtlMeyer_Mach 1.1 1.4 = Except.ok w ∧ 0 < w ∧ Mach_PrandtlMeyer scipy w 1.4 = Except.ok m := by
  have h := PM_ok (M := 1.1) (γ := 1.4) (by norm_num) (by norm_num)
  obtain ⟨m, w', e, _⟩ := C141_inverse_partial 1.1 _ (by norm_num) (by norm_num) h
  refine ⟨_, m, h, ?_, e⟩
  obtain ⟨a, b, ha, hb, hab⟩ := C19_strictly_increasing 1 1.1 1.4 (by norm_num) le_rfl (by norm_num)
  rw [h] at hb
  rw [C19_zero_at_sonic _ (by norm_num)] at ha
  have h1 := Except.ok.inj ha
  have h2 := Except.ok.inj hb
  linarith

/-- C141 (accuracy of the Mach number, default gas, Mach 1.2 to 2.0003): within 10⁻⁸ -/
theorem C141_moderate_partial (M w : ℝ) (h1 : 1.2 ≤ M) (h2 : M ≤ 2.0003) (hw : PrandtlMeyer_Mach M 1.4 = Except.ok w) :
    ∃ m, Mach_PrandtlMeyer scipy w 1.4 = Except.ok m ∧ |m - M| ≤ 1e-8 := by
  have hg : (1.4 : ℝ) = 7 / 5 := by norm_num
  have h2' : M ≤ 20003 / 10000 := by norm_num at h2 ⊢; exact h2
  have h1' : 1 ≤ M := by norm_num at h1; linarith
  rw [hg] at hw ⊢
  rw [pm_value (by norm_num) h1' hw]
  rcases le_or_gt M 2 with h' | h'
  · obtain ⟨m, e1, e2, e3⟩ := pm_mid h1 h'
    exact ⟨m, e1, e3⟩
  · obtain ⟨m, e1, e2, e3⟩ := pm_between h' h2'
    exact ⟨m, e1, e3⟩

example : ∃ w m, PrandtlMeyer_Mach 1.5 1.4 = Except.ok w ∧ Mach_PrandtlMeyer scipy w 1.4 = Except.ok m ∧ |m - 1.5| ≤ 1e-8 := by
  have h := PM_ok (M := 1.5) (γ := 1.4) (by norm_num) (by norm_num)
  obtain ⟨m, e1, e2⟩ := C141_moderate_partial 1.5 _ (by norm_num) (by norm_num) h
  exact ⟨_, m, h, e1, e2⟩

/-- C141 (all gases with `gamma ≥ 1.11`, above the starting points), partial: the search approaches from below and its relative error is at most 7.4e-9,
for Mach numbers up to 10⁸. -/
theorem C141_high_partial (γ M w : ℝ) (hγ : 1.11 ≤ γ) (h1 : 2.0003 ≤ M) (h2 : M ≤ 10 ^ 8) (hw : PrandtlMeyer_Mach M γ = Except.ok w) :
    ∃ m w', Mach_PrandtlMeyer scipy w γ = Except.ok m ∧ 2 ≤ m ∧ m ≤ M ∧ M - m ≤ 7.4e-9 * M ∧ PrandtlMeyer_Mach m γ = Except.ok w' ∧ w' ≤ w ∧ w - w' ≤ 1e-6 := by
  have g1 : 1 < γ := lt_of_lt_of_le (by norm_num) hγ
  have hM1 : 1 ≤ M := by norm_num at h1; linarith
  rw [pm_value g1 hM1 hw]
  obtain ⟨m, e1, e2, e3, e4, e5⟩ := pm_left hγ h1 h2
  have h3 : pmr γ m ≤ pmr γ M := by
    rcases e3.eq_or_lt with e | e
    · rw [e]
    · exact (pmr_lt g1 (by linarith) e).le
  have h4 : pmDeg γ m ≤ pmDeg γ M := by
    rw [pmDeg_eq_pmr, pmDeg_eq_pmr]
    exact mul_le_mul_of_nonneg_left h3 (by have := Real.pi_pos; positivity)
  refine ⟨m, pmDeg γ m, e1, e2, e3, e4, PM_ok g1 (by nlinarith), h4, ?_⟩
  have := pm_residual_deg (γ := γ) (m := m) (M := M) (e := 1.48e-8) (by rw [abs_of_nonpos (by linarith)]; linarith) le_rfl
  rw [abs_of_nonpos (by linarith)] at this
  linarith

example : ∃ w m, PrandtlMeyer_Mach 20 (5/3) = Except.ok w ∧ Mach_PrandtlMeyer scipy w (5/3) = Except.ok m ∧ 20 - m ≤ 2e-7 := by
  have h := PM_ok (M := 20) (γ := 5/3) (by norm_num) (by norm_num)
  obtain ⟨m, w', e1, e2, e3, e4, _⟩ := C141_high_partial (5/3) 20 _ (by norm_num) (by norm_num) (by norm_num) h
  exact ⟨_, m, h, e1, e4.trans (by norm_num)⟩

/-! ## beyond the largest turning angle -/

/-- beyond the largest angle every step is longer than 1 -/
theorem pm_beyond_step {γ v : ℝ} (hγ : 1.11 ≤ γ) (hv : ∀ z, 1 ≤ z → pmr γ z < v) {x y : ℝ} (hx : 2 ≤ x) (hxy : x < y) :
    pmr γ x < pmr γ y ∧ 1 ≤ chord x y (pmr γ x - v) (pmr γ y - v) - y := by
  have g1 : 1 < γ := lt_of_lt_of_le (by norm_num) hγ
  have hlt := pmr_lt g1 (by linarith : (1:ℝ) ≤ x) hxy
  refine ⟨hlt, ?_⟩
  obtain ⟨c, hc⟩ : ∃ c, c = chord x y (pmr γ x - v) (pmr γ y - v) := ⟨_, rfl⟩
  have hD : 0 < pmr γ y - pmr γ x := by linarith
  have hc' : (c - y) * (pmr γ y - pmr γ x) = (v - pmr γ y) * (y - x) := by
    rw [hc]; unfold chord
    have : pmr γ y - v - (pmr γ x - v) ≠ 0 := by intro e; linarith
    have e2 : pmr γ y - pmr γ x = pmr γ y - v - (pmr γ x - v) := by ring
    rw [e2]
    field_simp; ring
  -- the step is at least half the former point
  have step : 1 ≤ c - y := by
    obtain ⟨u, u1, u2, u3⟩ := pmr_cauchy g1 (by linarith : (1:ℝ) ≤ x) hxy
    obtain ⟨z, z1, z2, z3⟩ := pmr_cauchy g1 (by linarith : (1:ℝ) ≤ y) (by linarith : y < 2 * y)
    have hm := pm_mass_mono g1 (by linarith : (1:ℝ) ≤ u) (u2.trans z1).le
    have hvz := hv (2 * y) (by linarith)
    have y0 : 0 < y := by linarith
    obtain ⟨U, hU⟩ : ∃ U, U = u ^ 2 * pmSlope γ u := ⟨_, rfl⟩
    obtain ⟨Z, hZ⟩ : ∃ Z, Z = z ^ 2 * pmSlope γ z := ⟨_, rfl⟩
    rw [← hU, ← hZ] at hm
    rw [← hU] at u3
    rw [← hZ] at z3
    have k1 : (pmr γ (2 * y) - pmr γ y) * (2 * y) = Z := by
      have : y * ((pmr γ (2 * y) - pmr γ y) * (2 * y)) = y * Z := by linarith
      exact mul_left_cancel₀ y0.ne' this
    have k2 : (pmr γ y - pmr γ x) * (x * y) ≤ (pmr γ (2 * y) - pmr γ y) * (2 * y) * (y - x) := by
      rw [u3, k1]; exact mul_le_mul_of_nonneg_right hm (by linarith)
    have k3 : (pmr γ (2 * y) - pmr γ y) * (2 * y) * (y - x) ≤ (v - pmr γ y) * (2 * y) * (y - x) := by
      apply mul_le_mul_of_nonneg_right _ (by linarith)
      exact mul_le_mul_of_nonneg_right (by linarith) (by linarith)
    have k4 : (pmr γ y - pmr γ x) * (x * y) ≤ (pmr γ y - pmr γ x) * ((c - y) * (2 * y)) := by
      calc (pmr γ y - pmr γ x) * (x * y) ≤ (v - pmr γ y) * (2 * y) * (y - x) := k2.trans k3
        _ = (c - y) * (pmr γ y - pmr γ x) * (2 * y) := by rw [hc']; ring
        _ = _ := by ring
    have k5 := le_of_mul_le_mul_left k4 hD
    have k6 : x * y ≤ (2 * (c - y)) * y := by linarith
    have := le_of_mul_le_mul_right k6 y0
    linarith
  rw [← hc]; exact step

theorem pm_beyond_loop {γ v : ℝ} (hγ : 1.11 ≤ γ) (hv : ∀ z, 1 ≤ z → pmr γ z < v) {f : ℝ → Py ℝ} (hf : ∀ x, 1 ≤ x → f x = .ok (pmr γ x - v)) :
    ∀ (k : ℕ) (x y : ℝ), 2 ≤ x → x < y → secantLoop 1.48e-8 0 f k x y (pmr γ x - v) (pmr γ y - v) = .error .noConvergence := by
  have g1 : 1 < γ := lt_of_lt_of_le (by norm_num) hγ
  intro k
  induction k with
  | zero => intros; rfl
  | succ k ih =>
    intro x y hx hxy
    have hlt := pmr_lt g1 (by linarith : (1:ℝ) ≤ x) hxy
    have hne : pmr γ y - v ≠ pmr γ x - v := by intro e; linarith
    obtain ⟨c, hc⟩ : ∃ c, c = chord x y (pmr γ x - v) (pmr γ y - v) := ⟨_, rfl⟩
    have step := (pm_beyond_step hγ hv hx hxy).2
    rw [← hc] at step
    rw [loop_succ hne, ← hc, if_neg (by rw [abs_of_nonneg (by linarith)]; norm_num; linarith), hf c (by linarith), Py.ok_bind]
    exact ih y c (by linarith) (by linarith)

theorem pmr_lt_beyond {γ w : ℝ} (g1 : 1 < γ) (hw : 90 * (√((γ + 1) / (γ - 1)) - 1) ≤ w) (z : ℝ) (hz : 1 ≤ z) : pmr γ z < π / 180 * w := by
  have hp := Real.pi_pos
  have h1 := pmRad_lt (one_lt_pmC g1) (Real.sqrt_nonneg (z ^ 2 - 1))
  have h2 : π / 180 * (90 * (√((γ + 1) / (γ - 1)) - 1)) ≤ π / 180 * w := mul_le_mul_of_nonneg_left hw (by positivity)
  unfold pmr
  unfold pmC at *
  have : π / 2 * (√((γ + 1) / (γ - 1)) - 1) = π / 180 * (90 * (√((γ + 1) / (γ - 1)) - 1)) := by ring
  linarith

/-- C141 (no false answer beyond the largest turning angle): for `gamma ≥ 1.11` and any angle at or above `90 (√((γ+1)/(γ-1)) - 1)` degrees, which no Mach
number has, scipy's iteration raises "failed to converge" -/
theorem C141_beyond (γ w : ℝ) (hγ : 1.11 ≤ γ) (hw : 90 * (√((γ + 1) / (γ - 1)) - 1) ≤ w) : Mach_PrandtlMeyer scipy w γ = Except.error .noConvergence := by
  have g1 : 1 < γ := lt_of_lt_of_le (by norm_num) hγ
  have hp := Real.pi_pos
  have hv : ∀ z, 1 ≤ z → pmr γ z < π / 180 * w := pmr_lt_beyond g1 hw
  have hf : ∀ x, 1 ≤ x → pmFun w γ x = .ok (pmr γ x - π / 180 * w) := by
    intro x hx
    unfold pmFun pm_residual
    rw [PM_ok g1 (by nlinarith), Py.ok_bind, Py.pure_eq, Py.ok_bind]
    congr 1
    rw [show Py.degrees (pmRad (pmC γ) √(x ^ 2 - 1)) = pmDeg γ x from rfl, pmDeg_eq_pmr]
    field_simp
  have hk : π / 180 ≠ 0 := by positivity
  unfold Mach_PrandtlMeyer scipy
  rw [show (2.0 + 0.0 * w : ℝ) = 2 by norm_num, ← newton_scale hk]
  change newton 1.48e-8 0 50 (pmFun w γ) 2 = _
  unfold newton
  simp only []
  rw [pm_start, hf 2 (by norm_num), Py.ok_bind, hf _ (by norm_num), Py.ok_bind]
  have hlt := pmr_lt g1 (by norm_num : (1:ℝ) ≤ 2) (by norm_num : (2:ℝ) < 20003/10000)
  have h1 := hv 2 (by norm_num)
  have h2 := hv (20003/10000) (by norm_num)
  rw [if_pos (by rw [abs_of_neg (by linarith), abs_of_neg (by linarith)]; linarith), show (50 : ℕ) = 49 + 1 from rfl]
  -- the first turn uses the points the other way round
  have hne : pmr γ 2 - π / 180 * w ≠ pmr γ (20003/10000) - π / 180 * w := by intro e; linarith
  rw [loop_succ hne, chord_symm hne.symm]
  have L := pm_beyond_loop hγ hv hf 50 2 (20003/10000) le_rfl (by norm_num)
  rw [show (50 : ℕ) = 49 + 1 from rfl, loop_succ hne.symm] at L
  obtain ⟨c, hc⟩ : ∃ c, c = chord 2 (20003/10000) (pmr γ 2 - π / 180 * w) (pmr γ (20003/10000) - π / 180 * w) := ⟨_, rfl⟩
  rw [← hc] at L ⊢
  have hc2 : 20003/10000 < c := by
    rw [hc]; unfold chord
    have : 0 < pmr γ (20003/10000) - π / 180 * w - (pmr γ 2 - π / 180 * w) := by linarith
    have := mul_pos (by linarith : 0 < -(pmr γ (20003/10000) - π / 180 * w)) (div_pos (by norm_num : (0:ℝ) < 20003/10000 - 2) this)
    linarith
  rw [if_neg (by rw [abs_of_nonneg (by linarith)]; norm_num; linarith), hf c (by linarith), Py.ok_bind]
  exact pm_beyond_loop hγ hv hf 49 2 c le_rfl (by linarith)

example : Mach_PrandtlMeyer scipy 150 1.4 = Except.error .noConvergence := by
  refine C141_beyond 1.4 150 (by norm_num) ?_
  have : √((1.4 + 1) / (1.4 - 1) : ℝ) ≤ 2.5 := by rw [Real.sqrt_le_left (by norm_num)]; norm_num
  norm_num at this ⊢
  linarith

/-- C141 (negative angles, default gas): between -50 and -4 degrees the second iterate has no Prandtl–Meyer angle (nan) -/
theorem C141_negative (w : ℝ) (h1 : -50 ≤ w) (h2 : w ≤ -4) : Mach_PrandtlMeyer scipy w 1.4 = Except.error .nonFinite := by
  have hg : (1.4 : ℝ) = 7 / 5 := by norm_num
  have hp := Real.pi_gt_three
  have hp4 := Real.pi_lt_d2
  rw [hg]
  have hf : ∀ x, 1 ≤ x → pmFun w (7/5) x = .ok (pra x - π / 180 * w) := by
    intro x hx
    unfold pmFun pm_residual
    rw [PM_ok (by norm_num) (by nlinarith), Py.ok_bind, Py.pure_eq, Py.ok_bind]
    congr 1
    rw [show Py.degrees (pmRad (pmC (7/5)) √(x ^ 2 - 1)) = pmDeg (7/5) x from rfl, pmDeg_eq_pmr]
    unfold pra
    field_simp
  have hk : π / 180 ≠ 0 := by positivity
  unfold Mach_PrandtlMeyer scipy
  rw [show (2.0 + 0.0 * w : ℝ) = 2 by norm_num, ← newton_scale hk]
  change newton 1.48e-8 0 50 (pmFun w (7/5)) 2 = _
  unfold newton
  simp only []
  rw [pm_start, hf 2 (by norm_num), Py.ok_bind, hf _ (by norm_num), Py.ok_bind]
  obtain ⟨s1, s2⟩ := sl_first
  obtain ⟨v, hv⟩ : ∃ v, v = π / 180 * w := ⟨_, rfl⟩
  rw [← hv] at hf ⊢
  have v1 : v ≤ -(1/15) := by rw [hv]; nlinarith
  have v2 : -(9/10) ≤ v := by rw [hv]; norm_num at hp4; nlinarith
  have p0 : 0 ≤ pra 1 := by unfold pra pmr; norm_num [pmRad_zero]
  have p1 : pra 1 ≤ 0 := by unfold pra pmr; norm_num [pmRad_zero]
  have w1 : pra 2 ≤ 0.481 := by
    have a := pra_105
    have b := (pra_near (a := 1) (b := 1.05) le_rfl (by norm_num) (by norm_num)).2
    have b' : sl 1.05 ≤ 0.2499 := sl_le (by norm_num) (by norm_num) (by norm_num)
    norm_num at a b b' ⊢
    linarith
  have w2 : 0.419 ≤ pra 2 := by
    have a := pra_12
    have b1 := (pra_near (a := 1.1) (b := 1.2) (by norm_num) (by norm_num) (by norm_num)).1
    have b2 : 0.335 ≤ sl 1.1 := le_sl (by norm_num) (by norm_num) (by norm_num)
    have c1 := (pra_near (a := 1.05) (b := 1.1) (by norm_num) (by norm_num) (by norm_num)).1
    have c2 : 0.2498 ≤ sl 1.05 := le_sl (by norm_num) (by norm_num) (by norm_num)
    have d := pra_le (a := 1) (b := 1.05) le_rfl (by norm_num)
    norm_num at a b1 b2 c1 c2 d ⊢
    linarith
  have hlt := pra_lt (a := 2) (b := 20003/10000) (by norm_num) (by norm_num)
  norm_num at w1 w2
  obtain ⟨s, hs⟩ : ∃ s, s = (pra (20003/10000) - pra 2) / 0.0003 := ⟨_, rfl⟩
  have hs' : pra (20003/10000) - pra 2 = s * (20003/10000 - 2) := by rw [hs]; norm_num
  have hs1 : 0.481 ≤ s := by rw [hs, le_div_iff₀ (by norm_num)]; exact s1
  have hs2 : s ≤ 0.4812 := by rw [hs, div_le_iff₀ (by norm_num)]; exact s2
  have s0 : 0 < s := lt_of_lt_of_le (by norm_num) hs1
  have hne : pra (20003/10000) - v ≠ pra 2 - v := by intro e; linarith
  obtain ⟨c, hc⟩ : ∃ c, c = chord 2 (20003/10000) (pra 2 - v) (pra (20003/10000) - v) := ⟨_, rfl⟩
  have hc' := (chord_slope (x := 2) (y := 20003/10000) (Fx := pra 2 - v) (Fy := pra (20003/10000) - v) (by rw [sub_sub_sub_cancel_right]; exact hs') s0.ne' (by norm_num)).2
  rw [← hc] at hc'
  have hc2 : (2 - c) * s = pra 2 - v := by rw [hc']; field_simp; ring
  norm_num at hs1 hs2
  have c1 : c < 1 := by nlinarith
  have c2 : -1 < c := by nlinarith
  rw [if_neg (by rw [abs_of_nonneg (by linarith), abs_of_nonneg (by linarith)]; linarith), show (50 : ℕ) = 49 + 1 from rfl, loop_succ hne, ← hc,
    if_neg (by rw [abs_sub_comm, abs_of_nonneg (by linarith)]; norm_num; linarith)]
  have hbad : pmFun w (7/5) c = .error .nonFinite := by
    unfold pmFun pm_residual
    rw [PM_err (by nlinarith)]; rfl
  rw [hbad]; rfl

example : Mach_PrandtlMeyer scipy (-10) 1.4 = Except.error .nonFinite := C141_negative (-10) (by norm_num) (by norm_num)

/-- C141 (pressure ratio of a deflection, default gas), partial: whenever the turned flow has a Mach number `N` from 1 to 10⁸, the function returns the ratio
of the total-to-static ratios of the flow and of a Mach number whose Prandtl–Meyer angle is that of `N` within 10⁻⁶ degree. -/
theorem C141_deflection_partial (M N dev w w₂ : ℝ) (hM : 1 ≤ M) (h1 : 1 ≤ N) (h2 : N ≤ 10 ^ 8) (hw : PrandtlMeyer_Mach M 1.4 = Except.ok w)
    (hw₂ : PrandtlMeyer_Mach N 1.4 = Except.ok w₂) (hdev : w₂ = w - dev) :
    ∃ m w' p p', 1 ≤ m ∧ PrandtlMeyer_Mach m 1.4 = Except.ok w' ∧ |w' - (w - dev)| ≤ 1e-6 ∧ PtPs_Mach M 1.4 = Except.ok p ∧ PtPs_Mach m 1.4 = Except.ok p' ∧
      IsentropicPsratio_Mach_deflection scipy M dev 1.4 = Except.ok (p / p') := by
  obtain ⟨m, w', e1, e2, e3, e4⟩ := C141_inverse_partial N w₂ h1 h2 hw₂
  have hγ : (1:ℝ) < 1.4 := by norm_num
  refine ⟨m, w', _, _, e2, e3, by rw [← hdev]; exact e4, PtPs_Mach_ok hγ, PtPs_Mach_ok hγ, ?_⟩
  unfold IsentropicPsratio_Mach_deflection
  rw [hw, Py.ok_bind, ← hdev, e1, Py.ok_bind, PtPs_Mach_ok hγ, Py.ok_bind, PtPs_Mach_ok hγ, Py.ok_bind, Py.div_ok (Real.rpow_pos_of_pos (tt_pos hγ) _).ne']

example : ∃ dev p, dev < 0 ∧ IsentropicPsratio_Mach_deflection scipy 1 dev 1.4 = Except.ok p := by
  have hγ : (1:ℝ) < 1.4 := by norm_num
  obtain ⟨a, b, ha, hb, hab⟩ := C19_strictly_increasing 1 3 1.4 hγ le_rfl (by norm_num)
  obtain ⟨m, w', p, p', _, _, _, _, _, h⟩ := C141_deflection_partial 1 3 (a - b) a b le_rfl (by norm_num) (by norm_num) ha hb (by ring)
  exact ⟨_, _, by linarith, h⟩

end Aerokit.Props
