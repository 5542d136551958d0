import Verif.Lemmas.Oblique

/-! Maximum deflection and downstream Mach number of oblique shocks. -/

namespace Aerokit.ShockWave
open Real Isentropic

/-- `log (tan²θ / 4)` as a function of `x = M² sin²σ`, with `m = M²` -/
noncomputable def ldev (m γ x : ℝ) : ℝ :=
  log (m - x) - log x + 2 * log (x - 1) - 2 * log ((γ + 1) * m + 2 - 2 * x)

/-- the quadratic whose positive root is `M² sin² σ_max` -/
def qdev (m γ x : ℝ) : ℝ := 2 * γ * x ^ 2 - ((γ + 1) * m - 4) * x - ((γ + 1) * m + 2)

theorem hasDerivAt_ldev {m γ x : ℝ} (h : 1 < γ) (h1 : 1 < x) (h2 : x < m) :
    HasDerivAt (ldev m γ)
      (-(m * qdev m γ x) / (x * (m - x) * (x - 1) * ((γ + 1) * m + 2 - 2 * x))) x := by
  have a1 : 0 < m - x := by linarith
  have a2 : 0 < x := by linarith
  have a3 : 0 < x - 1 := by linarith
  have a4 : 0 < (γ + 1) * m + 2 - 2 * x := by nlinarith
  have d1 : HasDerivAt (fun x : ℝ => m - x) (-1) x := by
    simpa using (hasDerivAt_id x).const_sub m
  have d3 : HasDerivAt (fun x : ℝ => x - 1) 1 x := by simpa using (hasDerivAt_id x).sub_const 1
  have d4 : HasDerivAt (fun x : ℝ => (γ + 1) * m + 2 - 2 * x) (-2) x := by
    simpa using ((hasDerivAt_id x).const_mul 2).const_sub ((γ + 1) * m + 2)
  have d := (((d1.log a1.ne').sub (Real.hasDerivAt_log a2.ne')).add
    ((d3.log a3.ne').const_mul 2)).sub ((d4.log a4.ne').const_mul 2)
  refine d.congr_deriv ?_
  obtain ⟨D, hD⟩ : ∃ D, D = (γ + 1) * m + 2 - 2 * x := ⟨_, rfl⟩
  obtain ⟨E, hE⟩ : ∃ E, E = m - x := ⟨_, rfl⟩
  obtain ⟨F, hF⟩ : ∃ F, F = x - 1 := ⟨_, rfl⟩
  rw [← hD] at a4 ⊢
  rw [← hE] at a1 ⊢
  rw [← hF] at a3 ⊢
  have := a4.ne'; have := a1.ne'; have := a3.ne'
  field_simp
  unfold qdev
  rw [hD, hE, hF]
  ring

theorem qdev_factor {m γ xs : ℝ} (hroot : qdev m γ xs = 0) (x : ℝ) :
    xs * qdev m γ x = (x - xs) * (2 * γ * xs * x + ((γ + 1) * m + 2)) := by
  unfold qdev at *
  linear_combination x * hroot

theorem ldev_mono {m γ xs : ℝ} (h : 1 < γ) (hx1 : 1 < xs) (hxm : xs < m)
    (hroot : qdev m γ xs = 0) : StrictMonoOn (ldev m γ) (Set.Ioc 1 xs) := by
  apply strictMonoOn_of_deriv_pos (convex_Ioc 1 xs)
  · intro x hx
    exact (hasDerivAt_ldev h hx.1 (lt_of_le_of_lt hx.2 hxm)).continuousAt.continuousWithinAt
  · intro x hx
    rw [interior_Ioc] at hx
    have h1 : 1 < x := hx.1
    have h2 : x < m := hx.2.trans hxm
    rw [(hasDerivAt_ldev h h1 h2).deriv]
    have hq : qdev m γ x < 0 := by
      have hf := qdev_factor hroot x
      have : 0 < 2 * γ * xs * x + ((γ + 1) * m + 2) := by
        have : 0 < γ := by linarith
        have : 0 < m := by linarith
        positivity
      have : (x - xs) * (2 * γ * xs * x + ((γ + 1) * m + 2)) < 0 :=
        mul_neg_of_neg_of_pos (by linarith [hx.2]) this
      rw [← hf] at this
      by_contra hn
      push Not at hn
      have := mul_nonneg (by linarith : 0 ≤ xs) hn
      linarith
    have a1 : 0 < m - x := by linarith
    have a3 : 0 < x - 1 := by linarith
    have a4 : 0 < (γ + 1) * m + 2 - 2 * x := by nlinarith
    apply div_pos
    · have := mul_neg_of_pos_of_neg (by linarith : 0 < m) hq; linarith
    · positivity

theorem ldev_anti {m γ xs : ℝ} (h : 1 < γ) (hx1 : 1 < xs)
    (hroot : qdev m γ xs = 0) : StrictAntiOn (ldev m γ) (Set.Ico xs m) := by
  apply strictAntiOn_of_deriv_neg (convex_Ico xs m)
  · intro x hx
    exact (hasDerivAt_ldev h (lt_of_lt_of_le hx1 hx.1) hx.2).continuousAt.continuousWithinAt
  · intro x hx
    rw [interior_Ico] at hx
    have h1 : 1 < x := hx1.trans hx.1
    have h2 : x < m := hx.2
    rw [(hasDerivAt_ldev h h1 h2).deriv]
    have hq : 0 < qdev m γ x := by
      have hf := qdev_factor hroot x
      have : 0 < 2 * γ * xs * x + ((γ + 1) * m + 2) := by
        have : 0 < γ := by linarith
        have : 0 < m := by linarith
        positivity
      have : 0 < (x - xs) * (2 * γ * xs * x + ((γ + 1) * m + 2)) :=
        mul_pos (by linarith [hx.1]) this
      rw [← hf] at this
      exact (pos_iff_pos_of_mul_pos this).1 (by linarith)
    have a1 : 0 < m - x := by linarith
    have a3 : 0 < x - 1 := by linarith
    have a4 : 0 < (γ + 1) * m + 2 - 2 * x := by nlinarith
    apply div_neg_of_neg_of_pos
    · have := mul_pos (by linarith : 0 < m) hq; linarith
    · positivity

theorem log_tanth {M s γ : ℝ} (h : 1 < γ) (hM : M ≠ 0) (h0 : 0 < s) (h1 : s < π / 2)
    (hx : 1 < M ^ 2 * sin s ^ 2) :
    0 < tanth M s γ ∧ 2 * log (tanth M s γ) = log 4 + ldev (M ^ 2) γ (M ^ 2 * sin s ^ 2) := by
  obtain ⟨hS, hC⟩ := sin_cos_pos h0 h1
  have hden := tanth_den_pos (M := M) (s := s) h
  have hx1 : 0 < M ^ 2 * sin s ^ 2 - 1 := by linarith
  have hpos : 0 < tanth M s γ := by unfold tanth; positivity
  refine ⟨hpos, ?_⟩
  have hM2 : 0 < M ^ 2 := by positivity
  have e : tanth M s γ ^ 2 = 4 * ((M ^ 2 - M ^ 2 * sin s ^ 2) / (M ^ 2 * sin s ^ 2)) *
      (M ^ 2 * sin s ^ 2 - 1) ^ 2 / ((γ + 1) * M ^ 2 + 2 - 2 * (M ^ 2 * sin s ^ 2)) ^ 2 := by
    have : (M ^ 2 - M ^ 2 * sin s ^ 2) / (M ^ 2 * sin s ^ 2) = (cos s / sin s) ^ 2 := by
      rw [div_pow, Real.cos_sq']; field_simp
    rw [this]; unfold tanth; rw [div_pow]; ring
  have hxm : 0 < M ^ 2 - M ^ 2 * sin s ^ 2 := by
    have : M ^ 2 - M ^ 2 * sin s ^ 2 = M ^ 2 * cos s ^ 2 := by rw [Real.cos_sq']; ring
    rw [this]; positivity
  have : 2 * log (tanth M s γ) = log (tanth M s γ ^ 2) := by rw [Real.log_pow]; norm_num
  rw [this, e, Real.log_div (by positivity) (by positivity), Real.log_mul (by positivity) (by positivity),
    Real.log_mul (by norm_num) (by positivity), Real.log_div hxm.ne' (by positivity), Real.log_pow,
    Real.log_pow]
  unfold ldev
  push_cast
  ring

/-- the positive root of `2γx² - b x - c` (with `c > 0`) used by the code -/
theorem quad_root {γ b c : ℝ} (hγ : 0 < γ) (hc : 0 < c) (x : ℝ)
    (hx : x = (b + √(b ^ 2 + 8 * γ * c)) / (4 * γ)) :
    0 < x ∧ 2 * γ * x ^ 2 - b * x - c = 0 := by
  have hD : 0 < b ^ 2 + 8 * γ * c := by positivity
  have hs : √(b ^ 2 + 8 * γ * c) ^ 2 = b ^ 2 + 8 * γ * c := Real.sq_sqrt hD.le
  have hlt : |b| < √(b ^ 2 + 8 * γ * c) := by
    rw [← Real.sqrt_sq_eq_abs]
    apply Real.sqrt_lt_sqrt (sq_nonneg _)
    have : 0 < 8 * γ * c := by positivity
    linarith
  constructor
  · rw [hx]; apply div_pos _ (by positivity)
    have := neg_abs_le b; linarith
  · obtain ⟨w, hw⟩ : ∃ w, w = √(b ^ 2 + 8 * γ * c) := ⟨_, rfl⟩
    rw [← hw] at hs hx
    rw [hx]
    have : 2 * γ * ((b + w) / (4 * γ)) ^ 2 - b * ((b + w) / (4 * γ)) - c
        = (w ^ 2 - b ^ 2 - 8 * γ * c) / (8 * γ) := by field_simp; ring
    rw [this, hs]; simp

/-- position of the positive root from the sign of the quadratic -/
theorem quad_lt {γ b c x y : ℝ} (hγ : 0 < γ) (hc : 0 < c) (hx0 : 0 < x)
    (hx : 2 * γ * x ^ 2 - b * x - c = 0) (hy0 : 0 < y) :
    (x < y ↔ 0 < 2 * γ * y ^ 2 - b * y - c) ∧ (y < x ↔ 2 * γ * y ^ 2 - b * y - c < 0) := by
  have hf : x * (2 * γ * y ^ 2 - b * y - c) = (y - x) * (2 * γ * x * y + c) := by
    linear_combination y * hx
  have hp : 0 < 2 * γ * x * y + c := by positivity
  have hx' := hx0
  constructor
  · constructor
    · intro h
      have : 0 < x * (2 * γ * y ^ 2 - b * y - c) := by rw [hf]; exact mul_pos (by linarith) hp
      exact (pos_iff_pos_of_mul_pos this).1 hx0
    · intro h
      have := mul_pos hx0 h
      rw [hf] at this
      have := (pos_iff_pos_of_mul_pos this).2 hp
      linarith
  · constructor
    · intro h
      by_contra hn
      push Not at hn
      have h1 := mul_nonneg hx0.le hn
      rw [hf] at h1
      have := mul_neg_of_neg_of_pos (by linarith : y - x < 0) hp
      linarith
    · intro h
      have h1 := mul_neg_of_pos_of_neg hx0 h
      rw [hf] at h1
      by_contra hn
      push Not at hn
      have := mul_nonneg (by linarith : 0 ≤ y - x) hp.le
      linarith

/-- `arcsin √(x/M²)` is a shock angle with `M² sin² = x` when `0 < x < M²` -/
theorem shock_angle {M x : ℝ} (hM : 0 < M) (hx0 : 0 < x) (hx : x < M ^ 2) :
    0 < arcsin (√(x / M ^ 2)) ∧ arcsin (√(x / M ^ 2)) < π / 2 ∧
      M ^ 2 * sin (arcsin (√(x / M ^ 2))) ^ 2 = x ∧ √(x / M ^ 2) < 1 ∧ 0 < √(x / M ^ 2) := by
  have hM2 : 0 < M ^ 2 := by positivity
  have hq : 0 < x / M ^ 2 := by positivity
  have hq1 : √(x / M ^ 2) < 1 := by
    rw [Real.sqrt_lt' one_pos, one_pow, div_lt_one hM2]; exact hx
  have hq0 : 0 < √(x / M ^ 2) := Real.sqrt_pos.2 hq
  refine ⟨Real.arcsin_pos.2 hq0, Real.arcsin_lt_pi_div_two.2 hq1, ?_, hq1, hq0⟩
  rw [Real.sin_arcsin (by linarith) hq1.le, Real.sq_sqrt hq.le]
  field_simp

theorem sigma_DevMax_ok {M γ : ℝ} (h : 1 < γ) (hM : 1 < M) :
    ∃ xs, 1 < xs ∧ xs < M ^ 2 ∧ qdev (M ^ 2) γ xs = 0 ∧
      sigma_DevMax M γ = .ok (Py.degrees (arcsin (√(xs / M ^ 2)))) := by
  have hγ : 0 < γ := by linarith
  have hg1 : γ + 1 ≠ 0 := by linarith
  have hM2 : 1 < M ^ 2 := by nlinarith
  have hM0 : M ^ 2 ≠ 0 := by linarith
  obtain ⟨m, hm⟩ : ∃ m, m = M ^ 2 := ⟨_, rfl⟩
  obtain ⟨xs, hxs⟩ : ∃ xs, xs = (((γ + 1) * m - 4) + √(((γ + 1) * m - 4) ^ 2 + 8 * γ * ((γ + 1) * m + 2)))
    / (4 * γ) := ⟨_, rfl⟩
  rw [← hm] at hM2 hM0
  have hc : 0 < (γ + 1) * m + 2 := by nlinarith
  obtain ⟨hx0, hroot⟩ := quad_root hγ hc xs hxs
  have hx1 : 1 < xs := by
    refine (quad_lt hγ hc hx0 hroot one_pos).2.2 ?_; nlinarith
  have hxm : xs < m := by
    refine (quad_lt hγ hc hx0 hroot (by linarith)).1.2 ?_
    have : 2 * γ * m ^ 2 - ((γ + 1) * m - 4) * m - ((γ + 1) * m + 2)
      = (m - 1) * ((γ - 1) * m + 2) := by ring
    rw [this]; apply mul_pos <;> nlinarith
  refine ⟨xs, hx1, hm ▸ hxm, by rw [← hm]; exact hroot, ?_⟩
  unfold sigma_DevMax
  lits
  rw [← hm]
  have hf : (4:ℝ) / (γ + 1) ≠ 0 := div_ne_zero (by norm_num) hg1
  have harg : m * m + 2 * (γ - 1) * (4 / (γ + 1)) * m + 4 * (4 / (γ + 1))
      = (((γ + 1) * m - 4) ^ 2 + 8 * γ * ((γ + 1) * m + 2)) / (γ + 1) ^ 2 := by
    field_simp; ring
  have hDpos : 0 ≤ ((γ + 1) * m - 4) ^ 2 + 8 * γ * ((γ + 1) * m + 2) := by positivity
  have hsq : √(m * m + 2 * (γ - 1) * (4 / (γ + 1)) * m + 4 * (4 / (γ + 1)))
      = √(((γ + 1) * m - 4) ^ 2 + 8 * γ * ((γ + 1) * m + 2)) / (γ + 1) := by
    rw [harg, Real.sqrt_div hDpos, Real.sqrt_sq (by linarith)]
  have hnn : 0 ≤ m * m + 2 * (γ - 1) * (4 / (γ + 1)) * m + 4 * (4 / (γ + 1)) := by
    rw [harg]; positivity
  have hval : 1 / (4 / (γ + 1)) / γ / m * (m - 4 / (γ + 1)
      + √(m * m + 2 * (γ - 1) * (4 / (γ + 1)) * m + 4 * (4 / (γ + 1)))) = xs / m := by
    rw [hsq, hxs]; field_simp
  have hq0 : 0 ≤ xs / m := by apply div_nonneg <;> linarith
  have hq1 : √(xs / m) ≤ 1 := by
    rw [Real.sqrt_le_left (by norm_num), one_pow, div_le_one (by linarith)]; exact hxm.le
  rw [Py.div_ok hg1, Py.ok_bind, Py.div_ok hf, Py.ok_bind, Py.div_ok hγ.ne', Py.ok_bind, Py.div_ok hM0,
    Py.ok_bind, Py.sqrt_ok hnn, Py.ok_bind, hval, Py.sqrt_ok hq0, Py.ok_bind,
    degree.asin_ok (by linarith [Real.sqrt_nonneg (xs / m)]) hq1]

theorem sigma_Sonic_ok {M γ : ℝ} (h : 1 < γ) (hM : 1 ≤ M) :
    ∃ xs, 1 ≤ xs ∧ xs ≤ M ^ 2 ∧ (1 < M → xs < M ^ 2) ∧
      2 * γ * xs ^ 2 - (γ - 3 + (γ + 1) * M ^ 2) * xs - 2 = 0 ∧
      sigma_Sonic M γ = .ok (Py.degrees (arcsin (√(xs / M ^ 2)))) := by
  have hγ : 0 < γ := by linarith
  have hM2 : 1 ≤ M ^ 2 := one_le_pow₀ hM
  have hM0 : M ^ 2 ≠ 0 := by linarith
  have hlt : 1 < M → 1 < M ^ 2 := fun h => one_lt_pow₀ h (by norm_num)
  obtain ⟨m, hm⟩ : ∃ m, m = M ^ 2 := ⟨_, rfl⟩
  obtain ⟨xs, hxs⟩ : ∃ xs, xs = ((γ - 3 + (γ + 1) * m) + √((γ - 3 + (γ + 1) * m) ^ 2 + 8 * γ * 2))
    / (4 * γ) := ⟨_, rfl⟩
  rw [← hm] at hM2 hM0 hlt
  obtain ⟨hx0, hroot⟩ := quad_root hγ (by norm_num) xs hxs
  have hx1 : 1 ≤ xs := by
    by_contra hn
    push Not at hn
    have := (quad_lt hγ (by norm_num) hx0 hroot one_pos).1.1 hn
    nlinarith
  have hfac : 2 * γ * m ^ 2 - (γ - 3 + (γ + 1) * m) * m - 2 = (m - 1) * ((γ - 1) * m + 2) := by ring
  have hxm : xs ≤ m := by
    by_contra hn
    push Not at hn
    have := (quad_lt hγ (by norm_num) hx0 hroot (by linarith)).2.1 hn
    rw [hfac] at this
    have : 0 ≤ (m - 1) * ((γ - 1) * m + 2) := by apply mul_nonneg <;> nlinarith
    linarith
  refine ⟨xs, hx1, hm ▸ hxm, ?_, by rw [← hm]; exact hroot, ?_⟩
  · intro h1
    rw [← hm]
    refine (quad_lt hγ (by norm_num) hx0 hroot (by linarith)).1.2 ?_
    rw [hfac]; have := hlt h1; apply mul_pos <;> nlinarith
  · unfold sigma_Sonic
    simp only []
    rw [← hm]
    have harg : (γ + 1) * ((m - 3) ^ 2 + γ * (m + 1) ^ 2) = (γ - 3 + (γ + 1) * m) ^ 2 + 8 * γ * 2 := by
      ring
    have hval : (γ - 3 + m * (γ + 1) + √((γ - 3 + (γ + 1) * m) ^ 2 + 8 * γ * 2)) / (4 * γ * m) = xs / m := by
      rw [hxs, mul_comm m (γ + 1), div_div]
    have hq0 : 0 ≤ xs / m := by apply div_nonneg <;> linarith
    have hq1 : √(xs / m) ≤ 1 := by
      rw [Real.sqrt_le_left (by norm_num), one_pow, div_le_one (by linarith)]; exact hxm
    rw [harg, Py.sqrt_ok (by positivity), Py.ok_bind, Py.div_ok (by positivity), Py.ok_bind, hval,
      Py.sqrt_ok hq0, Py.ok_bind, degree.asin_ok (by linarith [Real.sqrt_nonneg (xs / m)]) hq1]

/-- mass conservation through the normal shock in terms of Mach numbers -/
theorem mass_mn2 {M γ : ℝ} (h : 1 < γ) (hd : dom M γ) :
    mn2 M γ * psr M γ * rhr M γ = M ^ 2 := by
  have h1 := (dom_iff h).1 hd
  have h5 : γ * M ^ 2 - (γ - 1) / 2 = (2 * γ * M ^ 2 - (γ - 1)) / 2 := by ring
  have h3 : 2 * γ * M ^ 2 - (γ - 1) ≠ 0 := by nlinarith
  have h2 := rho_den_pos (M := M) h
  have h4 : γ + 1 ≠ 0 := by linarith
  have e : psr M γ = (2 * γ * M ^ 2 - (γ - 1)) / (γ + 1) := by unfold psr; field_simp; ring
  rw [e]; unfold mn2 rhr; rw [h5]
  obtain ⟨D, hD⟩ : ∃ D, D = 2 * γ * M ^ 2 - (γ - 1) := ⟨_, rfl⟩
  obtain ⟨E, hE⟩ : ∃ E, E = 2 + (γ - 1) * M ^ 2 := ⟨_, rfl⟩
  rw [← hD] at h3 ⊢
  rw [← hE] at h2 ⊢
  have := h2.ne'
  field_simp
  rw [hE]

/-- oblique shock of normal Mach number `N` in a flow at `M > N` -/
theorem downstreamMach_ok {M p γ N : ℝ} (h : 1 < γ) (hN : 1 ≤ N) (hNM : N < M)
    (hp : Mn_Ps_ratio p γ = .ok N) :
    ∃ M2 θ, downstreamMach_Mach_ShockPsratio M p γ = .ok M2 ∧ 0 < M2 ∧
      deflection_Mach_ShockPsratio M p γ = .ok θ ∧
      degree.asin (N / M) = .ok (Py.degrees (arcsin (N / M))) ∧
      M2 * degree.sin (Py.degrees (arcsin (N / M)) - θ) = √(mn2 N γ) ∧
      M2 * degree.cos (Py.degrees (arcsin (N / M)) - θ) * √(psr N γ / rhr N γ)
        = M * degree.cos (Py.degrees (arcsin (N / M))) ∧
      tt M2 γ * (psr N γ / rhr N γ) = tt M γ := by
  have hM0 : 0 < M := by linarith
  have hN0 : 0 < N := by linarith
  have hd := dom_of_one_le h hN
  have hq0 : 0 < N / M := by positivity
  have hq1 : N / M < 1 := by rw [div_lt_one hM0]; exact hNM
  obtain ⟨s, hs⟩ : ∃ s, s = arcsin (N / M) := ⟨_, rfl⟩
  have hs0 : 0 < s := by rw [hs]; exact Real.arcsin_pos.2 hq0
  have hs1 : s < π / 2 := by rw [hs]; exact Real.arcsin_lt_pi_div_two.2 hq1
  have hsin : sin s = N / M := by rw [hs]; exact Real.sin_arcsin (by linarith) hq1.le
  obtain ⟨hS, hC⟩ := sin_cos_pos hs0 hs1
  have hMs : M * sin s = N := by rw [hsin]; field_simp
  have hr := rhr_pos h hN0.ne'
  have hps := psr_pos h hd
  have hm := mn2_pos h hd
  have ht : 0 < tan s := Real.tan_pos_of_pos_of_lt_pi_div_two hs0 hs1
  obtain ⟨b, hb⟩ : ∃ b, b = arctan (tan s / rhr N γ) := ⟨_, rfl⟩
  have hb0 : 0 < b := by rw [hb]; exact Real.arctan_pos.2 (by positivity)
  have hb1 : b < π / 2 := by rw [hb]; exact Real.arctan_lt_pi_div_two _
  obtain ⟨hbS, hbC⟩ := sin_cos_pos hb0 hb1
  have htb : tan b = tan s / rhr N γ := by rw [hb, tan_arctan]
  have hdeg := Py.degrees_mem hs0 hs1
  have hdefl : deflection_Mach_sigma M (Py.degrees s) γ = .ok (Py.degrees s - Py.degrees b) := by
    rw [deflection_ok h hM0.ne' hdeg.1 hdeg.2, Py.radians_degrees, ← sub_arctan h hM0.ne' hs0 hs1, hMs,
      ← hb, Py.degrees_sub]
  have hdiff : Py.degrees s - (Py.degrees s - Py.degrees b) = Py.degrees b := by ring
  have hasin : degree.asin (N / M) = .ok (Py.degrees s) := by
    rw [degree.asin_ok (by linarith) hq1.le, hs]
  rw [← hs]
  have hsqm : √(mn2 N γ) ^ 2 = mn2 N γ := Real.sq_sqrt hm.le
  have hsm : 0 < √(mn2 N γ) := Real.sqrt_pos.2 hm
  obtain ⟨w, hw⟩ : ∃ w, w = √(psr N γ / rhr N γ) := ⟨_, rfl⟩
  have hw0 : 0 < w := by rw [hw]; exact Real.sqrt_pos.2 (by positivity)
  have hw2 : w ^ 2 = psr N γ / rhr N γ := by rw [hw]; exact Real.sq_sqrt (by positivity)
  -- mass: m * r * w = N
  have hmass : √(mn2 N γ) * rhr N γ * w = N := by
    have h1 : (√(mn2 N γ) * rhr N γ * w) ^ 2 = N ^ 2 := by
      rw [mul_pow, mul_pow, hsqm, hw2, ← mass_mn2 h hd]; field_simp
    exact (pow_left_inj₀ (by positivity) hN0.le (by norm_num)).1 h1
  have htang : √(mn2 N γ) / sin b * cos b * w = M * cos s := by
    have h1 : cos b / sin b = rhr N γ * (cos s / sin s) := by
      rw [← inv_div (sin b), ← Real.tan_eq_sin_div_cos, htb, inv_div, Real.tan_eq_sin_div_cos]
      field_simp
    calc √(mn2 N γ) / sin b * cos b * w = √(mn2 N γ) * (cos b / sin b) * w := by ring
      _ = (√(mn2 N γ) * rhr N γ * w) * (cos s / sin s) := by rw [h1]; ring
      _ = M * cos s := by rw [hmass, hsin]; field_simp
  refine ⟨√(mn2 N γ) / sin b, Py.degrees s - Py.degrees b, ?_, by positivity, ?_, hasin, ?_, ?_, ?_⟩
  · unfold downstreamMach_Mach_ShockPsratio
    rw [hp, Py.ok_bind, Py.div_ok hM0.ne', Py.ok_bind, hasin, Py.ok_bind, hdefl, Py.ok_bind,
      downstream_Mn_ok h hd, Py.ok_bind, hdiff, degree.sin, Py.radians_degrees, Py.div_ok hbS.ne']
  · unfold deflection_Mach_ShockPsratio
    rw [hp, Py.ok_bind, Py.div_ok hM0.ne', Py.ok_bind, hasin, Py.ok_bind, hdefl]
  · rw [hdiff, degree.sin, Py.radians_degrees]; field_simp
  · rw [hdiff, degree.cos, degree.cos, Py.radians_degrees, Py.radians_degrees, ← hw]; exact htang
  · -- total enthalpy: M2² w² = m² w² + M² cos² s
    have hM2 : (√(mn2 N γ) / sin b) ^ 2 * w ^ 2 = mn2 N γ * w ^ 2 + (M * cos s) ^ 2 := by
      rw [← htang]
      have : sin b ^ 2 + cos b ^ 2 = 1 := Real.sin_sq_add_cos_sq b
      have hc2 : cos b ^ 2 = 1 - sin b ^ 2 := by linarith
      rw [mul_pow, mul_pow, div_pow, hsqm, hc2]; field_simp; ring
    have hcos : (M * cos s) ^ 2 = M ^ 2 - N ^ 2 := by
      rw [mul_pow, Real.cos_sq', ← hMs]; ring
    have htt := tt_mn2 h hN0.ne' hd
    have hrp : rhr N γ / psr N γ * w ^ 2 = 1 := by rw [hw2]; field_simp
    have h2 : tt (√(mn2 N γ)) γ * w ^ 2 = tt N γ := by
      rw [htt, mul_assoc, hrp, mul_one]
    rw [← hw2]
    unfold tt at *
    rw [hsqm] at h2
    linear_combination (γ - 1) / 2 * hM2 + (γ - 1) / 2 * hcos + h2

end Aerokit.ShockWave
