import Verif.Lemmas.SecantPM
import Verif.Lemmas.NewtonPM

/-! # scipy's secant search on the Prandtl–Meyer angle -/

namespace Aerokit.Props
open Real Supersonic ScipyNewton

/-- the Prandtl–Meyer angle in radians -/
noncomputable def pmr (γ M : ℝ) : ℝ := pmRad (pmC γ) (√(M ^ 2 - 1))

theorem pmr_hasDeriv {γ M : ℝ} (hγ : 1 < γ) (hM : 1 < M) : HasDerivAt (pmr γ) (pmSlope γ M) M := by
  have h := (hasDerivAt_pmDeg hγ hM).mul_const (π / 180)
  have e : (fun y => pmDeg γ y * (π / 180)) = pmr γ := by
    funext y; unfold pmDeg pmr Py.degrees; field_simp
  rw [e] at h
  refine h.congr_deriv ?_
  field_simp

theorem pmr_continuous (γ : ℝ) : Continuous (pmr γ) := by
  unfold pmr pmRad; fun_prop

theorem pmDeg_eq_pmr (γ M : ℝ) : pmDeg γ M = 180 / π * pmr γ M := by
  unfold pmDeg pmr Py.degrees; ring

theorem pmr_lt {γ M N : ℝ} (hγ : 1 < γ) (hM : 1 ≤ M) (h : M < N) : pmr γ M < pmr γ N := by
  have := pmDeg_strictMono hγ (Set.mem_Ici.2 hM) (Set.mem_Ici.2 (hM.trans h.le)) h
  rw [pmDeg_eq_pmr, pmDeg_eq_pmr] at this
  exact lt_of_mul_lt_mul_left this (by have := Real.pi_pos; positivity)

theorem pmr_mvt {γ a b : ℝ} (hγ : 1 < γ) (ha : 1 ≤ a) (hab : a < b) : ∃ c, a < c ∧ c < b ∧ pmr γ b - pmr γ a = pmSlope γ c * (b - a) := by
  obtain ⟨c, hc, hs⟩ := exists_hasDerivAt_eq_slope (pmr γ) (pmSlope γ) hab (pmr_continuous γ).continuousOn (fun x hx => pmr_hasDeriv hγ (ha.trans_lt hx.1))
  exact ⟨c, hc.1, hc.2, by rw [hs, div_mul_cancel₀ _ (by linarith)]⟩

theorem pmSlope_nonneg {γ M : ℝ} (hγ : 1 < γ) (hM : 1 ≤ M) : 0 ≤ pmSlope γ M := by
  unfold pmSlope
  have : 0 ≤ (γ - 1) / 2 * M ^ 2 := mul_nonneg (by linarith) (by positivity)
  exact div_nonneg (Real.sqrt_nonneg _) (mul_nonneg (by linarith) (by linarith))

/-! ## the search as a secant search on the angle in radians -/

/-- the function `newton` works on, in radians -/
noncomputable def pmFun (ω γ : ℝ) : ℝ → Py ℝ := fun x => pm_residual ω γ x >>= fun q => .ok (π / 180 * q)

theorem pmFun_ok {γ r x : ℝ} (hγ : 1 < γ) (hx : 1 ≤ x) : pmFun (pmDeg γ r) γ x = .ok (pmr γ x - pmr γ r) := by
  unfold pmFun pm_residual
  rw [PM_ok hγ (by nlinarith), Py.ok_bind, Py.pure_eq, Py.ok_bind]
  congr 1
  rw [show Py.degrees (pmRad (pmC γ) √(x ^ 2 - 1)) = pmDeg γ x from rfl, pmDeg_eq_pmr, pmDeg_eq_pmr]
  field_simp

theorem pm_start : second 2 = 20003 / 10000 := by
  unfold second; norm_num

theorem pm_search {γ r : ℝ} (hγ : 1 < γ) : Mach_PrandtlMeyer scipy (pmDeg γ r) γ =
    if |pmr γ (20003/10000) - pmr γ r| < |pmr γ 2 - pmr γ r|
    then secantLoop 1.48e-8 0 (pmFun (pmDeg γ r) γ) 50 (20003/10000) 2 (pmr γ (20003/10000) - pmr γ r) (pmr γ 2 - pmr γ r)
    else secantLoop 1.48e-8 0 (pmFun (pmDeg γ r) γ) 50 2 (20003/10000) (pmr γ 2 - pmr γ r) (pmr γ (20003/10000) - pmr γ r) := by
  have hk : π / 180 ≠ 0 := by have := Real.pi_pos; positivity
  unfold Mach_PrandtlMeyer scipy
  rw [show (2.0 + 0.0 * pmDeg γ r : ℝ) = 2 by norm_num, ← newton_scale hk]
  change newton 1.48e-8 0 50 (pmFun (pmDeg γ r) γ) 2 = _
  unfold newton
  simp only []
  rw [pm_start, pmFun_ok hγ (by norm_num), Py.ok_bind, pmFun_ok hγ (by norm_num), Py.ok_bind]

/-! ## Mach numbers above the starting points -/

theorem pm_mass_mono {γ M N : ℝ} (hγ : 1 < γ) (hM : 1 ≤ M) (hMN : M ≤ N) : M ^ 2 * pmSlope γ M ≤ N ^ 2 * pmSlope γ N := by
  obtain ⟨k, hk⟩ : ∃ k, k = (γ - 1) / 2 := ⟨_, rfl⟩
  have hk0 : 0 ≤ k := by rw [hk]; linarith
  have ht : (1 : ℝ) ≤ M ^ 2 := by nlinarith
  have hu : M ^ 2 ≤ N ^ 2 := pow_le_pow_left₀ (by linarith) hMN 2
  unfold pmSlope
  rw [← hk]
  have hM0 : 0 < M := by linarith
  have hN0 : 0 < N := by linarith
  have e : ∀ X : ℝ, 0 < X → X ^ 2 * (√(X ^ 2 - 1) / (X * (1 + k * X ^ 2))) = X * √(X ^ 2 - 1) / (1 + k * X ^ 2) := by
    intro X hX
    have : 0 < 1 + k * X ^ 2 := by positivity
    field_simp
  rw [e M hM0, e N hN0, div_le_div_iff₀ (by positivity) (by positivity)]
  refine (pow_le_pow_iff_left₀ (by positivity) (by positivity) two_ne_zero).1 ?_
  rw [mul_pow, mul_pow, mul_pow, mul_pow, Real.sq_sqrt (by linarith), Real.sq_sqrt (by linarith)]
  obtain ⟨t, htd⟩ : ∃ t, t = M ^ 2 := ⟨_, rfl⟩
  obtain ⟨u, hud⟩ : ∃ u, u = N ^ 2 := ⟨_, rfl⟩
  rw [← htd, ← hud]
  rw [← htd] at ht hu
  rw [← hud] at hu
  have key : 0 ≤ (u - t) * ((u + t - 1) + 2 * k * (t * u) + k ^ 2 * (t * u)) := by
    apply mul_nonneg (by linarith)
    have : 0 ≤ t * u := by nlinarith
    have h1 : 0 ≤ 2 * k * (t * u) := by positivity
    have h2 : 0 ≤ k ^ 2 * (t * u) := by positivity
    linarith
  nlinarith

theorem pmr_cauchy {γ a b : ℝ} (hγ : 1 < γ) (ha : 1 ≤ a) (hab : a < b) : ∃ c, a < c ∧ c < b ∧ (pmr γ b - pmr γ a) * (a * b) = c ^ 2 * pmSlope γ c * (b - a) := by
  obtain ⟨c, hc, hs⟩ := exists_ratio_hasDerivAt_eq_ratio_slope (pmr γ) (pmSlope γ) hab (pmr_continuous γ).continuousOn (fun x hx => pmr_hasDeriv hγ (ha.trans_lt hx.1))
    (fun x : ℝ => -x⁻¹) (fun x => (x ^ 2)⁻¹) (ContinuousOn.neg (continuousOn_inv₀.mono (fun x hx => by
      have : (1:ℝ) ≤ x := ha.trans hx.1
      simp; linarith)))
    (fun x hx => by
      have h0 : x ≠ 0 := by have := hx.1; linarith
      exact ((hasDerivAt_inv h0).neg).congr_deriv (neg_neg _))
  refine ⟨c, hc.1, hc.2, ?_⟩
  have h0 : 0 < a := by linarith
  have h1 : 0 < b := by linarith
  have h2 : 0 < c := by linarith [hc.1]
  field_simp at hs
  linear_combination -hs

/-- what makes the search from the left work -/
theorem pm_left_facts {γ r : ℝ} (hγ : 1.11 ≤ γ) {F : ℝ → ℝ} (hFx : ∀ x, F x = pmr γ x - pmr γ r) : F r = 0 ∧
    (∀ x ∈ Set.Icc 2 r, ∀ y ∈ Set.Icc 2 r, x < y → F x < F y) ∧
    (∀ x ∈ Set.Icc 2 r, ∀ y ∈ Set.Icc 2 r, x < y → -F y * (y - x) ≤ (F y - F x) * (r - y)) ∧
    (∀ x ∈ Set.Icc 2 r, ∀ y ∈ Set.Icc 2 r, x < y → x * ((F y - F x) * (r - y)) ≤ r * (-F y * (y - x))) ∧
    (∀ x ∈ Set.Icc 2 r, ∀ y ∈ Set.Icc 2 r, x < y → F y - F x ≤ 1 * (y - x)) := by
  have g1 : 1 < γ := lt_of_lt_of_le (by norm_num) hγ
  have F0 : F r = 0 := by rw [hFx, sub_self]
  have hlt : ∀ x ∈ Set.Icc 2 r, ∀ y ∈ Set.Icc 2 r, x < y → F x < F y := by
    intro x hx y hy h
    rw [hFx, hFx]
    have := pmr_lt g1 (by linarith [hx.1]) h
    linarith
  have conc : ∀ x ∈ Set.Icc 2 r, ∀ y ∈ Set.Icc 2 r, x < y → -F y * (y - x) ≤ (F y - F x) * (r - y) := by
    intro x hx y hy h
    rcases hy.2.eq_or_lt with e | e
    · rw [e, F0]; simp
    obtain ⟨c, c1, c2, c3⟩ := pmr_mvt g1 (by linarith [hx.1]) h
    obtain ⟨d, d1, d2, d3⟩ := pmr_mvt g1 (by linarith [hy.1]) e
    rw [hFx, hFx, sub_sub_sub_cancel_right, neg_sub, c3, d3]
    have := pmSlope_antitone hγ (by have := hx.1; norm_num; linarith) (c2.trans d1).le
    have h3 : 0 ≤ (y - x) * (r - y) := mul_nonneg (by linarith) (by linarith)
    nlinarith
  have el : ∀ x ∈ Set.Icc 2 r, ∀ y ∈ Set.Icc 2 r, x < y → x * ((F y - F x) * (r - y)) ≤ r * (-F y * (y - x)) := by
    intro x hx y hy h
    rcases hy.2.eq_or_lt with e | e
    · rw [e, F0]; simp
    have hx2 := hx.1
    have y0 : 0 < y := by linarith
    obtain ⟨c, c1, c2, c3⟩ := pmr_cauchy g1 (by linarith) h
    obtain ⟨d, d1, d2, d3⟩ := pmr_cauchy g1 (by linarith) e
    have hm := pm_mass_mono g1 (by linarith : (1:ℝ) ≤ c) (c2.trans d1).le
    rw [hFx, hFx, sub_sub_sub_cancel_right, neg_sub]
    have h3 : 0 ≤ (y - x) * (r - y) := mul_nonneg (by linarith) (by linarith)
    have h4 := mul_le_mul_of_nonneg_right hm h3
    refine le_of_mul_le_mul_right (?_ : _ * y ≤ _ * y) y0
    calc x * ((pmr γ y - pmr γ x) * (r - y)) * y = (pmr γ y - pmr γ x) * (x * y) * (r - y) := by ring
      _ = c ^ 2 * pmSlope γ c * ((y - x) * (r - y)) := by rw [c3]; ring
      _ ≤ d ^ 2 * pmSlope γ d * ((y - x) * (r - y)) := h4
      _ = (pmr γ r - pmr γ y) * (y * r) * (y - x) := by rw [d3]; ring
      _ = r * ((pmr γ r - pmr γ y) * (y - x)) * y := by ring
  have hL : ∀ x ∈ Set.Icc 2 r, ∀ y ∈ Set.Icc 2 r, x < y → F y - F x ≤ 1 * (y - x) := by
    intro x hx y hy h
    obtain ⟨c, c1, c2, c3⟩ := pmr_mvt g1 (by linarith [hx.1]) h
    rw [hFx, hFx, sub_sub_sub_cancel_right, c3]
    exact mul_le_mul_of_nonneg_right (pmSlope_le_one g1 (by linarith [hx.1])) (by linarith)
  exact ⟨F0, hlt, conc, el, hL⟩

theorem pm_left {γ r : ℝ} (hγ : 1.11 ≤ γ) (h1 : 2.0003 ≤ r) (h2 : r ≤ 10 ^ 8) : ∃ m, Mach_PrandtlMeyer scipy (pmDeg γ r) γ = .ok m ∧
    2 ≤ m ∧ m ≤ r ∧ r - m ≤ 7.4e-9 * r ∧ pmr γ r - pmr γ m ≤ 1.48e-8 := by
  have g1 : 1 < γ := lt_of_lt_of_le (by norm_num) hγ
  obtain ⟨F, hF⟩ : ∃ F : ℝ → ℝ, F = fun x => pmr γ x - pmr γ r := ⟨_, rfl⟩
  have hFx : ∀ x, F x = pmr γ x - pmr γ r := fun x => by rw [hF]
  have hr2 : (20003/10000 : ℝ) ≤ r := by norm_num at h1 ⊢; exact h1
  obtain ⟨F0, hlt, conc, el, hL⟩ := pm_left_facts hγ hFx
  have hf : ∀ x ∈ Set.Icc 2 r, pmFun (pmDeg γ r) γ x = .ok (F x) := by
    intro x hx
    rw [pmFun_ok g1 (by linarith [hx.1]), hFx]
  have m1 : (2 : ℝ) ∈ Set.Icc 2 r := ⟨le_rfl, by linarith⟩
  have m2 : (20003/10000 : ℝ) ∈ Set.Icc 2 r := ⟨by norm_num, hr2⟩
  have hq := hlt _ m1 _ m2 (by norm_num)
  have hq2 : F (20003/10000) ≤ 0 := by
    rcases hr2.eq_or_lt with e | e
    · rw [e, F0]
    · have := hlt _ m2 r ⟨by linarith, le_rfl⟩ e; linarith
  rw [pm_search g1, ← hFx, ← hFx, if_pos (by rw [abs_of_nonpos hq2, abs_of_neg (by linarith)]; linarith)]
  have hd : 0 < F (20003/10000) - F 2 := by linarith
  obtain ⟨c, hc⟩ : ∃ c, c = chord (20003/10000) 2 (F (20003/10000)) (F 2) := ⟨_, rfl⟩
  have hc' : (c - 20003/10000) * (F (20003/10000) - F 2) = -F (20003/10000) * (20003/10000 - 2) := by
    rw [hc]; unfold chord
    have : F 2 - F (20003/10000) ≠ 0 := by linarith
    field_simp; ring
  have c1 : 20003/10000 ≤ c := by
    by_contra hn
    push Not at hn
    have : (c - 20003/10000) * (F (20003/10000) - F 2) < 0 := mul_neg_of_neg_of_pos (by linarith) hd
    nlinarith
  have c2 : c ≤ r := by
    have := conc _ m1 _ m2 (by norm_num)
    rw [← hc', mul_comm] at this
    have := le_of_mul_le_mul_left this hd
    linarith
  rw [show (50 : ℕ) = 49 + 1 from rfl, loop_succ hq.ne, ← hc, if_neg (by rw [abs_of_nonneg (by linarith)]; norm_num; linarith), hf c ⟨by linarith, c2⟩, Py.ok_bind]
  have r0 : 0 < r := by linarith
  have hθ : 0 ≤ 1 - 2 / r := by
    rw [sub_nonneg, div_le_one r0]; linarith
  have hrθ : r * (1 - 2 / r) = r - 2 := by field_simp
  obtain ⟨m, e1, e2, e3, e4, e5⟩ := left_loop (a := 2) (by norm_num) F0 hf hlt conc el hL (θ := 1 - 2 / r) (tol := 1.48e-8) hθ (by norm_num) 48 1 2 c m1
    ⟨by linarith, c2⟩ (by linarith) (by rw [Nat.fib_one, pow_one, hrθ]) (by rw [show Nat.fib (1 + 1) = 1 from rfl, pow_one, hrθ]; linarith) (by
      have hfib : Nat.fib (1 + 1 + 48) = 12586269025 := by norm_num
      obtain ⟨N, hN⟩ : ∃ N, N = Nat.fib (1 + 1 + 48) := ⟨_, rfl⟩
      have hNr : (N : ℝ) = 12586269025 := by rw [hN, hfib]; norm_num
      rw [← hN]
      clear hN hfib
      have h3 : 1 - 2 / r ≤ Real.exp (-(2 / r)) := by
        have := Real.add_one_le_exp (-(2 / r)); linarith
      have h4 : (1 - 2 / r) ^ N ≤ Real.exp (-(2 / r)) ^ N := pow_le_pow_left₀ hθ h3 _
      rw [← Real.exp_nat_mul] at h4
      have h5 : (N : ℝ) * -(2 / r) ≤ -200 := by
        have : 200 / 12586269025 ≤ 2 / r := by rw [div_le_div_iff₀ (by norm_num) r0]; norm_num at h2; linarith
        rw [hNr]; linarith
      have h6 := h4.trans (Real.exp_le_exp.2 h5)
      have h7 : Real.exp (-200) ≤ (1/2) ^ 200 := by
        have : Real.exp (-200) = Real.exp (-1) ^ 200 := by rw [← Real.exp_nat_mul]; norm_num
        rw [this]
        refine pow_le_pow_left₀ (Real.exp_pos _).le ?_ _
        rw [Real.exp_neg, one_div]
        exact inv_anti₀ (by norm_num) (by have := Real.add_one_le_exp (1:ℝ); linarith)
      calc r * (1 - 2 / r) ^ N ≤ 10 ^ 8 * (1/2) ^ 200 := mul_le_mul h2 (h6.trans h7) (pow_nonneg hθ _) (by norm_num)
        _ ≤ 1.48e-8 := by norm_num)
  refine ⟨m, e1, e2, e3, ?_, ?_⟩
  · norm_num at e4 ⊢; linarith
  · rw [hFx] at e5; linarith

end Aerokit.Props
