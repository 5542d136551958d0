import Verif.Lemmas.SecantPM3

/-! # scipy's secant search on the Prandtl–Meyer angle of air, Mach 1 to 1.2 -/

namespace Aerokit.Props
open Real Supersonic ScipyNewton

/-- slope over the distance to Mach 1 -/
theorem sl_over {M N : ℝ} (hM : 1 < M) (hMN : M ≤ N) : sl N * (M - 1) ≤ sl M * (N - 1) := by
  have hN : 1 < N := hM.trans_le hMN
  refine (pow_le_pow_iff_left₀ (mul_nonneg (sl_nonneg hN.le) (by linarith)) (mul_nonneg (sl_nonneg hM.le) (by linarith)) two_ne_zero).1 ?_
  rw [mul_pow, mul_pow]
  have h1 := sl_sq hM.le
  have h2 := sl_sq hN.le
  obtain ⟨A, hA⟩ : ∃ A, A = M ^ 2 * (5 + M ^ 2) ^ 2 := ⟨_, rfl⟩
  obtain ⟨B, hB⟩ : ∃ B, B = N ^ 2 * (5 + N ^ 2) ^ 2 := ⟨_, rfl⟩
  have hA0 : 0 < A := by rw [hA]; have : 0 < M := by linarith
                         positivity
  have hAB : A ≤ B := by
    rw [hA, hB]
    have : M ^ 2 ≤ N ^ 2 := pow_le_pow_left₀ (by linarith) hMN 2
    have h3 : 0 ≤ M ^ 2 := sq_nonneg _
    exact mul_le_mul this (pow_le_pow_left₀ (by linarith) (by linarith) 2) (sq_nonneg _) (by linarith)
  rw [← hA] at h1
  rw [← hB] at h2
  have hB0 : 0 < B := hA0.trans_le hAB
  have e1 : sl M ^ 2 = 25 * (M ^ 2 - 1) / A := by rw [eq_div_iff hA0.ne']; exact h1
  have e2 : sl N ^ 2 = 25 * (N ^ 2 - 1) / B := by rw [eq_div_iff hB0.ne']; exact h2
  rw [e1, e2, div_mul_eq_mul_div, div_mul_eq_mul_div, div_le_div_iff₀ hB0 hA0]
  have h3 : 25 * (N ^ 2 - 1) * (M - 1) ^ 2 ≤ 25 * (M ^ 2 - 1) * (N - 1) ^ 2 := by
    have : 0 ≤ (M - 1) * (N - 1) * (N - M) := mul_nonneg (mul_nonneg (by linarith) (by linarith)) (by linarith)
    nlinarith
  exact mul_le_mul h3 hAB hA0.le (by have : 0 ≤ (M ^ 2 - 1) := by nlinarith
                                     positivity)

theorem pra_cauchy {a b : ℝ} (ha : 1 ≤ a) (hab : a < b) : ∃ c, a < c ∧ c < b ∧ (pra b - pra a) * (2 * (c - 1)) = sl c * ((b - 1) ^ 2 - (a - 1) ^ 2) := by
  obtain ⟨c, hc, hs⟩ := exists_ratio_hasDerivAt_eq_ratio_slope pra sl hab (pmr_continuous _).continuousOn (fun x hx => pmr_hasDeriv (by norm_num) (ha.trans_lt hx.1))
    (fun x : ℝ => (x - 1) ^ 2) (fun x => 2 * (x - 1)) (by fun_prop)
    (fun x hx => by
      have := ((hasDerivAt_id x).sub_const 1).pow 2
      exact this.congr_deriv (by simp))
  exact ⟨c, hc.1, hc.2, by linear_combination -hs⟩

/-- the second chord starts at `c`: its slope is at least the one between `c` and the root -/
theorem pra_far {a : ℝ} (h1 : 1 ≤ a) (h2 : a ≤ 1.23) : sl a * (20003/10000 - a) ≤ pra (20003/10000) - pra a := by
  have h2' : a ≤ 123/100 := by norm_num at h2 ⊢; exact h2
  have hlow : 25 * (a ^ 2 - 1) ≤ 0.48 ^ 2 * (a ^ 2 * (5 + a ^ 2) ^ 2) → True := fun _ => trivial
  have ha : sl a ≤ 0.4499 := (sl_mono h1 h2' (by norm_num)).trans (sl_le (by norm_num) (by norm_num) (by norm_num))
  refine (pra_int h1 (by linarith) (hi := 0.5165) fun M m1 m2 => ⟨?_, sl_top (by linarith)⟩).1
  exact sl_low (A := a) (B := 20003/10000) h1 m1.le m2.le (sl_nonneg h1) (sl_sq h1).le (by
    have : sl a ^ 2 ≤ 0.4499 ^ 2 := pow_le_pow_left₀ (sl_nonneg h1) ha 2
    norm_num at this ⊢
    nlinarith)

theorem pra_near {a b : ℝ} (h1 : 1 ≤ a) (hab : a ≤ b) (h2 : b ^ 2 ≤ 5/2) : sl a * (b - a) ≤ pra b - pra a ∧ pra b - pra a ≤ sl b * (b - a) := by
  rcases hab.eq_or_lt with e | e
  · rw [e]; simp
  · exact pra_int h1 e fun M m1 m2 => ⟨sl_mono h1 m1.le (by nlinarith), sl_mono (by linarith) m2.le h2⟩

theorem pra_el {r x y : ℝ} (h1 : 1 ≤ r) (hx : r ≤ x) (h : x < y) : (pra y - pra x) * ((x - 1) ^ 2 - (r - 1) ^ 2) ≤ (pra x - pra r) * ((y - 1) ^ 2 - (x - 1) ^ 2) := by
  rcases hx.eq_or_lt with e | e
  · rw [← e]; simp
  obtain ⟨u, u1, u2, u3⟩ := pra_cauchy (h1.trans hx) h
  obtain ⟨v, v1, v2, v3⟩ := pra_cauchy h1 e
  have hv : 1 < v := by linarith
  have hu : 1 < u := by linarith
  have hs := sl_over hv (v2.trans u1).le
  obtain ⟨X, hX⟩ : ∃ X, X = (x - 1) ^ 2 - (r - 1) ^ 2 := ⟨_, rfl⟩
  obtain ⟨Y, hY⟩ : ∃ Y, Y = (y - 1) ^ 2 - (x - 1) ^ 2 := ⟨_, rfl⟩
  have X0 : 0 ≤ X := by rw [hX]; nlinarith
  have Y0 : 0 ≤ Y := by rw [hY]; nlinarith
  rw [← hX, ← hY]
  rw [← hY] at u3
  rw [← hX] at v3
  have hpos : 0 < 2 * (u - 1) * (v - 1) := by
    have : 0 < (u - 1) * (v - 1) := mul_pos (by linarith) (by linarith)
    linarith
  refine le_of_mul_le_mul_right (?_ : _ * (2 * (u - 1) * (v - 1)) ≤ _ * (2 * (u - 1) * (v - 1))) hpos
  have k1 : (pra y - pra x) * X * (2 * (u - 1) * (v - 1)) = sl u * (v - 1) * (X * Y) := by linear_combination X * (v - 1) * u3
  have k2 : (pra x - pra r) * Y * (2 * (u - 1) * (v - 1)) = sl v * (u - 1) * (X * Y) := by linear_combination Y * (u - 1) * v3
  rw [k1, k2]
  exact mul_le_mul_of_nonneg_right hs (mul_nonneg X0 Y0)

set_option maxHeartbeats 1000000 in
/-- after the second point fell to the right of the root -/
theorem pm_low_right {r c : ℝ} (h1 : 1 ≤ r) (hrc : r ≤ c) (hc : c ≤ 1.23) (hd : c - r ≤ 0.24) : ∃ m, secantLoop 1.48e-8 0 (pmFun (pmDeg (7/5) r) (7/5)) 49 (20003/10000) c (pra (20003/10000) - pra r) (pra c - pra r) = .ok m ∧
    r ≤ m ∧ m ≤ c ∧ pra m - pra r ≤ 1.48e-8 := by
  have hc' : c ≤ 123/100 := by norm_num at hc ⊢; exact hc
  have c1 : 1 ≤ c := h1.trans hrc
  have hsq : c ^ 2 ≤ 5/2 := by nlinarith
  have hlt := pra_lt (a := c) (b := 20003/10000) c1 (by linarith)
  have hne : pra c - pra r ≠ pra (20003/10000) - pra r := by intro e; linarith
  obtain ⟨F, hF⟩ : ∃ F : ℝ → ℝ, F = fun x => pra x - pra r := ⟨_, rfl⟩
  have hFx : ∀ x, F x = pra x - pra r := fun x => by rw [hF]
  have far := pra_far c1 hc
  have near := (pra_near h1 hrc hsq).2
  have hFc : 0 ≤ F c := by rw [hFx]; linarith [pra_le h1 hrc]
  rw [← hFx, ← hFx]
  rw [← hFx, ← hFx] at hne
  have far' : sl c * (20003/10000 - c) ≤ F (20003/10000) - F c := by rw [hFx, hFx]; linarith
  have near' : F c ≤ sl c * (c - r) := by rw [hFx]; exact near
  have hD : 0 < F (20003/10000) - F c := by rw [hFx, hFx]; linarith
  obtain ⟨p, hp⟩ : ∃ p, p = chord (20003/10000) c (F (20003/10000)) (F c) := ⟨_, rfl⟩
  have hp' : (c - p) * (F (20003/10000) - F c) = F c * (20003/10000 - c) := by
    rw [hp]; unfold chord
    have : F c - F (20003/10000) ≠ 0 := by linarith
    field_simp; ring
  have pc : p ≤ c := by
    by_contra hn
    push Not at hn
    have : (c - p) * (F (20003/10000) - F c) < 0 := mul_neg_of_neg_of_pos (by linarith) hD
    have : 0 ≤ F c * (20003/10000 - c) := mul_nonneg hFc (by linarith)
    linarith
  have rp : r ≤ p := by
    have e1 : F c * (20003/10000 - c) ≤ sl c * (c - r) * (20003/10000 - c) := mul_le_mul_of_nonneg_right near' (by linarith)
    have e2 : sl c * (20003/10000 - c) * (c - r) ≤ (F (20003/10000) - F c) * (c - r) := mul_le_mul_of_nonneg_right far' (by linarith)
    have e3 : (c - p) * (F (20003/10000) - F c) ≤ (c - r) * (F (20003/10000) - F c) := by linarith
    have := le_of_mul_le_mul_right e3 hD
    linarith
  have top : F (20003/10000) - F c ≤ 0.5165 * (20003/10000 - c) := by
    have := (pra_int (lo := 0) (hi := 0.5165) c1 (by linarith : c < 20003/10000) fun M m1 m2 => ⟨sl_nonneg (by linarith), sl_top (by linarith)⟩).2
    rw [hFx, hFx]; linarith
  have hf : ∀ x ∈ Set.Icc r c, pmFun (pmDeg (7/5) r) (7/5) x = .ok (F x) := fun x hx => by rw [hFx]; exact pm_fun_ok (h1.trans hx.1)
  rw [show (49 : ℕ) = 48 + 1 from rfl, loop_succ hne, ← hp]
  by_cases hst : c - p ≤ 1.48e-8
  · rw [if_pos (by rw [zero_mul, add_zero, abs_sub_comm, abs_of_nonneg (by linarith)]; exact hst)]
    refine ⟨p, rfl, rp, pc, ?_⟩
    have e1 : F c * (20003/10000 - c) ≤ 0.5165 * (c - p) * (20003/10000 - c) := by
      rw [← hp']
      have := mul_le_mul_of_nonneg_left top (by linarith : 0 ≤ c - p)
      linarith
    have e2 := le_of_mul_le_mul_right e1 (by linarith)
    have e3 := pra_le (h1.trans rp) pc
    rw [hFx] at e2
    norm_num at hst e2 ⊢
    linarith
  · rw [if_neg (by rw [zero_mul, add_zero, abs_sub_comm, abs_of_nonneg (by linarith)]; exact hst), hf p ⟨rp, pc⟩, Py.ok_bind]
    have hpc : p < c := by
      rcases pc.eq_or_lt with e | e
      · exfalso; apply hst; rw [e, sub_self]; norm_num
      · exact e
    have sqle : ∀ x, r ≤ x → x ≤ c → x ^ 2 ≤ 5/2 := fun x x1 x2 => (pow_le_pow_left₀ (by linarith) x2 2).trans hsq
    obtain ⟨m, e1, e2, e3, e4⟩ := right_loop (o := 1) (B := c) (F := F) (L := 0.5165) h1 (by rw [hFx, sub_self]) hf
      (fun x hx y hy h => by rw [hFx, hFx]; linarith [pra_lt (h1.trans hx.1) h])
      (fun x hx y hy h => by
        have a1 := (pra_near h1 hx.1 (sqle x hx.1 hx.2)).2
        have a2 := (pra_near (h1.trans hx.1) h.le (sqle y hy.1 hy.2)).1
        rw [hFx, hFx, sub_sub_sub_cancel_right]
        have b1 := mul_le_mul_of_nonneg_right a1 (by linarith : 0 ≤ y - x)
        have b2 := mul_le_mul_of_nonneg_right a2 (by linarith [hx.1] : 0 ≤ x - r)
        linarith)
      (fun x hx y hy h => by
        rw [hFx, hFx, sub_sub_sub_cancel_right]
        exact pra_el h1 hx.1 h)
      (fun x hx y hy h => by
        rw [hFx, hFx, sub_sub_sub_cancel_right]
        exact (pra_int (lo := 0) (h1.trans hx.1) h fun M m1 m2 => ⟨sl_nonneg (by linarith [hx.1]), sl_top (by linarith [hx.1])⟩).2)
      (tol := 1.48e-8) (by norm_num) 23 p c ⟨rp, pc⟩ ⟨hrc, le_rfl⟩ hpc (by norm_num at hd ⊢; linarith)
    refine ⟨m, e1, e2, e3, ?_⟩
    rw [hFx] at e4
    exact e4.trans (by norm_num)

theorem sl_ratio {A B : ℝ} (hA1 : 1 < A) (hAB : A ≤ B) (hB : B - 1 = 2.62 * (A - 1)) : sl B ≤ 1.62 * sl A := by
  have q1 := sl_sq hA1.le
  have q2 := sl_sq (hA1.le.trans hAB)
  refine (pow_le_pow_iff_left₀ (sl_nonneg (hA1.le.trans hAB)) (mul_nonneg (by norm_num) (sl_nonneg hA1.le)) two_ne_zero).1 ?_
  rw [mul_pow]
  obtain ⟨a, ha⟩ : ∃ a, a = A ^ 2 * (5 + A ^ 2) ^ 2 := ⟨_, rfl⟩
  obtain ⟨b, hb⟩ : ∃ b, b = B ^ 2 * (5 + B ^ 2) ^ 2 := ⟨_, rfl⟩
  rw [← ha] at q1
  rw [← hb] at q2
  have a0 : 0 < a := by rw [ha]; have : 0 < A := by linarith
                        positivity
  have hab : A * B * a ≤ A * A * b := by
    rw [ha, hb]
    have h3 : A ^ 2 ≤ B ^ 2 := pow_le_pow_left₀ (by linarith) hAB 2
    have h4 : (5 + A ^ 2) ^ 2 ≤ (5 + B ^ 2) ^ 2 := pow_le_pow_left₀ (by positivity) (by linarith) 2
    have A0 : 0 < A := by linarith
    have B0 : 0 < B := by linarith
    calc A * B * (A ^ 2 * (5 + A ^ 2) ^ 2) = A ^ 2 * (B * A) * (5 + A ^ 2) ^ 2 := by ring
      _ ≤ A ^ 2 * (B * B) * (5 + B ^ 2) ^ 2 := by
        apply mul_le_mul _ h4 (by positivity) (by positivity)
        exact mul_le_mul_of_nonneg_left (mul_le_mul_of_nonneg_left hAB B0.le) (by positivity)
      _ = A * A * (B ^ 2 * (5 + B ^ 2) ^ 2) := by ring
  have b0 : 0 < b := by rw [hb]; have : 0 < B := by linarith
                        positivity
  have AB : B * a ≤ A * b := by
    have : A * (B * a) ≤ A * (A * b) := by linarith
    exact le_of_mul_le_mul_left this (by linarith)
  -- (B² - 1) A ≤ 2.62 (A² - 1) B
  have dist : (B ^ 2 - 1) * A ≤ 1.62 ^ 2 * ((A ^ 2 - 1) * B) := by
    have e1 : (B + 1) * A ≤ (A + 1) * B := by nlinarith
    have e2 := hB
    have e3 : (B ^ 2 - 1) * A = 2.62 * (A - 1) * ((B + 1) * A) := by rw [← e2]; ring
    have e4 : (A - 1) * ((B + 1) * A) ≤ (A - 1) * ((A + 1) * B) := mul_le_mul_of_nonneg_left e1 (by linarith)
    have e5 : 0 ≤ (A - 1) * ((A + 1) * B) := mul_nonneg (by linarith) (mul_nonneg (by linarith) (by linarith))
    rw [e3]
    norm_num
    nlinarith
  have A0 : 0 < A := by linarith
  have e1 : sl A ^ 2 = 25 * (A ^ 2 - 1) / a := by rw [eq_div_iff a0.ne']; exact q1
  have e2 : sl B ^ 2 = 25 * (B ^ 2 - 1) / b := by rw [eq_div_iff b0.ne']; exact q2
  rw [e1, e2, ← mul_div_assoc, div_le_div_iff₀ b0 a0]
  have B1 : 0 ≤ B ^ 2 - 1 := by nlinarith
  have A1 : 0 ≤ A ^ 2 - 1 := by nlinarith
  have k1 : (B ^ 2 - 1) * A * a ≤ 1.62 ^ 2 * ((A ^ 2 - 1) * B) * a := mul_le_mul_of_nonneg_right dist a0.le
  have k2 : (A ^ 2 - 1) * (B * a) ≤ (A ^ 2 - 1) * (A * b) := mul_le_mul_of_nonneg_left AB A1
  have k3 : A * (25 * (B ^ 2 - 1) * a) ≤ A * (1.62 ^ 2 * (25 * (A ^ 2 - 1)) * b) := by
    norm_num at k1 ⊢
    linarith
  exact le_of_mul_le_mul_left k3 A0

set_option maxHeartbeats 1000000 in
/-- after the second point fell to the left of the root -/
theorem pm_low_left {r c : ℝ} (h2 : r ≤ 1.2) (hcr : c < r) (hc : 1 + (r - 1) / 2 ≤ c) : ∃ m, secantLoop 1.48e-8 0 (pmFun (pmDeg (7/5) r) (7/5)) 49 (20003/10000) c (pra (20003/10000) - pra r) (pra c - pra r) = .ok m ∧
    1 ≤ m ∧ |pra m - pra r| ≤ 1.48e-8 := by
  have h2' : r ≤ 6/5 := by norm_num at h2 ⊢; exact h2
  have r1 : 1 < r := by linarith
  have c1 : 1 ≤ c := by linarith
  have hsq : r ^ 2 ≤ 5/2 := by nlinarith
  have hlt := pra_lt (a := r) (b := 20003/10000) r1.le (by linarith)
  have hlt2 := pra_lt c1 hcr
  have hne : pra c - pra r ≠ pra (20003/10000) - pra r := by intro e; linarith
  obtain ⟨F, hF⟩ : ∃ F : ℝ → ℝ, F = fun x => pra x - pra r := ⟨_, rfl⟩
  have hFx : ∀ x, F x = pra x - pra r := fun x => by rw [hF]
  have far := pra_far r1.le (h2.trans (by norm_num))
  have near := (pra_near c1 hcr.le hsq).2
  rw [← hFx, ← hFx]
  rw [← hFx, ← hFx] at hne
  have hFc : F c < 0 := by rw [hFx]; linarith
  have far' : sl r * (20003/10000 - r) ≤ F (20003/10000) := by rw [hFx]; exact far
  have near' : -F c ≤ sl r * (r - c) := by rw [hFx]; linarith
  have hD : 0 < F (20003/10000) - F c := by rw [hFx, hFx]; linarith
  obtain ⟨p, hp⟩ : ∃ p, p = chord (20003/10000) c (F (20003/10000)) (F c) := ⟨_, rfl⟩
  have hp' : (p - c) * (F (20003/10000) - F c) = -F c * (20003/10000 - c) := by
    rw [hp]; unfold chord
    have : F c - F (20003/10000) ≠ 0 := by linarith
    field_simp; ring
  have cp : c < p := by
    by_contra hn
    push Not at hn
    have : (p - c) * (F (20003/10000) - F c) ≤ 0 := mul_nonpos_of_nonpos_of_nonneg (by linarith) hD.le
    have : 0 < -F c * (20003/10000 - c) := mul_pos (by linarith) (by linarith)
    linarith
  have pr : p ≤ r := by
    have e1 : -F c * (20003/10000 - r) ≤ sl r * (r - c) * (20003/10000 - r) := mul_le_mul_of_nonneg_right near' (by linarith)
    have e2 : sl r * (20003/10000 - r) * (r - c) ≤ F (20003/10000) * (r - c) := mul_le_mul_of_nonneg_right far' (by linarith)
    have e3 : (p - c) * (F (20003/10000) - F c) ≤ (r - c) * (F (20003/10000) - F c) := by rw [hp']; linarith
    have := le_of_mul_le_mul_right e3 hD
    linarith
  have top : F (20003/10000) - F c ≤ 0.5165 * (20003/10000 - c) := by
    have := (pra_int (lo := 0) (hi := 0.5165) c1 (by linarith : c < 20003/10000) fun M m1 m2 => ⟨sl_nonneg (by linarith), sl_top (by linarith)⟩).2
    rw [hFx, hFx]; linarith
  rw [show (49 : ℕ) = 48 + 1 from rfl, loop_succ hne, ← hp]
  by_cases hst : p - c ≤ 1.48e-8
  · rw [if_pos (by rw [zero_mul, add_zero, abs_of_nonneg (by linarith)]; exact hst)]
    refine ⟨p, rfl, by linarith, ?_⟩
    have e1 : -F c * (20003/10000 - c) ≤ 0.5165 * (p - c) * (20003/10000 - c) := by
      rw [← hp']
      have := mul_le_mul_of_nonneg_left top (by linarith : 0 ≤ p - c)
      linarith
    have e2 := le_of_mul_le_mul_right e1 (by linarith)
    have e3 := pra_le c1 cp.le
    have e4 := pra_le (c1.trans cp.le) pr
    rw [hFx] at e2
    rw [abs_of_nonpos (by linarith)]
    norm_num at hst e2 ⊢
    linarith
  · rw [if_neg (by rw [zero_mul, add_zero, abs_of_nonneg (by linarith)]; exact hst), pm_fun_ok (by linarith), Py.ok_bind, ← hFx]
    obtain ⟨A, hA⟩ : ∃ A, A = 1 + (r - 1) / 2 := ⟨_, rfl⟩
    obtain ⟨B, hB⟩ : ∃ B, B = 1 + 1.31 * (r - 1) := ⟨_, rfl⟩
    norm_num at hB
    have hAB : A ≤ B := by rw [hA, hB]; linarith
    have hA1 : 1 < A := by rw [hA]; linarith
    have hB2 : B ^ 2 ≤ 5/2 := by nlinarith
    have S : Slopes F A B (sl A) (sl B) := by
      rw [hF]
      exact pra_slopes hA1 fun M hM => ⟨sl_mono hA1.le hM.1 (by nlinarith [hM.1, hM.2]), sl_mono (hA1.le.trans hM.1) hM.2 hB2⟩
    have hs0 : 0 < sl A := by
      have h := sl_sq hA1.le
      rcases (sl_nonneg hA1.le).eq_or_lt with e | e
      · rw [← e] at h; nlinarith
      · exact e
    have ratio : sl B ≤ 1.62 * sl A := sl_ratio hA1 hAB (by rw [hA, hB]; norm_num; ring)
    have hf : ∀ x ∈ Set.Icc A B, pmFun (pmDeg (7/5) r) (7/5) x = .ok (F x) := fun x hx => by rw [hFx]; exact pm_fun_ok (hA1.le.trans hx.1)
    obtain ⟨m, e1, e2, e3⟩ := S.loop (κ := 0.62) (d := (r - 1) / 2) (tol := 1.48e-8) (r := r) hs0 ⟨by rw [hA]; linarith, by rw [hB]; linarith⟩ (by rw [hFx, sub_self]) hf
      (by rw [sub_le_iff_le_add, div_le_iff₀ hs0]; norm_num at ratio ⊢; exact ratio) (by norm_num) (by norm_num) (by norm_num)
      (by rw [hA]; norm_num; linarith) (by rw [hB]; norm_num; linarith) 47 c p ((r - 1) / 2) ⟨by rw [hA]; exact hc, by rw [hB]; linarith⟩ ⟨by rw [hA]; linarith, by rw [hB]; linarith⟩ cp.ne
      (by rw [abs_le]; constructor <;> linarith) le_rfl (by
        have : (r - 1) / 2 ≤ 1/10 := by linarith
        calc (0.62 : ℝ) ^ 47 * ((r - 1) / 2) * (1 + 0.62) ≤ 0.62 ^ 47 * (1/10) * (1 + 0.62) := by
              apply mul_le_mul_of_nonneg_right _ (by norm_num)
              exact mul_le_mul_of_nonneg_left this (by norm_num)
          _ ≤ _ := by norm_num)
    have m1 : 1 ≤ m := hA1.le.trans e2.1
    refine ⟨m, e1, m1, ?_⟩
    have lip : |pra m - pra r| ≤ 0.5165 * |m - r| := by
      rcases lt_trichotomy m r with h | h | h
      · have := (pra_int (lo := 0) m1 h fun M q1 q2 => ⟨sl_nonneg (by linarith), sl_top (by linarith)⟩).2
        rw [abs_of_neg (by linarith [pra_lt m1 h]), abs_of_neg (by linarith)]; linarith
      · rw [h]; simp
      · have := (pra_int (lo := 0) r1.le h fun M q1 q2 => ⟨sl_nonneg (by linarith), sl_top (by linarith)⟩).2
        rw [abs_of_pos (by linarith [pra_lt r1.le h]), abs_of_pos (by linarith)]; linarith
    refine lip.trans ?_
    norm_num at e3 ⊢
    linarith

/-- Mach 1 to 1.2 -/
theorem pm_low {r : ℝ} (h1 : 1 ≤ r) (h2 : r ≤ 1.2) : ∃ m, Mach_PrandtlMeyer scipy (pmDeg (7/5) r) (7/5) = .ok m ∧ 1 ≤ m ∧ |pra m - pra r| ≤ 1.48e-8 := by
  have h2' : r ≤ 6/5 := by norm_num at h2 ⊢; exact h2
  obtain ⟨c, s, s1, s2, hc, c2, hs⟩ := pm_first h1 (by linarith)
  have w1 : 0.374 ≤ pra 2 - pra r := by
    have := pra_12
    have := pra_le h1 h2
    linarith
  have w2 : pra 2 - pra r ≤ 0.4656 - 0.2498 * (r - 1.05) := by
    have a := pra_105
    have b : 0.2498 ≤ sl 1.05 := le_sl (by norm_num) (by norm_num) (by norm_num)
    have b' : sl 1.05 ≤ 0.2499 := sl_le (by norm_num) (by norm_num) (by norm_num)
    rcases le_total r 1.05 with h | h
    · have := (pra_near h1 h (by norm_num)).2
      have : sl 1.05 * (1.05 - r) ≤ 0.2499 * (1.05 - r) := mul_le_mul_of_nonneg_right b' (by linarith)
      norm_num at *
      linarith
    · have := (pra_near (by norm_num) h (by nlinarith)).1
      have : 0.2498 * (r - 1.05) ≤ sl 1.05 * (r - 1.05) := mul_le_mul_of_nonneg_right b (by linarith)
      linarith
  rw [← hc] at w1 w2
  norm_num at w1 w2 s1 s2
  have hcl : 1 + (r - 1) / 2 ≤ c := by nlinarith
  have hch : c ≤ 1.223 := by norm_num; nlinarith
  rw [hs (by linarith)]
  rcases le_or_gt r c with h | h
  · obtain ⟨m, e1, e2, e3, e4⟩ := pm_low_right h1 h (hch.trans (by norm_num)) (by norm_num at hch ⊢; linarith)
    exact ⟨m, e1, h1.trans e2, by rw [abs_of_nonneg (by linarith [pra_le h1 e2])]; exact e4⟩
  · exact pm_low_left h2 h hcl

end Aerokit.Props
