import Verif.Lemmas.SecantPM2

/-! # scipy's secant search on the Prandtl–Meyer angle of air, below Mach 2 -/

namespace Aerokit.Props
open Real Supersonic ScipyNewton

/-- slope of the Prandtl–Meyer angle of air -/
noncomputable def sl (M : ℝ) : ℝ := pmSlope (7/5) M

/-- Prandtl–Meyer angle of air -/
noncomputable def pra (M : ℝ) : ℝ := pmr (7/5) M

theorem sl_sq {M : ℝ} (hM : 1 ≤ M) : sl M ^ 2 * (M ^ 2 * (5 + M ^ 2) ^ 2) = 25 * (M ^ 2 - 1) := by
  unfold sl pmSlope
  have h0 : 0 < M := by linarith
  rw [div_pow, Real.sq_sqrt (by nlinarith)]
  have : (1 + (7/5 - 1) / 2 * M ^ 2 : ℝ) = (5 + M ^ 2) / 5 := by ring
  rw [this]
  field_simp
  ring

theorem sl_nonneg {M : ℝ} (hM : 1 ≤ M) : 0 ≤ sl M := pmSlope_nonneg (by norm_num) hM

theorem sl_le {M s : ℝ} (hM : 1 ≤ M) (hs : 0 ≤ s) (h : 25 * (M ^ 2 - 1) ≤ s ^ 2 * (M ^ 2 * (5 + M ^ 2) ^ 2)) : sl M ≤ s := by
  rw [← sl_sq hM] at h
  exact (pow_le_pow_iff_left₀ (sl_nonneg hM) hs two_ne_zero).1 (le_of_mul_le_mul_right h (by have : 0 < M := by linarith
                                                                                             positivity))

theorem le_sl {M s : ℝ} (hM : 1 ≤ M) (hs : 0 ≤ s) (h : s ^ 2 * (M ^ 2 * (5 + M ^ 2) ^ 2) ≤ 25 * (M ^ 2 - 1)) : s ≤ sl M := by
  rw [← sl_sq hM] at h
  exact (pow_le_pow_iff_left₀ hs (sl_nonneg hM) two_ne_zero).1 (le_of_mul_le_mul_right h (by have : 0 < M := by linarith
                                                                                             positivity))

theorem sl_mono {M N : ℝ} (hM : 1 ≤ M) (hMN : M ≤ N) (hN : N ^ 2 ≤ 5/2) : sl M ≤ sl N := by
  have hN1 : 1 ≤ N := hM.trans hMN
  refine sl_le hM (sl_nonneg hN1) ?_
  have h1 := sl_sq hN1
  have ht : 1 ≤ M ^ 2 := by nlinarith
  have htu : M ^ 2 ≤ N ^ 2 := pow_le_pow_left₀ (by linarith) hMN 2
  obtain ⟨t, htd⟩ : ∃ t, t = M ^ 2 := ⟨_, rfl⟩
  obtain ⟨u, hud⟩ : ∃ u, u = N ^ 2 := ⟨_, rfl⟩
  rw [← hud] at h1 hN htu
  rw [← htd] at ht htu ⊢
  have u0 : 0 < u * (5 + u) ^ 2 := by have : 0 < u := by linarith
                                      positivity
  refine le_of_mul_le_mul_right (?_ : _ * (u * (5 + u) ^ 2) ≤ _ * (u * (5 + u) ^ 2)) u0
  have e : sl N ^ 2 * (t * (5 + t) ^ 2) * (u * (5 + u) ^ 2) = 25 * (u - 1) * (t * (5 + t) ^ 2) := by rw [← h1]; ring
  rw [e]
  have key : 0 ≤ (u - t) * (25 - 10 * (t * u) + 10 * (u + t) - t * u * (u + t) + (u ^ 2 + u * t + t ^ 2)) := by
    apply mul_nonneg (by linarith)
    have a : 0 ≤ 5/2 - u := by linarith
    have b : 0 ≤ 5/2 - t := by linarith
    have c : 0 ≤ t - 1 := by linarith
    have d : 0 ≤ u - 1 := by linarith
    nlinarith [mul_nonneg a b, mul_nonneg c d, mul_nonneg (mul_nonneg a c) d, mul_nonneg (mul_nonneg b c) d, mul_nonneg a c, mul_nonneg b d, mul_nonneg a d, mul_nonneg b c, sq_nonneg (u - t)]
  nlinarith

theorem sl_top {M : ℝ} (hM : 1 ≤ M) : sl M ≤ 0.5165 := by
  refine sl_le hM (by norm_num) ?_
  have ht : 1 ≤ M ^ 2 := by nlinarith
  obtain ⟨t, htd⟩ : ∃ t, t = M ^ 2 := ⟨_, rfl⟩
  rw [← htd] at ht ⊢
  have h1 : 0 ≤ (t - 5/2) ^ 2 * (t + 15) := mul_nonneg (sq_nonneg _) (by linarith)
  have h2 : 0 ≤ t * (5 + t) ^ 2 := mul_nonneg (by linarith) (sq_nonneg _)
  norm_num
  nlinarith

theorem sl_low {lo A B M : ℝ} (hA : 1 ≤ A) (h1 : A ≤ M) (h2 : M ≤ B) (h0 : 0 ≤ lo) (hloA : lo ^ 2 * (A ^ 2 * (5 + A ^ 2) ^ 2) ≤ 25 * (A ^ 2 - 1))
    (hloB : lo ^ 2 * (B ^ 2 * (5 + B ^ 2) ^ 2) ≤ 25 * (B ^ 2 - 1)) : lo ≤ sl M := by
  refine le_sl (hA.trans h1) h0 ?_
  have ht : A ^ 2 ≤ M ^ 2 := pow_le_pow_left₀ (by linarith) h1 2
  have hu : M ^ 2 ≤ B ^ 2 := pow_le_pow_left₀ (by linarith) h2 2
  have hA1 : 1 ≤ A ^ 2 := by nlinarith
  obtain ⟨t, htd⟩ : ∃ t, t = M ^ 2 := ⟨_, rfl⟩
  obtain ⟨u, hud⟩ : ∃ u, u = B ^ 2 := ⟨_, rfl⟩
  obtain ⟨v, hvd⟩ : ∃ v, v = A ^ 2 := ⟨_, rfl⟩
  obtain ⟨l, hl⟩ : ∃ l, l = lo ^ 2 := ⟨_, rfl⟩
  have hl0 : 0 ≤ l := by rw [hl]; positivity
  rw [← htd] at ht hu ⊢
  rw [← hud] at hu hloB
  rw [← hvd] at ht hloA hA1
  rw [← hl] at hloA hloB ⊢
  rcases (ht.trans hu).eq_or_lt with e | e
  · have : t = v := le_antisymm (by rw [e]; exact hu) ht
    rw [this]; exact hloA
  · -- p(t) = 25 (t - 1) - l t (5 + t)² is concave
    have id : (u - v) * (25 * (t - 1) - l * (t * (5 + t) ^ 2)) = (u - t) * (25 * (v - 1) - l * (v * (5 + v) ^ 2)) + (t - v) * (25 * (u - 1) - l * (u * (5 + u) ^ 2)) +
        l * ((u - t) * (t - v) * (u - v) * (u + t + v + 10)) := by ring
    have n1 : 0 ≤ (u - t) * (25 * (v - 1) - l * (v * (5 + v) ^ 2)) := mul_nonneg (by linarith) (by linarith)
    have n2 : 0 ≤ (t - v) * (25 * (u - 1) - l * (u * (5 + u) ^ 2)) := mul_nonneg (by linarith) (by linarith)
    have n3 : 0 ≤ l * ((u - t) * (t - v) * (u - v) * (u + t + v + 10)) :=
      mul_nonneg hl0 (mul_nonneg (mul_nonneg (mul_nonneg (by linarith) (by linarith)) (by linarith)) (by linarith))
    have : 0 ≤ (u - v) * (25 * (t - 1) - l * (t * (5 + t) ^ 2)) := by rw [id]; linarith
    have := nonneg_of_mul_nonneg_right this (by linarith : 0 < u - v)
    linarith

theorem pra_int {a b lo hi : ℝ} (ha : 1 ≤ a) (hab : a < b) (h : ∀ M, a < M → M < b → lo ≤ sl M ∧ sl M ≤ hi) :
    lo * (b - a) ≤ pra b - pra a ∧ pra b - pra a ≤ hi * (b - a) := by
  obtain ⟨c, c1, c2, c3⟩ := pmr_mvt (γ := 7/5) (by norm_num) ha hab
  obtain ⟨h1, h2⟩ := h c c1 c2
  unfold pra
  rw [c3]
  exact ⟨mul_le_mul_of_nonneg_right h1 (by linarith), mul_le_mul_of_nonneg_right h2 (by linarith)⟩

theorem pra_lt {a b : ℝ} (ha : 1 ≤ a) (hab : a < b) : pra a < pra b := pmr_lt (by norm_num) ha hab

theorem pra_le {a b : ℝ} (ha : 1 ≤ a) (hab : a ≤ b) : pra a ≤ pra b := by
  rcases hab.eq_or_lt with e | e
  · rw [e]
  · exact (pra_lt ha e).le

/-- first slope of the search -/
theorem sl_first : 0.481 * 0.0003 ≤ pra (20003/10000) - pra 2 ∧ pra (20003/10000) - pra 2 ≤ 0.4812 * 0.0003 := by
  have := pra_int (a := 2) (b := 20003/10000) (lo := 0.481) (hi := 0.4812) (by norm_num) (by norm_num) (by
    intro M h1 h2
    refine ⟨sl_low (A := 2) (B := 20003/10000) (by norm_num) h1.le h2.le (by norm_num) (by norm_num) (by norm_num), ?_⟩
    have : sl M ≤ sl 2 := pmSlope_antitone (by norm_num) (by norm_num) h1.le
    exact this.trans (sl_le (by norm_num) (by norm_num) (by norm_num)))
  norm_num at this ⊢
  exact this

/-- the angle from 1.2 to 2 -/
theorem pra_12 : 0.374 ≤ pra 2 - pra 1.2 := by
  have h1 := pra_int (a := 1.2) (b := 1.4) (lo := 0.429) (hi := 0.5165) (by norm_num) (by norm_num) (by
    intro M h1 h2
    exact ⟨sl_low (A := 1.2) (B := 1.4) (by norm_num) h1.le h2.le (by norm_num) (by norm_num) (by norm_num), sl_top (by norm_num at h1; linarith)⟩)
  have h2 := pra_int (a := 1.4) (b := 2) (lo := 0.481) (hi := 0.5165) (by norm_num) (by norm_num) (by
    intro M h1 h2
    exact ⟨sl_low (A := 1.4) (B := 2) (by norm_num) h1.le h2.le (by norm_num) (by norm_num) (by norm_num), sl_top (by norm_num at h1; linarith)⟩)
  norm_num at h1 h2 ⊢
  linarith [h1.1, h2.1]

/-- the angle from 1.05 to 2 -/
theorem pra_105 : pra 2 - pra 1.05 ≤ 0.4655 := by
  have up : ∀ a b hi : ℝ, 1 ≤ a → a < b → b ^ 2 ≤ 5/2 → 0 ≤ hi → 25 * (b ^ 2 - 1) ≤ hi ^ 2 * (b ^ 2 * (5 + b ^ 2) ^ 2) → pra b - pra a ≤ hi * (b - a) := by
    intro a b hi h1 h2 h3 h4 h5
    exact (pra_int (lo := 0) h1 h2 (fun M m1 m2 => ⟨sl_nonneg (by linarith), (sl_mono (by linarith) m2.le h3).trans (sl_le (by linarith) h4 h5)⟩)).2
  have a1 := up 1.05 1.1 0.3355 (by norm_num) (by norm_num) (by norm_num) (by norm_num) (by norm_num)
  have a2 := up 1.1 1.2 0.4293 (by norm_num) (by norm_num) (by norm_num) (by norm_num) (by norm_num)
  have a3 := up 1.2 1.3 0.4777 (by norm_num) (by norm_num) (by norm_num) (by norm_num) (by norm_num)
  have a4 := up 1.3 1.4 0.5028 (by norm_num) (by norm_num) (by norm_num) (by norm_num) (by norm_num)
  have a5 := (pra_int (a := 1.4) (b := 1.8) (lo := 0) (hi := 0.5165) (by norm_num) (by norm_num) (by
    intro M h1 h2
    have : 1 ≤ M := by norm_num at h1; linarith
    exact ⟨sl_nonneg this, sl_top this⟩)).2
  have a6 := (pra_int (a := 1.8) (b := 2) (lo := 0) (hi := 0.5046) (by norm_num) (by norm_num) (by
    intro M h1 h2
    have h3 : (9/5 : ℝ) ≤ M := by norm_num at h1; linarith
    refine ⟨sl_nonneg (by linarith), sl_le (by linarith) (by norm_num) ?_⟩
    have ht : (81/25 : ℝ) ≤ M ^ 2 := by nlinarith
    obtain ⟨t, htd⟩ : ∃ t, t = M ^ 2 := ⟨_, rfl⟩
    rw [← htd] at ht ⊢
    have : 0 ≤ t - 81/25 := by linarith
    have key : ∀ s : ℝ, 0 ≤ s → 25 * ((s + 81/25) - 1) ≤ (0.5046 : ℝ) ^ 2 * ((s + 81/25) * (5 + (s + 81/25)) ^ 2) := by
      intro s hs
      have h2 : 0 ≤ s ^ 2 := by positivity
      have h3 : 0 ≤ s ^ 3 := by positivity
      norm_num
      nlinarith
    have := key (t - 81/25) this
    rwa [sub_add_cancel] at this)).2
  norm_num at a1 a2 a3 a4 a5 a6 ⊢
  linarith

/-! ## the search -/

theorem chord_symm {x y p q : ℝ} (h : p ≠ q) : chord x y p q = chord y x q p := by
  unfold chord
  have h1 : q - p ≠ 0 := sub_ne_zero.2 h.symm
  have h2 : p - q ≠ 0 := sub_ne_zero.2 h
  field_simp; ring

theorem pm_fun_ok {r x : ℝ} (hx : 1 ≤ x) : pmFun (pmDeg (7/5) r) (7/5) x = .ok (pra x - pra r) := pmFun_ok (by norm_num) hx

theorem pra_slopes {A B μ ν c : ℝ} (hA : 1 < A) (h : ∀ M ∈ Set.Icc A B, μ ≤ sl M ∧ sl M ≤ ν) : Slopes (fun x => pra x - c) A B μ ν :=
  Slopes.of_deriv (g := sl) (fun x hx => (pmr_hasDeriv (γ := 7/5) (by norm_num) (hA.trans_le hx.1)).sub_const c) h

theorem pra_slopes_mid (c : ℝ) : Slopes (fun x => pra x - c) 1.14 2.2 0.38 0.5165 :=
  pra_slopes (by norm_num) (fun M hM => ⟨sl_low (by norm_num) hM.1 hM.2 (by norm_num) (by norm_num) (by norm_num), sl_top (by have := hM.1; norm_num at this; linarith)⟩)

/-- between the two starting points -/
theorem pm_between {r : ℝ} (h1 : 2 < r) (h2 : r ≤ 20003/10000) : ∃ m, Mach_PrandtlMeyer scipy (pmDeg (7/5) r) (7/5) = .ok m ∧ 1.14 ≤ m ∧ |m - r| ≤ 1e-8 := by
  have S := pra_slopes_mid (pra r)
  have hf : ∀ x ∈ Set.Icc (1.14 : ℝ) 2.2, pmFun (pmDeg (7/5) r) (7/5) x = .ok (pra x - pra r) := fun x hx => pm_fun_ok (by have := hx.1; norm_num at this; linarith)
  have L := S.loop (κ := 0.4) (d := 0.0003) (tol := 1.48e-8) (r := r) (by norm_num) ⟨by norm_num; linarith, by norm_num; linarith⟩ (sub_self _) hf (by norm_num) (by norm_num) (by norm_num) (by norm_num)
    (by norm_num; linarith) (by norm_num; linarith) 49
  have m1 : (2 : ℝ) ∈ Set.Icc (1.14 : ℝ) 2.2 := ⟨by norm_num, by norm_num⟩
  have m2 : (20003/10000 : ℝ) ∈ Set.Icc (1.14 : ℝ) 2.2 := ⟨by norm_num, by norm_num⟩
  rw [pm_search (by norm_num)]
  change ∃ m, (if |pra (20003/10000) - pra r| < |pra 2 - pra r| then secantLoop 1.48e-8 0 (pmFun (pmDeg (7/5) r) (7/5)) 50 (20003/10000) 2 (pra (20003/10000) - pra r) (pra 2 - pra r)
    else secantLoop 1.48e-8 0 (pmFun (pmDeg (7/5) r) (7/5)) 50 2 (20003/10000) (pra 2 - pra r) (pra (20003/10000) - pra r)) = .ok m ∧ _
  split_ifs
  · obtain ⟨m, e1, e2, e3⟩ := L _ _ 0.0003 m2 m1 (by norm_num) (by rw [abs_le]; constructor <;> norm_num <;> linarith) le_rfl (by norm_num)
    exact ⟨m, e1, e2.1, e3.trans (by norm_num)⟩
  · obtain ⟨m, e1, e2, e3⟩ := L _ _ 0.0003 m1 m2 (by norm_num) (by rw [abs_le]; constructor <;> norm_num <;> linarith) le_rfl (by norm_num)
    exact ⟨m, e1, e2.1, e3.trans (by norm_num)⟩

/-- below Mach 2 the first turn of the loop uses the two starting points -/
theorem pm_first {r : ℝ} (h1 : 1 ≤ r) (h2 : r ≤ 2) : ∃ c s, 0.481 ≤ s ∧ s ≤ 0.4812 ∧ (2 - c) * s = pra 2 - pra r ∧ c ≤ 2 ∧
    (1 ≤ c → Mach_PrandtlMeyer scipy (pmDeg (7/5) r) (7/5) = secantLoop 1.48e-8 0 (pmFun (pmDeg (7/5) r) (7/5)) 49 (20003/10000) c (pra (20003/10000) - pra r) (pra c - pra r)) := by
  obtain ⟨s1, s2⟩ := sl_first
  have hW : 0 ≤ pra 2 - pra r := sub_nonneg.2 (pra_le h1 h2)
  obtain ⟨s, hs⟩ : ∃ s, s = (pra (20003/10000) - pra 2) / 0.0003 := ⟨_, rfl⟩
  have hs' : pra (20003/10000) - pra 2 = s * (20003/10000 - 2) := by rw [hs]; norm_num
  have hs1 : 0.481 ≤ s := by rw [hs, le_div_iff₀ (by norm_num)]; exact s1
  have hs2 : s ≤ 0.4812 := by rw [hs, div_le_iff₀ (by norm_num)]; exact s2
  have s0 : 0 < s := lt_of_lt_of_le (by norm_num) hs1
  have hne : pra (20003/10000) - pra r ≠ pra 2 - pra r := by
    have := pra_lt (a := 2) (b := 20003/10000) (by norm_num) (by norm_num)
    intro e; linarith
  obtain ⟨c, hc⟩ : ∃ c, c = chord 2 (20003/10000) (pra 2 - pra r) (pra (20003/10000) - pra r) := ⟨_, rfl⟩
  have hc' := (chord_slope (x := 2) (y := 20003/10000) (Fx := pra 2 - pra r) (Fy := pra (20003/10000) - pra r) (by rw [sub_sub_sub_cancel_right]; exact hs') s0.ne' (by norm_num)).2
  rw [← hc] at hc'
  have c2 : c ≤ 2 := by
    have : 0 ≤ (pra 2 - pra r) / s := div_nonneg hW s0.le
    linarith
  refine ⟨c, s, hs1, hs2, ?_, c2, ?_⟩
  · rw [hc']; field_simp; ring
  · intro hc1
    rw [pm_search (by norm_num)]
    change (if |pra (20003/10000) - pra r| < |pra 2 - pra r| then secantLoop 1.48e-8 0 (pmFun (pmDeg (7/5) r) (7/5)) 50 (20003/10000) 2 (pra (20003/10000) - pra r) (pra 2 - pra r)
      else secantLoop 1.48e-8 0 (pmFun (pmDeg (7/5) r) (7/5)) 50 2 (20003/10000) (pra 2 - pra r) (pra (20003/10000) - pra r)) = _
    have hlt := pra_lt (a := 2) (b := 20003/10000) (by norm_num) (by norm_num)
    rw [if_neg (by rw [abs_of_nonneg hW, abs_of_nonneg (by linarith)]; linarith), show (50 : ℕ) = 49 + 1 from rfl, loop_succ hne, ← hc,
      if_neg (by rw [abs_sub_comm, abs_of_nonneg (by linarith)]; norm_num; linarith), pm_fun_ok hc1, Py.ok_bind]

/-- Mach 1.2 to 2 -/
theorem pm_mid {r : ℝ} (h1 : 1.2 ≤ r) (h2 : r ≤ 2) : ∃ m, Mach_PrandtlMeyer scipy (pmDeg (7/5) r) (7/5) = .ok m ∧ 1.14 ≤ m ∧ |m - r| ≤ 1e-8 := by
  have h1' : (6/5 : ℝ) ≤ r := by norm_num at h1 ⊢; exact h1
  obtain ⟨c, s, s1, s2, hc, c2, hs⟩ := pm_first (by linarith) h2
  have b : 0.429 * (2 - r) ≤ pra 2 - pra r ∧ pra 2 - pra r ≤ 0.5165 * (2 - r) := by
    rcases h2.eq_or_lt with e | e
    · rw [e]; simp
    · exact pra_int (by linarith) e (fun M m1 m2 => ⟨sl_low (A := 1.2) (B := 2) (by norm_num) (h1.trans m1.le) m2.le (by norm_num) (by norm_num) (by norm_num), sl_top (by linarith)⟩)
  norm_num at b s1 s2
  have lo : r - 3/40 * (2 - r) ≤ c := by nlinarith
  have hi : c ≤ r + 11/100 * (2 - r) := by nlinarith
  rw [hs (by linarith)]
  have S := pra_slopes_mid (pra r)
  have hf : ∀ x ∈ Set.Icc (1.14 : ℝ) 2.2, pmFun (pmDeg (7/5) r) (7/5) x = .ok (pra x - pra r) := fun x hx => pm_fun_ok (by have := hx.1; norm_num at this; linarith)
  obtain ⟨m, e1, e2, e3⟩ := S.loop (κ := 0.4) (d := 0.088) (tol := 1.48e-8) (r := r) (by norm_num) ⟨by norm_num; linarith, by norm_num; linarith⟩ (sub_self _) hf (by norm_num) (by norm_num) (by norm_num) (by norm_num)
    (by norm_num; linarith) (by norm_num; linarith) 48 (20003/10000) c 0.088 ⟨by norm_num, by norm_num⟩ ⟨by norm_num; linarith, by norm_num; linarith⟩ (by intro e; linarith)
    (by rw [abs_le]; constructor <;> norm_num <;> linarith) le_rfl (by norm_num)
  exact ⟨m, e1, e2.1, e3.trans (by norm_num)⟩

end Aerokit.Props
