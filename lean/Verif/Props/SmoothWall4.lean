import Verif.Props.SmoothWall3

/-! # C161 — the smooth wall notebook: the focused compression does not focus -/

namespace Aerokit.Props
open Real Supersonic Isentropic ScipyNewton SmoothWall

theorem mu_two : muDeg 2 = 30 := by
  unfold muDeg
  rw [show (1:ℝ) / 2 = sin (π / 6) by rw [sin_pi_div_six], arcsin_sin (by linarith [pi_pos]) (by linarith [pi_pos])]
  unfold Py.degrees; field_simp; norm_num

theorem kr_ok {t : ℝ} (ht : 0 < t) : kr 1.4 t = .ok ((√(t ^ 2 + 1 / 6) / t) ^ (6:ℝ)) := by
  have hq : 0 < √(t ^ 2 + 1 / 6) / t := div_pos (sqrt_pos.2 (by positivity)) ht
  unfold kr
  rw [Py.div_ok (by norm_num), Py.ok_bind, show ((1.4:ℝ) + 1) / (1.4 - 1) = 6 by norm_num, Py.div_ok (by norm_num), Py.ok_bind, Py.sqrt_ok (by positivity), Py.ok_bind,
    Py.div_ok ht.ne', Py.ok_bind, Py.pow_ok _ hq]

theorem kr_anti {t u : ℝ} (ht : 0 < t) (h : t ≤ u) : (√(u ^ 2 + 1 / 6) / u) ^ (6:ℝ) ≤ (√(t ^ 2 + 1 / 6) / t) ^ (6:ℝ) := by
  have hu : 0 < u := ht.trans_le h
  refine rpow_le_rpow (by positivity) ?_ (by norm_num)
  rw [div_le_div_iff₀ hu ht]
  have e : ∀ a b : ℝ, 0 ≤ b → √a * b = √(a * b ^ 2) := fun a b hb => by rw [sqrt_mul' _ (by positivity), sqrt_sq hb]
  rw [e _ _ ht.le, e _ _ hu.le]
  refine sqrt_le_sqrt ?_
  have : t ^ 2 ≤ u ^ 2 := pow_le_pow_left₀ ht.le h 2
  nlinarith

/-- the wall of the last cell: straight at the slope `tan 15° / 2` on `(0, 1)` -/
theorem focused_value : ∃ yend, ∀ x, focused scipy 2 1.4 x =
    .ok (if x < 0 then 0 else if x < 1 then Real.tan (Py.radians 15) / 2 * x else yend + Real.tan (Py.radians 15) * (x - 1)) := by
  obtain ⟨l1, l2⟩ := pm_two
  obtain ⟨M, k1, k2, k3⟩ := pm_room (w := pmDeg 1.4 2 - 15) (by linarith) (by linarith)
  obtain ⟨m, w', e1, e2, e3, e4⟩ := C141_inverse_partial M _ (by norm_num at k1; linarith) (k2.trans (by norm_num)) k3
  rw [pm_value (by norm_num) e2 e3] at e4
  obtain ⟨d1, d2⟩ := abs_le.1 e4
  norm_num at d1 d2
  have hm1 : 1.2 ≤ m := pm_order (by norm_num) e2 (by norm_num at l1 ⊢; linarith)
  have hm2 : m ≤ 2 := pm_order e2 (by norm_num) (by linarith)
  have u1 := muDeg_anti (by norm_num) hm1
  have u2 := muDeg_anti e2 hm2
  have u3 := mu_1_2
  rw [mu_two] at u2
  have hq0 := muDeg_ok (m := 2) (by norm_num)
  have hq1 := muDeg_ok e2
  rw [Py.div_ok (by norm_num), Py.ok_bind] at hq0
  rw [Py.div_ok (by linarith), Py.ok_bind] at hq1
  rw [mu_two] at hq0
  obtain ⟨t1, t2⟩ := tan_range (a := 15) le_rfl (by norm_num)
  obtain ⟨T, hT⟩ : ∃ T, T = Real.tan (Py.radians 15) := ⟨_, rfl⟩
  have c1 := tanDeg_ok (a := 15) (by norm_num) (by norm_num)
  have c2 := tanDeg_ok (a := 30) (by norm_num) (by norm_num)
  have c3 := tanDeg_ok (a := muDeg m) (by linarith) (by linarith)
  have p30 : 0 < Real.tan (Py.radians 30) := by
    rw [← tanDeg_zero]; exact tanDeg_lt (by norm_num) (by norm_num) (by norm_num)
  have ple : Real.tan (Py.radians 30) ≤ Real.tan (Py.radians (muDeg m)) := by
    rcases eq_or_lt_of_le u2 with h | h
    · rw [← h]
    · exact (tanDeg_lt (by norm_num) h (by linarith)).le
  rw [← hT] at c1 t1 t2
  norm_num at t1
  have hcos : degree.cos (T + muDeg m) < degree.cos 30 := by
    unfold degree.cos
    refine cos_lt_cos_of_nonneg_of_le_pi (by unfold Py.radians; positivity) ?_ (Py.radians_strictMono (by linarith))
    unfold Py.radians
    nlinarith [pi_pos]
  have hc30 : 0 < degree.cos 30 := by
    unfold degree.cos
    exact cos_pos_of_mem_Ioo ⟨by unfold Py.radians; nlinarith [pi_pos], by unfold Py.radians; nlinarith [pi_pos]⟩
  have hk := kr_anti p30 ple
  have hk1 : 0 < (√(Real.tan (Py.radians (muDeg m)) ^ 2 + 1 / 6) / Real.tan (Py.radians (muDeg m))) ^ (6:ℝ) :=
    rpow_pos_of_pos (div_pos (sqrt_pos.2 (by positivity)) (p30.trans_le ple)) _
  have hr0 := kr_ok p30
  have hr1 := kr_ok (p30.trans_le ple)
  obtain ⟨K0, hK0⟩ : ∃ K, K = (√(Real.tan (Py.radians 30) ^ 2 + 1 / 6) / Real.tan (Py.radians 30)) ^ (6:ℝ) := ⟨_, rfl⟩
  obtain ⟨K1, hK1⟩ : ∃ K, K = (√(Real.tan (Py.radians (muDeg m)) ^ 2 + 1 / 6) / Real.tan (Py.radians (muDeg m))) ^ (6:ℝ) := ⟨_, rfl⟩
  rw [← hK0] at hr0 hk
  rw [← hK1] at hr1 hk hk1
  have hd : K0 * degree.cos 30 - K1 * degree.cos (T + muDeg m) ≠ 0 := by
    have : K1 * degree.cos (T + muDeg m) < K1 * degree.cos 30 := mul_lt_mul_of_pos_left hcos hk1
    have : K1 * degree.cos 30 ≤ K0 * degree.cos 30 := mul_le_mul_of_nonneg_right hk hc30.le
    exact (by linarith : (0:ℝ) < _).ne'
  refine ⟨1 / (K0 * degree.cos 30 - K1 * degree.cos (T + muDeg m)) * K0 * degree.sin 30 -
    1 / (K0 * degree.cos 30 - K1 * degree.cos (T + muDeg m)) * K1 * degree.sin (T + muDeg m), fun x => ?_⟩
  unfold focused
  simp only []
  rw [← hT, c1, Py.ok_bind, Py.div_ok (by norm_num), Py.ok_bind, hq0, Py.ok_bind, om2_ok, Py.ok_bind, e1, Py.ok_bind, Py.div_ok (by linarith), Py.ok_bind, hq1, Py.ok_bind,
    c2, Py.ok_bind, c3, Py.ok_bind, hr0, Py.ok_bind, hr1, Py.ok_bind, Py.div_ok hd, Py.ok_bind, Py.pure_eq]

/-- **C161 (the focused compression does not focus).** In the last cell (Mach 2, 15 degrees), the wall is straight on `(0, 1)`, at half the slope announced: all the characteristics
drawn from there have the same slope, and no two of them have a common point. -/
theorem C161_focused_false : ∃ om0 s, PrandtlMeyer_Mach 2 1.4 = .ok om0 ∧ (∀ x : ℝ, 1e-4 ≤ x → x < 1 - 1e-4 →
      focused scipy 2 1.4 x = .ok (Real.tan (15 * (π / 180)) / 2 * x) ∧
      wall_angle (focused scipy 2 1.4) x = .ok (180 / π * arctan (Real.tan (15 * (π / 180)) / 2)) ∧ cp_slope scipy 1.4 om0 (focused scipy 2 1.4) x = .ok s) ∧
    ∀ x₁ x₂ y₁ y₂ u v : ℝ, 1e-4 ≤ x₁ → x₁ < x₂ → x₂ < 1 - 1e-4 → focused scipy 2 1.4 x₁ = .ok y₁ → focused scipy 2 1.4 x₂ = .ok y₂ →
      ¬ (v - y₁ = s * (u - x₁) ∧ v - y₂ = s * (u - x₂)) := by
  obtain ⟨yend, hy⟩ := focused_value
  obtain ⟨t1, t2⟩ := tan_range (a := 15) le_rfl (by norm_num)
  have hrad : Py.radians 15 = 15 * (π / 180) := rfl
  rw [hrad] at hy t1 t2
  obtain ⟨T, hT⟩ : ∃ T, T = Real.tan (15 * (π / 180)) := ⟨_, rfl⟩
  rw [← hT] at hy t1 t2 ⊢
  norm_num at t1
  have hv : ∀ x : ℝ, 0 ≤ x → x < 1 → focused scipy 2 1.4 x = .ok (T / 2 * x) := by
    intro x h0 h1
    rw [hy, if_neg (not_lt.2 h0), if_pos h1]
  have ha : ∀ x : ℝ, 1e-4 ≤ x → x < 1 - 1e-4 → wall_angle (focused scipy 2 1.4) x = .ok (degree.atan (T / 2)) := by
    intro x h0 h1
    norm_num at h0 h1
    unfold wall_angle
    simp only []
    rw [hv _ (by norm_num; linarith) (by norm_num; linarith), Py.ok_bind, hv _ (by norm_num; linarith) (by norm_num; linarith), Py.ok_bind, Py.div_ok (by norm_num), Py.ok_bind, Py.pure_eq]
    congr 2
    ring
  have hT0 : 0 ≤ degree.atan (T / 2) := by rw [← atan_zero']; exact atan_mono (by linarith)
  have hT1 : degree.atan (T / 2) ≤ 15 := by
    have e := atan_tanDeg (a := 15) (by norm_num) (by norm_num)
    rw [hrad, ← hT] at e
    rw [← e]; exact atan_mono (by linarith)
  obtain ⟨l1, l2⟩ := pm_two
  obtain ⟨M, k1, k2, k3⟩ := pm_room (w := pmDeg 1.4 2 - degree.atan (T / 2)) (by linarith) (by linarith)
  have hM1 : 1 ≤ M := by norm_num at k1; linarith
  obtain ⟨m, w', e1, e2, e3, e4⟩ := C141_inverse_partial M _ hM1 (k2.trans (by norm_num)) k3
  rw [pm_value (by norm_num) e2 e3] at e4
  have hm : 1.2 ≤ m := pm_order (by norm_num) e2 (by
    have := (abs_le.1 e4).1
    norm_num at this l1 ⊢
    linarith)
  have u1 := muDeg_anti (by norm_num) hm
  have u2 := mu_1_2
  have u3 := muDeg_pos e2
  have hs : T / 2 < Real.tan (Py.radians (degree.atan (T / 2) + muDeg m)) := by
    have := tanDeg_lt (a := degree.atan (T / 2)) (b := degree.atan (T / 2) + muDeg m) (by linarith) (by linarith) (by linarith)
    rwa [tanDeg_atan] at this
  refine ⟨_, Real.tan (Py.radians (degree.atan (T / 2) + muDeg m)), om2_ok, fun x h0 h1 => ?_, ?_⟩
  · have hx0 : 0 ≤ x := by norm_num at h0; linarith
    have hx1 : x < 1 := by norm_num at h1; linarith
    refine ⟨hv x hx0 hx1, ?_, ?_⟩
    · rw [ha x h0 h1]; congr 1; unfold degree.atan Py.degrees; ring
    · obtain ⟨m', f1, f2, f3, f4⟩ := cp_found (ha x h0 h1) hM1 (k2.trans (by norm_num)) k3
      have : mach_wall scipy 1.4 (pmDeg 1.4 2) (focused scipy 2 1.4) x = .ok m := by unfold mach_wall; rw [ha x h0 h1, Py.ok_bind, e1]
      rw [f1] at this
      rw [f4, Except.ok.inj this, tanDeg_ok (by linarith) (by linarith)]
  · rintro x₁ x₂ y₁ y₂ u v h0 h12 h1 hy1 hy2 ⟨g1, g2⟩
    norm_num at h0 h1
    rw [hv x₁ (by linarith) (by linarith)] at hy1
    rw [hv x₂ (by linarith) (by linarith)] at hy2
    rw [← Except.ok.inj hy1] at g1
    rw [← Except.ok.inj hy2] at g2
    nlinarith

end Aerokit.Props
