import Verif.Model.ReflexionNotebook
import Verif.Props.WedgeNotebook

/-! # C160 — the shock reflection notebooks, `notebooks/aero/Shock-21-reflexion.ipynb` and `Shock-21-reflexion-widget.ipynb` -/

namespace Aerokit.Props
open Real ShockWave IterativeSolve Wedge Reflexion

/-- the reflected shock repeats the computation of the first one -/
theorem cell8_of_cell6 {d γ : ℝ} {c e : First} (h : cell6 c.M1 d γ = .ok e) :
    cell8 d c γ = .ok ⟨e.sig1, e.Mn0, e.p1p0, e.Mn1, e.M1, e.p1p0 * c.p1p0⟩ := by
  unfold cell6 at h
  obtain ⟨s, h1, h⟩ := Py.bind_inv h
  obtain ⟨p, h2, h⟩ := Py.bind_inv h
  obtain ⟨m, h3, h⟩ := Py.bind_inv h
  obtain ⟨M1, h4, h5⟩ := Py.bind_inv h
  have := Except.ok.inj h5
  subst this
  unfold cell8
  simp only []
  rw [h1, Py.ok_bind, h2, Py.ok_bind, h3, Py.ok_bind, h4, Py.ok_bind]
  rfl

/-- the drawn shocks: the first starts from the corner at the angle `s1`, meets the opposite wall at height 1, where the second starts downwards at
the angle `s2 - d` -/
theorem points_ok {y d s1 s2 : ℝ} (h0 : 0 < s1) (h1 : s1 < 90) (h2 : 0 < s2 - d) (h3 : s2 - d < 90) (hy : y < 1) :
    ∃ a b, points y d s1 s2 = .ok [(0, 0), (a, 1), (b, y)] ∧ 0 < a ∧ a < b ∧
      1 = a * tan (s1 * (π / 180)) ∧ 1 - y = (b - a) * tan ((s2 - d) * (π / 180)) := by
  obtain ⟨r0, r1⟩ := Py.radians_mem h0 h1
  obtain ⟨q0, q1⟩ := Py.radians_mem h2 h3
  have t1 := Real.tan_pos_of_pos_of_lt_pi_div_two r0 r1
  have t2 := Real.tan_pos_of_pos_of_lt_pi_div_two q0 q1
  refine ⟨1 / tan (Py.radians s1), 1 / tan (Py.radians s1) + (1 - y) / tan (Py.radians (s2 - d)), ?_, by positivity, ?_, ?_, ?_⟩
  · unfold points
    rw [degree.tan_ok (sin_cos_pos r0 r1).2.ne', Py.ok_bind]
    lits
    rw [Py.div_ok t1.ne', Py.ok_bind, degree.tan_ok (sin_cos_pos q0 q1).2.ne', Py.ok_bind, Py.div_ok t2.ne', Py.ok_bind]
    rfl
  · have : 0 < (1 - y) / tan (Py.radians (s2 - d)) := div_pos (by linarith) t2
    linarith
  · show 1 = 1 / tan (Py.radians s1) * tan (Py.radians s1)
    field_simp
  · show 1 - y = (1 / tan (Py.radians s1) + (1 - y) / tan (Py.radians (s2 - d)) - 1 / tan (Py.radians s1)) * tan (Py.radians (s2 - d))
    field_simp
    ring

set_option maxHeartbeats 1000000 in
/-- C160, partial: a flow at a Mach number from 1.01 to 10 meets a ramp of at least a quarter of a degree with an attached weak shock at most 95 % as
strong as the one of largest deflection, and so does the flow that cell 6 computes behind it.  The notebook ends; each shock is an exact oblique shock,
the second upstream of the first one's computed Mach number; each turns the flow by the ramp angle within its tolerance, so that the flow behind the
reflection is parallel to the walls within the sum of the two; the pressure ratios multiply; the drawn shocks have the computed inclinations (the
reflected one, relative to the flow along the ramp).  Missing: shocks nearer to detachment, Mach numbers above 10. -/
theorem C160_reflection_partial (M0 d y σ σm p pm : ℝ) (hM1 : 1.01 ≤ M0) (hM2 : M0 ≤ 10) (hd : 0.25 ≤ d) (hy : y < 1)
    (hm : sigma_DevMax M0 1.4 = Except.ok σm) (hσ0 : 0 < σ) (hσ : σ ≤ σm) (hdev : deflection_Mach_sigma M0 σ 1.4 = Except.ok d)
    (hp : Ps_ratio (M0 * degree.sin σ) 1.4 = Except.ok p) (hpm : Ps_ratio (M0 * degree.sin σm) 1.4 = Except.ok pm)
    (hw : p - 1 ≤ 0.95 * (pm - 1)) (M1 σ' σm' p' pm' : ℝ) (hbehind : ∀ c, cell6 M0 d 1.4 = Except.ok c → c.M1 = M1)
    (hM1' : 1.01 ≤ M1) (hM2' : M1 ≤ 10)
    (hm' : sigma_DevMax M1 1.4 = Except.ok σm') (hσ0' : 0 < σ') (hσ' : σ' ≤ σm') (hdev' : deflection_Mach_sigma M1 σ' 1.4 = Except.ok d)
    (hp' : Ps_ratio (M1 * degree.sin σ') 1.4 = Except.ok p') (hpm' : Ps_ratio (M1 * degree.sin σm') 1.4 = Except.ok pm')
    (hw' : p' - 1 ≤ 0.95 * (pm' - 1)) :
    ∃ c s a b θ₁ N₁ θ₂ N₂, Reflexion.run M0 d y 1.4 = Except.ok (c, s, [(0, 0), (a, 1), (b, y)]) ∧ c.M1 = M1 ∧
      0 < c.sig1 ∧ c.sig1 ≤ σm ∧ Spec.ObliqueShock 1.4 M0 c.sig1 θ₁ c.p1p0 N₁ ∧
      0 < s.sig2 ∧ s.sig2 ≤ σm' ∧ Spec.ObliqueShock 1.4 c.M1 s.sig2 θ₂ s.p2p1 N₂ ∧ s.p2p0 = c.p1p0 * s.p2p1 ∧
      |θ₁ - d| ≤ (2 + 2.4 * M0 ^ 2) * (0.00001 * max 1 c.sig1) ∧ |θ₂ - d| ≤ (2 + 2.4 * c.M1 ^ 2) * (0.00001 * max 1 s.sig2) ∧
      |c.M1 - N₁| ≤ 6.5e-5 * (2 + 2.4 * M0 ^ 2) * N₁ ∧ |s.M2 - N₂| ≤ 6.5e-5 * (2 + 2.4 * c.M1 ^ 2) * N₂ ∧
      0 < a ∧ a < b ∧ 1 = a * tan (c.sig1 * (π / 180)) ∧ 1 - y = (b - a) * tan ((s.sig2 - d) * (π / 180)) := by
  have hγ : (1:ℝ) < 1.4 := by norm_num
  obtain ⟨c, θ₁, N₁, b1, b2, b3, b4, b5, -, b6, b7, b8, b9⟩ := C159_shock_partial M0 d σ σm p pm hM1 hM2 hd hm hσ0 hσ hdev hp hpm hw
  obtain ⟨e, θ₂, N₂, d1, d2, d3, d4, d5, -, d6, d7, d8, d9⟩ := C159_shock_partial M1 d σ' σm' p' pm' hM1' hM2' hd hm' hσ0' hσ' hdev' hp' hpm' hw'
  have hc := hbehind c b1
  have m0 : σm < 90 := (slope_at_max hγ (by norm_num at hM1; linarith) hm).2.1
  have m1 : σm' < 90 := (slope_at_max hγ (by norm_num at hM1'; linarith) hm').2.1
  rw [← hc] at d1
  have h8 := cell8_of_cell6 d1
  have hd0 : 0 < d := by norm_num at hd; linarith
  obtain ⟨s, hs⟩ : ∃ s, s = (⟨e.sig1, e.Mn0, e.p1p0, e.Mn1, e.M1, e.p1p0 * c.p1p0⟩ : Second) := ⟨_, rfl⟩
  have s1 : s.sig2 = e.sig1 := by rw [hs]
  have s2 : s.p2p1 = e.p1p0 := by rw [hs]
  have s3 : s.M2 = e.M1 := by rw [hs]
  have s4 : s.p2p0 = e.p1p0 * c.p1p0 := by rw [hs]
  rw [← hs] at h8
  rw [← s1] at d2 d3 d4 d5 d6
  rw [← s2] at d5 s4
  rw [← s3] at d9
  obtain ⟨a, b, k1, k2, k3, k4, k5⟩ := points_ok (y := y) (d := d) (s1 := c.sig1) (s2 := s.sig2) b2 (by linarith) (by linarith) (by linarith) hy
  obtain ⟨x, z, hlim, -⟩ := limits_ok (M := M0) (γ := 1.4) hγ (by norm_num at hM1; linarith)
  rw [← hc] at d5 d6 d9
  refine ⟨c, s, a, b, θ₁, N₁, θ₂, N₂, ?_, hc, b2, b4, b5, d2, d4, d5, by rw [s4, mul_comm], b6, d6, b9, d9, k2, k3, k4, k5⟩
  unfold Reflexion.run
  rw [hlim, Py.ok_bind, b1, Py.ok_bind, h8, Py.ok_bind]
  rw [k1, Py.ok_bind]
  rfl

/-- an arc tangent of more than 18.2 degrees -/
theorem deg18 {T : ℝ} (hT : 0.3325 ≤ T) : 18.2 < Py.degrees (arctan T) := by
  have hp := Real.pi_gt_d2
  have hp2 := Real.pi_lt_d4
  norm_num at hp2
  obtain ⟨x, hx⟩ : ∃ x, x = π * (91/900) := ⟨_, rfl⟩
  have x0 : 0 < x := by rw [hx]; positivity
  have x1 : x ≤ 31768/100000 := by rw [hx]; linarith
  have h1 : (18.2:ℝ) = Py.degrees x := by
    have := Real.pi_ne_zero
    rw [hx]; unfold Py.degrees; field_simp; norm_num
  rw [h1, Py.degrees_lt, ← Real.arctan_tan (x := x) (by linarith) (by linarith)]
  apply Real.arctan_strictMono
  rw [Real.tan_eq_sin_div_cos]
  have hs := (abs_le.1 (Real.sin_bound (x := x) (by rw [abs_of_pos x0]; linarith))).2
  rw [abs_of_pos x0] at hs
  have hc := Real.one_sub_sq_div_two_le_cos (x := x)
  have x2 : x ^ 2 ≤ 1009206/10000000 := by nlinarith
  have hs2 : sin x ≤ 3132/10000 := by
    have h3 : x * (1 - x ^ 2 / 6 + x ^ 3 * (5/96)) ≤ 3132/10000 := by
      have h4 : x ^ 3 * (5/96) ≤ 17/10000 := by
        have : x ^ 3 ≤ 1009206/10000000 * (31768/100000) := by
          have := mul_le_mul x2 x1 x0.le (by norm_num)
          calc x ^ 3 = x ^ 2 * x := by ring
            _ ≤ _ := this
        linarith
      have h5 : x * (1 - x ^ 2 / 6) ≤ 31768/100000 * (1 - (31768/100000) ^ 2 / 6) := by
        nlinarith [mul_nonneg (sub_nonneg.2 x1) x0.le, mul_nonneg (sub_nonneg.2 x1) (sq_nonneg x)]
      nlinarith [mul_le_mul_of_nonneg_left h4 x0.le]
    nlinarith
  have hc2 : 9495/10000 ≤ cos x := by linarith
  rw [div_lt_iff₀ (by linarith)]
  norm_num at hT
  nlinarith

/-- an arc tangent of less than 17.5 degrees -/
theorem deg17 {T : ℝ} (h0 : 0 < T) (hT : T ≤ 0.302) : Py.degrees (arctan T) < 17.5 := by
  have hp := Real.pi_gt_d2
  have := arctan_le_self' h0.le
  unfold Py.degrees
  have h1 : arctan T * (180 / π) ≤ 0.302 * (180 / π) := mul_le_mul_of_nonneg_right (this.trans hT) (by positivity)
  refine h1.trans_lt ?_
  rw [mul_div_assoc', div_lt_iff₀ Real.pi_pos]
  norm_num at hp ⊢
  linarith

/-- sine and cosine of 18 degrees -/
theorem sin_cos_eighteen : 3090/10000 ≤ sin (π / 10) ∧ sin (π / 10) ≤ 3091/10000 ∧ 9510/10000 ≤ cos (π / 10) ∧ cos (π / 10) ≤ 9511/10000 := by
  have hp := Real.pi_pos
  have h5 : (2.236:ℝ) < √5 ∧ √5 < 2.2361 := ⟨Real.lt_sqrt_of_sq_lt (by norm_num), (Real.sqrt_lt' (by norm_num)).2 (by norm_num)⟩
  obtain ⟨a, b⟩ := h5
  have h := Real.cos_pi_div_five
  have h2 := Real.cos_two_mul' (π / 10)
  rw [show 2 * (π / 10) = π / 5 by ring, h] at h2
  have h3 := Real.sin_sq_add_cos_sq (π / 10)
  obtain ⟨s0, c0⟩ := sin_cos_pos (s := π / 10) (by positivity) (by linarith)
  norm_num at a b
  refine ⟨?_, ?_, ?_, ?_⟩ <;> nlinarith

/-- the Mach number that cell 6 computes at Mach 2.8, for shock angles of tangent 0.72 to 0.77 on an 18° ramp -/
theorem mach_ramp_bounds {x : ℝ} (x0 : 0 < x) (x1 : x < 90) (h1 : 3414/10000 ≤ sin (Py.radians x) ^ 2) (h2 : sin (Py.radians x) ^ 2 ≤ 37222/100000) :
    1.9 ≤ √(mn2 (2.8 * degree.sin x) 1.4) / degree.sin (x - 18) ∧ √(mn2 (2.8 * degree.sin x) 1.4) / degree.sin (x - 18) ≤ 2.2 := by
  obtain ⟨r0, r1⟩ := Py.radians_mem x0 x1
  obtain ⟨hs, hc⟩ := sin_cos_pos r0 r1
  obtain ⟨q1, q2, q3, q4⟩ := sin_cos_eighteen
  have hsc := Real.sin_sq_add_cos_sq (Py.radians x)
  have e : degree.sin (x - 18) = sin (Py.radians x) * cos (π / 10) - cos (Py.radians x) * sin (π / 10) := by
    have h30 : Py.radians (x - 18) = Py.radians x - π / 10 := by unfold Py.radians; ring
    unfold degree.sin
    rw [h30, Real.sin_sub]
  obtain ⟨S, hS⟩ : ∃ S, S = sin (Py.radians x) := ⟨_, rfl⟩
  obtain ⟨C, hC⟩ : ∃ C, C = cos (Py.radians x) := ⟨_, rfl⟩
  obtain ⟨s, hs'⟩ : ∃ s, s = sin (π / 10) := ⟨_, rfl⟩
  obtain ⟨k, hk⟩ : ∃ k, k = cos (π / 10) := ⟨_, rfl⟩
  have hd : degree.sin x = S := by rw [hS]; rfl
  rw [e, hd, ← hS, ← hC, ← hs', ← hk]
  rw [← hS] at h1 h2 hs hsc
  rw [← hC] at hc hsc
  rw [← hs'] at q1 q2
  rw [← hk] at q3 q4
  have s1 : 5842/10000 ≤ S := by nlinarith
  have s2 : S ≤ 6102/10000 := by nlinarith
  have c1 : 7922/10000 ≤ C := by nlinarith
  have c2 : C ≤ 8117/10000 := by nlinarith
  obtain ⟨D, hD⟩ : ∃ D, D = S * k - C * s := ⟨_, rfl⟩
  have d1 : 303/1000 ≤ D := by
    have t1 := mul_le_mul s1 q3 (by norm_num) hs.le
    have t2 := mul_le_mul c2 q2 (by linarith) (by norm_num)
    rw [hD]; linarith
  have d2 : D ≤ 3357/10000 := by
    have t1 := mul_le_mul s2 q4 (by linarith) (by norm_num)
    have t2 := mul_le_mul c1 q1 (by norm_num) hc.le
    rw [hD]; linarith
  have m : mn2 (2.8 * S) 1.4 = (1 + 196/125 * S ^ 2) / (1372/125 * S ^ 2 - 1/5) := by
    unfold mn2; congr 1 <;> norm_num <;> ring
  have hden : 0 < 1372/125 * S ^ 2 - 1/5 := by linarith
  have m1 : (638/1000) ^ 2 ≤ mn2 (2.8 * S) 1.4 := by rw [m, le_div_iff₀ hden]; linarith
  have m2 : mn2 (2.8 * S) 1.4 ≤ (66/100) ^ 2 := by rw [m, div_le_iff₀ hden]; linarith
  have r1 := Real.le_sqrt_of_sq_le m1
  have r2 := (Real.sqrt_le_left (by norm_num : (0:ℝ) ≤ 66/100)).2 m2
  rw [← hD]
  constructor
  · rw [le_div_iff₀ (by linarith)]; norm_num; linarith
  · rw [div_le_iff₀ (by linarith)]; norm_num; linarith

theorem sin_sq_mono_deg {y z : ℝ} (y0 : 0 < y) (hyz : y ≤ z) (z1 : z < 90) : sin (Py.radians y) ^ 2 ≤ sin (Py.radians z) ^ 2 := by
  obtain ⟨p0, p1⟩ := Py.radians_mem y0 (hyz.trans_lt z1)
  obtain ⟨q0, q1⟩ := Py.radians_mem (y0.trans_le hyz) z1
  exact pow_le_pow_left₀ (sin_pos' p0 p1).le (Real.sin_le_sin_of_le_of_le_pi_div_two (by linarith) q1.le (Py.radians_strictMono.monotone hyz)) 2

set_option maxHeartbeats 1000000 in
/-- C160: the notebook at its own values (Mach 2.8, a ramp of 18°, air, reflected shock drawn down to height 0.75): it ends, both shocks are weak exact
oblique shocks that turn the flow by 18° within 0.02°, so that the flow behind the reflection is parallel to the walls within 0.04°; the Mach
number along the ramp is between 1.9 and 2.2, and the pressure ratios multiply. -/
theorem C160_notebook : ∃ c s a b θ₁ N₁ θ₂ N₂ σm₁ σm₂, Reflexion.run 2.8 18 0.75 1.4 = Except.ok (c, s, [(0, 0), (a, 1), (b, 0.75)]) ∧
    sigma_DevMax 2.8 1.4 = Except.ok σm₁ ∧ c.sig1 ≤ σm₁ ∧ Spec.ObliqueShock 1.4 2.8 c.sig1 θ₁ c.p1p0 N₁ ∧ |θ₁ - 18| ≤ 0.02 ∧
    1.9 ≤ c.M1 ∧ c.M1 ≤ 2.2 ∧ |c.M1 - N₁| ≤ 0.0014 * N₁ ∧
    sigma_DevMax c.M1 1.4 = Except.ok σm₂ ∧ s.sig2 ≤ σm₂ ∧ Spec.ObliqueShock 1.4 c.M1 s.sig2 θ₂ s.p2p1 N₂ ∧ |θ₂ - 18| ≤ 0.02 ∧ |θ₁ - θ₂| ≤ 0.04 ∧
    |s.M2 - N₂| ≤ 0.001 * N₂ ∧ s.p2p0 = c.p1p0 * s.p2p1 ∧
    0 < a ∧ a < b ∧ 1 = a * tan (c.sig1 * (π / 180)) ∧ 1 - 0.75 = (b - a) * tan ((s.sig2 - 18) * (π / 180)) := by
  have hγ : (1:ℝ) < 1.4 := by norm_num
  have h28 : (1:ℝ) < 2.8 := by norm_num
  obtain ⟨u0, u1, us, ud⟩ := dev_of_tan (M := 2.8) (T := 77/100) (by norm_num) (by norm_num)
  have hdu : 18.2 < devDeg 2.8 1.4 (Py.degrees (arctan (77/100))) := by
    rw [ud]; exact deg18 (by norm_num)
  have hdu' := hdu
  norm_num at hdu'
  obtain ⟨σ, σm, p, pm, a1, a2, a3, a4, a5, a6, a7, a8⟩ := attach (M := 2.8) (d := 18) (by norm_num) (by norm_num) u0 u1 (by rw [us]; norm_num)
    (lt_trans (by norm_num) hdu) (by rw [us]; norm_num)
  obtain ⟨c, θ, N, b1, b2, -, b3, b4, b5, b6, b7, b8, b9⟩ := C159_shock_partial 2.8 18 σ σm p pm (by norm_num) (by norm_num) (by norm_num) a1 a3 (a4.trans a2).le a5 a6 a7 a8
  obtain ⟨-, m90, -⟩ := slope_at_max hγ h28 a1
  have hx90 : c.sig1 < 90 := by linarith
  have htol : |θ - 18| ≤ 0.02 := by
    refine b6.trans ?_
    have : max 1 c.sig1 ≤ 90 := max_le (by norm_num) hx90.le
    norm_num
    linarith
  have hdx : devDeg 2.8 1.4 c.sig1 = θ := by
    rw [deflection_dev hγ (by norm_num) b2 hx90] at b5; exact Except.ok.inj b5
  obtain ⟨hmono, -⟩ := devDeg_strictMono hγ h28 a1
  have ht := abs_le.1 htol
  norm_num at ht
  obtain ⟨l0, l1, ls, ld⟩ := dev_of_tan (M := 2.8) (T := 18/25) (by norm_num) (by norm_num)
  have hdl : devDeg 2.8 1.4 (Py.degrees (arctan (18/25))) < 17.5 := by
    rw [ld]; exact deg17 (by norm_num) (by norm_num)
  have hdl' := hdl
  norm_num at hdl'
  obtain ⟨r0, r1⟩ := Py.radians_mem b2 hx90
  have hxu : c.sig1 ≤ Py.degrees (arctan (77/100)) := by
    by_contra hcon
    push Not at hcon
    have := hmono ⟨u0, a2.le⟩ ⟨b2, b3⟩ hcon
    rw [hdx] at this
    norm_num at this
    linarith
  have hlu : Py.degrees (arctan (18/25)) < Py.degrees (arctan (77/100)) := Py.degrees_lt.2 (Real.arctan_strictMono (by norm_num))
  have hxl : Py.degrees (arctan (18/25)) ≤ c.sig1 := by
    by_contra hcon
    push Not at hcon
    have := hmono ⟨b2, b3⟩ ⟨l0, (hlu.trans a2).le⟩ hcon
    rw [hdx] at this
    norm_num at this
    linarith
  have hs1 := sin_sq_mono_deg l0 hxl hx90
  have hs2 := sin_sq_mono_deg b2 hxu u1
  rw [ls] at hs1
  rw [us] at hs2
  norm_num at hs1 hs2
  obtain ⟨k1, k2⟩ := mach_ramp_bounds b2 hx90 (by linarith) (by linarith)
  obtain ⟨i1, i2⟩ := cell6_inv b1
  have hn : 1 ≤ 2.8 * degree.sin c.sig1 := by
    have : 0 < sin (Py.radians c.sig1) := sin_pos' r0 r1
    unfold degree.sin
    norm_num
    nlinarith
  rw [downstream_Mn_ok hγ (dom_of_one_le hγ hn)] at i1
  rw [Except.ok.inj i1, ← i2] at k1 k2
  obtain ⟨M, hM⟩ : ∃ M, M = c.M1 := ⟨_, rfl⟩
  rw [← hM] at k1 k2
  have f1 : 19/10 ≤ M := by norm_num at k1; linarith
  have f2 : M ≤ 11/5 := by norm_num at k2; linarith
  have hMM : (361/100 : ℝ) ≤ M ^ 2 := by nlinarith
  have hMM2 : M ^ 2 ≤ 121/25 := by nlinarith
  obtain ⟨t0, t1, ts, td⟩ := dev_of_tan (M := M) (T := 8/5) (by linarith) (by norm_num)
  have htd : 18.2 < devDeg M 1.4 (Py.degrees (arctan (8/5))) := by
    rw [td]
    refine deg18 ?_
    norm_num
    rw [le_div_iff₀ (by linarith)]
    linarith
  obtain ⟨σ', σm', p', pm', c1, c2, c3, c4, c5, c6, c7, c8⟩ := attach (M := M) (d := 18) (by norm_num; linarith) (by norm_num) t0 t1 (by rw [ts]; norm_num)
    (lt_trans (by norm_num) htd) (by rw [ts]; norm_num; linarith)
  obtain ⟨c', s, a, b, θ₁, N₁, θ₂, N₂, e1, e2, e3, e4, e5, e6, e7, e8, e9, e10, e11, e12, e13, e14, e15, e16, e17⟩ :=
    C160_reflection_partial 2.8 18 0.75 σ σm p pm (by norm_num) (by norm_num) (by norm_num) (by norm_num) a1 a3 (a4.trans a2).le a5 a6 a7 a8 M σ' σm' p' pm'
      (fun c₁ h => by rw [b1] at h; rw [← Except.ok.inj h, hM]) (by norm_num; linarith) (by linarith) c1 c3 (c4.trans c2).le c5 c6 c7 c8
  have n90 : σm' < 90 := (slope_at_max hγ (by linarith) c1).2.1
  have q1 : |θ₁ - 18| ≤ 0.02 := by
    refine e10.trans ?_
    have : max 1 c'.sig1 ≤ 90 := max_le (by norm_num) (by linarith)
    norm_num
    linarith
  have q2 : |θ₂ - 18| ≤ 0.02 := by
    refine e11.trans ?_
    have h1 : max 1 s.sig2 ≤ 90 := max_le (by norm_num) (by linarith)
    have h0 : (1:ℝ) ≤ max 1 s.sig2 := le_max_left _ _
    rw [e2]
    norm_num
    have h3 : (2 + 12/5 * M ^ 2) ≤ 2 + 12/5 * (121/25) := by linarith
    have := mul_le_mul h3 (show (1/100000) * max 1 s.sig2 ≤ (1/100000) * 90 by linarith) (by linarith) (by norm_num)
    linarith
  have hN₁ : 0 ≤ N₁ := by
    obtain ⟨ρ, V, -, hV, -, -, -, h⟩ := e5
    rw [h]; positivity
  have hN₂ : 0 ≤ N₂ := by
    obtain ⟨ρ, V, -, hV, -, -, -, h⟩ := e8
    rw [h]; positivity
  rw [← e2] at k1 k2 c1
  refine ⟨c', s, a, b, θ₁, N₁, θ₂, N₂, σm, σm', e1, a1, e4, e5, q1, k1, k2, ?_, c1, e7, e8, q2, ?_, ?_, e9, e14, e15, e16, e17⟩
  · exact e12.trans (mul_le_mul_of_nonneg_right (by norm_num) hN₁)
  · have g1 := abs_le.1 q1
    have g2 := abs_le.1 q2
    norm_num at g1 g2
    rw [abs_le]
    norm_num
    constructor <;> linarith
  · refine e13.trans (mul_le_mul_of_nonneg_right ?_ hN₂)
    rw [e2]
    norm_num
    linarith

/-- the hypotheses of `C160_reflection_partial` hold at Mach 2.8 on a ramp of 18° (see `C160_notebook`, which applies it); those on the first shock -/
example : ∃ σ σm p pm, sigma_DevMax 2.8 1.4 = Except.ok σm ∧ 0 < σ ∧ σ ≤ σm ∧ deflection_Mach_sigma 2.8 σ 1.4 = Except.ok 18 ∧
    Ps_ratio (2.8 * degree.sin σ) 1.4 = Except.ok p ∧ Ps_ratio (2.8 * degree.sin σm) 1.4 = Except.ok pm ∧ p - 1 ≤ 0.95 * (pm - 1) := by
  obtain ⟨u0, u1, us, ud⟩ := dev_of_tan (M := 2.8) (T := 77/100) (by norm_num) (by norm_num)
  obtain ⟨σ, σm, p, pm, a1, a2, a3, a4, a5, a6, a7, a8⟩ := attach (M := 2.8) (d := 18) (by norm_num) (by norm_num) u0 u1 (by rw [us]; norm_num)
    (lt_trans (show (18:ℝ) < 18.2 by norm_num) (by rw [ud]; exact deg18 (by norm_num))) (by rw [us]; norm_num)
  exact ⟨σ, σm, p, pm, a1, a3, (a4.trans a2).le, a5, a6, a7, a8⟩

/-- C160 fails on a flat wall (`wdev = 0`, the lowest position of the slider of the widget version): at every supersonic Mach number of the other slider (up to 10)
`sigma_Mach_deflection` returns the angle 0 instead of the Mach angle, the normal Mach number is 0, and no number is obtained behind that "shock". -/
theorem C160_zero_false (M y : ℝ) (hM : 1 < M) (hM2 : M ≤ 10) : sigma_Mach_deflection M 0 none 1.4 = Except.ok 0 ∧ Reflexion.run M 0 y 1.4 = Except.error .nonFinite := by
  have hγ : (1:ℝ) < 1.4 := by norm_num
  have h0 : sigma_Mach_deflection M 0 none 1.4 = .ok 0 := by
    obtain ⟨μ, h1, h2, -, h3⟩ := C98_zero_false M 1.4 hγ hM
    have eμ : μ = Py.degrees (arcsin (1 / M)) := by rw [(mach_angle hM).1] at h1; exact (Except.ok.inj h1).symm
    obtain ⟨μ0, μ1, μs, -⟩ := mach_tan (μ := Py.radians μ) hM (by rw [eμ, Py.radians_degrees])
    have h4 := Real.sin_le μ0.le
    rw [μs] at h4
    have h5 : 1/10 ≤ 1 / M := by rw [div_le_div_iff₀ (by norm_num) (by linarith)]; linarith
    have := Real.pi_le_four
    unfold Py.radians at h4
    have hp := Real.pi_pos
    exact h3 (by norm_num; nlinarith)
  refine ⟨h0, ?_⟩
  obtain ⟨x, z, hlim, -⟩ := limits_ok (M := M) (γ := 1.4) hγ hM
  unfold Reflexion.run cell6
  simp only []
  rw [hlim, Py.ok_bind, h0, Py.ok_bind]
  have hs : M * degree.sin 0 = 0 := by unfold degree.sin Py.radians; simp
  rw [hs, Ps_ratio_ok hγ, Py.ok_bind]
  have hd : downstream_Mn 0 1.4 = .error .nonFinite := by
    unfold downstream_Mn
    rw [Py.div_ok (by norm_num), Py.ok_bind, Py.sqrt_err (by norm_num)]
  rw [hd]
  rfl

end Aerokit.Props
