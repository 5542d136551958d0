import Verif.Model.WedgeNotebook
import Verif.Spec.ObliqueShock
import Verif.Spec.Polar
import Verif.Props.WeakAir
import Verif.Props.ShockWave
import Verif.Props.ScipyPM

/-! # C159 — the shock–expansion–shock notebook, `notebooks/aero/Shock-22-shock-expansion.ipynb` -/

namespace Aerokit.Props
open Real ShockWave Supersonic Isentropic IterativeSolve ScipyNewton Wedge

/-- the shock at the angle `σ`, with the deflection, the pressure ratio and the Mach number of the code -/
theorem oblique_value {γ M σ : ℝ} (hγ : 1 < γ) (hM : 0 < M) (h0 : 0 < σ) (h1 : σ < 90) (hn : 1 ≤ M * degree.sin σ) :
    ∃ θ t t', deflection_Mach_sigma M σ γ = .ok θ ∧ 0 < σ - θ ∧ σ - θ < 90 ∧
      t = tan (Py.radians σ) ∧ t' = tan (Py.radians (σ - θ)) ∧ t' * rhr (M * degree.sin σ) γ = t ∧
      0 < √(mn2 (M * degree.sin σ) γ) / degree.sin (σ - θ) ∧
      Spec.ObliqueShock γ M σ θ (psr (M * degree.sin σ) γ) (√(mn2 (M * degree.sin σ) γ) / degree.sin (σ - θ)) := by
  obtain ⟨θ, r, t, t', a1, a2, a3, a4, a5, a6, a7⟩ := C14_theta_beta_mach M σ γ hγ hM h0 h1
  obtain ⟨s0, s1⟩ := Py.radians_mem h0 h1
  obtain ⟨y0, y1⟩ := Py.radians_mem a6 a7
  obtain ⟨hS, hC⟩ := sin_cos_pos s0 s1
  obtain ⟨hS', hC'⟩ := sin_cos_pos y0 y1
  have hd := dom_of_one_le hγ hn
  have hN0 : M * degree.sin σ ≠ 0 := by linarith
  have p1 := psr_pos hγ hd
  have p2 := rhr_pos hγ hN0
  have p3 := sqrt_pos.2 (mn2_pos hγ hd)
  rw [Rho_ratio_ok hγ] at a2
  rw [degree.tan_ok hC.ne'] at a3
  rw [degree.tan_ok hC'.ne'] at a4
  have e2 := Except.ok.inj a2
  have e3 := Except.ok.inj a3
  have e4 := Except.ok.inj a4
  rw [← e2] at a5
  have hsin : degree.sin (σ - θ) = sin (Py.radians (σ - θ)) := rfl
  refine ⟨θ, t, t', a1, a6, a7, e3.symm, e4.symm, a5, by rw [hsin]; positivity, ?_⟩
  obtain ⟨kp, kr, kt, m2, b1, b2, b3, b4, b5, b6, b7, b8⟩ := C09_rankine_hugoniot γ (M * degree.sin σ) 1 1 hγ hn one_pos one_pos
  rw [Ps_ratio_ok hγ] at b1
  rw [Rho_ratio_ok hγ] at b2
  rw [downstream_Mn_ok hγ hd] at b4
  have c1 := Except.ok.inj b1
  have c2 := Except.ok.inj b2
  have c4 := Except.ok.inj b4
  rw [← c1, ← c2, ← c4] at b8
  simp only [one_mul, mul_one, div_one] at b8
  have hγ0 : 0 < γ := by linarith
  have ha : 0 < √(γ * psr (M * degree.sin σ) γ / rhr (M * degree.sin σ) γ) := sqrt_pos.2 (by positivity)
  obtain ⟨a, ea⟩ : ∃ a, a = √(γ * psr (M * degree.sin σ) γ / rhr (M * degree.sin σ) γ) := ⟨_, rfl⟩
  obtain ⟨m, em⟩ : ∃ m, m = √(mn2 (M * degree.sin σ) γ) := ⟨_, rfl⟩
  obtain ⟨y, ey⟩ : ∃ y, y = Py.radians (σ - θ) := ⟨_, rfl⟩
  have ey' : (σ - θ) * (π / 180) = y := by rw [ey]; rfl
  have es : σ * (π / 180) = Py.radians σ := rfl
  have e5 : degree.sin (σ - θ) = sin y := by rw [ey]; rfl
  rw [← ey] at hS' hC' e4
  rw [← ea] at b8 ha
  rw [← em] at b8 p3
  refine ⟨rhr (M * degree.sin σ) γ, m / sin y * a, p2, by positivity, ?_, ?_, ?_, ?_⟩
  · unfold psr
    have : 0 ≤ 2 * γ / (γ + 1) := by positivity
    nlinarith [mul_nonneg this (by nlinarith : 0 ≤ (M * degree.sin σ) ^ 2 - 1)]
  · rw [ey', es]
    have e : m / sin y * a * sin y = m * a := by field_simp
    have e' : M * √γ * sin (Py.radians σ) = M * degree.sin σ * √γ := by unfold degree.sin; ring
    rw [e, e']; exact b8
  · rw [ey', es]
    have hm := b8.1
    simp only [Spec.Flow.massFlux, one_mul] at hm
    have ht : tan y * rhr (M * degree.sin σ) γ = tan (Py.radians σ) := by rw [e3, e4]; exact a5
    rw [Real.tan_eq_sin_div_cos, Real.tan_eq_sin_div_cos] at ht
    unfold degree.sin at hm ht
    obtain ⟨r, er⟩ : ∃ r, r = rhr (M * sin (Py.radians σ)) γ := ⟨_, rfl⟩
    rw [← er] at hm ht
    have h2 : sin y * r * cos (Py.radians σ) = sin (Py.radians σ) * cos y := by
      field_simp at ht; linarith
    have hr : r ≠ 0 := by rw [er]; exact (rhr_pos hγ hN0).ne'
    have h3 : r * (m * a * cos y) = r * (M * √γ * cos (Py.radians σ) * sin y) := by
      linear_combination cos y * (-hm) - M * √γ * h2
    have h4 := mul_left_cancel₀ hr h3
    field_simp
    linarith
  · rw [e5, ← ea, ← em]
    field_simp

/-- the flow behind a shock in air makes with it an angle of at least `10/63` of the shock angle -/
theorem behind_room {y x r : ℝ} (y0 : 0 < y) (y1 : y < π / 2) (x0 : 0 < x) (x1 : x < π / 2) (r0 : 0 < r) (hr : r ≤ 6) (h : tan y * r = tan x) : 10 / 63 * x ≤ y := by
  have hx := Real.lt_tan x0 x1
  have hpi := Real.pi_lt_d2
  rcases le_or_gt (1/4) y with hy | hy
  · norm_num at hpi; linarith
  have ht : tan y ≤ y / (1 - y ^ 2 / 2) := by
    rw [Real.tan_eq_sin_div_cos]
    have hc := Real.one_sub_sq_div_two_le_cos (x := y)
    have hpos : 0 < 1 - y ^ 2 / 2 := by nlinarith
    exact div_le_div₀ y0.le (Real.sin_le y0.le) hpos hc
  have h2 : y / (1 - y ^ 2 / 2) ≤ y * (32 / 31) := by
    rw [div_le_iff₀ (by nlinarith)]
    have : y ^ 2 ≤ 1/16 := by nlinarith
    nlinarith
  have h3 : tan y * r ≤ y * (32/31) * 6 := mul_le_mul (ht.trans h2) hr r0.le (by positivity)
  linarith

/-- two sines in the first quadrant are closer, relatively, than their angles -/
theorem sin_rel {a b : ℝ} (a0 : 0 < a) (a1 : a < π / 2) (b0 : 0 < b) (b1 : b < π / 2) : |sin a - sin b| * b ≤ sin b * |a - b| := by
  obtain ⟨sa, ca⟩ := sin_cos_pos a0 a1
  obtain ⟨sb, cb⟩ := sin_cos_pos b0 b1
  have key : ∀ u v : ℝ, 0 < u → u < π / 2 → u ≤ v → v < π / 2 → sin v * u ≤ sin u * v := by
    intro u v u0 u1 huv v1
    obtain ⟨su, cu⟩ := sin_cos_pos u0 u1
    have e : sin v = sin u * cos (v - u) + cos u * sin (v - u) := by rw [← sin_add]; congr 1; ring
    have h1 : cos (v - u) ≤ 1 := cos_le_one _
    have h2 : sin (v - u) ≤ v - u := Real.sin_le (by linarith)
    have h3 : u * cos u ≤ sin u := by
      have := (Real.lt_tan u0 u1).le
      rw [Real.tan_eq_sin_div_cos, le_div_iff₀ cu] at this
      exact this
    have h4 : sin v ≤ sin u + cos u * (v - u) := by
      rw [e]; nlinarith [mul_le_mul_of_nonneg_left h1 su.le, mul_le_mul_of_nonneg_left h2 cu.le]
    nlinarith [mul_le_mul_of_nonneg_right h4 u0.le, mul_le_mul_of_nonneg_right h3 (sub_nonneg.2 huv)]
  rcases le_total a b with h | h
  · have hs : sin a ≤ sin b := Real.sin_le_sin_of_le_of_le_pi_div_two (by linarith) b1.le h
    rw [abs_of_nonpos (by linarith), abs_of_nonpos (by linarith)]
    have := key a b a0 a1 h b1
    nlinarith
  · have hs : sin b ≤ sin a := Real.sin_le_sin_of_le_of_le_pi_div_two (by linarith) a1.le h
    rw [abs_of_nonneg (by linarith), abs_of_nonneg (by linarith)]
    have := key b a b0 b1 h a1
    nlinarith

set_option maxHeartbeats 1000000 in
/-- C159, partial (cells 6 and 11): a flow at a Mach number from 1.01 to 10 is turned by at least a quarter of a degree, by an attached weak shock of
angle `σ` whose pressure rise is at most 95 % of the one at the largest deflection.  The cell ends; the shock it reports is an exact oblique shock, not
stronger than the one of largest deflection, whose deflection `θ` is the wall angle within `(2 + 2.4 M²)·10⁻⁵·max(1, angle)` degree; the pressure ratio
is that of this shock (steeper than the wall), and the Mach number is its downstream Mach number `N` within the relative error `6.5·10⁻⁵·(2 + 2.4 M²)` (the cell uses
the wall angle in place of the deflection of the reported shock).  Missing: shocks nearer to detachment, Mach numbers above 10. -/
theorem C159_shock_partial (M d σ σm p pm : ℝ) (hM1 : 1.01 ≤ M) (hM2 : M ≤ 10) (hd : 0.25 ≤ d)
    (hm : sigma_DevMax M 1.4 = Except.ok σm) (hσ0 : 0 < σ) (hσ : σ ≤ σm) (hdev : deflection_Mach_sigma M σ 1.4 = Except.ok d)
    (hp : Ps_ratio (M * degree.sin σ) 1.4 = Except.ok p) (hpm : Ps_ratio (M * degree.sin σm) 1.4 = Except.ok pm)
    (hw : p - 1 ≤ 0.95 * (pm - 1)) :
    ∃ c θ N, cell6 M d 1.4 = Except.ok c ∧ 0 < c.sig1 ∧ d < c.sig1 ∧ c.sig1 ≤ σm ∧ Spec.ObliqueShock 1.4 M c.sig1 θ c.p1p0 N ∧
      deflection_Mach_sigma M c.sig1 1.4 = Except.ok θ ∧ |θ - d| ≤ (2 + 2.4 * M ^ 2) * (0.00001 * max 1 c.sig1) ∧
      0 < c.M1 ∧ 0 < N ∧ |c.M1 - N| ≤ 6.5e-5 * (2 + 2.4 * M ^ 2) * N := by
  have hγ : (1:ℝ) < 1.4 := by norm_num
  have hM : 1 < M := by norm_num at hM1; linarith
  have hM0 : 0 < M := by linarith
  have hd0 : 1/4 ≤ d := by norm_num at hd ⊢; exact hd
  obtain ⟨μ, eμ⟩ : ∃ μ, μ = Py.degrees (arcsin (1 / M)) := ⟨_, rfl⟩
  have hμ : degree.asin (1 / M) = .ok μ := by rw [eμ]; exact (mach_angle hM).1
  obtain ⟨μ0, μ1, μs, -⟩ := mach_tan (μ := Py.radians μ) hM (by rw [eμ, Py.radians_degrees])
  have hμ57 : 2 ≤ μ := by
    have h1 := Real.sin_le μ0.le
    rw [μs] at h1
    have h2 : 1/10 ≤ 1 / M := by rw [div_le_div_iff₀ (by norm_num) hM0]; linarith
    have := Real.pi_le_four
    unfold Py.radians at h1
    have hp := Real.pi_pos
    have hμ0 : 0 < μ := by rw [eμ]; exact (mach_angle hM).2.1
    nlinarith
  obtain ⟨x, θ, -, b2, b3, b4, b5, b6⟩ := C98_air_converges M d σ σm μ p pm hM1 (by linarith) hm hσ0 hσ hdev hμ (by norm_num; linarith) hp hpm hw
  obtain ⟨-, m90, -⟩ := slope_at_max hγ hM hm
  have hx90 : x < 90 := by linarith
  obtain ⟨B, hB⟩ : ∃ B, B = 2 + 2.4 * M ^ 2 := ⟨_, rfl⟩
  have hB0 : 0 < B := by rw [hB]; positivity
  have hB1 : B ≤ 242 := by rw [hB]; norm_num; nlinarith
  rw [← hB] at b6 ⊢
  have hmax : max 1 x ≤ 90 := max_le (by norm_num) hx90.le
  have hθ0 : 0 < θ := by
    have h1 : B * (0.00001 * max 1 x) ≤ 242 * (0.00001 * 90) := mul_le_mul hB1 (by norm_num; linarith) (by positivity) (by norm_num)
    have := (abs_le.1 (b6.trans h1)).1
    norm_num at this
    linarith
  obtain ⟨θ', μ', g1, g2, -, -, -, g3, -⟩ := C14_sign M x 1.4 hγ hM b3 hx90
  have q1 : θ' = θ := by rw [b5] at g1; exact (Except.ok.inj g1).symm
  have q2 : μ' = μ := by rw [hμ] at g2; exact (Except.ok.inj g2).symm
  rw [q1, q2] at g3
  have hμx := g3.1 hθ0
  have hx1 : 1 ≤ x := by linarith
  rw [max_eq_right hx1] at b6
  obtain ⟨x0, x1⟩ := Py.radians_mem b3 hx90
  have hn : 1 ≤ M * degree.sin x := by
    have h1 := Real.sin_le_sin_of_le_of_le_pi_div_two (by linarith) x1.le (Py.radians_strictMono hμx).le
    rw [μs] at h1
    have := mul_le_mul_of_nonneg_left h1 hM0.le
    rw [mul_one_div_cancel hM0.ne'] at this
    exact this
  obtain ⟨θ'', t, t', c1, c2, c3, c4, c5, c6, c7, c8⟩ := oblique_value hγ hM0 b3 hx90 hn
  have q3 : θ'' = θ := by rw [b5] at c1; exact (Except.ok.inj c1).symm
  subst q3
  obtain ⟨y0, y1⟩ := Py.radians_mem c2 c3
  have hN0 : M * degree.sin x ≠ 0 := by linarith
  have hr6 : rhr (M * degree.sin x) 1.4 ≤ 6 := by
    unfold rhr
    rw [div_le_iff₀ (rho_den_pos hγ)]
    norm_num
    nlinarith [sq_nonneg (M * degree.sin x)]
  have hroom := behind_room y0 y1 x0 x1 (rhr_pos hγ hN0) hr6 (by rw [← c5, ← c4]; exact c6)
  have hpi := Real.pi_pos
  have hroom' : 10/63 * x ≤ x - θ'' := by
    unfold Py.radians at hroom
    have : 10/63 * x * (π / 180) ≤ (x - θ'') * (π / 180) := by linarith
    exact le_of_mul_le_mul_right this (by positivity)
  have htol := abs_le.1 b6
  have htx : B * (0.00001 * x) ≤ 0.00242 * x := by
    have := mul_le_mul_of_nonneg_right hB1 (by positivity : (0:ℝ) ≤ 0.00001 * x)
    refine this.trans (le_of_eq ?_)
    ring
  have hb : 0.1563 * x ≤ x - d := by norm_num at htx htol ⊢; linarith [htol.1]
  have hb0 : 0 < x - d := by have : (0:ℝ) < 0.1563 * x := by positivity
                             linarith
  obtain ⟨z0, z1⟩ := Py.radians_mem hb0 (by linarith : x - d < 90)
  obtain ⟨sb, -⟩ := sin_cos_pos z0 z1
  obtain ⟨sa, -⟩ := sin_cos_pos y0 y1
  have hdm := dom_of_one_le hγ hn
  have hmn := sqrt_pos.2 (mn2_pos hγ hdm)
  refine ⟨⟨x, M * degree.sin x, psr (M * degree.sin x) 1.4, √(mn2 (M * degree.sin x) 1.4), √(mn2 (M * degree.sin x) 1.4) / degree.sin (x - d)⟩, θ'', _, ?_,
    b3, by linarith, b4, c8, c1, ?_, ?_, c7, ?_⟩
  · unfold cell6
    simp only []
    rw [b2, Py.ok_bind]
    rw [Ps_ratio_ok hγ, Py.ok_bind, downstream_Mn_ok hγ hdm, Py.ok_bind, Py.div_ok (show degree.sin (x - d) ≠ 0 from sb.ne')]
    rfl
  · rw [max_eq_right hx1]; exact b6
  · exact div_pos hmn sb
  · show |√(mn2 (M * degree.sin x) 1.4) / degree.sin (x - d) - √(mn2 (M * degree.sin x) 1.4) / degree.sin (x - θ'')| ≤ _
    have hrel := sin_rel y0 y1 z0 z1
    have e1 : degree.sin (x - d) = sin (Py.radians (x - d)) := rfl
    have e2 : degree.sin (x - θ'') = sin (Py.radians (x - θ'')) := rfl
    have e3 : Py.radians (x - θ'') - Py.radians (x - d) = (d - θ'') * (π / 180) := by unfold Py.radians; ring
    rw [e1, e2]
    rw [e3, abs_mul, abs_of_pos (by positivity : 0 < π / 180), abs_sub_comm d θ''] at hrel
    obtain ⟨A, hA⟩ : ∃ A, A = sin (Py.radians (x - θ'')) := ⟨_, rfl⟩
    obtain ⟨C, hC⟩ : ∃ C, C = sin (Py.radians (x - d)) := ⟨_, rfl⟩
    obtain ⟨m, hmm⟩ : ∃ m, m = √(mn2 (M * degree.sin x) 1.4) := ⟨_, rfl⟩
    rw [← hA] at sa hrel ⊢
    rw [← hC] at sb hrel ⊢
    rw [← hmm] at hmn ⊢
    have h1 : |A - C| * (x - d) ≤ C * |θ'' - d| := by
      unfold Py.radians at hrel
      have : |A - C| * (x - d) * (π / 180) ≤ C * |θ'' - d| * (π / 180) := by linarith
      exact le_of_mul_le_mul_right this (by positivity)
    have h2 : |A - C| * (0.1563 * x) ≤ C * (B * (0.00001 * x)) :=
      (mul_le_mul_of_nonneg_left hb (abs_nonneg _)).trans (h1.trans (mul_le_mul_of_nonneg_left b6 sb.le))
    have h3 : |A - C| ≤ C * (6.5e-5 * B) := by
      have h4 : |A - C| * 0.1563 ≤ C * (B * 0.00001) := by
        have : (|A - C| * 0.1563) * x ≤ (C * (B * 0.00001)) * x := by linarith
        exact le_of_mul_le_mul_right this b3
      have : 0 ≤ C * B := by positivity
      norm_num at h4 ⊢
      nlinarith
    have e4 : m / C - m / A = (A - C) / C * (m / A) := by field_simp
    rw [e4, abs_mul, abs_of_pos (by positivity : 0 < m / A), abs_div, abs_of_pos sb]
    refine mul_le_mul_of_nonneg_right ?_ (by positivity)
    rw [div_le_iff₀ sb]
    linarith

/-- the last cell repeats the computation of the first shock -/
theorem cell11_of_cell6 {M2 d : ℝ} {f : Fan} {c : First} {dl : ℝ × ℝ} {γ : ℝ} (hf : f.M2 = M2) (hl : limits M2 γ = .ok dl) (h : cell6 M2 d γ = .ok c) :
    cell11 (-d) f γ = .ok ⟨c.sig1, c.Mn0, c.Mn1, c.M1, f.p2p0 * c.p1p0⟩ := by
  unfold cell6 at h
  obtain ⟨s, h1, h⟩ := Py.bind_inv h
  obtain ⟨p, h2, h⟩ := Py.bind_inv h
  obtain ⟨m, h3, h⟩ := Py.bind_inv h
  obtain ⟨M1, h4, h5⟩ := Py.bind_inv h
  have := Except.ok.inj h5
  subst this
  have e : (0.0:ℝ) - -d = d := by norm_num
  unfold cell11
  simp only []
  rw [e, hf, hl, Py.ok_bind, h1, Py.ok_bind, h3, Py.ok_bind, h4, Py.ok_bind, h2, Py.ok_bind]
  rfl

theorem limits_ok {M γ : ℝ} (hγ : 1 < γ) (hM : 1 < M) : ∃ a b, limits M γ = .ok (a, b) ∧ dev_Max M γ = .ok a ∧ dev_Sonic M γ = .ok b := by
  obtain ⟨σm, θm, μ, -, h2, -⟩ := C17_max_deflection M γ hγ hM
  obtain ⟨σ, p, h3, h4, h5, -⟩ := C16_sonic_downstream M γ hγ hM
  have h6 : dev_Sonic M γ = .ok (devDeg M γ σ) := by
    unfold dev_Sonic; rw [h3, Py.ok_bind, deflection_dev hγ (by linarith) h4 h5]
  refine ⟨_, _, ?_, h2, h6⟩
  unfold limits
  rw [h2, Py.ok_bind, h6, Py.ok_bind]
  rfl

/-- C159, partial (cell 11): the last shock, which turns the flow back by the angle `d` of the leeward face (`wang2 = -d`), has the same properties as
the first one, and the final pressure is that of the leeward face times its pressure ratio. -/
theorem C159_last_partial (f : Fan) (d σ σm p pm : ℝ) (hM1 : 1.01 ≤ f.M2) (hM2 : f.M2 ≤ 10) (hd : 0.25 ≤ d)
    (hm : sigma_DevMax f.M2 1.4 = Except.ok σm) (hσ0 : 0 < σ) (hσ : σ ≤ σm) (hdev : deflection_Mach_sigma f.M2 σ 1.4 = Except.ok d)
    (hp : Ps_ratio (f.M2 * degree.sin σ) 1.4 = Except.ok p) (hpm : Ps_ratio (f.M2 * degree.sin σm) 1.4 = Except.ok pm)
    (hw : p - 1 ≤ 0.95 * (pm - 1)) :
    ∃ l θ N P, cell11 (-d) f 1.4 = Except.ok l ∧ 0 < l.sig2 ∧ l.sig2 ≤ σm ∧ Spec.ObliqueShock 1.4 f.M2 l.sig2 θ P N ∧ l.p3p0 = f.p2p0 * P ∧
      |θ - d| ≤ (2 + 2.4 * f.M2 ^ 2) * (0.00001 * max 1 l.sig2) ∧
      0 < l.M3 ∧ 0 < N ∧ |l.M3 - N| ≤ 6.5e-5 * (2 + 2.4 * f.M2 ^ 2) * N := by
  obtain ⟨c, θ, N, h1, h2, -, h3, h4, -, h5, h6, h7, h8⟩ := C159_shock_partial f.M2 d σ σm p pm hM1 hM2 hd hm hσ0 hσ hdev hp hpm hw
  obtain ⟨a, b, hl, -⟩ := limits_ok (M := f.M2) (γ := 1.4) (by norm_num) (by norm_num at hM1; linarith)
  exact ⟨_, θ, N, c.p1p0, cell11_of_cell6 rfl hl h1, h2, h3, h4, rfl, h5, h6, h7, h8⟩

/-- C159, partial (cell 9): behind a supersonic windward flow, when the turn at the ridge is the difference of the Prandtl–Meyer angles of the Mach number
`M1` and of some Mach number up to `10⁸`, the cell ends: `M2` is at least 1 and turns the flow by the change of wall angle within 10⁻⁶ degree, and the
pressure on the leeward face is that of an isentropic flow from `M1` to `M2`, lower than on the windward face as soon as the turn exceeds
`10⁻⁵` degree.  Missing: turns within `10⁻⁵` degree of the vacuum limit, other gases. -/
theorem C159_fan_partial (c : First) (wang1 wang2 N w w₂ : ℝ) (hM : 1 ≤ c.M1) (h1 : 1 ≤ N) (h2 : N ≤ 10 ^ 8)
    (hw : PrandtlMeyer_Mach c.M1 1.4 = Except.ok w) (hw₂ : PrandtlMeyer_Mach N 1.4 = Except.ok w₂) (hturn : w₂ = w + (wang1 - wang2)) (hp : 0 < c.p1p0) :
    ∃ f w', cell9 scipy wang1 wang2 c 1.4 = Except.ok f ∧ f.om1 = w ∧ f.om2 = w₂ ∧ 1 ≤ f.M2 ∧ PrandtlMeyer_Mach f.M2 1.4 = Except.ok w' ∧
      |w' - (w + (wang1 - wang2))| ≤ 1e-6 ∧ 0 < f.p2p0 ∧
      f.p2p0 * (1 + (1.4 - 1) / 2 * f.M2 ^ 2) ^ (1.4 / (1.4 - 1) : ℝ) = c.p1p0 * (1 + (1.4 - 1) / 2 * c.M1 ^ 2) ^ (1.4 / (1.4 - 1) : ℝ) ∧
      (1e-5 ≤ wang1 - wang2 → c.M1 < f.M2 ∧ f.p2p0 < c.p1p0) := by
  have hγ : (1:ℝ) < 1.4 := by norm_num
  obtain ⟨m, w', e1, e2, e3, e4⟩ := C141_inverse_partial N w₂ h1 h2 hw₂
  have e : w - (wang2 - wang1) = w₂ := by rw [hturn]; ring
  have t1 := tt_pos (M := c.M1) hγ
  have t2 := tt_pos (M := m) hγ
  have u1 := Real.rpow_pos_of_pos t1 (1.4 / (1.4 - 1))
  have u2 := Real.rpow_pos_of_pos t2 (1.4 / (1.4 - 1))
  refine ⟨⟨w, w₂, m, c.p1p0 * (tt c.M1 1.4 ^ (1.4 / (1.4 - 1) : ℝ) / tt m 1.4 ^ (1.4 / (1.4 - 1) : ℝ))⟩, w', ?_, rfl, rfl, e2, e3, ?_, ?_, ?_, ?_⟩
  · unfold cell9 IsentropicPsratio_Mach_deflection
    simp only []
    rw [hw, Py.ok_bind, e, e1, Py.ok_bind, Py.ok_bind, e, e1, Py.ok_bind, PtPs_Mach_ok hγ, Py.ok_bind, PtPs_Mach_ok hγ, Py.ok_bind, Py.div_ok u2.ne', Py.ok_bind]
    rfl
  · rw [← hturn]; exact e4
  · show 0 < c.p1p0 * _
    positivity
  · show c.p1p0 * (tt c.M1 1.4 ^ (1.4 / (1.4 - 1) : ℝ) / tt m 1.4 ^ (1.4 / (1.4 - 1) : ℝ)) * tt m 1.4 ^ (1.4 / (1.4 - 1) : ℝ) = c.p1p0 * tt c.M1 1.4 ^ (1.4 / (1.4 - 1) : ℝ)
    field_simp
  · intro hbig
    show c.M1 < m ∧ c.p1p0 * (tt c.M1 1.4 ^ (1.4 / (1.4 - 1) : ℝ) / tt m 1.4 ^ (1.4 / (1.4 - 1) : ℝ)) < c.p1p0
    have hlt : c.M1 < m := by
      by_contra hcon
      push Not at hcon
      have h3 := (pmDeg_strictMono hγ).monotoneOn (Set.mem_Ici.2 e2) (Set.mem_Ici.2 hM) hcon
      rw [← pm_value hγ hM hw, ← pm_value hγ e2 e3] at h3
      have := (abs_le.1 e4).1
      norm_num at this hbig
      linarith
    refine ⟨hlt, ?_⟩
    have h4 : tt c.M1 1.4 < tt m 1.4 := by unfold tt; norm_num; nlinarith
    have h5 := Real.rpow_lt_rpow t1.le h4 (by norm_num : (0:ℝ) < 1.4 / (1.4 - 1))
    have : tt c.M1 1.4 ^ (1.4 / (1.4 - 1) : ℝ) / tt m 1.4 ^ (1.4 / (1.4 - 1) : ℝ) < 1 := (div_lt_one u2).2 h5
    nlinarith

/-- an attached weak shock exists for the deflection `d` when some angle below the one of largest deflection turns the flow by more than `d` -/
theorem attach {M d u : ℝ} (hM : 1.01 ≤ M) (hd : 0 < d) (u0 : 0 < u) (u1 : u < 90) (hz : sin (Py.radians u) ^ 2 ≤ 102/125)
    (hdu : d < devDeg M 1.4 u) (hp : M ^ 2 * sin (Py.radians u) ^ 2 - 1 ≤ 0.95 * (M ^ 2 * (102/125) - 1)) :
    ∃ σ σm p pm, sigma_DevMax M 1.4 = .ok σm ∧ u < σm ∧ 0 < σ ∧ σ < u ∧ deflection_Mach_sigma M σ 1.4 = .ok d ∧
      Ps_ratio (M * degree.sin σ) 1.4 = .ok p ∧ Ps_ratio (M * degree.sin σm) 1.4 = .ok pm ∧ p - 1 ≤ 0.95 * (pm - 1) := by
  have hγ : (1:ℝ) < 1.4 := by norm_num
  have hM1 : 1 < M := by norm_num at hM; linarith
  have hM0 : 0 < M := by linarith
  obtain ⟨σm, θm, μ, g1, g2, g3, g4, g5, -⟩ := C17_max_deflection M 1.4 hγ hM1
  obtain ⟨m0, m90, hsl⟩ := slope_at_max hγ hM1 g1
  obtain ⟨sm0, sm1⟩ := Py.radians_mem m0 m90
  have hsm := sin_pos' sm0 sm1
  have hzm : 102/125 < sin (Py.radians σm) ^ 2 := by
    refine zm_air hM0 (by positivity) (sin_sq_le_one _) ?_
    rw [show (7/5:ℝ) = 1.4 by norm_num]; exact hsl
  obtain ⟨r0, r1⟩ := Py.radians_mem u0 u1
  have hsu := sin_pos' r0 r1
  have hum : u < σm := by
    by_contra hcon
    push Not at hcon
    have h1 := Real.sin_le_sin_of_le_of_le_pi_div_two (by linarith) r1.le (Py.radians_strictMono.monotone hcon)
    have := pow_le_pow_left₀ hsm.le h1 2
    linarith
  obtain ⟨θ0, μ', k1, k2, k3, k4, k5, k6, -⟩ := C14_sign M u 1.4 hγ hM1 u0 u1
  have e1 : μ' = μ := by rw [g3] at k2; exact (Except.ok.inj k2).symm
  subst e1
  rw [deflection_dev hγ hM0 u0 u1] at k1
  have e2 := Except.ok.inj k1
  have hμu : μ' < u := k6.1 (by rw [← e2]; linarith)
  obtain ⟨θ1, μ2, l1, l2, -, -, l5, -, -⟩ := C14_sign M μ' 1.4 hγ hM1 k3 k4
  have e3 : μ2 = μ' := by rw [g3] at l2; exact (Except.ok.inj l2).symm
  rw [deflection_dev hγ hM0 k3 k4] at l1
  have e4 : devDeg M 1.4 μ' = 0 := by rw [Except.ok.inj l1]; exact l5.2 e3.symm
  have hcont : ContinuousOn (devDeg M 1.4) (Set.Icc μ' u) := fun s hs =>
    (hasDerivAt_devDeg hγ hM0 (k3.trans_le hs.1) (hs.2.trans_lt u1)).continuousAt.continuousWithinAt
  obtain ⟨σ, hσ, e⟩ := intermediate_value_Ioo hμu.le hcont ⟨by rw [e4]; exact hd, hdu⟩
  have hσ0 : 0 < σ := k3.trans hσ.1
  refine ⟨σ, σm, _, _, g1, hum, hσ0, hσ.2, ?_, Ps_ratio_ok hγ, Ps_ratio_ok hγ, ?_⟩
  · rw [deflection_dev hγ hM0 hσ0 (hσ.2.trans u1), e]
  · obtain ⟨v0, v1⟩ := Py.radians_mem hσ0 (hσ.2.trans u1)
    have hs := sin_pos' v0 v1
    have h1 := Real.sin_le_sin_of_le_of_le_pi_div_two (by linarith) r1.le (Py.radians_strictMono.monotone hσ.2.le)
    have h2 := pow_le_pow_left₀ hs.le h1 2
    have h3 := mul_le_mul_of_nonneg_left h2 (sq_nonneg M)
    have h4 := mul_le_mul_of_nonneg_left hzm.le (sq_nonneg M)
    unfold psr degree.sin
    rw [mul_pow, mul_pow]
    norm_num at hp ⊢
    linarith

/-- the deflection at the angle of tangent `T` -/
theorem dev_of_tan {M T : ℝ} (hM : 0 < M) (hT : 0 < T) : 0 < Py.degrees (arctan T) ∧ Py.degrees (arctan T) < 90 ∧
    sin (Py.radians (Py.degrees (arctan T))) ^ 2 = T ^ 2 / (1 + T ^ 2) ∧
    devDeg M 1.4 (Py.degrees (arctan T)) = Py.degrees (arctan (2 / T * (M ^ 2 * (T ^ 2 / (1 + T ^ 2)) - 1) / (2.4 * M ^ 2 + 2 - 2 * (M ^ 2 * (T ^ 2 / (1 + T ^ 2)))))) := by
  have hγ : (1:ℝ) < 1.4 := by norm_num
  have h0 := Real.arctan_pos.2 hT
  have h1 := Real.arctan_lt_pi_div_two T
  obtain ⟨a, b⟩ := Py.degrees_mem h0 h1
  obtain ⟨hs, hc⟩ := sin_cos_pos h0 h1
  have ht : sin (arctan T) / cos (arctan T) = T := by rw [← Real.tan_eq_sin_div_cos, Real.tan_arctan]
  have es : sin (arctan T) = T * cos (arctan T) := by field_simp at ht; linarith
  have hsc := Real.sin_sq_add_cos_sq (arctan T)
  have hsq : sin (arctan T) ^ 2 = T ^ 2 / (1 + T ^ 2) := by
    rw [es] at hsc ⊢
    rw [eq_div_iff (by positivity)]
    linear_combination T ^ 2 * hsc
  have hcot : cos (arctan T) / sin (arctan T) = 1 / T := by rw [es]; field_simp
  refine ⟨a, b, by rw [Py.radians_degrees]; exact hsq, ?_⟩
  have := deflection_dev (σ := Py.degrees (arctan T)) hγ hM a b
  rw [deflection_ok hγ hM.ne' a b, Py.radians_degrees] at this
  rw [← Except.ok.inj this]
  unfold tanth
  rw [hsq, hcot]
  congr 2
  norm_num
  ring

theorem sqrt_three_bounds : (1.732:ℝ) < √3 ∧ √3 < 1.7321 :=
  ⟨Real.lt_sqrt_of_sq_lt (by norm_num), (Real.sqrt_lt' (by norm_num)).2 (by norm_num)⟩

theorem tan_le_small {x c : ℝ} (h0 : 0 ≤ x) (h1 : x ≤ c) (hc : c < 1) : tan x ≤ c / (1 - c ^ 2 / 2) := by
  rw [Real.tan_eq_sin_div_cos]
  have e : x ^ 2 ≤ c ^ 2 := pow_le_pow_left₀ h0 h1 2
  have := Real.one_sub_sq_div_two_le_cos (x := x)
  exact div_le_div₀ (h0.trans h1) ((Real.sin_le h0).trans h1) (by nlinarith) (by linarith)

/-- an arc tangent of more than 31 degrees -/
theorem deg31 {T : ℝ} (hT : 0.605 ≤ T) : 31 < Py.degrees (arctan T) := by
  have hp := Real.pi_gt_d2
  have hp2 := Real.pi_lt_d4
  obtain ⟨s1, s2⟩ := sqrt_three_bounds
  have h1 : (31:ℝ) = Py.degrees (π / 6 + π / 180) := by
    have := Real.pi_ne_zero
    unfold Py.degrees; field_simp; norm_num
  rw [h1, Py.degrees_lt]
  rw [← Real.arctan_tan (x := π / 6 + π / 180) (by linarith) (by norm_num at hp2; linarith)]
  apply Real.arctan_strictMono
  have t1 := tan_le_small (x := π / 180) (c := 0.01746) (by positivity) (by norm_num at hp2 ⊢; linarith) (by norm_num)
  have t0 : 0 < tan (π / 180) := Real.tan_pos_of_pos_of_lt_pi_div_two (by positivity) (by linarith)
  have t2 : tan (π / 180) ≤ 0.0176 := t1.trans (by norm_num)
  have h6 : tan (π / 6) = 1 / √3 := by rw [Real.tan_pi_div_six]
  have q1 : 1 / √3 ≤ 0.57737 := by rw [div_le_iff₀ (by linarith)]; norm_num at s1 ⊢; linarith
  have q0 : 0 < 1 / √3 := by positivity
  rw [Real.tan_add' ⟨fun k hk => ?_, fun k hk => ?_⟩, h6]
  · obtain ⟨q, hq⟩ : ∃ q, q = 1 / √3 := ⟨_, rfl⟩
    obtain ⟨t, ht⟩ : ∃ t, t = tan (π / 180) := ⟨_, rfl⟩
    rw [← hq] at q0 q1 ⊢
    rw [← ht] at t0 t2 ⊢
    have hqt : q * t ≤ 0.57737 * 0.0176 := mul_le_mul q1 t2 t0.le (by norm_num)
    have hpos : 0 < 1 - q * t := by norm_num at hqt; linarith
    rw [div_lt_iff₀ hpos]
    norm_num at t2 q1 hT hqt ⊢
    have := mul_le_mul hT (by linarith : 1 - (57737/100000 * (11/625)) ≤ 1 - q * t) (by norm_num) (by linarith)
    linarith
  all_goals
    have hcos : cos ((2 * (k:ℝ) + 1) * π / 2) = 0 := Real.cos_eq_zero_iff.2 ⟨k, rfl⟩
    rw [← hk] at hcos
    exact absurd hcos (Real.cos_pos_of_mem_Ioo ⟨by linarith, by norm_num at hp hp2; linarith⟩).ne'

/-- an arc tangent of more than 20 degrees -/
theorem deg20 {T : ℝ} (hT : 0.4 ≤ T) : 20 < Py.degrees (arctan T) := by
  have hp := Real.pi_gt_d2
  have hp2 := Real.pi_lt_d4
  have h1 : (20:ℝ) = Py.degrees (π / 9) := by
    have := Real.pi_ne_zero
    unfold Py.degrees; field_simp; norm_num
  rw [h1, Py.degrees_lt, ← Real.arctan_tan (x := π / 9) (by linarith) (by linarith)]
  apply Real.arctan_strictMono
  have t1 := tan_le_small (x := π / 9) (c := 0.35) (by positivity) (by norm_num at hp2 ⊢; linarith) (by norm_num)
  exact t1.trans_lt (lt_of_lt_of_le (by norm_num) hT)

/-- an arc tangent of less than 28 degrees -/
theorem deg28 {T : ℝ} (h0 : 0 < T) (hT : T ≤ 0.48) : Py.degrees (arctan T) < 28 := by
  have hp := Real.pi_gt_d2
  have := arctan_le_self' h0.le
  unfold Py.degrees
  have h1 : arctan T * (180 / π) ≤ 0.48 * (180 / π) := mul_le_mul_of_nonneg_right (this.trans hT) (by positivity)
  refine h1.trans_lt ?_
  rw [mul_div_assoc', div_lt_iff₀ Real.pi_pos]
  norm_num at hp ⊢
  linarith

theorem pmC_air : pmC 1.4 = √6 := by unfold pmC; norm_num

theorem sqrt_six_bounds : (2.449:ℝ) < √6 ∧ √6 < 2.4495 :=
  ⟨Real.lt_sqrt_of_sq_lt (by norm_num), (Real.sqrt_lt' (by norm_num)).2 (by norm_num)⟩

theorem arctan_ge_inv {x : ℝ} (hx : 0 < x) : π / 2 - 1 / x ≤ arctan x := by
  have h := Real.arctan_inv_of_pos (inv_pos.2 hx)
  rw [inv_inv] at h
  have := arctan_le_self' (inv_pos.2 hx).le
  rw [h, one_div]; linarith

/-- the Prandtl–Meyer angle of Mach 2.8 is below 49 degrees, that of Mach 2.2 more than 51 degrees below that of Mach 10 -/
theorem pm_landmarks : pmDeg 1.4 2.8 < 49 ∧ pmDeg 1.4 2.2 + 51 < pmDeg 1.4 10 := by
  have hp := Real.pi_gt_d4
  have hp2 := Real.pi_lt_d4
  obtain ⟨s1, s2⟩ := sqrt_six_bounds
  have deg : ∀ a : ℝ, a = Py.degrees (Py.radians a) := fun a => (Py.degrees_radians a).symm
  have hdiv : ∀ β : ℝ, 0 ≤ β → √β / √6 = √(β / 6) := fun β h => (Real.sqrt_div h 6).symm
  norm_num at hp hp2 s1 s2
  constructor
  · rw [deg 49]
    unfold pmDeg
    rw [Py.degrees_lt]
    unfold pmRad Py.radians
    rw [pmC_air, hdiv _ (by norm_num)]
    have a1 : arctan √((2.8 ^ 2 - 1) / 6) ≤ π / 4 + 7/207 := by
      have h1 : √((2.8 ^ 2 - 1) / 6) ≤ 107/100 := (Real.sqrt_le_left (by norm_num)).2 (by norm_num)
      refine (Real.arctan_strictMono.monotone h1).trans ?_
      have h2 := Real.arctan_add (x := 1) (y := 7/207) (by norm_num)
      rw [Real.arctan_one, show ((1:ℝ) + 7/207) / (1 - 1 * (7/207)) = 107/100 by norm_num] at h2
      rw [← h2]
      have := arctan_le_self' (x := 7/207) (by norm_num)
      linarith
    have a2 : π / 2 - 0.3825 ≤ arctan √(2.8 ^ 2 - 1) := by
      have h1 : (2.615:ℝ) ≤ √(2.8 ^ 2 - 1) := Real.le_sqrt_of_sq_le (by norm_num)
      have h2 := arctan_ge_inv (x := √(2.8 ^ 2 - 1)) (by norm_num at h1 ⊢)
      have h3 : 1 / √(2.8 ^ 2 - 1) ≤ 1 / (2.615:ℝ) := one_div_le_one_div_of_le (by norm_num) h1
      have : 1 / (2.615:ℝ) ≤ 0.3825 := by norm_num
      linarith
    have h3 : √6 * arctan √((2.8 ^ 2 - 1) / 6) ≤ 24495/10000 * (π / 4 + 7/207) :=
      mul_le_mul (by linarith) a1 (Real.arctan_nonneg.2 (sqrt_nonneg _)) (by norm_num)
    norm_num at a2 h3 ⊢
    linarith
  · rw [deg 51]
    unfold pmDeg
    have hadd : ∀ a b : ℝ, Py.degrees a + Py.degrees b = Py.degrees (a + b) := fun a b => by unfold Py.degrees; ring
    rw [hadd, Py.degrees_lt]
    unfold pmRad Py.radians
    rw [pmC_air, hdiv _ (by norm_num), hdiv _ (by norm_num)]
    have e8 : √((2.2 ^ 2 - 1) / 6) = 4/5 := by
      rw [show ((2.2:ℝ) ^ 2 - 1) / 6 = (4/5) ^ 2 by norm_num, Real.sqrt_sq (by norm_num)]
    have a1 : arctan (4/5) ≤ π / 4 - 1/10 := by
      have h2 := Real.arctan_add (x := 4/5) (y := 1/9) (by norm_num)
      rw [show ((4/5:ℝ) + 1/9) / (1 - 4/5 * (1/9)) = 1 by norm_num, Real.arctan_one] at h2
      have h3 : (1/10:ℝ) ≤ arctan (1/9) := by
        rw [← Real.arctan_tan (x := 1/10) (by linarith) (by linarith)]
        exact Real.arctan_strictMono.monotone ((tan_le_small (by norm_num) le_rfl (by norm_num)).trans (by norm_num))
      linarith
    have a2 : π / 3 ≤ arctan √(2.2 ^ 2 - 1) := by
      rw [← Real.arctan_sqrt_three]
      exact Real.arctan_strictMono.monotone (Real.sqrt_le_sqrt (by norm_num))
    have a3 : π / 2 - 1/4 ≤ arctan √((10 ^ 2 - 1) / 6) := by
      have h1 : (4:ℝ) ≤ √((10 ^ 2 - 1) / 6) := Real.le_sqrt_of_sq_le (by norm_num)
      have h2 := arctan_ge_inv (x := √((10 ^ 2 - 1) / 6)) (by linarith)
      have h3 : 1 / √((10 ^ 2 - 1) / 6) ≤ 1 / (4:ℝ) := one_div_le_one_div_of_le (by norm_num) h1
      linarith
    have a4 := (Real.arctan_lt_pi_div_two √(10 ^ 2 - 1)).le
    rw [e8]
    have h3 : √6 * arctan (4/5) ≤ 24495/10000 * (π / 4 - 1/10) :=
      mul_le_mul (by linarith) a1 (Real.arctan_nonneg.2 (by norm_num)) (by norm_num)
    have h4 : 2449/1000 * (π / 2 - 1/4) ≤ √6 * arctan √((10 ^ 2 - 1) / 6) :=
      mul_le_mul s1.le a3 (by linarith) (by positivity)
    linarith

/-- the Mach number that cell 6 computes at Mach 3, for shock angles of squared sine from 1/2 to 49/74 on a 30° wall -/
theorem mach_one_bounds {x : ℝ} (x0 : 0 < x) (x1 : x < 90) (h1 : 1/2 ≤ sin (Py.radians x) ^ 2) (h2 : sin (Py.radians x) ^ 2 ≤ 49/74) :
    1.2 ≤ √(mn2 (3 * degree.sin x) 1.4) / degree.sin (x - 30) ∧ √(mn2 (3 * degree.sin x) 1.4) / degree.sin (x - 30) ≤ 2.2 := by
  obtain ⟨r0, r1⟩ := Py.radians_mem x0 x1
  obtain ⟨hs, hc⟩ := sin_cos_pos r0 r1
  obtain ⟨q1, q2⟩ := sqrt_three_bounds
  have hsc := Real.sin_sq_add_cos_sq (Py.radians x)
  have e : degree.sin (x - 30) = sin (Py.radians x) * (√3 / 2) - cos (Py.radians x) * (1 / 2) := by
    have h30 : Py.radians (x - 30) = Py.radians x - π / 6 := by unfold Py.radians; ring
    unfold degree.sin
    rw [h30, Real.sin_sub, Real.cos_pi_div_six, Real.sin_pi_div_six]
  obtain ⟨S, hS⟩ : ∃ S, S = sin (Py.radians x) := ⟨_, rfl⟩
  obtain ⟨C, hC⟩ : ∃ C, C = cos (Py.radians x) := ⟨_, rfl⟩
  have hd : degree.sin x = S := by rw [hS]; rfl
  rw [e, hd, ← hS, ← hC]
  rw [← hS] at h1 h2 hs hsc
  rw [← hC] at hc hsc
  norm_num at q1 q2
  have s1 : 7071/10000 ≤ S := by nlinarith
  have s2 : S ≤ 8138/10000 := by nlinarith
  have c1 : 5811/10000 ≤ C := by nlinarith
  have c2 : C ≤ 7072/10000 := by nlinarith
  obtain ⟨D, hD⟩ : ∃ D, D = S * (√3 / 2) - C * (1 / 2) := ⟨_, rfl⟩
  have d1 : 258/1000 ≤ D := by rw [hD]; nlinarith
  have d2 : D ≤ 4145/10000 := by rw [hD]; nlinarith
  have m : mn2 (3 * S) 1.4 = (1 + 9/5 * S ^ 2) / (63/5 * S ^ 2 - 1/5) := by
    unfold mn2; congr 1 <;> norm_num <;> ring
  have hden : 0 < 63/5 * S ^ 2 - 1/5 := by nlinarith
  have m1 : (1/2) ^ 2 ≤ mn2 (3 * S) 1.4 := by rw [m, le_div_iff₀ hden]; nlinarith
  have m2 : mn2 (3 * S) 1.4 ≤ (56/100) ^ 2 := by rw [m, div_le_iff₀ hden]; nlinarith
  have r1 := Real.le_sqrt_of_sq_le m1
  have r2 := (Real.sqrt_le_left (by norm_num : (0:ℝ) ≤ 56/100)).2 m2
  rw [← hD]
  constructor
  · rw [le_div_iff₀ (by linarith)]; norm_num; linarith
  · rw [div_le_iff₀ (by linarith)]; norm_num; linarith

theorem cell6_inv {M d γ : ℝ} {c : First} (h : cell6 M d γ = .ok c) :
    downstream_Mn (M * degree.sin c.sig1) γ = .ok c.Mn1 ∧ c.M1 = c.Mn1 / degree.sin (c.sig1 - d) := by
  unfold cell6 at h
  obtain ⟨s, h1, h⟩ := Py.bind_inv h
  obtain ⟨p, h2, h⟩ := Py.bind_inv h
  obtain ⟨m, h3, h⟩ := Py.bind_inv h
  obtain ⟨M1, h4, h5⟩ := Py.bind_inv h
  have := Except.ok.inj h5
  subst this
  exact ⟨h3, (Py.div_inv h4).2.symm ▸ rfl⟩

set_option maxHeartbeats 1000000 in
/-- C159: the notebook at its own values (Mach 3, a windward face of 30°, a leeward face of -20°, air), with scipy's own iteration: the four cells end.
The first shock is a weak one that turns the flow by 30° within 0.022°, the flow behind it is supersonic (Mach 1.2 to 2.2); the expansion turns it by 50°
within `10⁻⁶` degree, without loss of stagnation pressure, to a Mach number between 2.8 and 10; the last shock turns it back by 20° within
`(2 + 2.4 M²)·10⁻⁵·max(1, angle)` degree, and the three pressure ratios multiply. -/
theorem C159_notebook : ∃ c f l θ₁ N₁ w w' θ₂ N₂ P σm₁ σm₂, run scipy 3 30 (-20) 1.4 = Except.ok (c, f, l) ∧
    sigma_DevMax 3 1.4 = Except.ok σm₁ ∧ c.sig1 ≤ σm₁ ∧ Spec.ObliqueShock 1.4 3 c.sig1 θ₁ c.p1p0 N₁ ∧ |θ₁ - 30| ≤ 0.022 ∧ |c.M1 - N₁| ≤ 0.0016 * N₁ ∧
    1.2 ≤ c.M1 ∧ c.M1 ≤ 2.2 ∧
    PrandtlMeyer_Mach c.M1 1.4 = Except.ok w ∧ PrandtlMeyer_Mach f.M2 1.4 = Except.ok w' ∧ |w' - (w + 50)| ≤ 1e-6 ∧
    f.p2p0 * (1 + (1.4 - 1) / 2 * f.M2 ^ 2) ^ (1.4 / (1.4 - 1) : ℝ) = c.p1p0 * (1 + (1.4 - 1) / 2 * c.M1 ^ 2) ^ (1.4 / (1.4 - 1) : ℝ) ∧
    f.p2p0 < c.p1p0 ∧ 2.8 ≤ f.M2 ∧ f.M2 ≤ 10 ∧
    sigma_DevMax f.M2 1.4 = Except.ok σm₂ ∧ l.sig2 ≤ σm₂ ∧ Spec.ObliqueShock 1.4 f.M2 l.sig2 θ₂ P N₂ ∧
    |θ₂ - 20| ≤ (2 + 2.4 * f.M2 ^ 2) * (0.00001 * max 1 l.sig2) ∧ |l.M3 - N₂| ≤ 6.5e-5 * (2 + 2.4 * f.M2 ^ 2) * N₂ ∧ l.p3p0 = f.p2p0 * P := by
  have hγ : (1:ℝ) < 1.4 := by norm_num
  obtain ⟨u0, u1, us, ud⟩ := dev_of_tan (M := 3) (T := 7/5) (by norm_num) (by norm_num)
  have hdu : 31 < devDeg 3 1.4 (Py.degrees (arctan (7/5))) := by
    rw [ud]; exact deg31 (by norm_num)
  obtain ⟨σ, σm, p, pm, a1, a2, a3, a4, a5, a6, a7, a8⟩ := attach (M := 3) (d := 30) (by norm_num) (by norm_num) u0 u1 (by rw [us]; norm_num) (by linarith)
    (by rw [us]; norm_num)
  obtain ⟨c, θ, N, b1, b2, -, b3, b4, b5, b6, b7, b8, b9⟩ := C159_shock_partial 3 30 σ σm p pm (by norm_num) (by norm_num) (by norm_num) a1 a3 (a4.trans a2).le a5 a6 a7 a8
  obtain ⟨-, m90, -⟩ := slope_at_max hγ (by norm_num : (1:ℝ) < 3) a1
  have hx90 : c.sig1 < 90 := by linarith
  have htol : |θ - 30| ≤ 0.022 := by
    refine b6.trans ?_
    have : max 1 c.sig1 ≤ 90 := max_le (by norm_num) hx90.le
    norm_num
    linarith
  have hdx : devDeg 3 1.4 c.sig1 = θ := by
    rw [deflection_dev hγ (by norm_num) b2 hx90] at b5; exact Except.ok.inj b5
  obtain ⟨hmono, -⟩ := devDeg_strictMono hγ (by norm_num : (1:ℝ) < 3) a1
  have ht := abs_le.1 htol
  norm_num at ht
  obtain ⟨l0, l1, ls, ld⟩ := dev_of_tan (M := 3) (T := 1) (by norm_num) (by norm_num)
  have hdl : devDeg 3 1.4 (Py.degrees (arctan 1)) < 28 := by
    rw [ld]; exact deg28 (by norm_num) (by norm_num)
  obtain ⟨r0, r1⟩ := Py.radians_mem b2 hx90
  have hxu : c.sig1 ≤ Py.degrees (arctan (7/5)) := by
    by_contra hcon
    push Not at hcon
    have := hmono ⟨u0, a2.le⟩ ⟨b2, b3⟩ hcon
    linarith
  have hlu : Py.degrees (arctan 1) < Py.degrees (arctan (7/5)) := Py.degrees_lt.2 (Real.arctan_strictMono (by norm_num))
  have hxl : Py.degrees (arctan 1) ≤ c.sig1 := by
    by_contra hcon
    push Not at hcon
    have := hmono ⟨b2, b3⟩ ⟨l0, (hlu.trans a2).le⟩ hcon
    linarith
  have hsin : ∀ y z : ℝ, 0 < y → y ≤ z → z < 90 → sin (Py.radians y) ^ 2 ≤ sin (Py.radians z) ^ 2 := by
    intro y z y0 hyz z1
    obtain ⟨p0, p1⟩ := Py.radians_mem y0 (hyz.trans_lt z1)
    obtain ⟨q0, q1⟩ := Py.radians_mem (y0.trans_le hyz) z1
    exact pow_le_pow_left₀ (sin_pos' p0 p1).le (Real.sin_le_sin_of_le_of_le_pi_div_two (by linarith) q1.le (Py.radians_strictMono.monotone hyz)) 2
  have hs1 := hsin _ _ l0 hxl hx90
  have hs2 := hsin _ _ b2 hxu u1
  rw [ls] at hs1
  rw [us] at hs2
  obtain ⟨k1, k2⟩ := mach_one_bounds b2 hx90 (by norm_num at hs1 ⊢; exact hs1) (by norm_num at hs2 ⊢; exact hs2)
  obtain ⟨i1, i2⟩ := cell6_inv b1
  have hn : 1 ≤ 3 * degree.sin c.sig1 := by
    have : 0 < sin (Py.radians c.sig1) := sin_pos' r0 r1
    norm_num at hs1
    unfold degree.sin
    nlinarith
  rw [downstream_Mn_ok hγ (dom_of_one_le hγ hn)] at i1
  rw [Except.ok.inj i1, ← i2] at k1 k2
  have hM1 : 1 ≤ c.M1 := by norm_num at k1; linarith
  obtain ⟨w1, w2⟩ := pm_landmarks
  have hw : PrandtlMeyer_Mach c.M1 1.4 = .ok (pmDeg 1.4 c.M1) := PM_ok hγ (by nlinarith)
  have hmono2 := (pmDeg_strictMono hγ)
  have v0 : 0 ≤ pmDeg 1.4 c.M1 := by
    have h1 := hmono2.monotoneOn (Set.mem_Ici.2 le_rfl) (Set.mem_Ici.2 hM1) hM1
    have h2 : pmDeg 1.4 1 = 0 := by
      have := Real.sqrt_zero
      unfold pmDeg pmRad; norm_num [Py.degrees]
    linarith
  have v1 : pmDeg 1.4 c.M1 ≤ pmDeg 1.4 2.2 := hmono2.monotoneOn (Set.mem_Ici.2 hM1) (Set.mem_Ici.2 (by norm_num)) k2
  have hcontPM : ContinuousOn (pmDeg 1.4) (Set.Icc 2.8 10) := by
    intro y hy
    have : (1:ℝ) < y := by have := hy.1; norm_num at this; linarith
    exact (hasDerivAt_pmDeg hγ this).continuousAt.continuousWithinAt
  obtain ⟨n, hn1, hn2⟩ := intermediate_value_Icc (by norm_num) hcontPM (show pmDeg 1.4 c.M1 + 50 ∈ _ from ⟨by linarith, by linarith⟩)
  have hn0 : (1:ℝ) ≤ n := by have := hn1.1; norm_num at this; linarith
  have hp0 : 0 < c.p1p0 := by
    obtain ⟨-, -, -, -, h, -⟩ := b4
    linarith
  obtain ⟨f, w', g1, g2, g3, g4, g5, g6, g7, g8, g9⟩ := C159_fan_partial c 30 (-20) n _ _ hM1 hn0 (hn1.2.trans (by norm_num)) hw (PM_ok hγ (by nlinarith)) (hn2.trans (by ring)) hp0
  have h50 : |w' - (pmDeg 1.4 c.M1 + 50)| ≤ 1e-6 := by
    rw [show (30:ℝ) - -20 = 50 by norm_num] at g6; exact g6
  have hw' := pm_value hγ g4 g5
  have h50' := abs_le.1 h50
  norm_num at h50'
  have f1 : 2.8 ≤ f.M2 := by
    by_contra hcon
    push Not at hcon
    have := hmono2 (Set.mem_Ici.2 g4) (Set.mem_Ici.2 (by norm_num)) hcon
    rw [← hw'] at this
    linarith
  have f2 : f.M2 ≤ 10 := by
    by_contra hcon
    push Not at hcon
    have := hmono2 (Set.mem_Ici.2 (by norm_num)) (Set.mem_Ici.2 g4) hcon
    rw [← hw'] at this
    linarith
  obtain ⟨M, hM⟩ : ∃ M, M = f.M2 := ⟨_, rfl⟩
  have f1' : 14/5 ≤ M := by rw [hM]; norm_num at f1 ⊢; exact f1
  have hMM : (196/25 : ℝ) ≤ M ^ 2 := by nlinarith
  obtain ⟨t0, t1, ts, td⟩ := dev_of_tan (M := M) (T := 1) (by linarith) (by norm_num)
  have htd : 20 < devDeg M 1.4 (Py.degrees (arctan 1)) := by
    rw [td]
    refine deg20 ?_
    norm_num
    rw [le_div_iff₀ (by linarith)]
    linarith
  obtain ⟨σ', σm', p', pm', c1, c2, c3, c4, c5, c6, c7, c8⟩ := attach (M := M) (d := 20) (by norm_num; linarith) (by norm_num) t0 t1 (by rw [ts]; norm_num) htd
    (by rw [ts]; norm_num; linarith)
  rw [hM] at c1 c5 c6 c7
  obtain ⟨l, θ₂, N₂, P, d1, d2, d3, d4, d5, d6, d7, d8, d9⟩ := C159_last_partial f 20 σ' σm' p' pm' (by norm_num at f1 ⊢; linarith) f2 (by norm_num) c1 c3 (c4.trans c2).le c5 c6 c7 c8
  obtain ⟨x, y, hlim, -⟩ := limits_ok (M := 3) (γ := 1.4) hγ (by norm_num)
  refine ⟨c, f, l, θ, N, _, w', θ₂, N₂, P, σm, σm', ?_, a1, b3, b4, htol, ?_, k1, k2, hw, g5, h50, g8, (g9 (by norm_num)).2, f1, f2, c1, d3, d4, d6, d9, d5⟩
  · unfold run
    rw [hlim, Py.ok_bind, b1, Py.ok_bind, g1, Py.ok_bind, d1, Py.ok_bind]
    rfl
  · refine b9.trans (mul_le_mul_of_nonneg_right (by norm_num) b8.le)

/-- the hypotheses of `C159_shock_partial` and `C159_last_partial` hold at Mach 3 for a wall of 20° -/
example : ∃ σ σm p pm, sigma_DevMax 3 1.4 = Except.ok σm ∧ 0 < σ ∧ σ ≤ σm ∧ deflection_Mach_sigma 3 σ 1.4 = Except.ok 20 ∧
    Ps_ratio (3 * degree.sin σ) 1.4 = Except.ok p ∧ Ps_ratio (3 * degree.sin σm) 1.4 = Except.ok pm ∧ p - 1 ≤ 0.95 * (pm - 1) := by
  obtain ⟨t0, t1, ts, td⟩ := dev_of_tan (M := 3) (T := 1) (by norm_num) (by norm_num)
  obtain ⟨σ, σm, p, pm, c1, c2, c3, c4, c5, c6, c7, c8⟩ := attach (M := 3) (d := 20) (by norm_num) (by norm_num) t0 t1 (by rw [ts]; norm_num)
    (by rw [td]; exact deg20 (by norm_num)) (by rw [ts]; norm_num)
  exact ⟨σ, σm, p, pm, c1, c3, (c4.trans c2).le, c5, c6, c7, c8⟩

/-- the hypotheses of `C159_fan_partial` hold for a flow at Mach 1.2 that turns to Mach 3 -/
example : ∃ (c : First) (wang1 wang2 w w₂ : ℝ), c.M1 = 1.2 ∧ PrandtlMeyer_Mach c.M1 1.4 = Except.ok w ∧ PrandtlMeyer_Mach 3 1.4 = Except.ok w₂ ∧
    w₂ = w + (wang1 - wang2) ∧ 0 < c.p1p0 ∧ 0 < wang1 - wang2 := by
  have hγ : (1:ℝ) < 1.4 := by norm_num
  obtain ⟨a, b, ha, hb, hab⟩ := C19_strictly_increasing 1.2 3 1.4 hγ (by norm_num) (by norm_num)
  exact ⟨⟨50, 2, 4, 0.6, 1.2⟩, b - a, 0, a, b, rfl, ha, hb, by ring, by norm_num, by linarith⟩

end Aerokit.Props
