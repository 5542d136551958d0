import Verif.Lemmas.SecantDomain
import Verif.Spec.Solver

/-! # C139 — the area ratio searches with the real `scipy.optimize.newton` -/

namespace Aerokit.Props
open MassFlow ScipyNewton DefaultGas

private theorem sn_k : Py.div (4.0 * (gamma0 - 1.0)) (3.0 - gamma0) = .ok (1 : ℝ) := by
  rw [Isentropic.gamma0_eq, Py.div_ok (by norm_num)]; norm_num

private theorem sn_guess_sub {σ : ℝ} (h : 1 ≤ σ) : MachSub_sigma_init σ gamma0 = .ok (1 - Real.sqrt (1 - 1 / σ)) := by
  unfold MachSub_sigma_init
  have h2 : 1 / σ ≤ 1 := by rw [div_le_one (by linarith)]; exact h
  rw [Py.div_ok (by linarith), Py.ok_bind, sn_k, Py.ok_bind, Py.sqrt_ok (by norm_num; rw [← one_div]; exact h2), Py.ok_bind]
  simp only [Py.pure_eq]; norm_num

private theorem sn_guess_sup {σ : ℝ} (h : 1 ≤ σ) : MachSup_sigma_init σ gamma0 = .ok (1 + Real.sqrt (σ - 1)) := by
  unfold MachSup_sigma_init
  rw [sn_k, Py.ok_bind, Py.sqrt_ok (by norm_num; exact h), Py.ok_bind]
  simp only [Py.pure_eq]; norm_num

private theorem sn_Sigma {x : ℝ} (h : 0 < x) : Sigma_Mach x gamma0 = .ok (P x) := by
  rw [Sigma_Mach_ok Isentropic.one_lt_gamma0 h.ne', sig_P]

/-- **C139 (subsonic, proved domain).**  With the default gas and the secant method of scipy as it is (50 iterations, step tolerance 1.48e-8),
`MachSub_Sigma` returns, for every area ratio from 1.000002 to 2000, a subsonic Mach number within 1.8e-8 of one whose area ratio is exactly the requested one. -/
theorem C139_sub_partial (σ : ℝ) (h0 : 1.000002 ≤ σ) (h1 : σ ≤ 2000) :
    ∃ m r, MachSub_Sigma scipy σ gamma0 = .ok m ∧ 0 < m ∧ m < 1 ∧ 0 < r ∧ r < 1 ∧ Sigma_Mach r gamma0 = .ok σ ∧ |m - r| ≤ 1.8e-8 := by
  have h0' : (1000002 / 1000000 : ℝ) ≤ σ := by norm_num at h0 ⊢; exact h0
  have hσ : 0 < σ := by linarith
  obtain ⟨z, hz⟩ : ∃ z, z = Real.sqrt (1 - 1 / σ) := ⟨_, rfl⟩
  have i1 : 1 / σ ≤ 1000000 / 1000002 := by
    rw [div_le_div_iff₀ hσ (by norm_num)]; linarith
  have i2 : 1 / 2000 ≤ 1 / σ := one_div_le_one_div_of_le hσ h1
  have z2 : z ^ 2 = 1 - 1 / σ := by rw [hz, Real.sq_sqrt (by linarith)]
  have z0 : 0 ≤ z := by rw [hz]; positivity
  have z1 : 1 / 1000 ≤ z := by nlinarith
  have z3 : z ≤ 1 - 1 / 4000 := by nlinarith
  have es : 1 / ((1 - z) * (2 - (1 - z))) = σ := by
    have : (1 - z) * (2 - (1 - z)) = 1 / σ := by linear_combination -z2
    rw [this, one_div_one_div]
  obtain ⟨m, r, e1, e2, e3, e4, e5, e6, e7⟩ := sub_all (y := 1 - z) (by norm_num; linarith) (by norm_num; linarith)
  rw [es] at e1 e4
  refine ⟨m, r, ?_, e6, e7, e2, e3, by rw [sn_Sigma e2, e4], e5⟩
  unfold MachSub_Sigma
  rw [sn_guess_sub (by linarith), Py.ok_bind, ← hz]
  exact e1

/-- **C139 (supersonic, proved domain).**  Likewise for `MachSup_Sigma`, for every area ratio from 1.000001 to 50. -/
theorem C139_sup_partial (σ : ℝ) (h0 : 1.000001 ≤ σ) (h1 : σ ≤ 50) :
    ∃ m r, MachSup_Sigma scipy σ gamma0 = .ok m ∧ 1 < m ∧ 1 < r ∧ Sigma_Mach r gamma0 = .ok σ ∧ |m - r| ≤ 3.2e-8 := by
  have h0' : (1000001 / 1000000 : ℝ) ≤ σ := by norm_num at h0 ⊢; exact h0
  obtain ⟨s, hs⟩ : ∃ s, s = Real.sqrt (σ - 1) := ⟨_, rfl⟩
  have s2 : s ^ 2 = σ - 1 := by rw [hs, Real.sq_sqrt (by linarith)]
  have s0 : 0 ≤ s := by rw [hs]; positivity
  have s1 : 1 / 1000 ≤ s := by nlinarith
  have s3 : s ≤ 7 := by nlinarith
  obtain ⟨m, r, e1, e2, e3, e4, e5⟩ := sup_all (s := s) (by norm_num; linarith) s3
  have es : 1 + s ^ 2 = σ := by linarith
  rw [es] at e1 e3
  refine ⟨m, r, ?_, e5, e2, by rw [sn_Sigma (by linarith), e3], e4⟩
  unfold MachSup_Sigma
  rw [sn_guess_sup (by linarith), Py.ok_bind, ← hs]
  exact e1

/-- the domains contain the usual values -/
example : (1.000002 : ℝ) ≤ 1.5 ∧ (1.5 : ℝ) ≤ 2000 ∧ (1.000001 : ℝ) ≤ 1.5 ∧ (1.5 : ℝ) ≤ 50 := by norm_num

/-- **C139 (default guess, proved domain).**  `Mach_Sigma(sigma)` with its default guess 2.0 returns the supersonic Mach number for area ratios from 1.08 to 2.4. -/
theorem C139_default_guess_partial (σ : ℝ) (h0 : 1.08 ≤ σ) (h1 : σ ≤ 2.4) :
    ∃ m r, Mach_Sigma scipy σ 2.0 gamma0 = .ok m ∧ 1 < m ∧ 1 < r ∧ Sigma_Mach r gamma0 = .ok σ ∧ |m - r| ≤ 3.2e-8 := by
  have e2 : (2.0 : ℝ) = 2 := by norm_num
  rw [e2]
  have hsec : second 2 = 2 * (1 + 1 / 10000) + 1 / 10000 := by rw [second_pos (by norm_num)]; norm_num
  rcases le_total (P 2) σ with c | c
  · obtain ⟨m, r, e1, e2, e3, e4, e5, e6⟩ := supRun (σ := σ) (x0 := 2) (lo := 2) (xu := 2.42) (hi := 2.68) (by norm_num) (by norm_num) (by norm_num) c
      (h1.trans (by unfold P; norm_num)) (by unfold H; norm_num) (by unfold H; norm_num) (by norm_num) (by rw [hsec]; norm_num) (by norm_num)
    exact ⟨m, r, e1, by linarith [e6.1], by linarith, by rw [sn_Sigma (by linarith), e4], e5.trans (by norm_num)⟩
  · obtain ⟨m, r, e1, e2, e3, e4, e5, e6⟩ := supRun_right (σ := σ) (x0 := 2) (xl := 1.33) (hi := 2.0004) (by norm_num) (by norm_num)
      (le_trans (by unfold P; norm_num) h0) c (by unfold H; norm_num) (by norm_num) (by rw [hsec]; norm_num) (by norm_num)
    have : (1 : ℝ) < 1.33 := by norm_num
    exact ⟨m, r, e1, by linarith, by linarith, by rw [sn_Sigma (by linarith), e4], e5⟩

/-- **C139 (throat).**  At the area ratio 1 both searches return exactly Mach 1. -/
theorem C139_throat : MachSub_Sigma scipy 1 gamma0 = .ok 1 ∧ MachSup_Sigma scipy 1 gamma0 = .ok 1 := by
  have key : scipy (sigma_residual 1 gamma0) 1 = .ok 1 := by
    have hsec : second 1 = 10002 / 10000 := by rw [second_pos one_pos]; norm_num
    have q0 : P 1 - 1 = 0 := by unfold P; norm_num
    have q1 : 0 < P (10002 / 10000) - 1 := by unfold P; norm_num
    unfold scipy newton
    simp only []
    rw [residual_P one_ne_zero, Py.ok_bind, hsec, residual_P (by norm_num), Py.ok_bind, q0, if_neg (by rw [abs_zero]; exact not_lt.2 (abs_nonneg _))]
    rw [show (50 : ℕ) = 48 + 1 + 1 by norm_num, loop_succ q1.ne']
    have c1 : chord 1 (10002 / 10000) 0 (P (10002 / 10000) - 1) = 1 := by
      unfold chord
      have := q1.ne'
      rw [sub_zero]; field_simp; norm_num
    rw [c1, if_neg (by norm_num [abs_of_neg]), residual_P one_ne_zero, Py.ok_bind, q0, loop_succ q1.ne]
    have c2 : chord (10002 / 10000) 1 (P (10002 / 10000) - 1) 0 = 1 := by unfold chord; ring
    rw [c2, if_pos (by norm_num)]
  constructor
  · unfold MachSub_Sigma
    rw [sn_guess_sub le_rfl, Py.ok_bind]
    show scipy (sigma_residual 1 gamma0) _ = _
    simpa using key
  · unfold MachSup_Sigma
    rw [sn_guess_sup le_rfl, Py.ok_bind]
    show scipy (sigma_residual 1 gamma0) _ = _
    simpa using key

/-- **C139 (defect).**  `Mach_Sigma(sigma)` with its default guess 2.0 does not solve large area ratios, and does not say so: for every `sigma ≥ 10⁴`
it returns a value within 10⁻⁸ of the guess, whose area ratio is about 1.69. -/
theorem C139_far_guess_false (σ : ℝ) (h : 1e4 ≤ σ) :
    ∃ m s, Mach_Sigma scipy σ 2.0 gamma0 = .ok m ∧ |m - 2| ≤ 1e-8 ∧ Sigma_Mach m gamma0 = .ok s ∧ s ≤ 1.7 := by
  have h' : (10000 : ℝ) ≤ σ := by norm_num at h ⊢; exact h
  have e2 : (2.0 : ℝ) = 2 := by norm_num
  have hsec : second 2 = 20003 / 10000 := by rw [second_pos (by norm_num)]; norm_num
  have P2 : P 2 = 27 / 16 := by unfold P; norm_num
  have P3 : 27 / 16 < P (20003 / 10000) := by unfold P; norm_num
  have P3' : P (20003 / 10000) ≤ 2 := by unfold P; norm_num
  -- slopes
  have sl : P (20003 / 10000) - P 2 = D 2 (20003 / 10000) * (20003 / 10000 - 2) := P_sub (by norm_num) (by norm_num)
  have slb : D 2 (20003 / 10000) ≤ 141 / 100 := by unfold D; norm_num
  have sl0 : 1 ≤ D 2 (20003 / 10000) := by unfold D; norm_num
  obtain ⟨d, hd⟩ : ∃ d, d = D 2 (20003 / 10000) := ⟨_, rfl⟩
  rw [← hd] at sl slb sl0
  -- the overshoot
  obtain ⟨c, hc⟩ : ∃ c, c = 2 + (σ - 27 / 16) / d := ⟨_, rfl⟩
  have c1 : 7 / 10 * σ ≤ c := by
    have : 7 / 10 * σ ≤ (σ - 27 / 16) / d := by
      rw [le_div_iff₀ (by linarith)]; nlinarith
    linarith
  have big : ∀ x, 2 ≤ x → σ / D x c ≤ 1e-9 ∧ 0 < D x c := by
    intro x hx
    have hcpos : 0 < c := by linarith
    have k1 : c ^ 4 / 216 ≤ D x c := by
      unfold D
      have a1 : 125 / (x * c) ≤ 75 := by
        rw [div_le_iff₀ (by positivity)]; nlinarith
      have a2 : 0 ≤ 15 * (x ^ 2 + x * c + c ^ 2) := by positivity
      have a3 : 0 ≤ x ^ 4 + x ^ 3 * c + x ^ 2 * c ^ 2 + x * c ^ 3 := by positivity
      linarith
    have k2 : (7 / 10 * σ) ^ 4 ≤ c ^ 4 := by gcongr
    have k4 : (10000 : ℝ) ^ 3 ≤ σ ^ 3 := by gcongr
    have k3 : σ * 1000000000 ≤ (7 / 10 * σ) ^ 4 / 216 := by nlinarith
    have k5 : 0 < D x c := by
      refine lt_of_lt_of_le ?_ k1; positivity
    refine ⟨?_, k5⟩
    rw [div_le_iff₀ k5]
    have : σ * 1000000000 ≤ D x c := by linarith
    norm_num; linarith
  -- first turn
  have hq : P 2 - σ ≠ P (20003 / 10000) - σ := by intro e; rw [P2] at e; linarith
  have ch1 : chord (20003 / 10000) 2 (P (20003 / 10000) - σ) (P 2 - σ) = c := by
    unfold chord
    have : P 2 - σ - (P (20003 / 10000) - σ) = d * (2 - 20003 / 10000) := by linarith
    rw [this, hc, P2]
    have : d ≠ 0 := by linarith
    field_simp; ring
  -- second turn
  have hPc : P c - P 2 = D 2 c * (c - 2) := P_sub (by norm_num) (by linarith)
  obtain ⟨B1, B2⟩ := big 2 le_rfl
  obtain ⟨b, hb⟩ : ∃ b, b = 2 + (σ - 27 / 16) / D 2 c := ⟨_, rfl⟩
  have hcp : P c - σ ≠ P 2 - σ := by
    intro e
    have : D 2 c * (c - 2) = 0 := by linarith
    rcases mul_eq_zero.1 this with e | e <;> linarith
  have ch2 : chord 2 c (P 2 - σ) (P c - σ) = b := by
    unfold chord
    have e1 : P c - σ - (P 2 - σ) = D 2 c * (c - 2) := by linarith
    have e3 : P c = 27 / 16 + D 2 c * (c - 2) := by rw [← P2]; linarith
    have : c - 2 ≠ 0 := by linarith
    have := B2.ne'
    rw [e1, hb, e3]
    field_simp; ring
  have b0 : 2 ≤ b := by
    rw [hb]; have : 0 ≤ (σ - 27 / 16) / D 2 c := div_nonneg (by linarith) B2.le
    linarith
  have b1 : b ≤ 2 + 1e-9 := by
    rw [hb]
    have : (σ - 27 / 16) / D 2 c ≤ σ / D 2 c := div_le_div_of_nonneg_right (by linarith) B2.le
    linarith
  have bc : b < c := by norm_num at b1; linarith
  -- third turn
  obtain ⟨B3, B4⟩ := big b b0
  have hPb : P b - P c = D c b * (b - c) := P_sub (by linarith) (by linarith)
  rw [D_symm] at hPb
  have hbp : P b - σ ≠ P c - σ := by
    intro e
    have : D b c * (b - c) = 0 := by linarith
    rcases mul_eq_zero.1 this with e | e <;> linarith
  have Pb0 : 27 / 16 ≤ P b := by
    have := P_sub (x := 2) (y := b) (by norm_num) (by linarith)
    have k : 0 ≤ D 2 b := by
      have a := D_mono (x := 2) (x' := b) (y := 2) (by norm_num) (by norm_num) b0
      rw [D_symm b 2] at a
      have : 0 ≤ D 2 2 := by unfold D; norm_num
      linarith
    rw [P2] at this
    nlinarith [mul_nonneg k (by linarith : 0 ≤ b - 2)]
  have Pb : ∀ x, 2 ≤ x → x ≤ 2 + 1e-8 → P x ≤ 1.7 := by
    intro x hx hx'
    norm_num at hx'
    unfold P
    rw [div_le_iff₀ (by linarith)]
    have : (5 + x ^ 2) ^ 3 ≤ (5 + (2001 / 1000) ^ 2) ^ 3 := by gcongr; linarith
    norm_num at this ⊢
    linarith
  obtain ⟨a, ha⟩ : ∃ a, a = b + (σ - P b) / D b c := ⟨_, rfl⟩
  have ch3 : chord c b (P c - σ) (P b - σ) = a := by
    unfold chord
    have e1 : P b - σ - (P c - σ) = D b c * (b - c) := by linarith
    have : b - c ≠ 0 := by linarith
    have := B4.ne'
    rw [e1, ha]
    field_simp; ring
  have Pb1 := Pb b b0 (b1.trans (by norm_num))
  norm_num at Pb1
  have a0 : 0 ≤ a - b := by
    rw [ha]; have : 0 ≤ (σ - P b) / D b c := div_nonneg (by linarith) B4.le
    linarith
  have a1 : a - b ≤ 1e-9 := by
    rw [ha]
    have : (σ - P b) / D b c ≤ σ / D b c := div_le_div_of_nonneg_right (by linarith) B4.le
    linarith
  have a2 : a ≤ 2 + 1e-8 := by norm_num at a1 b1 ⊢; linarith
  refine ⟨a, P a, ?_, ?_, sn_Sigma (by linarith), Pb a (by linarith) a2⟩
  · rw [e2]
    unfold Mach_Sigma scipy newton
    simp only []
    rw [residual_P two_ne_zero, Py.ok_bind, hsec, residual_P (by norm_num), Py.ok_bind,
      if_pos (by rw [abs_of_neg (by linarith), abs_of_neg (by rw [P2]; linarith), P2]; linarith)]
    rw [show (50 : ℕ) = 47 + 1 + 1 + 1 by norm_num, loop_succ hq, ch1, zero_mul, add_zero,
      if_neg (by rw [abs_of_pos (by linarith)]; norm_num; linarith), residual_P (by linarith), Py.ok_bind, loop_succ hcp, ch2, zero_mul, add_zero,
      if_neg (by rw [abs_of_neg (by linarith)]; norm_num at b1 ⊢; linarith), residual_P (by linarith), Py.ok_bind, loop_succ hbp, ch3, zero_mul, add_zero,
      if_pos (by rw [abs_of_nonneg a0]; norm_num at a1 ⊢; linarith)]
  · rw [abs_of_nonneg (by linarith)]; linarith

example : (1e4 : ℝ) ≤ 123456 := by norm_num

/-- the contract used elsewhere for the solver is therefore an idealisation: the algorithm of scipy does not meet it everywhere -/
theorem C139_contract_false : ¬ Spec.SoundRootFinder scipy := by
  intro S
  obtain ⟨m, s, e1, -, e3, e4⟩ := C139_far_guess_false 10000 (by norm_num)
  have := residual_zero (S _ _ _ e1)
  rw [e3] at this
  have := Except.ok.inj this
  norm_num at e4; linarith

end Aerokit.Props
