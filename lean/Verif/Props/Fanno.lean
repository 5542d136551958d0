import Verif.Model.Fanno
import Verif.Lemmas.MassFlow

/-! # Properties C22–C23 : Fanno flow, `aerokit/aero/Fanno.py` -/

namespace Aerokit.Props
open Isentropic MassFlow Real

/-- `2/(γ+1)·(1+(γ-1)/2 M²)`, the inverse of the static temperature ratio -/
noncomputable def fb (M γ : ℝ) : ℝ := 2 / (γ + 1) * tt M γ

theorem fb_pos {M γ : ℝ} (h : 1 < γ) : 0 < fb M γ := base_pos h
theorem fb_one {γ : ℝ} (h : 1 < γ) : fb 1 γ = 1 := tt_one h

theorem Fanno_Ps_ok {M γ : ℝ} (h : 1 < γ) (hM : 0 < M) :
    Fanno.Ps_Pscri M γ = .ok (1 / (M * √(fb M γ))) := by
  have hs := Real.sqrt_pos.2 (fb_pos (M := M) h)
  unfold Fanno.Ps_Pscri; lits
  rw [Py.div_ok (by linarith), Py.ok_bind]
  change (do let s ← Py.sqrt (fb M γ); Py.div 1 (M * s)) = _
  rw [Py.sqrt_ok (fb_pos h).le, Py.ok_bind, Py.div_ok (by positivity)]

theorem Fanno_Ts_ok {M γ : ℝ} (h : 1 < γ) : Fanno.Ts_Tscri M γ = .ok (1 / fb M γ) := by
  have := tt_pos (M := M) h
  unfold Fanno.Ts_Tscri
  change Py.div ((γ + 1) / 2) (tt M γ) = _
  rw [Py.div_ok this.ne']; congr 1
  have : γ + 1 ≠ 0 := by linarith
  unfold fb; field_simp

theorem Fanno_Rho_ok {M γ : ℝ} (h : 1 < γ) (hM : 0 < M) :
    Fanno.Rho_Rhocri M γ = .ok (1 / M * √(fb M γ)) := by
  unfold Fanno.Rho_Rhocri; lits
  rw [Py.div_ok hM.ne', Py.ok_bind, Py.div_ok (by linarith), Py.ok_bind]
  change (do let s ← Py.sqrt (fb M γ); return 1 / M * s) = _
  rw [Py.sqrt_ok (fb_pos h).le]; rfl

theorem Fanno_V_ok {M γ : ℝ} (h : 1 < γ) : Fanno.V_Vcri M γ = .ok (M / √(fb M γ)) := by
  have hs := Real.sqrt_pos.2 (fb_pos (M := M) h)
  unfold Fanno.V_Vcri
  rw [Py.div_ok (by linarith), Py.ok_bind]
  change (do let s ← Py.sqrt (fb M γ); Py.div M s) = _
  rw [Py.sqrt_ok (fb_pos h).le, Py.ok_bind, Py.div_ok hs.ne']

theorem Fanno_Pi_ok {M γ : ℝ} (h : 1 < γ) (hM : 0 < M) : Fanno.Pi_Picri M γ = .ok (sig M γ) := by
  unfold Fanno.Pi_Picri; lits
  rw [Py.div_ok hM.ne', Py.ok_bind, Py.div_ok (by linarith), Py.ok_bind, Py.div_ok (by linarith), Py.ok_bind]
  change (do let w ← Py.pow (fb M γ) ((γ + 1) / 2 / (γ - 1)); return 1 / M * w) = _
  rw [Py.pow_ok _ (fb_pos h), Py.ok_bind, div_div]
  simp only [Py.pure_eq]; congr 1
  unfold sig fb; field_simp

theorem Fanno_dS_ok {M γ : ℝ} (h : 1 < γ) (hM : 0 < M) :
    Fanno.NormdS M γ = .ok (-((γ - 1) / γ) * lsig M γ) := by
  have hb := fb_pos (M := M) h
  unfold Fanno.NormdS
  rw [Py.div_ok (by linarith), Py.ok_bind, Py.pow_ok _ hM, Py.ok_bind, Py.div_ok (by linarith),
    Py.ok_bind, Py.div_ok (by linarith), Py.ok_bind]
  change (do let b ← Py.pow (fb M γ) (-(γ + 1) / 2 / γ); Py.log (M ^ ((γ - 1) / γ) * b)) = _
  have p1 := Real.rpow_pos_of_pos hM ((γ - 1) / γ)
  have p2 := Real.rpow_pos_of_pos hb (-(γ + 1) / 2 / γ)
  rw [Py.pow_ok _ hb, Py.ok_bind, Py.log_ok (by positivity), Real.log_mul p1.ne' p2.ne',
    Real.log_rpow hM, Real.log_rpow hb]
  congr 1
  unfold lsig
  change _ = -((γ - 1) / γ) * ((γ + 1) / (2 * (γ - 1)) * Real.log (fb M γ) - Real.log M)
  have h1 : γ - 1 ≠ 0 := by linarith
  have h2 : γ ≠ 0 := by linarith
  field_simp
  ring

/-- C22: mutual consistency of the Fanno ratios: perfect gas law, mass conservation, definition of
the Mach number, constant total temperature, total pressure and entropy. -/
theorem C22_consistent (M γ : ℝ) (hγ : 1 < γ) (hM : 0 < M) :
    ∃ p T ρ V P s t t1 q q1, Fanno.Ps_Pscri M γ = Except.ok p ∧ Fanno.Ts_Tscri M γ = Except.ok T ∧
      Fanno.Rho_Rhocri M γ = Except.ok ρ ∧ Fanno.V_Vcri M γ = Except.ok V ∧
      Fanno.Pi_Picri M γ = Except.ok P ∧ Fanno.NormdS M γ = Except.ok s ∧
      TtTs_Mach M γ = Except.ok t ∧ TtTs_Mach 1 γ = Except.ok t1 ∧
      PtPs_Mach M γ = Except.ok q ∧ PtPs_Mach 1 γ = Except.ok q1 ∧
      p = ρ * T ∧ ρ * V = 1 ∧ V = M * Real.sqrt T ∧ T * t = t1 ∧ P = p * q / q1 ∧
      s = Real.log T - (γ - 1) / γ * Real.log p ∧ s = -((γ - 1) / γ) * Real.log P := by
  have hb := fb_pos (M := M) hγ
  have hs := Real.sqrt_pos.2 hb
  have hs2 : √(fb M γ) ^ 2 = fb M γ := Real.sq_sqrt hb.le
  have hγ1 : γ + 1 ≠ 0 := by linarith
  have hγm : γ - 1 ≠ 0 := by linarith
  have hγ0 : γ ≠ 0 := by linarith
  refine ⟨_, _, _, _, _, _, _, _, _, _, Fanno_Ps_ok hγ hM, Fanno_Ts_ok hγ, Fanno_Rho_ok hγ hM,
    Fanno_V_ok hγ, Fanno_Pi_ok hγ hM, Fanno_dS_ok hγ hM, TtTs_Mach_ok _ _, TtTs_Mach_ok _ _,
    PtPs_Mach_ok hγ, PtPs_Mach_ok hγ, ?_, ?_, ?_, ?_, ?_, ?_, ?_⟩
  · rw [div_mul_eq_mul_div, one_mul, div_mul_div_comm, mul_one, div_eq_div_iff (by positivity) (by positivity)]
    nlinarith
  · field_simp
  · rw [Real.sqrt_div (by norm_num), Real.sqrt_one]; ring
  · unfold fb; have := (tt_pos (M := M) hγ).ne'; field_simp; unfold tt; ring
  · unfold sig
    have p1 := tt_pos (M := 1) hγ
    have pM := tt_pos (M := M) hγ
    have e0 : fb M γ = tt M γ / tt 1 γ := by
      have : 2 / (γ + 1) = (tt 1 γ)⁻¹ := eq_inv_of_mul_eq_one_left (tt_one hγ)
      unfold fb; rw [this]; ring
    have e1 : tt M γ ^ (γ / (γ - 1)) / tt 1 γ ^ (γ / (γ - 1)) = fb M γ ^ (γ / (γ - 1)) := by
      rw [e0, Real.div_rpow pM.le p1.le]
    have e2 : fb M γ ^ ((γ + 1) / (2 * (γ - 1))) * √(fb M γ) = fb M γ ^ (γ / (γ - 1)) := by
      rw [Real.sqrt_eq_rpow, ← Real.rpow_add hb]; congr 1; field_simp; ring
    rw [mul_div_assoc, e1, ← e2]
    change fb M γ ^ ((γ + 1) / (2 * (γ - 1))) / M = _
    field_simp
  · rw [Real.log_div (by norm_num) hb.ne', Real.log_div (by norm_num) (by positivity),
      Real.log_mul hM.ne' hs.ne', Real.log_sqrt hb.le, Real.log_one]
    unfold lsig
    change -((γ - 1) / γ) * ((γ + 1) / (2 * (γ - 1)) * Real.log (fb M γ) - Real.log M) = _
    field_simp; ring
  · rw [log_sig hγ hM]

/-- C22: every ratio is 1 (entropy and friction parameter 0) at the critical point `M = 1`. -/
theorem C22_critical_point (γ : ℝ) (hγ : 1 < γ) :
    Fanno.Ps_Pscri 1 γ = Except.ok 1 ∧ Fanno.Ts_Tscri 1 γ = Except.ok 1 ∧
    Fanno.Rho_Rhocri 1 γ = Except.ok 1 ∧ Fanno.V_Vcri 1 γ = Except.ok 1 ∧
    Fanno.Pi_Picri 1 γ = Except.ok 1 ∧ Fanno.NormdS 1 γ = Except.ok 0 := by
  refine ⟨?_, ?_, ?_, ?_, ?_, ?_⟩
  · rw [Fanno_Ps_ok hγ one_pos, fb_one hγ]; simp
  · rw [Fanno_Ts_ok hγ, fb_one hγ]; simp
  · rw [Fanno_Rho_ok hγ one_pos, fb_one hγ]; simp
  · rw [Fanno_V_ok hγ, fb_one hγ]; simp
  · rw [Fanno_Pi_ok hγ one_pos, sig_one hγ]
  · rw [Fanno_dS_ok hγ one_pos, ← log_sig hγ one_pos, sig_one hγ]; simp

example : (1:ℝ) < 1.4 ∧ (0:ℝ) < 0.5 := by norm_num

/-- friction parameter as a function of `x = M²` -/
noncomputable def ffun (γ x : ℝ) : ℝ :=
  (1 - x) / (γ * x) + (γ + 1) / (2 * γ) * (log (x * (γ + 1) / 2) - log (1 + (γ - 1) / 2 * x))

theorem maxF_ok {M γ : ℝ} (h : 1 < γ) (hM : 0 < M) :
    Fanno.maxFparam_Mach M γ = .ok (ffun γ (M ^ 2)) := by
  have ht := tt_pos (M := M) h
  have hM2 : 0 < M ^ 2 := by positivity
  have hn : 0 < M ^ 2 * (γ + 1) / 2 := by have : 0 < γ + 1 := by linarith
                                          positivity
  unfold Fanno.maxFparam_Mach
  simp only []
  have h0 : γ * M ^ 2 ≠ 0 := mul_ne_zero (by linarith) hM2.ne'
  have ht' : 0 < 1 + (γ - 1) / 2 * M ^ 2 := ht
  rw [Py.div_ok h0, Py.ok_bind, Py.div_ok (by linarith), Py.ok_bind, Py.div_ok ht'.ne', Py.ok_bind,
    Py.log_ok (by positivity), Py.ok_bind, Real.log_div hn.ne' ht'.ne']
  rfl

theorem hasDerivAt_ffun {γ x : ℝ} (h : 1 < γ) (hx : 0 < x) :
    HasDerivAt (ffun γ) ((x - 1) / (γ * x ^ 2 * (1 + (γ - 1) / 2 * x))) x := by
  have hE : 0 < 1 + (γ - 1) / 2 * x := by
    have : 0 < γ - 1 := by linarith
    positivity
  have hγ : 0 < γ := by linarith
  have hγ1 : 0 < γ + 1 := by linarith
  have d1 : HasDerivAt (fun x : ℝ => 1 - x) (-1) x := by simpa using (hasDerivAt_id x).const_sub 1
  have d2 : HasDerivAt (fun x : ℝ => γ * x) γ x := by simpa using (hasDerivAt_id x).const_mul γ
  have d3 : HasDerivAt (fun x : ℝ => x * (γ + 1) / 2) ((γ + 1) / 2) x := by
    simpa using ((hasDerivAt_id x).mul_const (γ + 1)).div_const 2
  have d4 : HasDerivAt (fun x : ℝ => 1 + (γ - 1) / 2 * x) ((γ - 1) / 2) x := by
    simpa using ((hasDerivAt_id x).const_mul ((γ - 1) / 2)).const_add 1
  have d := (d1.div d2 (by positivity)).add
    (((d3.log (by positivity)).sub (d4.log hE.ne')).const_mul ((γ + 1) / (2 * γ)))
  refine d.congr_deriv ?_
  obtain ⟨E, hE'⟩ : ∃ E, E = 1 + (γ - 1) / 2 * x := ⟨_, rfl⟩
  rw [← hE'] at hE ⊢
  have := hE.ne'
  field_simp
  rw [hE']
  ring

theorem ffun_one (γ : ℝ) : ffun γ 1 = 0 := by
  unfold ffun
  rw [show (1:ℝ) * (γ + 1) / 2 = 1 + (γ - 1) / 2 * 1 by ring]; simp

theorem ffun_anti {γ : ℝ} (h : 1 < γ) : StrictAntiOn (ffun γ) (Set.Ioc 0 1) := by
  apply strictAntiOn_of_deriv_neg (convex_Ioc 0 1)
  · intro x hx; exact (hasDerivAt_ffun h hx.1).continuousAt.continuousWithinAt
  · intro x hx
    rw [interior_Ioc] at hx
    have hx0 : 0 < x := hx.1
    rw [(hasDerivAt_ffun h hx.1).deriv]
    have : 0 < γ - 1 := by linarith
    have : 0 < γ := by linarith
    exact div_neg_of_neg_of_pos (by linarith [hx.2]) (by positivity)

theorem ffun_mono {γ : ℝ} (h : 1 < γ) : StrictMonoOn (ffun γ) (Set.Ici 1) := by
  apply strictMonoOn_of_deriv_pos (convex_Ici 1)
  · intro x hx
    exact (hasDerivAt_ffun h (lt_of_lt_of_le one_pos hx)).continuousAt.continuousWithinAt
  · intro x hx
    rw [interior_Ici] at hx
    have hx1 : 1 < x := hx
    have hx0 : 0 < x := by linarith
    rw [(hasDerivAt_ffun h hx0).deriv]
    have : 0 < γ - 1 := by linarith
    have : 0 < γ := by linarith
    exact div_pos (by linarith) (by positivity)

/-- C23: the maximum friction parameter is non-negative, zero exactly at `M = 1`. -/
theorem C23_friction_nonneg (M γ : ℝ) (hγ : 1 < γ) (hM : 0 < M) :
    ∃ f, Fanno.maxFparam_Mach M γ = Except.ok f ∧ 0 ≤ f ∧ (f = 0 ↔ M = 1) := by
  have key : M ≠ 1 → 0 < ffun γ (M ^ 2) := by
    intro hne
    rcases lt_or_gt_of_ne hne with h | h
    · have := ffun_anti hγ ⟨by positivity, by nlinarith⟩ ⟨one_pos, le_rfl⟩ (by nlinarith : M ^ 2 < 1)
      rwa [ffun_one] at this
    · have := ffun_mono hγ (Set.mem_Ici.2 le_rfl) (Set.mem_Ici.2 (by nlinarith)) (by nlinarith : 1 < M ^ 2)
      rwa [ffun_one] at this
  refine ⟨_, maxF_ok hγ hM, ?_, ?_⟩
  · by_cases h : M = 1
    · rw [h, one_pow, ffun_one]
    · exact (key h).le
  · constructor
    · intro h; by_contra hne; have := key hne; linarith
    · rintro rfl; rw [one_pow, ffun_one]

/-- C23: monotonicity on both branches. -/
theorem C23_friction_monotone (M N γ : ℝ) (hγ : 1 < γ) (hM : 0 < M) (hMN : M < N) :
    ∃ f f', Fanno.maxFparam_Mach M γ = Except.ok f ∧ Fanno.maxFparam_Mach N γ = Except.ok f' ∧
      (N ≤ 1 → f' < f) ∧ (1 ≤ M → f < f') := by
  have hN : 0 < N := hM.trans hMN
  refine ⟨_, _, maxF_ok hγ hM, maxF_ok hγ hN, ?_, ?_⟩
  · intro h1
    exact ffun_anti hγ ⟨by positivity, by nlinarith⟩ ⟨by positivity, by nlinarith⟩ (by nlinarith)
  · intro h1
    exact ffun_mono hγ (Set.mem_Ici.2 (by nlinarith)) (Set.mem_Ici.2 (by nlinarith)) (by nlinarith)

/-- C23: the entropy of a Fanno flow is maximal at `M = 1`. -/
theorem C23_entropy_max (M γ : ℝ) (hγ : 1 < γ) (hM : 0 < M) :
    ∃ s, Fanno.NormdS M γ = Except.ok s ∧ s ≤ 0 ∧ (s = 0 ↔ M = 1) := by
  have hk : 0 < (γ - 1) / γ := by apply div_pos <;> linarith
  have hl : 0 ≤ lsig M γ := by rw [← log_sig hγ hM]; exact Real.log_nonneg (one_le_sig hγ hM)
  refine ⟨_, Fanno_dS_ok hγ hM, by nlinarith, ?_⟩
  constructor
  · intro h
    have h0 : lsig M γ = 0 := (mul_eq_zero.1 h).resolve_left (by linarith)
    rw [← log_sig hγ hM] at h0
    have h1 : sig M γ = 1 := Real.eq_one_of_pos_of_log_eq_zero (sig_pos hγ hM) h0
    by_contra hne
    rcases lt_or_gt_of_ne hne with g | g
    · have := one_lt_sig_sub hγ hM g; linarith
    · have := one_lt_sig_sup hγ g; linarith
  · rintro rfl; rw [← log_sig hγ hM, sig_one hγ]; simp

example : (1:ℝ) < 1.4 ∧ (0:ℝ) < 0.3 ∧ (0.3:ℝ) < 0.6 := by norm_num

end Aerokit.Props
