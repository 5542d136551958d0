import Verif.Props.Fanno
import Verif.Props.Rayleigh
import Verif.Lemmas.Nozzle
import Mathlib.Analysis.SpecialFunctions.Sqrt

/-! # Properties C119, C120 : Fanno and Rayleigh flows against the equations of motion and against normal shocks -/

namespace Aerokit.Props
open Isentropic MassFlow ShockWave Nozzle Real

theorem hasDerivAt_fb {M γ : ℝ} : HasDerivAt (fun m => fb m γ) (2 / (γ + 1) * ((γ - 1) * M)) M := by
  have d1 : HasDerivAt (fun m : ℝ => 1 + (γ - 1) / 2 * m ^ 2) ((γ - 1) / 2 * (2 * M)) M := by
    have := ((hasDerivAt_pow 2 M).const_mul ((γ - 1) / 2)).const_add 1
    simpa using this
  refine (d1.const_mul (2 / (γ + 1))).congr_deriv ?_
  ring

/-- C119 (Fanno): along the flow, with respect to the Mach number, the ratios of the module satisfy the momentum equation of a
duct with wall friction, `dp/p + γM² dV/V = -γM²/2 · (4f dx/D)`, where `4f dx/D` is the decrease of `maxFparam_Mach`; and the
entropy produced is the heat dissipated by the friction, `ds/cp = (γ-1)/2 · M² · (4f dx/D)`.  (Mass, energy and perfect gas law:
`C22_consistent`.) -/
theorem C119_fanno (M γ : ℝ) (hγ : 1 < γ) (hM : 0 < M) :
    ∃ p V S F : ℝ → ℝ, ∃ p' V' S' F' : ℝ,
      (∀ m, 0 < m → Fanno.Ps_Pscri m γ = .ok (p m) ∧ Fanno.V_Vcri m γ = .ok (V m) ∧ Fanno.NormdS m γ = .ok (S m) ∧
        Fanno.maxFparam_Mach m γ = .ok (F m)) ∧
      HasDerivAt p p' M ∧ HasDerivAt V V' M ∧ HasDerivAt S S' M ∧ HasDerivAt F F' M ∧
      p' / p M + γ * M ^ 2 * (V' / V M) = γ * M ^ 2 / 2 * F' ∧ S' = -((γ - 1) / 2 * M ^ 2 * F') := by
  have hb := fb_pos (M := M) hγ
  have hs := Real.sqrt_pos.2 hb
  have hs2 : √(fb M γ) ^ 2 = fb M γ := Real.sq_sqrt hb.le
  have ht : 0 < 1 + (γ - 1) / 2 * M ^ 2 := tt_pos (M := M) hγ
  have hγ1 : 0 < γ + 1 := by linarith
  have hγm : 0 < γ - 1 := by linarith
  have hγ0 : 0 < γ := by linarith
  have dfb := hasDerivAt_fb (M := M) (γ := γ)
  have dsq := dfb.sqrt hb.ne'
  have dp := ((hasDerivAt_const M (1:ℝ)).fun_div ((hasDerivAt_id M).fun_mul dsq) (by simp only [id]; positivity))
  have dV := (hasDerivAt_id M).fun_div dsq hs.ne'
  have dlog := dfb.log hb.ne'
  have dS := ((dlog.const_mul ((γ + 1) / (2 * (γ - 1)))).fun_sub (Real.hasDerivAt_log hM.ne')).const_mul (-((γ - 1) / γ))
  have d0 : HasDerivAt (fun M : ℝ => M ^ 2) (2 * M) M := by simpa using hasDerivAt_pow 2 M
  have dF := HasDerivAt.comp (h₂ := ffun γ) (h := fun M : ℝ => M ^ 2) M (hasDerivAt_ffun hγ (by positivity)) d0
  refine ⟨fun m => 1 / (m * √(fb m γ)), fun m => m / √(fb m γ), fun m => -((γ - 1) / γ) * lsig m γ, fun m => ffun γ (m ^ 2),
    _, _, _, _, fun m hm => ⟨Fanno_Ps_ok hγ hm, Fanno_V_ok hγ, Fanno_dS_ok hγ hm, maxF_ok hγ hm⟩, dp, dV, dS, dF, ?_, ?_⟩
  · have hfb : fb M γ = 2 / (γ + 1) * (1 + (γ - 1) / 2 * M ^ 2) := rfl
    simp only [id]
    obtain ⟨r, hr⟩ : ∃ r, r = √(fb M γ) := ⟨_, rfl⟩
    rw [← hr] at hs hs2 ⊢
    obtain ⟨t, hte⟩ : ∃ t, t = 1 + (γ - 1) / 2 * M ^ 2 := ⟨_, rfl⟩
    rw [← hte] at hfb ht ⊢
    have hr2 : r ^ 2 = 2 / (γ + 1) * t := by rw [hs2, hfb]
    have ht2 : t = (γ + 1) / 2 * r ^ 2 := by rw [hr2]; field_simp
    have key : (γ + 1) * r ^ 2 = 2 + (γ - 1) * M ^ 2 := by rw [hr2]; field_simp; rw [hte]; ring
    rw [ht2]
    field_simp
    linear_combination (γ * M ^ 2 - 1) * key
  · have hfb : fb M γ = 2 / (γ + 1) * (1 + (γ - 1) / 2 * M ^ 2) := rfl
    rw [hfb]
    obtain ⟨t, hte⟩ : ∃ t, t = 1 + (γ - 1) / 2 * M ^ 2 := ⟨_, rfl⟩
    rw [← hte] at ht ⊢
    field_simp
    rw [hte]
    ring

/-- C119 (Rayleigh): the entropy along the flow comes from the heat only: `T ds = cp dTi` (written with the ratios to the
critical state, `Ti_cri/Ts_cri = (γ+1)/2`).  (Mass, momentum and perfect gas law: `C24_consistent`.) -/
theorem C119_rayleigh (M γ : ℝ) (hγ : 1 < γ) (hM : 0 < M) :
    ∃ T Ti S : ℝ → ℝ, ∃ Ti' S' : ℝ,
      (∀ m, 0 < m → Rayleigh.Ts_Tscri m γ = .ok (T m) ∧ Rayleigh.Ti_Ticri m γ = .ok (Ti m) ∧ Rayleigh.NormdS m γ = .ok (S m)) ∧
      HasDerivAt Ti Ti' M ∧ HasDerivAt S S' M ∧ T M * S' = (γ + 1) / 2 * Ti' := by
  have hd := ray_den_pos (M := M) hγ
  have hγ0 : 0 < γ := by linarith
  have d0 : HasDerivAt (fun M : ℝ => M ^ 2) (2 * M) M := by simpa using hasDerivAt_pow 2 M
  have dS := HasDerivAt.comp (h₂ := rent γ) (h := fun M : ℝ => M ^ 2) M (hasDerivAt_rent hγ (by positivity)) d0
  have dTi := (((d0.const_sub 1).fun_div ((d0.const_mul γ).const_add 1) hd.ne').fun_pow 2).const_sub 1
  refine ⟨fun m => m ^ 2 * ((γ + 1) / (1 + γ * m ^ 2)) ^ 2, fun m => 1 - ((1 - m ^ 2) / (1 + γ * m ^ 2)) ^ 2,
    fun m => rent γ (m ^ 2), _, _, fun m hm => ⟨Ray_Ts_ok hγ, Ray_Ti_ok hγ, Ray_dS_ok hγ hm⟩, dTi, dS, ?_⟩
  obtain ⟨D, hD⟩ : ∃ D, D = 1 + γ * M ^ 2 := ⟨_, rfl⟩
  rw [← hD] at hd ⊢
  push_cast
  field_simp
  rw [hD]
  ring

/-- C120: a normal shock joins two states of the same Rayleigh line (same mass flow and momentum) and of the same Fanno line
(same mass flow and total temperature): the shock ratios are the quotients of the ratios to the critical states, which are
therefore not changed by the shock. -/
theorem C120_static (M m γ : ℝ) (hγ : 1 < γ) (hM : 1 ≤ M) (hm : downstream_Mn M γ = .ok m) :
    ∃ p ρ T pf pf' ρf ρf' Tf Tf' pr pr' ρr ρr' Tr Tr' Ti Ti',
      Ps_ratio M γ = .ok p ∧ Rho_ratio M γ = .ok ρ ∧ Ts_ratio M γ = .ok T ∧
      Fanno.Ps_Pscri M γ = .ok pf ∧ Fanno.Ps_Pscri m γ = .ok pf' ∧ Fanno.Rho_Rhocri M γ = .ok ρf ∧ Fanno.Rho_Rhocri m γ = .ok ρf' ∧
      Fanno.Ts_Tscri M γ = .ok Tf ∧ Fanno.Ts_Tscri m γ = .ok Tf' ∧
      Rayleigh.Ps_Pscri M γ = .ok pr ∧ Rayleigh.Ps_Pscri m γ = .ok pr' ∧ Rayleigh.Rho_Rhocri M γ = .ok ρr ∧
      Rayleigh.Rho_Rhocri m γ = .ok ρr' ∧ Rayleigh.Ts_Tscri M γ = .ok Tr ∧ Rayleigh.Ts_Tscri m γ = .ok Tr' ∧
      Rayleigh.Ti_Ticri M γ = .ok Ti ∧ Rayleigh.Ti_Ticri m γ = .ok Ti' ∧
      pf' = pf * p ∧ ρf' = ρf * ρ ∧ Tf' = Tf * T ∧ pr' = pr * p ∧ ρr' = ρr * ρ ∧ Tr' = Tr * T ∧ Ti' = Ti := by
  have hM0 : 0 < M := by linarith
  have hd := dom_of_one_le hγ hM
  rw [downstream_Mn_ok hγ hd] at hm
  have hm := Except.ok.inj hm
  have h1 := (dom_iff hγ).1 hd
  have hp := mn2_pos hγ hd
  have hm0 : 0 < m := by rw [← hm]; exact Real.sqrt_pos.2 hp
  have hm2 : m ^ 2 = mn2 M γ := by rw [← hm]; exact Real.sq_sqrt hp.le
  have hγ0 : 0 < γ := by linarith
  have hγ1 : 0 < γ + 1 := by linarith
  have hγm : 0 < γ - 1 := by linarith
  have ht := rho_den_pos (M := M) hγ
  have hpr := psr_pos hγ hd
  have hrr := rhr_pos hγ hM0.ne'
  have hrM := ray_den_pos (M := M) hγ
  have hrm := ray_den_pos (M := m) hγ
  -- algebra in x = M², D = γx - (γ-1)/2, E = 2 + (γ-1) x
  obtain ⟨x, hx⟩ : ∃ x, x = M ^ 2 := ⟨_, rfl⟩
  have hx0 : 0 < x := by rw [hx]; positivity
  obtain ⟨D, hD⟩ : ∃ D, D = γ * x - (γ - 1) / 2 := ⟨_, rfl⟩
  obtain ⟨E, hE⟩ : ∃ E, E = 2 + (γ - 1) * x := ⟨_, rfl⟩
  have hD0 : 0 < D := by rw [hD, hx]; exact h1
  have hE0 : 0 < E := by rw [hE, hx]; exact ht
  have hm2' : m ^ 2 = E / (2 * D) := by
    rw [hm2]; unfold mn2; rw [← hx, ← hD, hE]; field_simp; try ring
  have hps : psr M γ = 2 * D / (γ + 1) := by unfold psr; rw [← hx, hD]; field_simp; ring
  have hrh : rhr M γ = (γ + 1) * x / E := by unfold rhr; rw [← hx, hE]
  have eRm : 1 + γ * m ^ 2 = (γ + 1) * (1 + γ * x) / (2 * D) := by
    rw [hm2']; field_simp; rw [hD, hE]; ring
  have eRM : 1 + γ * M ^ 2 = 1 + γ * x := by rw [hx]
  have eF : fb m γ = fb M γ * (rhr M γ / psr M γ) := by
    unfold fb tt
    rw [hm2', hrh, hps, ← hx, show 1 + (γ - 1) / 2 * x = E / 2 by rw [hE]; ring]
    field_simp
    rw [hD, hE]; ring
  have eM : m ^ 2 = M ^ 2 / (psr M γ * rhr M γ) := by
    rw [hm2', hps, hrh, ← hx]; field_simp
  have hfM := fb_pos (M := M) hγ
  have hfm := fb_pos (M := m) hγ
  have sM := Real.sqrt_pos.2 hfM
  have sm := Real.sqrt_pos.2 hfm
  have hxr : 0 < 1 + γ * x := by positivity
  -- fb m m² = fb M M² / psr², fb m / m² = (fb M / M²) rhr²
  have q1 : m * √(fb m γ) = M * √(fb M γ) / psr M γ := by
    refine (sq_eq_sq₀ (by positivity) (by positivity)).1 ?_
    rw [div_pow, mul_pow, mul_pow, Real.sq_sqrt hfm.le, Real.sq_sqrt hfM.le, eF, eM]
    field_simp
  have q2 : 1 / m * √(fb m γ) = 1 / M * √(fb M γ) * rhr M γ := by
    refine (sq_eq_sq₀ (by positivity) (by positivity)).1 ?_
    rw [mul_pow, mul_pow, mul_pow, Real.sq_sqrt hfm.le, Real.sq_sqrt hfM.le, div_pow, div_pow, eF, eM]
    field_simp
  refine ⟨_, _, _, _, _, _, _, _, _, _, _, _, _, _, _, _, _, Ps_ratio_ok hγ, Rho_ratio_ok hγ, Ts_ratio_ok hγ hM0.ne',
    Fanno_Ps_ok hγ hM0, Fanno_Ps_ok hγ hm0, Fanno_Rho_ok hγ hM0, Fanno_Rho_ok hγ hm0, Fanno_Ts_ok hγ, Fanno_Ts_ok hγ,
    Ray_Ps_ok hγ, Ray_Ps_ok hγ, Ray_Rho_ok hγ hM0, Ray_Rho_ok hγ hm0, Ray_Ts_ok hγ, Ray_Ts_ok hγ, Ray_Ti_ok hγ, Ray_Ti_ok hγ,
    ?_, ?_, ?_, ?_, ?_, ?_, ?_⟩
  · rw [q1]; field_simp
  · rw [q2]
  · rw [eF]; field_simp
  · rw [eRm, eRM, hps]; field_simp
  · rw [eRm, eRM, hrh, hm2', ← hx]; field_simp
  · rw [eRm, eRM, hps, hrh, hm2', ← hx]; field_simp
  · rw [eRm, eRM, hm2', ← hx]
    field_simp
    rw [hD, hE]; ring

/-- C120 (default gas): the same for the total pressures, and the entropy rise of the shock is the same on both lines; it is
the one of the total pressure loss, and it is positive for `M > 1`. -/
theorem C120_total (M m : ℝ) (hM : 1 ≤ M) (hm : downstream_Mn M 1.4 = .ok m) :
    ∃ P Pf Pf' Pr Pr' sf sf' sr sr', Pt_ratio M 1.4 = .ok P ∧ Fanno.Pi_Picri M 1.4 = .ok Pf ∧ Fanno.Pi_Picri m 1.4 = .ok Pf' ∧
      Rayleigh.Pi_Picri M 1.4 = .ok Pr ∧ Rayleigh.Pi_Picri m 1.4 = .ok Pr' ∧ Fanno.NormdS M 1.4 = .ok sf ∧ Fanno.NormdS m 1.4 = .ok sf' ∧
      Rayleigh.NormdS M 1.4 = .ok sr ∧ Rayleigh.NormdS m 1.4 = .ok sr' ∧
      Pf' = Pf * P ∧ Pr' = Pr * P ∧ sf' - sf = -(2/7) * Real.log P ∧ sr' - sr = -(2/7) * Real.log P ∧ (1 < M → sf < sf' ∧ sr < sr') := by
  have e : (1.4:ℝ) = DefaultGas.gamma0 := by rw [gamma0_eq]; norm_num
  rw [e] at hm ⊢
  have hg := one_lt_gamma0
  obtain ⟨γ, hγe⟩ : ∃ γ, γ = DefaultGas.gamma0 := ⟨_, rfl⟩
  have hγv : γ = 7/5 := by rw [hγe, gamma0_eq]
  have hPt := Pt_ratio_ok_default hM
  rw [← hγe] at hm hg hPt ⊢
  have hM0 : 0 < M := by linarith
  have hd := dom_of_one_le hg hM
  obtain ⟨p, ρ, T, pf, pf', ρf, ρf', Tf, Tf', pr, pr', ρr, ρr', Tr, Tr', Ti, Ti', k1, k2, k3, k4, k5, k6, k7, k8, k9, k10, k11,
    k12, k13, k14, k15, k16, k17, j1, j2, j3, j4, j5, j6, j7⟩ := C120_static M m γ hg hM hm
  have hmv := hm
  rw [downstream_Mn_ok hg hd] at hmv
  have hmv := Except.ok.inj hmv
  have hp := mn2_pos hg hd
  have hm0 : 0 < m := by rw [← hmv]; exact Real.sqrt_pos.2 hp
  obtain ⟨p1, T1, ρ1, V1, P1, s1, t1, t2, q1, q2, a1, a2, a3, a4, a5, a6, a7, a8, a9, a10, b1, b2, b3, b4, b5, b6, b7⟩ :=
    C22_consistent M γ hg hM0
  obtain ⟨p1', T1', ρ1', V1', P1', s1', t1', t2', q1', q2', a1', a2', a3', a4', a5', a6', a7', a8', a9', a10', b1', b2', b3', b4',
    b5', b6', b7'⟩ := C22_consistent m γ hg hm0
  obtain ⟨u1, u2, u3, u4, u5, u6, u7, u8, u9, u10, u11, c1, c2, c3, c4, c5, c6, c7, c8, c9, c10, c11, e1, e2, e3, e4, e5, e6, e7⟩ :=
    C24_consistent M γ hg hM0
  obtain ⟨v1, v2, v3, v4, v5, v6, v7, v8, v9, v10, v11, d1, d2, d3, d4, d5, d6, d7, d8, d9, d10, d11, f1, f2, f3, f4, f5, f6, f7⟩ :=
    C24_consistent m γ hg hm0
  have inj : ∀ {x : Py ℝ} {a b : ℝ}, x = .ok a → x = .ok b → a = b := fun h h' => Except.ok.inj (h.symm.trans h')
  have hsg : sig m γ = sig M γ * ptr M γ := by rw [← hmv]; exact sig_shock hg hM
  have hptr := ptr_pos hg hd
  have hPf : P1' = P1 * ptr M γ := by
    rw [inj a5' (Fanno_Pi_ok hg hm0), inj a5 (Fanno_Pi_ok hg hM0), hsg]
  have hq : q1' = v10 ∧ q1 = u10 ∧ q2 = u11 ∧ q2' = v11 ∧ q2 = q2' :=
    ⟨inj a9' d10, inj a9 c10, inj a10 c11, inj a10' d11, inj a10 a10'⟩
  have hp1 : p1 = pf ∧ p1' = pf' ∧ u1 = pr ∧ v1 = pr' := ⟨inj a1 k4, inj a1' k5, inj c1 k10, inj d1 k11⟩
  have hT1 : T1 = Tf ∧ T1' = Tf' ∧ u2 = Tr ∧ v2 = Tr' := ⟨inj a2 k8, inj a2' k9, inj c2 k14, inj d2 k15⟩
  have hpfp : 0 < pf := by
    rw [inj k4 (Fanno_Ps_ok hg hM0)]; have := Real.sqrt_pos.2 (fb_pos (M := M) hg); positivity
  have hprp : 0 < pr := by
    rw [inj k10 (Ray_Ps_ok hg)]; have := ray_den_pos (M := M) hg; have : 0 < γ + 1 := by linarith
    positivity
  have hTfp : 0 < Tf := by rw [inj k8 (Fanno_Ts_ok hg)]; have := fb_pos (M := M) hg; positivity
  have hTrp : 0 < Tr := by
    rw [inj k14 (Ray_Ts_ok hg)]; have := ray_den_pos (M := M) hg; have : 0 < γ + 1 := by linarith
    positivity
  have hpp : 0 < p := by rw [inj k1 (Ps_ratio_ok hg)]; exact psr_pos hg hd
  have hTp : 0 < T := by
    rw [inj k3 (Ts_ratio_ok hg hM0.ne')]; exact div_pos (psr_pos hg hd) (rhr_pos hg hM0.ne')
  have hPr : v6 = u6 * ptr M γ := by
    obtain ⟨h1, h2, h3, h4, h5⟩ := hq
    have hq2 : 0 < q2 := by rw [inj a10 (PtPs_ppt hg)]; exact ppt_pos hg
    rw [b5, b5', ← h5, hp1.1, hp1.2.1, j1] at hPf
    have : p * q1' = q1 * ptr M γ := by
      field_simp at hPf
      linear_combination hPf
    rw [e6, f6, hp1.2.2.1, hp1.2.2.2, j4, ← h1, ← h2, ← h3, ← h4, ← h5]
    field_simp
    linear_combination this
  have hlogF : s1' - s1 = -((γ - 1) / γ) * Real.log (ptr M γ) := by
    have hP1 : 0 < P1 := by rw [inj a5 (Fanno_Pi_ok hg hM0)]; exact sig_pos hg hM0
    rw [b7, b7', hPf, Real.log_mul hP1.ne' hptr.ne']; ring
  have hlogR : v7 - u7 = s1' - s1 := by
    rw [e7, f7, b6, b6', hT1.1, hT1.2.1, hT1.2.2.1, hT1.2.2.2, hp1.1, hp1.2.1, hp1.2.2.1, hp1.2.2.2, j1, j3, j4, j6,
      Real.log_mul hTrp.ne' hTp.ne', Real.log_mul hTfp.ne' hTp.ne', Real.log_mul hprp.ne' hpp.ne', Real.log_mul hpfp.ne' hpp.ne']
    ring
  have hc : -((γ - 1) / γ) = -(2/7) := by rw [hγv]; norm_num
  rw [hc] at hlogF
  refine ⟨_, _, _, _, _, _, _, _, _, hPt, a5, a5', c6, d6, a6, a6', c7, d7, hPf, hPr, hlogF, by rw [hlogR, hlogF], fun h1 => ?_⟩
  have hlt : ptr M γ < 1 := by
    have := ptr_strictAnti hg (Set.mem_Ici.2 le_rfl) (Set.mem_Ici.2 hM) h1
    simpa only [ptr_one hg] using this
  have := Real.log_neg hptr hlt
  constructor <;> linarith

example : (1:ℝ) < 1.4 ∧ ∃ m, downstream_Mn 2 1.4 = .ok m :=
  ⟨by norm_num, _, downstream_Mn_ok (by norm_num) (dom_of_one_le (by norm_num) (by norm_num))⟩

end Aerokit.Props
