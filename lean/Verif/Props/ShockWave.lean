import Verif.Lemmas.ShockWave
import Verif.Spec.Flow

/-! # Properties C09–C13 : normal shocks, `aerokit/aero/ShockWave.py` -/

namespace Aerokit.Props
open Isentropic ShockWave

/-- C09: from any upstream state, the downstream state built with `Ps_ratio`, `Rho_ratio` and
`downstream_Mn` satisfies the Rankine–Hugoniot equations, and `Ts_ratio` is its temperature ratio. -/
theorem C09_rankine_hugoniot (γ M ρ p : ℝ) (hγ : 1 < γ) (hM : 1 ≤ M) (hρ : 0 < ρ) (hp : 0 < p) :
    ∃ kp kr kt m2, Ps_ratio M γ = Except.ok kp ∧ Rho_ratio M γ = Except.ok kr ∧
      Ts_ratio M γ = Except.ok kt ∧ downstream_Mn M γ = Except.ok m2 ∧
      0 < kp ∧ 0 < kr ∧ kt = kp / kr ∧
      Spec.RankineHugoniot γ ⟨ρ, M * Real.sqrt (γ * p / ρ), p⟩
        ⟨ρ * kr, m2 * Real.sqrt (γ * (p * kp) / (ρ * kr)), p * kp⟩ := by
  have hd := dom_of_one_le hγ hM
  have hM0 : M ≠ 0 := by linarith
  have p1 := psr_pos hγ hd
  have p2 := rhr_pos hγ hM0
  have p3 := mn2_pos hγ hd
  refine ⟨_, _, _, _, Ps_ratio_ok hγ, Rho_ratio_ok hγ, Ts_ratio_ok hγ hM0, downstream_Mn_ok hγ hd,
    p1, p2, rfl, ?_⟩
  have hγ0 : 0 < γ := by linarith
  have hγ1 : 0 < γ + 1 := by linarith
  have hγm : γ - 1 ≠ 0 := by linarith
  have q1 : 0 < γ * p / ρ := by positivity
  -- downstream velocity is `u / rhr`
  have key : mn2 M γ * (γ * (p * psr M γ) / (ρ * rhr M γ))
      = (M * Real.sqrt (γ * p / ρ) / rhr M γ) ^ 2 := by
    rw [div_pow, mul_pow, Real.sq_sqrt q1.le]
    have h1 := (dom_iff hγ).1 hd
    have h5 : γ * M ^ 2 - (γ - 1) / 2 = (2 * γ * M ^ 2 - (γ - 1)) / 2 := by ring
    have h3 : 2 * γ * M ^ 2 - (γ - 1) ≠ 0 := by nlinarith
    have h2 := rho_den_pos (M := M) hγ
    have e : psr M γ = (2 * γ * M ^ 2 - (γ - 1)) / (γ + 1) := by unfold psr; field_simp; ring
    rw [e]; unfold mn2 rhr; rw [h5]
    obtain ⟨D, hD⟩ : ∃ D, D = 2 * γ * M ^ 2 - (γ - 1) := ⟨_, rfl⟩
    obtain ⟨E, hE⟩ : ∃ E, E = 2 + (γ - 1) * M ^ 2 := ⟨_, rfl⟩
    rw [← hD] at h3 ⊢
    rw [← hE] at h2 ⊢
    have := h2.ne'
    field_simp
    rw [hE]
  have hu : Real.sqrt (mn2 M γ) * Real.sqrt (γ * (p * psr M γ) / (ρ * rhr M γ))
      = M * Real.sqrt (γ * p / ρ) / rhr M γ := by
    rw [← Real.sqrt_mul p3.le, key, Real.sqrt_sq]
    have : 0 ≤ M := by linarith
    positivity
  rw [hu]
  have hsq : (M * Real.sqrt (γ * p / ρ)) ^ 2 = M ^ 2 * (γ * p / ρ) := by
    rw [mul_pow, Real.sq_sqrt q1.le]
  have h2 := rho_den_pos (M := M) hγ
  have hM2 : M ^ 2 ≠ 0 := pow_ne_zero _ hM0
  refine ⟨?_, ?_, ?_⟩
  · simp only [Spec.Flow.massFlux]; field_simp
  · simp only [Spec.Flow.momentumFlux, div_pow, hsq]
    unfold psr rhr
    field_simp
    ring
  · simp only [Spec.Flow.totalEnthalpy, Spec.Flow.h, div_pow, hsq]
    unfold psr rhr
    field_simp
    ring

example : (1:ℝ) < 1.4 ∧ (1:ℝ) ≤ 2 ∧ Ps_ratio 2 1.4 = Except.ok 4.5 ∧
    Rho_ratio 2 1.4 = Except.ok (8 / 3) := by
  refine ⟨by norm_num, by norm_num, ?_, ?_⟩
  · rw [Ps_ratio_ok (by norm_num)]; unfold psr; norm_num
  · rw [Rho_ratio_ok (by norm_num)]; unfold rhr; norm_num

/-- C10: shock strength → Mach. -/
theorem C10_mach_roundtrip (M γ : ℝ) (hγ : 1 < γ) (hM : 0 ≤ M) :
    (do let p ← Ps_ratio M γ; Mn_Ps_ratio p γ) = Except.ok M := by
  rw [Ps_ratio_ok hγ, Py.ok_bind]
  unfold Mn_Ps_ratio; lits
  rw [Py.div_ok (by linarith), Py.ok_bind]
  have h1 : γ + 1 ≠ 0 := by linarith
  have h2 : γ ≠ 0 := by linarith
  have : 1 + (psr M γ - 1) * (γ + 1) / (2 * γ) = M ^ 2 := by unfold psr; field_simp; ring
  rw [this, Py.sqrt_ok (sq_nonneg M), Real.sqrt_sq hM]

/-- C10: every pressure ratio not below `-(γ-1)/(γ+1)` is the pressure ratio of the Mach number
returned; below, there is none (NaN).  In particular every positive pressure ratio is inverted. -/
theorem C10_pressure_roundtrip (p γ : ℝ) (hγ : 1 < γ) :
    (-(γ - 1) / (γ + 1) ≤ p →
      ∃ M, 0 ≤ M ∧ Mn_Ps_ratio p γ = Except.ok M ∧ Ps_ratio M γ = Except.ok p) ∧
    (p < -(γ - 1) / (γ + 1) → Mn_Ps_ratio p γ = Except.error .nonFinite) := by
  have h1 : 0 < γ + 1 := by linarith
  have h2 : 0 < γ := by linarith
  have e : 1 + (p - 1) * (γ + 1) / (2 * γ) = (p * (γ + 1) + (γ - 1)) / (2 * γ) := by
    field_simp; ring
  constructor
  · intro hp
    rw [div_le_iff₀ h1] at hp
    have hn : 0 ≤ (p * (γ + 1) + (γ - 1)) / (2 * γ) := by
      apply div_nonneg <;> linarith
    refine ⟨Real.sqrt ((p * (γ + 1) + (γ - 1)) / (2 * γ)), Real.sqrt_nonneg _, ?_, ?_⟩
    · unfold Mn_Ps_ratio; lits
      rw [Py.div_ok (by linarith), Py.ok_bind, e, Py.sqrt_ok hn]
    · rw [Ps_ratio_ok hγ]
      unfold psr; rw [Real.sq_sqrt hn]; congr 1; field_simp; ring
  · intro hp
    rw [lt_div_iff₀ h1] at hp
    unfold Mn_Ps_ratio; lits
    rw [Py.div_ok (by linarith), Py.ok_bind, e, Py.sqrt_err]
    apply div_neg_of_neg_of_pos <;> linarith

example : -((1.4:ℝ) - 1) / (1.4 + 1) ≤ 0.5 := by norm_num

/-- C11: `downstream_Mn` is an involution on its domain `M² > (γ-1)/(2γ)`, `M ≥ 0`. -/
theorem C11_involution (M γ : ℝ) (hγ : 1 < γ) (hM : 0 ≤ M) (hd : (γ - 1) / (2 * γ) < M ^ 2) :
    (do let m ← downstream_Mn M γ; downstream_Mn m γ) = Except.ok M := by
  rw [downstream_Mn_ok hγ hd, Py.ok_bind, downstream_Mn_ok hγ (mn2_dom hγ hd), mn2_mn2 hγ hd,
    Real.sqrt_sq hM]

/-- C11: outside the domain there is no downstream Mach number. -/
theorem C11_outside_domain (M γ : ℝ) (hγ : 1 < γ) (hd : M ^ 2 ≤ (γ - 1) / (2 * γ)) :
    downstream_Mn M γ = Except.error .nonFinite :=
  downstream_Mn_err hγ (not_lt.2 hd)

/-- C11: strictly decreasing. -/
theorem C11_strictly_decreasing (M N γ : ℝ) (hγ : 1 < γ) (hM : 0 ≤ M)
    (hd : (γ - 1) / (2 * γ) < M ^ 2) (hMN : M < N) :
    ∃ m n, downstream_Mn M γ = Except.ok m ∧ downstream_Mn N γ = Except.ok n ∧ n < m := by
  have hsq : M ^ 2 < N ^ 2 := by nlinarith
  have hdN : dom N γ := lt_trans hd hsq
  refine ⟨_, _, downstream_Mn_ok hγ hd, downstream_Mn_ok hγ hdN, ?_⟩
  apply Real.sqrt_lt_sqrt (mn2_pos hγ hdN).le
  have h1 := (dom_iff hγ).1 hd
  have h2 := (dom_iff hγ).1 hdN
  unfold mn2
  rw [div_lt_div_iff₀ h2 h1]
  have : 0 < (γ + 1) ^ 2 / 4 := by have : 0 < γ + 1 := by linarith
                                   positivity
  nlinarith

/-- C11: a supersonic upstream flow becomes subsonic and conversely; sonic stays sonic. -/
theorem C11_exchanges_sub_and_supersonic (M γ : ℝ) (hγ : 1 < γ) (hM : 0 ≤ M)
    (hd : (γ - 1) / (2 * γ) < M ^ 2) :
    ∃ m, downstream_Mn M γ = Except.ok m ∧ 0 < m ∧ (m < 1 ↔ 1 < M) ∧ (m = 1 ↔ M = 1) := by
  have h1 := (dom_iff hγ).1 hd
  have hp := mn2_pos hγ hd
  have e : mn2 M γ - 1 = (γ + 1) / 2 * (1 - M ^ 2) / (γ * M ^ 2 - (γ - 1) / 2) := by
    unfold mn2; rw [div_sub_one h1.ne']; congr 1; ring
  refine ⟨_, downstream_Mn_ok hγ hd, Real.sqrt_pos.2 hp, ?_, ?_⟩
  · rw [Real.sqrt_lt' one_pos, one_pow, ← sub_neg, e, div_neg_iff]
    constructor
    · rintro (⟨_, h⟩ | ⟨h, _⟩)
      · linarith
      · by_contra hM1
        have : M ^ 2 ≤ 1 := pow_le_one₀ hM (not_lt.1 hM1)
        have : 0 ≤ (γ + 1) / 2 * (1 - M ^ 2) := mul_nonneg (by linarith) (by linarith)
        linarith
    · intro hM1; right
      have : 1 < M ^ 2 := one_lt_pow₀ hM1 (by norm_num)
      exact ⟨mul_neg_of_pos_of_neg (by linarith) (by linarith), h1⟩
  · rw [Real.sqrt_eq_one, ← sub_eq_zero, e, div_eq_zero_iff]
    constructor
    · rintro (h | h)
      · have : (M - 1) * (M + 1) = 0 := by
          have : (γ + 1) / 2 ≠ 0 := by linarith
          have := (mul_eq_zero.1 h).resolve_left this
          linarith
        rcases mul_eq_zero.1 this with h | h <;> linarith
      · linarith
    · rintro rfl; left; simp

example : (0:ℝ) ≤ 2 ∧ ((1.4:ℝ) - 1) / (2 * 1.4) < 2 ^ 2 := by norm_num

/-- C12, at the default gas (γ = 1.4): the total pressure ratio is the one of the composed
functions, is at most 1, equal to 1 exactly at `Mn = 1`.  Missing: other values of `gamma`. -/
theorem C12_default_gas_partial (M : ℝ) (hM : 1 ≤ M) :
    ∃ r, Pt_ratio M 1.4 = Except.ok r ∧ 0 < r ∧ r ≤ 1 ∧ (r = 1 ↔ M = 1) ∧
      (∃ kp m2 d u, Ps_ratio M 1.4 = Except.ok kp ∧ downstream_Mn M 1.4 = Except.ok m2 ∧
        PtPs_Mach m2 1.4 = Except.ok d ∧ PtPs_Mach M 1.4 = Except.ok u ∧ r = kp * d / u) := by
  have h := one_lt_gamma0
  have e : (1.4:ℝ) = DefaultGas.gamma0 := by rw [gamma0_eq]; norm_num
  rw [e]
  refine ⟨_, Pt_ratio_ok_default hM, ptr_pos h (dom_of_one_le h hM), ?_, ?_,
    _, _, _, _, Ps_ratio_ok h, downstream_Mn_ok h (dom_of_one_le h hM), PtPs_Mach_ok h,
    PtPs_Mach_ok h, rfl⟩
  · have := (ptr_strictAnti h).antitoneOn (Set.mem_Ici.2 le_rfl) (Set.mem_Ici.2 hM) hM
    simpa [ptr_one h] using this
  · constructor
    · intro hr
      exact (ptr_strictAnti h).injOn (Set.mem_Ici.2 hM) (Set.mem_Ici.2 le_rfl)
        (by simp [hr, ptr_one h])
    · rintro rfl; exact ptr_one h

/-- C12, every gamma: the composition of the module's functions *with gamma forwarded* satisfies the
second law (so the property is a consequence of the other functions and the defect is only the
missing argument in `Pt_ratio`). -/
theorem C12_second_law_of_components (M γ : ℝ) (hγ : 1 < γ) (hM : 1 ≤ M) :
    ∃ kp m2 d u, Ps_ratio M γ = Except.ok kp ∧ downstream_Mn M γ = Except.ok m2 ∧
        PtPs_Mach m2 γ = Except.ok d ∧ PtPs_Mach M γ = Except.ok u ∧
        kp * d / u ≤ 1 ∧ (kp * d / u = 1 ↔ M = 1) := by
  refine ⟨_, _, _, _, Ps_ratio_ok hγ, downstream_Mn_ok hγ (dom_of_one_le hγ hM), PtPs_Mach_ok hγ,
    PtPs_Mach_ok hγ, ?_, ?_⟩
  · show ptr M γ ≤ 1
    have := (ptr_strictAnti hγ).antitoneOn (Set.mem_Ici.2 le_rfl) (Set.mem_Ici.2 hM) hM
    simpa [ptr_one hγ] using this
  · constructor
    · intro hr
      have hr' : ptr M γ = 1 := hr
      exact (ptr_strictAnti hγ).injOn (Set.mem_Ici.2 hM) (Set.mem_Ici.2 le_rfl)
        (by simp [hr', ptr_one hγ])
    · rintro rfl; exact ptr_one hγ

/-- C12 is false of the code: with `gamma = 1.2` a sonic "shock" (no shock at all) is reported to
*increase* the total pressure. -/
theorem C12_false_for_other_gamma : ∃ M γ r : ℝ, 1 < γ ∧ 1 ≤ M ∧ Pt_ratio M γ = Except.ok r ∧ 1 < r := by
  have h : (1:ℝ) < 6 / 5 := by norm_num
  have hd := dom_of_one_le h (le_refl 1)
  have hm : mn2 1 (6 / 5) = 1 := by unfold mn2; norm_num
  have hp : psr 1 (6 / 5) = 1 := by unfold psr; norm_num
  have ht : tt 1 (6 / 5) = 11 / 10 := by unfold tt; norm_num
  have ht0 : tt 1 DefaultGas.gamma0 = 6 / 5 := by rw [gamma0_eq]; unfold tt; norm_num
  have hu : (0:ℝ) < (11 / 10 : ℝ) ^ ((6 / 5 : ℝ) / (6 / 5 - 1)) := Real.rpow_pos_of_pos (by norm_num) _
  refine ⟨1, 6 / 5, (6 / 5 : ℝ) ^ (DefaultGas.gamma0 / (DefaultGas.gamma0 - 1)) /
    (11 / 10 : ℝ) ^ ((6 / 5 : ℝ) / (6 / 5 - 1)), h, le_rfl, ?_, ?_⟩
  · unfold Pt_ratio
    rw [Ps_ratio_ok h, Py.ok_bind, downstream_Mn_ok h hd, Py.ok_bind, hm, Real.sqrt_one,
      PtPs_Mach_ok one_lt_gamma0, Py.ok_bind, PtPs_Mach_ok h, Py.ok_bind, hp, ht, ht0,
      Py.div_ok hu.ne', one_mul]
  · rw [one_lt_div hu, gamma0_eq]
    have e1 : (6 / 5 : ℝ) / (6 / 5 - 1) = ((6 : ℕ) : ℝ) := by norm_num
    have e2 : (7 / 5 : ℝ) / (7 / 5 - 1) = 7 / 2 := by norm_num
    rw [e1, e2, Real.rpow_natCast]
    have hpos : (0:ℝ) ≤ (6 / 5 : ℝ) ^ (7 / 2 : ℝ) := Real.rpow_nonneg (by norm_num) _
    have hsq : ((6 / 5 : ℝ) ^ (7 / 2 : ℝ)) ^ 2 = (6 / 5 : ℝ) ^ 7 := by
      rw [← Real.rpow_natCast, ← Real.rpow_mul (by norm_num), ← Real.rpow_natCast]; norm_num
    apply lt_of_pow_lt_pow_left₀ 2 hpos
    rw [hsq]; norm_num

example : (1:ℝ) ≤ 2 := by norm_num

/-- C13: bounds of the shock ratios. -/
theorem C13_bounds (M γ : ℝ) (hγ : 1 < γ) (hM : 1 ≤ M) :
    ∃ kp kr kt, Ps_ratio M γ = Except.ok kp ∧ Rho_ratio M γ = Except.ok kr ∧
      Ts_ratio M γ = Except.ok kt ∧ 1 ≤ kp ∧ 1 ≤ kr ∧ kr < (γ + 1) / (γ - 1) ∧ 1 ≤ kt := by
  have hM0 : M ≠ 0 := by linarith
  have hM2 : 1 ≤ M ^ 2 := one_le_pow₀ hM
  have h2 := rho_den_pos (M := M) hγ
  have h1 : 0 < γ - 1 := by linarith
  have h3 : 0 < γ + 1 := by linarith
  refine ⟨_, _, _, Ps_ratio_ok hγ, Rho_ratio_ok hγ, Ts_ratio_ok hγ hM0, ?_, ?_, ?_, ?_⟩
  · unfold psr
    have : 0 < 2 * γ / (γ + 1) := by apply div_pos <;> linarith
    nlinarith
  · unfold rhr; rw [le_div_iff₀ h2]; nlinarith
  · unfold rhr; rw [div_lt_div_iff₀ h2 h1]; nlinarith
  · rw [le_div_iff₀ (rhr_pos hγ hM0), one_mul]
    unfold rhr psr
    rw [div_le_iff₀ h2]
    have e : (1 + 2 * γ / (γ + 1) * (M ^ 2 - 1)) * (2 + (γ - 1) * M ^ 2) - (γ + 1) * M ^ 2
        = (M ^ 2 - 1) * (2 * (γ - 1) * (γ * M ^ 2 + 1) / (γ + 1)) := by
      field_simp; ring
    have : 0 ≤ (M ^ 2 - 1) * (2 * (γ - 1) * (γ * M ^ 2 + 1) / (γ + 1)) := by
      apply mul_nonneg (by linarith)
      have : 0 < γ := by linarith
      positivity
    linarith

/-- C13: pressure, density and temperature ratios strictly increase with the shock Mach number. -/
theorem C13_strictly_increasing (M N γ : ℝ) (hγ : 1 < γ) (hM : 1 ≤ M) (hMN : M < N) :
    ∃ kp kr kt kp' kr' kt', Ps_ratio M γ = Except.ok kp ∧ Rho_ratio M γ = Except.ok kr ∧
      Ts_ratio M γ = Except.ok kt ∧ Ps_ratio N γ = Except.ok kp' ∧ Rho_ratio N γ = Except.ok kr' ∧
      Ts_ratio N γ = Except.ok kt' ∧ kp < kp' ∧ kr < kr' ∧ kt < kt' := by
  have hM0 : M ≠ 0 := by linarith
  have hN0 : N ≠ 0 := by linarith
  have hsq : M ^ 2 < N ^ 2 := by nlinarith
  have hM2 : 1 ≤ M ^ 2 := one_le_pow₀ hM
  have h2 := rho_den_pos (M := M) hγ
  have h2' := rho_den_pos (M := N) hγ
  have h1 : 0 < γ - 1 := by linarith
  have h3 : 0 < γ + 1 := by linarith
  refine ⟨_, _, _, _, _, _, Ps_ratio_ok hγ, Rho_ratio_ok hγ, Ts_ratio_ok hγ hM0, Ps_ratio_ok hγ,
    Rho_ratio_ok hγ, Ts_ratio_ok hγ hN0, ?_, ?_, ?_⟩
  · unfold psr
    have : 0 < 2 * γ / (γ + 1) := by apply div_pos <;> linarith
    nlinarith
  · unfold rhr; rw [div_lt_div_iff₀ h2 h2']; nlinarith
  · have e : ∀ x : ℝ, x ≠ 0 → psr x γ / rhr x γ =
        (2 * γ * (γ - 1) * x ^ 2 + (4 * γ - (γ - 1) ^ 2) - 2 * (γ - 1) / x ^ 2) / (γ + 1) ^ 2 := by
      intro x hx
      have := rho_den_pos (M := x) hγ
      unfold psr rhr; field_simp; ring
    rw [e M hM0, e N hN0]
    apply div_lt_div_of_pos_right _ (by positivity)
    have : 2 * (γ - 1) / N ^ 2 < 2 * (γ - 1) / M ^ 2 := by
      apply div_lt_div_of_pos_left <;> first | positivity | assumption
    have : 0 < 2 * γ * (γ - 1) := by nlinarith
    nlinarith

example : (1:ℝ) ≤ 2 ∧ (2:ℝ) < 3 := by norm_num

end Aerokit.Props
