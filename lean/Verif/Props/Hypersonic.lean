import Verif.Props.ObliqueSearch
import Verif.Props.Supersonic
import Verif.Props.Fanno
import Verif.Props.Rayleigh
import Mathlib.Analysis.SpecialFunctions.Pow.Asymptotics

/-! # Property C127 : hypersonic limits, largest deflection by an attached shock -/

namespace Aerokit.Props
open Real ShockWave Isentropic MassFlow Supersonic Filter Topology

/-- `f` returns values as close to `L` as wanted for all large Mach numbers -/
def LimitAtInfinity (f : ℝ → Py ℝ) (L : ℝ) : Prop := ∀ ε > 0, ∃ K, ∀ M ≥ K, ∃ v, f M = .ok v ∧ |v - L| < ε

/-- `f` returns values as large as wanted for all large Mach numbers -/
def InfiniteAtInfinity (f : ℝ → Py ℝ) : Prop := ∀ B, ∃ K, ∀ M ≥ K, ∃ v, f M = .ok v ∧ B < v

theorem limit_of {f : ℝ → Py ℝ} {g : ℝ → ℝ} {L : ℝ} (h : ∀ M, 1 < M → f M = .ok (g M)) (hg : Tendsto g atTop (𝓝 L)) :
    LimitAtInfinity f L := by
  intro ε hε
  obtain ⟨K, hK⟩ := Metric.tendsto_atTop.1 hg ε hε
  refine ⟨max K 2, fun M hM => ⟨g M, h M (by linarith [le_max_right K 2]), ?_⟩⟩
  exact hK M ((le_max_left _ _).trans hM)

theorem infinite_of {f : ℝ → Py ℝ} {g : ℝ → ℝ} (h : ∀ M, 1 < M → f M = .ok (g M)) (hg : Tendsto g atTop atTop) :
    InfiniteAtInfinity f := by
  intro B
  obtain ⟨K, hK⟩ := eventually_atTop.1 (tendsto_atTop.1 hg (B + 1))
  refine ⟨max K 2, fun M hM => ⟨g M, h M (by linarith [le_max_right K 2]), ?_⟩⟩
  linarith [hK M ((le_max_left _ _).trans hM)]

/-- functions of `1 / M²` -/
theorem tendsto_of_inv {g G : ℝ → ℝ} (h : ∀ M, 1 < M → g M = G (M⁻¹ ^ 2)) (hG : ContinuousAt G 0) : Tendsto g atTop (𝓝 (G 0)) := by
  have h1 : Tendsto (fun M : ℝ => M⁻¹ ^ 2) atTop (𝓝 0) := by
    have := (tendsto_inv_atTop_zero (𝕜 := ℝ)).pow 2
    simpa using this
  refine (hG.tendsto.comp h1).congr' ?_
  filter_upwards [eventually_gt_atTop 1] with M hM
  exact (h M hM).symm

theorem rhr_lim {γ : ℝ} (h : 1 < γ) : Tendsto (fun M => rhr M γ) atTop (𝓝 ((γ + 1) / (γ - 1))) := by
  have := tendsto_of_inv (g := fun M => rhr M γ) (G := fun u => (γ + 1) / (2 * u + (γ - 1))) ?_ ?_
  · simpa using this
  · intro M hM
    have h1 := rho_den_pos (M := M) h
    have : 0 < γ - 1 := by linarith
    have h2 : 2 * M⁻¹ ^ 2 + (γ - 1) ≠ 0 := by positivity
    have : M ≠ 0 := by linarith
    unfold rhr
    show _ = _ / _
    rw [div_eq_div_iff h1.ne' h2]
    field_simp
  · apply ContinuousAt.div continuousAt_const (by fun_prop)
    simp; linarith

theorem psr_top {γ : ℝ} (h : 1 < γ) : Tendsto (fun M => psr M γ) atTop atTop := by
  have c : 0 < 2 * γ / (γ + 1) := by apply div_pos <;> linarith
  have h2 : Tendsto (fun M : ℝ => M ^ 2) atTop atTop := tendsto_pow_atTop (by norm_num)
  have := (tendsto_atTop_add_const_right atTop (-1 : ℝ) h2).const_mul_atTop c
  exact tendsto_atTop_add_const_left atTop (1 : ℝ) this

theorem tt_top {γ : ℝ} (h : 1 < γ) : Tendsto (fun M => tt M γ) atTop atTop := by
  have c : 0 < (γ - 1) / 2 := by linarith
  have h2 : Tendsto (fun M : ℝ => M ^ 2) atTop atTop := tendsto_pow_atTop (by norm_num)
  exact tendsto_atTop_add_const_left atTop (1 : ℝ) (h2.const_mul_atTop c)

theorem mn2_lim {γ : ℝ} (h : 1 < γ) : Tendsto (fun M => √(mn2 M γ)) atTop (𝓝 (√((γ - 1) / (2 * γ)))) := by
  have := tendsto_of_inv (g := fun M => √(mn2 M γ)) (G := fun u => √((u + (γ - 1) / 2) / (γ - (γ - 1) / 2 * u))) ?_ ?_
  · have e : (0 + (γ - 1) / 2) / (γ - (γ - 1) / 2 * 0) = (γ - 1) / (2 * γ) := by
      have : γ ≠ 0 := by linarith
      field_simp; ring
    simpa only [e] using this
  · intro M hM
    have hd := (dom_iff h).1 (dom_of_one_le h hM.le)
    have hM0 : 0 < M := by linarith
    unfold mn2
    show _ = √(_ / _)
    congr 1
    have h2 : γ - (γ - 1) / 2 * M⁻¹ ^ 2 ≠ 0 := by
      have : γ - (γ - 1) / 2 * M⁻¹ ^ 2 = (γ * M ^ 2 - (γ - 1) / 2) / M ^ 2 := by field_simp
      rw [this]; positivity
    rw [div_eq_div_iff hd.ne' h2]
    field_simp
  · apply ContinuousAt.sqrt
    apply ContinuousAt.div (by fun_prop) (by fun_prop)
    simp; linarith

theorem ptr_lim {γ : ℝ} (h : 1 < γ) : Tendsto (fun M => ptr M γ) atTop (𝓝 0) := by
  have c : 0 < 1 / (γ - 1) := by apply div_pos <;> linarith
  have h1 : Tendsto (fun M => psr M γ ^ (-(1 / (γ - 1)))) atTop (𝓝 0) := (tendsto_rpow_neg_atTop c).comp (psr_top h)
  have h2 : Tendsto (fun M => rhr M γ ^ (γ / (γ - 1))) atTop (𝓝 (((γ + 1) / (γ - 1)) ^ (γ / (γ - 1)))) :=
    (rhr_lim h).rpow_const (Or.inl (by apply ne_of_gt; apply div_pos <;> linarith))
  have h3 := h1.mul h2
  rw [zero_mul] at h3
  refine h3.congr' ?_
  filter_upwards [eventually_gt_atTop 1] with M hM
  have hd := dom_of_one_le h hM.le
  have hM0 : M ≠ 0 := by linarith
  have p1 := psr_pos h hd
  have p2 := rhr_pos h hM0
  have hp := ptr_pos h hd
  apply Real.log_injOn_pos (Set.mem_Ioi.2 (by positivity)) (Set.mem_Ioi.2 hp)
  rw [log_ptr h hM.le, Real.log_mul (by positivity) (by positivity), Real.log_rpow p1, Real.log_rpow p2]
  unfold lpt
  have e2 : Real.log (rhr M γ) = Real.log ((γ + 1) * M ^ 2) - Real.log (2 + (γ - 1) * M ^ 2) := by
    have : 0 < γ + 1 := by linarith
    unfold rhr; rw [Real.log_div (by positivity) (rho_den_pos h).ne']
  have e3 : Real.log (1 + 2 * γ / (γ + 1) * (M ^ 2 - 1)) = Real.log (psr M γ) := rfl
  have h1 : γ - 1 ≠ 0 := by linarith
  rw [e3, ← e2]
  field_simp
  ring

theorem pm_lim {γ : ℝ} (h : 1 < γ) : Tendsto (fun M => Py.degrees (pmRad (pmC γ) (√(M ^ 2 - 1)))) atTop
    (𝓝 (90 * (√((γ + 1) / (γ - 1)) - 1))) := by
  have hc0 : 0 < pmC γ := by linarith [one_lt_pmC h]
  have htop : Tendsto Real.arctan atTop (𝓝 (π / 2)) := Real.tendsto_arctan_atTop.mono_right nhdsWithin_le_nhds
  have hlim : Tendsto (pmRad (pmC γ)) atTop (𝓝 (pmC γ * (π / 2) - π / 2)) := by
    apply Tendsto.sub _ htop
    apply Tendsto.const_mul
    exact htop.comp (tendsto_id.atTop_div_const hc0)
  have hs : Tendsto (fun M : ℝ => √(M ^ 2 - 1)) atTop atTop :=
    Real.tendsto_sqrt_atTop.comp (tendsto_atTop_add_const_right atTop (-1 : ℝ) (tendsto_pow_atTop (by norm_num)))
  have hd := (hlim.comp hs).const_mul (180 / π)
  have e : 180 / π * (pmC γ * (π / 2) - π / 2) = 90 * (√((γ + 1) / (γ - 1)) - 1) := by
    have := Real.pi_ne_zero
    unfold pmC; field_simp; ring
  rw [e] at hd
  refine hd.congr fun M => ?_
  unfold Py.degrees
  simp only [Function.comp]
  ring

theorem ffun_lim {γ : ℝ} (h : 1 < γ) : Tendsto (fun M => ffun γ (M ^ 2)) atTop
    (𝓝 ((γ + 1) / (2 * γ) * log ((γ + 1) / (γ - 1)) - 1 / γ)) := by
  have g1 : 0 < γ - 1 := by linarith
  have g2 : 0 < γ + 1 := by linarith
  have := tendsto_of_inv (g := fun M => ffun γ (M ^ 2))
    (G := fun u => (u - 1) / γ + (γ + 1) / (2 * γ) * (log (γ + 1) - log (2 * u + (γ - 1)))) ?_ ?_
  · have e : (0 - 1) / γ + (γ + 1) / (2 * γ) * (log (γ + 1) - log (2 * 0 + (γ - 1))) =
        (γ + 1) / (2 * γ) * log ((γ + 1) / (γ - 1)) - 1 / γ := by
      rw [Real.log_div g2.ne' g1.ne', mul_zero, zero_add]; ring
    simpa only [e] using this
  · intro M hM
    have hM0 : 0 < M := by linarith
    have hg : 0 < γ := by linarith
    unfold ffun
    have e1 : (1 - M ^ 2) / (γ * M ^ 2) = (M⁻¹ ^ 2 - 1) / γ := by field_simp
    have e2 : log (M ^ 2 * (γ + 1) / 2) - log (1 + (γ - 1) / 2 * M ^ 2) = log (γ + 1) - log (2 * M⁻¹ ^ 2 + (γ - 1)) := by
      rw [← Real.log_div (by positivity) (by positivity), ← Real.log_div g2.ne' (by positivity)]
      congr 1
      field_simp
    rw [e1, e2]
  · have : (2 * (0 : ℝ) + (γ - 1)) ≠ 0 := by simp; linarith
    have hl : ContinuousAt (fun u : ℝ => log (2 * u + (γ - 1))) 0 := ContinuousAt.log (by fun_prop) this
    exact ContinuousAt.add (by fun_prop) (continuousAt_const.mul (continuousAt_const.sub hl))

theorem sig_top {γ : ℝ} (h : 1 < γ) : Tendsto (fun M => sig M γ) atTop atTop := by
  have g1 : 0 < γ - 1 := by linarith
  have g2 : 0 < γ + 1 := by linarith
  have he : 0 < 2 / (γ - 1) := by positivity
  have hc : 0 < ((γ - 1) / (γ + 1)) ^ ((γ + 1) / (2 * (γ - 1))) := Real.rpow_pos_of_pos (by positivity) _
  have h1 := (tendsto_rpow_atTop he).const_mul_atTop hc
  refine tendsto_atTop_mono' atTop ?_ h1
  filter_upwards [eventually_gt_atTop 0] with M hM
  unfold sig
  rw [le_div_iff₀ hM]
  have e : ((γ - 1) / (γ + 1)) ^ ((γ + 1) / (2 * (γ - 1))) * M ^ (2 / (γ - 1)) * M =
      ((γ - 1) / (γ + 1) * M ^ 2) ^ ((γ + 1) / (2 * (γ - 1))) := by
    rw [Real.mul_rpow (by positivity) (by positivity), mul_assoc]
    congr 1
    rw [← Real.rpow_natCast M 2, ← Real.rpow_mul hM.le]
    nth_rewrite 2 [← Real.rpow_one M]
    rw [← Real.rpow_add hM]
    congr 1
    push_cast
    field_simp
    ring
  rw [e]
  apply Real.rpow_le_rpow (by positivity) _ (by positivity)
  unfold tt
  have : 2 / (γ + 1) * (1 + (γ - 1) / 2 * M ^ 2) = 2 / (γ + 1) + (γ - 1) / (γ + 1) * M ^ 2 := by field_simp
  rw [this]
  have : 0 < 2 / (γ + 1) := by positivity
  linarith

/-- C127: limits of the flow functions for large Mach numbers.  Across a normal shock the density ratio and the downstream Mach number
tend to `(γ+1)/(γ-1)` and `√((γ-1)/(2γ))`, pressure and temperature ratios are unbounded; the Prandtl-Meyer angle tends to
`90 (√((γ+1)/(γ-1)) - 1)` degrees; the friction that chokes a Fanno flow and the total temperature ratio that chokes a Rayleigh flow
stay finite; area, total temperature and total pressure ratios are unbounded. -/
theorem C127_limits (γ : ℝ) (hγ : 1 < γ) :
    LimitAtInfinity (Rho_ratio · γ) ((γ + 1) / (γ - 1)) ∧
    LimitAtInfinity (downstream_Mn · γ) (√((γ - 1) / (2 * γ))) ∧
    InfiniteAtInfinity (Ps_ratio · γ) ∧ InfiniteAtInfinity (Ts_ratio · γ) ∧
    LimitAtInfinity (PrandtlMeyer_Mach · γ) (90 * (√((γ + 1) / (γ - 1)) - 1)) ∧
    LimitAtInfinity (Fanno.maxFparam_Mach · γ) ((γ + 1) / (2 * γ) * log ((γ + 1) / (γ - 1)) - 1 / γ) ∧
    LimitAtInfinity (Rayleigh.Ti_Ticri · γ) ((γ ^ 2 - 1) / γ ^ 2) ∧
    LimitAtInfinity (Rayleigh.Ps_Pscri · γ) 0 ∧ LimitAtInfinity (Rayleigh.V_Vcri · γ) ((γ + 1) / γ) ∧
    InfiniteAtInfinity (Sigma_Mach · γ) ∧ InfiniteAtInfinity (TtTs_Mach · γ) ∧ InfiniteAtInfinity (PtPs_Mach · γ) := by
  have g0 : 0 < γ := by linarith
  have g1 : 0 < γ - 1 := by linarith
  refine ⟨limit_of (fun M _ => Rho_ratio_ok hγ) (rhr_lim hγ),
    limit_of (fun M hM => downstream_Mn_ok hγ (dom_of_one_le hγ hM.le)) (mn2_lim hγ),
    infinite_of (fun M _ => Ps_ratio_ok hγ) (psr_top hγ), ?_,
    limit_of (fun M hM => PM_ok hγ (by nlinarith)) (pm_lim hγ),
    limit_of (fun M hM => maxF_ok hγ (by linarith)) (ffun_lim hγ), ?_, ?_, ?_,
    infinite_of (fun M hM => Sigma_Mach_ok hγ (by linarith)) (sig_top hγ),
    infinite_of (fun M _ => TtTs_Mach_ok M γ) (tt_top hγ), ?_⟩
  · refine infinite_of (fun M hM => Ts_ratio_ok hγ (by linarith)) ?_
    have hinv : Tendsto (fun M => (rhr M γ)⁻¹) atTop (𝓝 (((γ + 1) / (γ - 1))⁻¹)) :=
      (rhr_lim hγ).inv₀ (by apply ne_of_gt; apply div_pos <;> linarith)
    have := (psr_top hγ).atTop_mul_pos (by apply inv_pos.2; apply div_pos <;> linarith) hinv
    exact this.congr fun M => (div_eq_mul_inv _ _).symm
  · refine limit_of (g := fun M => 1 - ((1 - M ^ 2) / (1 + γ * M ^ 2)) ^ 2) (fun M _ => Ray_Ti_ok hγ) ?_
    have := tendsto_of_inv (g := fun M => 1 - ((1 - M ^ 2) / (1 + γ * M ^ 2)) ^ 2) (G := fun u => 1 - ((u - 1) / (u + γ)) ^ 2) ?_ ?_
    · have e : 1 - (((0 : ℝ) - 1) / (0 + γ)) ^ 2 = (γ ^ 2 - 1) / γ ^ 2 := by field_simp; ring
      simpa only [e] using this
    · intro M hM
      have hM0 : 0 < M := by linarith
      have : (1 - M ^ 2) / (1 + γ * M ^ 2) = (M⁻¹ ^ 2 - 1) / (M⁻¹ ^ 2 + γ) := by field_simp
      show _ = 1 - _
      rw [this]
    · exact continuousAt_const.sub ((ContinuousAt.div (by fun_prop) (by fun_prop) (by simp; linarith)).pow 2)
  · refine limit_of (g := fun M => (γ + 1) / (1 + γ * M ^ 2)) (fun M _ => Ray_Ps_ok hγ) ?_
    have := tendsto_of_inv (g := fun M => (γ + 1) / (1 + γ * M ^ 2)) (G := fun u => (γ + 1) * u / (u + γ)) ?_ ?_
    · simpa using this
    · intro M hM
      have hM0 : 0 < M := by linarith
      show _ = _ / _
      field_simp
    · exact ContinuousAt.div (by fun_prop) (by fun_prop) (by simp; linarith)
  · refine limit_of (g := fun M => M ^ 2 * (γ + 1) / (1 + γ * M ^ 2)) (fun M _ => Ray_V_ok hγ) ?_
    have := tendsto_of_inv (g := fun M => M ^ 2 * (γ + 1) / (1 + γ * M ^ 2)) (G := fun u => (γ + 1) / (u + γ)) ?_ ?_
    · simpa using this
    · intro M hM
      have hM0 : 0 < M := by linarith
      show _ = _ / _
      field_simp
    · exact ContinuousAt.div (by fun_prop) (by fun_prop) (by simp; linarith)
  · refine infinite_of (fun M _ => PtPs_Mach_ok hγ) ?_
    exact (tendsto_rpow_atTop (by positivity)).comp (tt_top hγ)

/-- C127 (default gas): the total pressure behind a normal shock tends to zero. -/
theorem C127_total_pressure : LimitAtInfinity (Pt_ratio · DefaultGas.gamma0) 0 :=
  limit_of (fun M hM => Pt_ratio_ok_default hM.le) (ptr_lim one_lt_gamma0)

/-! ### largest deflection -/

/-- the deflection through a given shock increases with the Mach number -/
theorem tanth_lt {M N s γ : ℝ} (h : 1 < γ) (hM : 0 < M) (hMN : M < N) (h0 : 0 < s) (h1 : s < π / 2) : tanth M s γ < tanth N s γ := by
  obtain ⟨hS, hC⟩ := sin_cos_pos h0 h1
  have d1 := tanth_den_pos (M := M) (s := s) h
  have d2 := tanth_den_pos (M := N) (s := s) h
  have hq : M ^ 2 < N ^ 2 := by nlinarith
  have hs1 : sin s ^ 2 ≤ 1 := Real.sin_sq_le_one s
  have hk : 0 < cos s / sin s := by positivity
  unfold tanth
  rw [div_lt_div_iff₀ d1 d2]
  have : 0 < (cos s / sin s) * ((N ^ 2 - M ^ 2) * (γ + 1)) := by
    have : 0 < γ + 1 := by linarith
    have : 0 < N ^ 2 - M ^ 2 := by linarith
    positivity
  nlinarith [this]

/-- the deflection is below the deflection at infinite Mach number -/
theorem tanth_lt_inf {M s γ : ℝ} (h : 1 < γ) (h0 : 0 < s) (h1 : s < π / 2) :
    tanth M s γ < 2 * (sin s * cos s) / (γ + 1 - 2 * sin s ^ 2) := by
  obtain ⟨hS, hC⟩ := sin_cos_pos h0 h1
  have d1 := tanth_den_pos (M := M) (s := s) h
  have hs1 : sin s ^ 2 ≤ 1 := Real.sin_sq_le_one s
  have d2 : 0 < γ + 1 - 2 * sin s ^ 2 := by linarith
  have e : 2 * (sin s * cos s) / (γ + 1 - 2 * sin s ^ 2) = 2 * (cos s / sin s) * sin s ^ 2 / (γ + 1 - 2 * sin s ^ 2) := by field_simp
  unfold tanth
  rw [e, div_lt_div_iff₀ d1 d2]
  have : 0 < (cos s / sin s) * (γ + 1) := by
    have : 0 < γ + 1 := by linarith
    positivity
  nlinarith [this]

/-- the deflection at infinite Mach number is largest at the shock angle `π/4 + arcsin(1/γ)/2` -/
theorem inf_le {s γ : ℝ} (h : 1 < γ) : 2 * (sin s * cos s) / (γ + 1 - 2 * sin s ^ 2) ≤ tan (arcsin (1 / γ)) := by
  have hs1 : sin s ^ 2 ≤ 1 := Real.sin_sq_le_one s
  have d2 : 0 < γ + 1 - 2 * sin s ^ 2 := by linarith
  have g0 : 0 < γ := by linarith
  have hq : 0 < γ ^ 2 - 1 := by nlinarith
  have e : √(1 - (1 / γ) ^ 2) = √(γ ^ 2 - 1) / γ := by
    rw [show 1 - (1 / γ) ^ 2 = (γ ^ 2 - 1) / γ ^ 2 by field_simp, Real.sqrt_div hq.le, Real.sqrt_sq g0.le]
  rw [Real.tan_arcsin, e]
  obtain ⟨w, hw⟩ : ∃ w, w = √(γ ^ 2 - 1) := ⟨_, rfl⟩
  have hw0 : 0 < w := by rw [hw]; exact Real.sqrt_pos.2 hq
  have hw2 : w ^ 2 = γ ^ 2 - 1 := by rw [hw]; exact Real.sq_sqrt hq.le
  rw [← hw, div_le_div_iff₀ d2 (by positivity)]
  have hsc := Real.sin_sq_add_cos_sq s
  rw [show 2 * (sin s * cos s) * (w / γ) = 2 * (sin s * cos s) * w / γ by ring, div_le_iff₀ g0,
    show 1 / γ * (γ + 1 - 2 * sin s ^ 2) * γ = γ + 1 - 2 * sin s ^ 2 by field_simp]
  -- `w sin 2s - cos 2s ≤ γ`
  obtain ⟨A, hA⟩ : ∃ A, A = 2 * (sin s * cos s) := ⟨_, rfl⟩
  obtain ⟨B, hB⟩ : ∃ B, B = 1 - 2 * sin s ^ 2 := ⟨_, rfl⟩
  have hAB : A ^ 2 + B ^ 2 = 1 := by
    rw [hA, hB]
    have : cos s ^ 2 = 1 - sin s ^ 2 := by linarith
    rw [show (2 * (sin s * cos s)) ^ 2 = 4 * sin s ^ 2 * cos s ^ 2 by ring, this]; ring
  rw [← hA, show γ + 1 - 2 * sin s ^ 2 = γ + B by rw [hB]; ring]
  have : (A * w - B) ^ 2 ≤ γ ^ 2 := by nlinarith [sq_nonneg (A + B * w)]
  linarith [abs_le_of_sq_le_sq' this g0.le |>.2]

theorem dev_Max_dev {M γ : ℝ} (hγ : 1 < γ) (hM : 1 < M) : ∃ σm, sigma_DevMax M γ = .ok σm ∧ 0 < σm ∧ σm < 90 ∧
    dev_Max M γ = .ok (Py.degrees (arctan (tanth M (Py.radians σm) γ))) ∧
    ∀ σ, 0 < σ → σ < 90 → Py.degrees (arctan (tanth M (Py.radians σ) γ)) ≤ Py.degrees (arctan (tanth M (Py.radians σm) γ)) := by
  obtain ⟨σm, θm, μ, h1, h2, h3, h4, h5, h6⟩ := C17_max_deflection M γ hγ hM
  obtain ⟨_, μ', -, g2, g3, -⟩ := C14_sign M 45 γ hγ hM (by norm_num) (by norm_num)
  have : μ = μ' := by rw [h3] at g2; exact Except.ok.inj g2
  have hm0 : 0 < σm := by linarith
  have hM0 : M ≠ 0 := by linarith
  have hv : dev_Max M γ = .ok (Py.degrees (arctan (tanth M (Py.radians σm) γ))) := by
    unfold dev_Max
    rw [h1, Py.ok_bind, deflection_ok hγ hM0 hm0 h5]
  refine ⟨σm, h1, hm0, h5, hv, ?_⟩
  intro σ a b
  obtain ⟨θ, k1, k2, -⟩ := h6 σ a b
  rw [deflection_ok hγ hM0 a b] at k1
  rw [hv] at h2
  rw [Except.ok.inj k1, Except.ok.inj h2]
  exact k2

theorem arctan_tan_arcsin {γ : ℝ} (hγ : 1 < γ) : arctan (tan (arcsin (1 / γ))) = arcsin (1 / γ) := by
  have h0 : 0 < 1 / γ := by apply div_pos <;> linarith
  have h1 : 1 / γ < 1 := by rw [div_lt_one (by linarith)]; exact hγ
  apply Real.arctan_tan
  · have := Real.arcsin_pos.2 h0
    linarith [Real.pi_pos]
  · exact Real.arcsin_lt_pi_div_two.2 h1

/-- C127 (largest deflection): the largest deflection `dev_Max` by an attached shock increases strictly with the Mach number and tends to
`arcsin(1/γ)` (45.58° for air) without reaching it. -/
theorem C127_dev_Max (γ : ℝ) (hγ : 1 < γ) :
    (∀ M N, 1 < M → M < N → ∃ θ θ', dev_Max M γ = .ok θ ∧ dev_Max N γ = .ok θ' ∧ θ < θ') ∧
    (∀ M, 1 < M → ∃ θ, dev_Max M γ = .ok θ ∧ θ < Py.degrees (arcsin (1 / γ))) ∧
    LimitAtInfinity (dev_Max · γ) (Py.degrees (arcsin (1 / γ))) := by
  have up : ∀ M, 1 < M → ∃ θ, dev_Max M γ = .ok θ ∧ θ < Py.degrees (arcsin (1 / γ)) := by
    intro M hM
    obtain ⟨σm, -, h0, h1, hv, -⟩ := dev_Max_dev hγ hM
    obtain ⟨s0, s1⟩ := Py.radians_mem h0 h1
    refine ⟨_, hv, ?_⟩
    rw [Py.degrees_lt, ← arctan_tan_arcsin hγ]
    exact Real.arctan_strictMono ((tanth_lt_inf hγ s0 s1).trans_le (inf_le hγ))
  refine ⟨?_, up, ?_⟩
  · intro M N hM hMN
    obtain ⟨σm, -, h0, h1, hv, -⟩ := dev_Max_dev hγ hM
    obtain ⟨σn, -, -, -, hv', hmax⟩ := dev_Max_dev hγ (hM.trans hMN)
    obtain ⟨s0, s1⟩ := Py.radians_mem h0 h1
    refine ⟨_, _, hv, hv', lt_of_lt_of_le ?_ (hmax σm h0 h1)⟩
    rw [Py.degrees_lt]
    exact Real.arctan_strictMono (tanth_lt hγ (by linarith) hMN s0 s1)
  · -- the deflection through the shock of angle `s = π/4 + arcsin(1/γ)/2`
    have g0 : 0 < γ := by linarith
    have q0 : 0 < 1 / γ := by positivity
    have q1 : 1 / γ < 1 := by rw [div_lt_one g0]; exact hγ
    have a0 := Real.arcsin_pos.2 q0
    have a1 := Real.arcsin_lt_pi_div_two.2 q1
    obtain ⟨s, hs⟩ : ∃ s, s = π / 4 + arcsin (1 / γ) / 2 := ⟨_, rfl⟩
    have s0 : 0 < s := by rw [hs]; linarith [Real.pi_pos]
    have s1 : s < π / 2 := by rw [hs]; linarith
    obtain ⟨hS, hC⟩ := sin_cos_pos s0 s1
    have hs1 : sin s ^ 2 ≤ 1 := Real.sin_sq_le_one s
    have d2 : 0 < γ + 1 - 2 * sin s ^ 2 := by linarith
    have e2 : 2 * s = arcsin (1 / γ) + π / 2 := by rw [hs]; ring
    have c2 : 1 - 2 * sin s ^ 2 = -(1 / γ) := by
      have h3 := Real.cos_two_mul s
      have h4 := Real.sin_sq_add_cos_sq s
      rw [e2, Real.cos_add_pi_div_two, Real.sin_arcsin (by linarith) q1.le] at h3
      linarith
    have t2 : 2 * (sin s * cos s) = √(1 - (1 / γ) ^ 2) := by
      rw [← mul_assoc, ← Real.sin_two_mul, e2, Real.sin_add_pi_div_two, Real.cos_arcsin]
    have hval : 2 * (sin s * cos s) / (γ + 1 - 2 * sin s ^ 2) = tan (arcsin (1 / γ)) := by
      rw [Real.tan_arcsin, t2, show γ + 1 - 2 * sin s ^ 2 = γ - 1 / γ by linarith]
      have hp : 0 < 1 - (1 / γ) ^ 2 := by nlinarith
      have hr := Real.sqrt_pos.2 hp
      have hr2 := Real.sq_sqrt hp.le
      have hd : 0 < γ - 1 / γ := by linarith
      rw [div_eq_div_iff hd.ne' hr.ne', ← sq, hr2]
      field_simp
    have hlim : Tendsto (fun M => tanth M s γ) atTop (𝓝 (tan (arcsin (1 / γ)))) := by
      have := tendsto_of_inv (g := fun M => tanth M s γ)
        (G := fun u => 2 * (cos s / sin s) * (sin s ^ 2 - u) / (γ + 1 + 2 * u - 2 * sin s ^ 2)) ?_ ?_
      · have e : 2 * (cos s / sin s) * (sin s ^ 2 - 0) / (γ + 1 + 2 * 0 - 2 * sin s ^ 2) = tan (arcsin (1 / γ)) := by
          rw [← hval, sub_zero, mul_zero, add_zero]
          congr 1
          field_simp
        simpa only [e] using this
      · intro M hM
        have hM0 : 0 < M := by linarith
        unfold tanth
        have d1 := tanth_den_pos (M := M) (s := s) hγ
        have d3 : 0 < γ + 1 + 2 * M⁻¹ ^ 2 - 2 * sin s ^ 2 := by have : 0 < M⁻¹ ^ 2 := by positivity
                                                                linarith
        show _ = _ / _
        rw [div_eq_div_iff d1.ne' d3.ne']
        field_simp
      · exact ContinuousAt.div (by fun_prop) (by fun_prop) (by simp only [mul_zero, add_zero]; exact d2.ne')
    have hl2 : Tendsto (fun M => Py.degrees (arctan (tanth M s γ))) atTop (𝓝 (Py.degrees (arcsin (1 / γ)))) := by
      have h3 := ((Real.continuous_arctan.tendsto _).comp hlim).const_mul (180 / π)
      rw [arctan_tan_arcsin hγ] at h3
      have e : ∀ x, Py.degrees x = 180 / π * x := fun x => by unfold Py.degrees; ring
      simp only [e]
      exact h3
    intro ε hε
    obtain ⟨K, hK⟩ := Metric.tendsto_atTop.1 hl2 ε hε
    refine ⟨max K 2, fun M hM => ?_⟩
    have hM1 : 1 < M := by linarith [le_max_right K 2]
    obtain ⟨θ, hθ, hlt⟩ := up M hM1
    refine ⟨θ, hθ, ?_⟩
    obtain ⟨σm, -, -, -, hv, hmax⟩ := dev_Max_dev hγ hM1
    have hdeg := Py.degrees_mem s0 s1
    have h4 := hmax (Py.degrees s) hdeg.1 hdeg.2
    rw [Py.radians_degrees] at h4
    rw [hv] at hθ
    have := Except.ok.inj hθ
    rw [this] at h4
    have h5 := hK M ((le_max_left _ _).trans hM)
    rw [Real.dist_eq, abs_lt] at h5
    rw [abs_lt]
    constructor <;> linarith [h5.1]

/-- C127: at no Mach number is a shock attached to a wedge of half angle `arcsin(1/γ)` or more. -/
theorem C127_detached (γ d : ℝ) (hγ : 1 < γ) (hd : Py.degrees (arcsin (1 / γ)) ≤ d) (hd1 : d < 90) (M : ℝ) (hM : 1 < M) :
    (¬ ∃ σ, 0 < σ ∧ σ < 90 ∧ deflection_Mach_sigma M σ γ = .ok d) ∧
    weaksigma_Mach_deflection M d γ = degree.asin (1 / M) ∧ strongsigma_Mach_deflection M d γ = .ok 90 := by
  have hno : ¬ ∃ σ, 0 < σ ∧ σ < 90 ∧ deflection_Mach_sigma M σ γ = .ok d := by
    rintro ⟨σ, h0, h1, h⟩
    obtain ⟨θ, hθ, hlt⟩ := (C127_dev_Max γ hγ).2.1 M hM
    obtain ⟨σm, -, -, -, hv, hmax⟩ := dev_Max_dev hγ hM
    rw [deflection_ok hγ (by linarith) h0 h1] at h
    have h2 := Except.ok.inj h
    rw [hv] at hθ
    have h3 := Except.ok.inj hθ
    have := hmax σ h0 h1
    rw [h2, h3] at this
    linarith
  refine ⟨hno, ?_⟩
  have q0 : 0 < 1 / γ := by apply div_pos <;> linarith
  have : 0 < Py.degrees (arcsin (1 / γ)) := by
    have := Py.degrees_lt.2 (Real.arcsin_pos.2 q0)
    rwa [show Py.degrees 0 = 0 by unfold Py.degrees; simp] at this
  exact C15_detached M d γ hγ hM (by linarith) hd1 hno

/-- the hypotheses are met: a wedge of 60 degrees in air -/
example : Py.degrees (arcsin (1 / 1.4)) ≤ 60 ∧ (60 : ℝ) < 90 ∧ (1 : ℝ) < 1.4 := by
  refine ⟨?_, by norm_num, by norm_num⟩
  have h : (60 : ℝ) = Py.degrees (π / 3) := by
    have := Real.pi_ne_zero
    unfold Py.degrees; field_simp; norm_num
  rw [h, Py.degrees_le, Real.arcsin_le_iff_le_sin' ⟨by linarith [Real.pi_pos], by linarith [Real.pi_pos]⟩, Real.sin_pi_div_three,
    div_le_div_iff₀ (by norm_num) (by norm_num)]
  have : (1.7 : ℝ) ≤ √3 := Real.le_sqrt_of_sq_le (by norm_num)
  linarith

end Aerokit.Props
