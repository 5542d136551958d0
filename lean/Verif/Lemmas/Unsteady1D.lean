import Verif.Model.Unsteady1D
import Verif.Lemmas.Model1D

/-! Closed forms of the methods of `unsteady1D.unsteady_state`. -/

namespace Aerokit.Unsteady1D
open Model1D Isentropic ShockWave

variable {s : UState} {p : ℝ}

/-- `(γ+1) p + (γ-1) p₀` -/
def KK (s : UState) (p : ℝ) : ℝ := (s.gamma + 1) * p + (s.gamma - 1) * s.p
/-- `(γ-1) p + (γ+1) p₀` -/
def LL (s : UState) (p : ℝ) : ℝ := (s.gamma - 1) * p + (s.gamma + 1) * s.p
/-- relative speed of the shock with respect to the state ahead of it -/
noncomputable def SS (s : UState) (p : ℝ) : ℝ := Real.sqrt (KK s p / (2 * s.rho))

theorem KK_pos (h : s.Valid) (hp : 0 < p) : 0 < KK s p := by
  have := h.gamma; have := h.p; have : 0 < s.gamma - 1 := by linarith
  unfold KK; positivity
theorem LL_pos (h : s.Valid) (hp : 0 < p) : 0 < LL s p := by
  have := h.gamma; have := h.p; have : 0 < s.gamma - 1 := by linarith
  unfold LL; positivity
theorem SS_pos (h : s.Valid) (hp : 0 < p) : 0 < SS s p := by
  have := h.rho; have := KK_pos h hp
  exact Real.sqrt_pos.2 (by positivity)
theorem SS_sq (h : s.Valid) (hp : 0 < p) : SS s p ^ 2 = KK s p / (2 * s.rho) := by
  have := h.rho; have := KK_pos h hp
  exact Real.sq_sqrt (by positivity)

/-- closed form of `delta_u_shock` -/
noncomputable def dus (s : UState) (p : ℝ) : ℝ := (p - s.p) / (s.rho * SS s p)
/-- closed form of `delta_u_expansion` -/
noncomputable def due (s : UState) (p : ℝ) : ℝ :=
  2 * s.cs / (s.gamma - 1) * ((p / s.p) ^ ((s.gamma - 1) / (2 * s.gamma)) - 1)
/-- closed form of `rho_through_shock` -/
noncomputable def rhs (s : UState) (p : ℝ) : ℝ := s.rho * (KK s p / LL s p)
/-- closed form of `rho_through_isentropic` -/
noncomputable def rhi (s : UState) (p : ℝ) : ℝ := s.rho * (p / s.p) ^ (1 / s.gamma)

theorem delta_u_shock_ok (h : s.Valid) (hp : 0 < p) :
    UState.delta_u_shock s p = .ok (dus s p) := by
  have h1 := h.rho; have h2 := KK_pos h hp; have h3 := SS_pos h hp
  unfold UState.delta_u_shock
  lits
  rw [Py.div_ok h1.ne', Py.ok_bind, Py.div_ok (show (s.gamma + 1) * p + (s.gamma - 1) * s.p ≠ 0 from h2.ne'),
    Py.ok_bind, Py.sqrt_ok (by have : 0 < (s.gamma + 1) * p + (s.gamma - 1) * s.p := h2
                               positivity)]
  simp only [Py.ok_bind, Py.pure_eq]
  congr 1
  unfold dus
  rw [div_eq_mul_inv (p - s.p)]
  congr 1
  have : 2 / s.rho / ((s.gamma + 1) * p + (s.gamma - 1) * s.p) = ((s.rho * SS s p)⁻¹) ^ 2 := by
    rw [inv_pow, mul_pow, SS_sq h hp]
    change 2 / s.rho / KK s p = _
    field_simp
  rw [this, Real.sqrt_sq (by positivity)]

theorem delta_u_expansion_ok (h : s.Valid) (hp : 0 < p) :
    UState.delta_u_expansion s p = .ok (due s p) := by
  have h1 := h.rho; have h2 := h.p; have h3 := h.g0
  have h4 : 0 < s.gamma - 1 := by linarith [h.gamma]
  unfold UState.delta_u_expansion
  simp only []
  lits
  rw [h.asound, Py.ok_bind, Py.div_ok (by positivity), Py.ok_bind, Py.div_ok h2.ne', Py.ok_bind,
    Py.div_ok h3.ne', Py.ok_bind, Py.pow_ok _ (by positivity), Py.ok_bind, Py.pure_eq]
  unfold due
  congr 1
  rw [show 1 / 2 * (s.gamma - 1) / s.gamma = (s.gamma - 1) / (2 * s.gamma) by field_simp]
  congr 1
  field_simp

theorem rho_through_shock_ok (h : s.Valid) (hp : 0 < p) :
    UState.rho_through_shock s p = .ok (rhs s p) := by
  have h1 := h.rho; have h2 := h.p; have h3 := h.g0
  have h4 : 0 < s.gamma - 1 := by linarith [h.gamma]
  have hL := LL_pos h hp
  unfold UState.rho_through_shock
  lits
  rw [Py.div_ok (by positivity), Py.ok_bind, Py.div_ok h2.ne', Py.ok_bind, Py.div_ok (by positivity)]
  congr 1
  unfold rhs
  have : 1 + (s.gamma - 1) / (s.gamma + 1) * (p / s.p) = LL s p / ((s.gamma + 1) * s.p) := by
    unfold LL; field_simp; ring
  rw [this]
  unfold KK
  field_simp

theorem rho_through_isentropic_ok (h : s.Valid) (hp : 0 < p) :
    UState.rho_through_isentropic s p = .ok (rhi s p) := by
  have h1 := h.rho; have h2 := h.p; have h3 := h.g0
  unfold UState.rho_through_isentropic
  lits
  rw [Py.div_ok h2.ne', Py.ok_bind, Py.div_ok h3.ne', Py.ok_bind, Py.pow_ok _ (by positivity)]
  rfl

theorem rhs_pos (h : s.Valid) (hp : 0 < p) : 0 < rhs s p := by
  have := h.rho; have := KK_pos h hp; have := LL_pos h hp
  unfold rhs; positivity
theorem rhi_pos (h : s.Valid) (hp : 0 < p) : 0 < rhi s p := by
  have := h.rho; have := h.p
  unfold rhi; positivity

theorem rhs_gt (h : s.Valid) (hp : s.p < p) : s.rho < rhs s p := by
  have h1 := h.rho; have h2 := h.p
  have hp0 : 0 < p := by linarith
  have hL := LL_pos h hp0
  unfold rhs
  have : 1 < KK s p / LL s p := by
    rw [one_lt_div hL]; unfold KK LL; nlinarith
  nlinarith

/-- speed relative to the shock behind it -/
theorem SS_sub_dus (h : s.Valid) (hp : 0 < p) :
    SS s p - dus s p = LL s p / (2 * s.rho * SS s p) := by
  have h1 := h.rho; have h3 := SS_pos h hp; have h4 := SS_sq h hp
  unfold dus
  have : LL s p = 2 * s.rho * (SS s p) ^ 2 - 2 * (p - s.p) := by
    rw [h4]; unfold KK LL; field_simp; ring
  rw [this]; field_simp

/-- mass conservation through the moving shock -/
theorem shock_mass (h : s.Valid) (hp : 0 < p) :
    rhs s p * (SS s p - dus s p) = s.rho * SS s p := by
  have h1 := h.rho; have h3 := SS_pos h hp; have h4 := SS_sq h hp; have hL := LL_pos h hp
  rw [SS_sub_dus h hp]
  unfold rhs
  have : KK s p = 2 * s.rho * SS s p ^ 2 := by rw [h4]; field_simp
  rw [this]; field_simp

theorem shock_momentum (h : s.Valid) (hp : 0 < p) :
    p + s.rho * SS s p * (SS s p - dus s p) = s.p + s.rho * SS s p ^ 2 := by
  have h1 := h.rho; have h3 := SS_pos h hp
  unfold dus; field_simp; ring

theorem shock_energy (h : s.Valid) (hp : 0 < p) :
    s.gamma / (s.gamma - 1) * (p / rhs s p) + (SS s p - dus s p) ^ 2 / 2
      = s.gamma / (s.gamma - 1) * (s.p / s.rho) + SS s p ^ 2 / 2 := by
  have h1 := h.rho; have h3 := SS_pos h hp; have h4 := SS_sq h hp
  have hL := LL_pos h hp; have hK := KK_pos h hp
  have hg : 0 < s.gamma - 1 := by linarith [h.gamma]
  rw [SS_sub_dus h hp, div_pow, mul_pow, h4]
  unfold rhs
  field_simp
  unfold KK LL
  ring

/-- the shock speed that conserves mass is unique -/
theorem shock_speed (h : s.Valid) (hp : s.p < p) (e : ℝ) :
    (s.rho * s.u - rhs s p * (s.u + e * dus s p)) / (s.rho - rhs s p) = s.u + e * SS s p := by
  have h1 := h.p
  have hp0 : 0 < p := by linarith
  have hne : s.rho - rhs s p ≠ 0 := by have := rhs_gt h hp; intro h0; linarith
  have hm := shock_mass h hp0
  rw [div_eq_iff hne]
  linear_combination e * hm

/-- Lax condition ahead -/
theorem cs_lt_SS (h : s.Valid) (hp : s.p < p) : s.cs < SS s p := by
  have h1 := h.rho; have h2 := h.p
  have hg := h.gamma
  apply Real.sqrt_lt_sqrt (by have := h.g0; positivity)
  unfold KK
  rw [div_lt_div_iff₀ h1 (by positivity)]
  have : 0 < (s.gamma + 1) * (p - s.p) * s.rho := by
    have : 0 < p - s.p := by linarith
    positivity
  nlinarith

/-- Lax condition behind -/
theorem SS_sub_dus_lt (h : s.Valid) (hp : s.p < p) (u : ℝ) :
    SS s p - dus s p < State.cs ⟨rhs s p, u, p, s.gamma⟩ := by
  have h1 := h.rho; have h2 := h.p
  have hp0 : 0 < p := by linarith
  have hL := LL_pos h hp0; have hK := KK_pos h hp0; have h3 := SS_pos h hp0
  have hg := h.gamma
  rw [SS_sub_dus h hp0]
  unfold State.cs
  apply Real.lt_sqrt_of_sq_lt
  simp only
  rw [div_pow, mul_pow, SS_sq h hp0]
  unfold rhs
  have e1 : LL s p ^ 2 / ((2 * s.rho) ^ 2 * (KK s p / (2 * s.rho))) = LL s p / (2 * s.rho * KK s p) * LL s p := by
    field_simp
  have e2 : s.gamma * p / (s.rho * (KK s p / LL s p)) = LL s p / (2 * s.rho * KK s p) * (2 * s.gamma * p) := by
    field_simp
  rw [e1, e2]
  apply mul_lt_mul_of_pos_left _ (by positivity)
  unfold LL; nlinarith

/-- the shock Mach number squared -/
theorem SS_mach (h : s.Valid) (hp : 0 < p) : (SS s p / s.cs) ^ 2 = KK s p / (2 * s.gamma * s.p) := by
  have h1 := h.rho; have h2 := h.p; have h3 := h.g0
  rw [div_pow, SS_sq h hp, h.cs_sq]; field_simp

theorem rankinehugoniot_ok (h : s.Valid) (hp : 0 < p) (e : ℝ) (he : e ^ 2 = 1) :
    UState.rankinehugoniot_from_ushock s (s.u + e * SS s p)
      = .ok ⟨rhs s p, s.u + e * dus s p, p, s.gamma⟩ := by
  have h1 := h.rho; have h2 := h.p; have h3 := h.g0; have hg := h.gamma
  have hL := LL_pos h hp; have hK := KK_pos h hp; have hS := SS_pos h hp
  have hc := h.cs_pos
  have hen : e ≠ 0 := by rintro rfl; norm_num at he
  obtain ⟨m, hm⟩ : ∃ m, m = (s.u - (s.u + e * SS s p)) / s.cs := ⟨_, rfl⟩
  have hm2 : m ^ 2 = KK s p / (2 * s.gamma * s.p) := by
    rw [← SS_mach h hp, hm]
    rw [show s.u - (s.u + e * SS s p) = -e * SS s p by ring, div_pow, mul_pow, neg_sq, he, one_mul, div_pow]
  have hm0 : m ≠ 0 := by
    intro h0; rw [h0] at hm2
    have : 0 < KK s p / (2 * s.gamma * s.p) := by positivity
    rw [← hm2] at this; norm_num at this
  have eR : rhr m s.gamma = KK s p / LL s p := by
    unfold rhr; rw [hm2]
    have hD : 2 + (s.gamma - 1) * (KK s p / (2 * s.gamma * s.p)) = (s.gamma + 1) * LL s p / (2 * s.gamma * s.p) := by
      unfold KK LL; field_simp; ring
    rw [hD]; field_simp
  have eP : s.p * psr m s.gamma = p := by
    unfold psr; rw [hm2]; unfold KK; field_simp; ring
  unfold UState.rankinehugoniot_from_ushock
  rw [h.asound, Py.ok_bind, Py.div_ok hc.ne', Py.ok_bind, ← hm, Rho_ratio_ok hg, Py.ok_bind,
    Py.div_ok (rhr_pos hg hm0).ne', Py.ok_bind, Ps_ratio_ok hg, Py.ok_bind, Py.pure_eq, eP, eR]
  congr 2
  have := shock_mass h hp
  unfold rhs at this
  have h5 : (s.u - (s.u + e * SS s p)) / (KK s p / LL s p) = -e * (SS s p - dus s p) := by
    rw [div_eq_iff (by positivity)]
    have : KK s p / LL s p * (SS s p - dus s p) = SS s p := by
      apply mul_left_cancel₀ h1.ne'; linarith
    linear_combination (e) * this
  rw [h5]; ring

/-! ### expansion -/

/-- state reached by an isentropic change to pressure `p` -/
noncomputable def isen (s : UState) (u p : ℝ) : UState := ⟨rhi s p, u, p, s.gamma⟩

theorem isen_valid (h : s.Valid) (hp : 0 < p) (u : ℝ) : (isen s u p).Valid :=
  ⟨rhi_pos h hp, hp, h.gamma⟩

theorem isen_cs (h : s.Valid) (hp : 0 < p) (u : ℝ) :
    (isen s u p).cs = s.cs * (p / s.p) ^ ((s.gamma - 1) / (2 * s.gamma)) := by
  have h1 := h.rho; have h2 := h.p; have h3 := h.g0; have hg := h.gamma
  have hr : 0 < p / s.p := by positivity
  have hw := Real.rpow_pos_of_pos hr ((s.gamma - 1) / (2 * s.gamma))
  have hc := h.cs_pos
  apply (sq_eq_sq₀ (isen_valid h hp u).cs_pos.le (by positivity)).1
  rw [(isen_valid h hp u).cs_sq, mul_pow, h.cs_sq, ← Real.rpow_natCast, ← Real.rpow_mul hr.le]
  unfold isen rhi
  simp only
  have e : (p / s.p) ^ ((s.gamma - 1) / (2 * s.gamma) * ((2:ℕ):ℝ)) = (p / s.p) / (p / s.p) ^ (1 / s.gamma) := by
    rw [show (s.gamma - 1) / (2 * s.gamma) * ((2:ℕ):ℝ) = 1 - 1 / s.gamma by push_cast; field_simp,
      Real.rpow_sub hr, Real.rpow_one]
  rw [e]
  have := Real.rpow_pos_of_pos hr (1 / s.gamma)
  field_simp

/-- `due` in terms of the sound speeds -/
theorem due_eq (h : s.Valid) (hp : 0 < p) (u : ℝ) :
    due s p = 2 / (s.gamma - 1) * ((isen s u p).cs - s.cs) := by
  have hg : 0 < s.gamma - 1 := by linarith [h.gamma]
  rw [isen_cs h hp]; unfold due; field_simp

end Aerokit.Unsteady1D
