import Verif.Model.ShockWave
import Verif.Lemmas.MassFlow

/-! Real-valued forms of the normal shock relations. -/

namespace Aerokit.ShockWave
open Isentropic

/-- closed form of `Ps_ratio` -/
noncomputable def psr (M γ : ℝ) : ℝ := 1 + 2 * γ / (γ + 1) * (M ^ 2 - 1)
/-- closed form of `Rho_ratio` -/
noncomputable def rhr (M γ : ℝ) : ℝ := (γ + 1) * M ^ 2 / (2 + (γ - 1) * M ^ 2)
/-- closed form of `downstream_Mn ^ 2` -/
noncomputable def mn2 (M γ : ℝ) : ℝ :=
  (1 + (γ - 1) / 2 * M ^ 2) / (γ * M ^ 2 - (γ - 1) / 2)

theorem Ps_ratio_ok {M γ : ℝ} (h : 1 < γ) : Ps_ratio M γ = .ok (psr M γ) := by
  unfold Ps_ratio psr; lits; rw [Py.div_ok (by linarith)]; rfl

theorem rho_den_pos {M γ : ℝ} (h : 1 < γ) : 0 < 2 + (γ - 1) * M ^ 2 := by
  have : 0 < γ - 1 := by linarith
  positivity

theorem Rho_ratio_ok {M γ : ℝ} (h : 1 < γ) : Rho_ratio M γ = .ok (rhr M γ) := by
  unfold Rho_ratio rhr; lits; rw [Py.div_ok (rho_den_pos h).ne']

theorem rhr_pos {M γ : ℝ} (h : 1 < γ) (hM : M ≠ 0) : 0 < rhr M γ := by
  have := rho_den_pos (M := M) h
  have : 0 < γ + 1 := by linarith
  unfold rhr; positivity

theorem Ts_ratio_ok {M γ : ℝ} (h : 1 < γ) (hM : M ≠ 0) :
    Ts_ratio M γ = .ok (psr M γ / rhr M γ) := by
  unfold Ts_ratio
  rw [Ps_ratio_ok h, Py.ok_bind, Rho_ratio_ok h, Py.ok_bind, Py.div_ok (rhr_pos h hM).ne']

/-- the upstream normal Mach number is in the domain of the shock relations -/
def dom (M γ : ℝ) : Prop := (γ - 1) / (2 * γ) < M ^ 2

theorem dom_iff {M γ : ℝ} (h : 1 < γ) : dom M γ ↔ 0 < γ * M ^ 2 - (γ - 1) / 2 := by
  unfold dom
  rw [div_lt_iff₀ (by linarith)]
  constructor <;> intro h <;> linarith

theorem dom_of_one_le {M γ : ℝ} (h : 1 < γ) (hM : 1 ≤ M) : dom M γ := by
  rw [dom_iff h]; nlinarith [one_le_pow₀ (n := 2) hM]

theorem psr_pos {M γ : ℝ} (h : 1 < γ) (hd : dom M γ) : 0 < psr M γ := by
  rw [dom_iff h] at hd
  have : psr M γ = 2 / (γ + 1) * (γ * M ^ 2 - (γ - 1) / 2) := by
    have : γ + 1 ≠ 0 := by linarith
    unfold psr; field_simp; ring
  rw [this]; exact mul_pos (by apply div_pos <;> linarith) hd

theorem mn2_pos {M γ : ℝ} (h : 1 < γ) (hd : dom M γ) : 0 < mn2 M γ := by
  rw [dom_iff h] at hd
  have : 0 < γ - 1 := by linarith
  unfold mn2; positivity

theorem downstream_Mn_ok {M γ : ℝ} (h : 1 < γ) (hd : dom M γ) :
    downstream_Mn M γ = .ok (Real.sqrt (mn2 M γ)) := by
  have h1 := (dom_iff h).1 hd
  have e1 : (1 + 1 / 2 * (γ - 1) * M ^ 2) / (γ * M ^ 2 - 1 / 2 * (γ - 1)) = mn2 M γ := by
    unfold mn2; congr 1 <;> ring
  have e2 : γ * M ^ 2 - 1 / 2 * (γ - 1) ≠ 0 := by
    have : 1 / 2 * (γ - 1) = (γ - 1) / 2 := by ring
    rw [this]; exact h1.ne'
  unfold downstream_Mn; lits
  rw [Py.div_ok e2, Py.ok_bind, e1, Py.sqrt_ok (mn2_pos h hd).le]

theorem downstream_Mn_err {M γ : ℝ} (h : 1 < γ) (hd : ¬ dom M γ) :
    downstream_Mn M γ = .error .nonFinite := by
  rw [dom_iff h, not_lt] at hd
  have e2 : γ * M ^ 2 - 1 / 2 * (γ - 1) = γ * M ^ 2 - (γ - 1) / 2 := by ring
  unfold downstream_Mn; lits
  rw [e2]
  rcases hd.eq_or_lt with h0 | h0
  · rw [h0, Py.div_err]; rfl
  · rw [Py.div_ok h0.ne, Py.ok_bind, Py.sqrt_err]
    apply div_neg_of_pos_of_neg _ h0
    have : 0 < γ - 1 := by linarith
    positivity

theorem mn2_dom {M γ : ℝ} (h : 1 < γ) (hd : dom M γ) : dom (Real.sqrt (mn2 M γ)) γ := by
  have hp := mn2_pos h hd
  rw [dom_iff h, Real.sq_sqrt hp.le]
  have h1 := (dom_iff h).1 hd
  have : γ * mn2 M γ - (γ - 1) / 2 = (γ + 1) ^ 2 / 4 / (γ * M ^ 2 - (γ - 1) / 2) := by
    unfold mn2; rw [eq_div_iff h1.ne', sub_mul, mul_assoc, div_mul_cancel₀ _ h1.ne']; ring
  rw [this]
  have : 0 < γ + 1 := by linarith
  positivity

theorem mn2_mn2 {M γ : ℝ} (h : 1 < γ) (hd : dom M γ) : mn2 (Real.sqrt (mn2 M γ)) γ = M ^ 2 := by
  have hp := mn2_pos h hd
  have h1 := (dom_iff h).1 hd
  have h2 := (dom_iff h).1 (mn2_dom h hd)
  rw [Real.sq_sqrt hp.le] at h2
  unfold mn2 at h2
  unfold mn2
  rw [Real.sq_sqrt (show 0 ≤ (1 + (γ - 1) / 2 * M ^ 2) / (γ * M ^ 2 - (γ - 1) / 2) from hp.le),
    div_eq_iff h2.ne']
  obtain ⟨D, hD⟩ : ∃ D, D = γ * M ^ 2 - (γ - 1) / 2 := ⟨_, rfl⟩
  rw [← hD] at h1 ⊢
  have := h1.ne'
  field_simp
  rw [hD]
  ring

/-- logarithm of the total pressure ratio as a function of `x = M²`, times `γ - 1` -/
noncomputable def lpt (γ x : ℝ) : ℝ :=
  γ * (Real.log ((γ + 1) * x) - Real.log (2 + (γ - 1) * x))
    - Real.log (1 + 2 * γ / (γ + 1) * (x - 1))

theorem psr_arg_pos {γ x : ℝ} (h : 1 < γ) (hx : 1 ≤ x) : 0 < 1 + 2 * γ / (γ + 1) * (x - 1) := by
  have : 0 < 2 * γ / (γ + 1) := by apply div_pos <;> linarith
  nlinarith

theorem hasDerivAt_lpt {γ x : ℝ} (h : 1 < γ) (hx : 1 ≤ x) :
    HasDerivAt (lpt γ) (-(2 * γ * (γ - 1) * (x - 1) ^ 2) /
      (x * (2 + (γ - 1) * x) * (2 * γ * x - (γ - 1)))) x := by
  have h1 : γ + 1 ≠ 0 := by linarith
  have h2 : 0 < 2 + (γ - 1) * x := by nlinarith
  have h3 := psr_arg_pos h hx
  have h4 : 0 < 2 * γ * x - (γ - 1) := by nlinarith
  have hx0 : (γ + 1) * x ≠ 0 := mul_ne_zero h1 (by linarith)
  have d1 : HasDerivAt (fun x : ℝ => (γ + 1) * x) (γ + 1) x := by
    simpa using (hasDerivAt_id x).const_mul (γ + 1)
  have d2 : HasDerivAt (fun x : ℝ => 2 + (γ - 1) * x) (γ - 1) x := by
    simpa using ((hasDerivAt_id x).const_mul (γ - 1)).const_add 2
  have d3 : HasDerivAt (fun x : ℝ => 1 + 2 * γ / (γ + 1) * (x - 1)) (2 * γ / (γ + 1)) x := by
    simpa using (((hasDerivAt_id x).sub_const 1).const_mul (2 * γ / (γ + 1))).const_add 1
  have d := (((d1.log hx0).sub (d2.log h2.ne')).const_mul γ).sub (d3.log h3.ne')
  refine d.congr_deriv ?_
  have e3 : 1 + 2 * γ / (γ + 1) * (x - 1) = (2 * γ * x - (γ - 1)) / (γ + 1) := by
    field_simp; ring
  rw [e3]
  have hx1 : x ≠ 0 := by linarith
  obtain ⟨D, hD⟩ : ∃ D, D = 2 * γ * x - (γ - 1) := ⟨_, rfl⟩
  obtain ⟨E, hE⟩ : ∃ E, E = 2 + (γ - 1) * x := ⟨_, rfl⟩
  rw [← hD] at h4 ⊢
  rw [← hE] at h2 ⊢
  have := h2.ne'
  have := h4.ne'
  field_simp
  rw [hD, hE]
  ring

theorem lpt_one {γ : ℝ} (_ : 1 < γ) : lpt γ 1 = 0 := by
  unfold lpt; rw [show 2 + (γ - 1) * 1 = (γ + 1) * 1 by ring]; simp

theorem lpt_strictAnti {γ : ℝ} (h : 1 < γ) : StrictAntiOn (lpt γ) (Set.Ici 1) := by
  apply strictAntiOn_of_deriv_neg (convex_Ici 1)
  · intro x hx; exact (hasDerivAt_lpt h hx).continuousAt.continuousWithinAt
  · intro x hx
    rw [interior_Ici] at hx
    have hx1 : 1 < x := hx
    rw [(hasDerivAt_lpt h hx1.le).deriv]
    have h1 : 0 < γ - 1 := by linarith
    have h2 : 0 < x - 1 := by linarith
    apply div_neg_of_neg_of_pos
    · have : 0 < 2 * γ * (γ - 1) * (x - 1) ^ 2 := by positivity
      linarith
    · have h4 : 0 < 2 * γ * x - (γ - 1) := by nlinarith
      have : 0 < x := by linarith
      positivity

/-- total temperature is conserved: `tt(M₂) · psr / rhr = tt(M)` -/
theorem tt_mn2 {M γ : ℝ} (h : 1 < γ) (_ : M ≠ 0) (hd : dom M γ) :
    tt (Real.sqrt (mn2 M γ)) γ = tt M γ * (rhr M γ / psr M γ) := by
  have h1 := (dom_iff h).1 hd
  have hp := psr_pos h hd
  have e : psr M γ = (2 * γ * M ^ 2 - (γ - 1)) / (γ + 1) := by
    have : γ + 1 ≠ 0 := by linarith
    unfold psr; field_simp; ring
  have h2 := rho_den_pos (M := M) h
  unfold tt; rw [Real.sq_sqrt (mn2_pos h hd).le, e]
  have h3 : 2 * γ * M ^ 2 - (γ - 1) ≠ 0 := by nlinarith
  have h4 : γ + 1 ≠ 0 := by linarith
  unfold mn2 rhr
  have h5 : γ * M ^ 2 - (γ - 1) / 2 = (2 * γ * M ^ 2 - (γ - 1)) / 2 := by ring
  rw [h5]
  obtain ⟨D, hD⟩ : ∃ D, D = 2 * γ * M ^ 2 - (γ - 1) := ⟨_, rfl⟩
  obtain ⟨E, hE⟩ : ∃ E, E = 2 + (γ - 1) * M ^ 2 := ⟨_, rfl⟩
  rw [← hD] at h3 ⊢
  rw [← hE] at h2 ⊢
  have := h2.ne'
  field_simp
  rw [hD, hE]
  ring

/-- the (correct) total pressure ratio -/
noncomputable def ptr (M γ : ℝ) : ℝ :=
  psr M γ * tt (Real.sqrt (mn2 M γ)) γ ^ (γ / (γ - 1)) / tt M γ ^ (γ / (γ - 1))

theorem log_ptr {M γ : ℝ} (h : 1 < γ) (hM : 1 ≤ M) :
    Real.log (ptr M γ) = lpt γ (M ^ 2) / (γ - 1) := by
  have hd := dom_of_one_le h hM
  have hM0 : M ≠ 0 := by linarith
  have p1 := psr_pos h hd
  have p2 := rhr_pos h hM0
  have p3 := tt_pos (M := M) h
  have h1 : γ - 1 ≠ 0 := by linarith
  have h4 : 0 < γ + 1 := by linarith
  have e : ptr M γ = psr M γ * (rhr M γ / psr M γ) ^ (γ / (γ - 1)) := by
    unfold ptr
    rw [tt_mn2 h hM0 hd, Real.mul_rpow p3.le (by positivity)]
    have := Real.rpow_pos_of_pos p3 (γ / (γ - 1))
    field_simp
  rw [e, Real.log_mul p1.ne' (Real.rpow_pos_of_pos (by positivity) _).ne',
    Real.log_rpow (by positivity), Real.log_div p2.ne' p1.ne']
  unfold lpt
  have e2 : Real.log (rhr M γ) = Real.log ((γ + 1) * M ^ 2) - Real.log (2 + (γ - 1) * M ^ 2) := by
    unfold rhr; rw [Real.log_div (by positivity) (rho_den_pos h).ne']
  have e3 : Real.log (1 + 2 * γ / (γ + 1) * (M ^ 2 - 1)) = Real.log (psr M γ) := rfl
  rw [e3, ← e2]
  field_simp
  ring

theorem ptr_pos {M γ : ℝ} (h : 1 < γ) (hd : dom M γ) : 0 < ptr M γ := by
  have p1 := psr_pos h hd
  have p2 := Real.rpow_pos_of_pos (tt_pos (M := M) h) (γ / (γ - 1))
  have p3 := Real.rpow_pos_of_pos (tt_pos (M := Real.sqrt (mn2 M γ)) h) (γ / (γ - 1))
  unfold ptr; positivity

theorem ptr_one {γ : ℝ} (h : 1 < γ) : ptr 1 γ = 1 := by
  have := log_ptr h (le_refl 1)
  rw [one_pow, lpt_one h, zero_div] at this
  exact Real.eq_one_of_pos_of_log_eq_zero (ptr_pos h (dom_of_one_le h le_rfl)) this

theorem ptr_strictAnti {γ : ℝ} (h : 1 < γ) : StrictAntiOn (fun M => ptr M γ) (Set.Ici 1) := by
  intro x hx y hy hxy
  have hx1 : 1 ≤ x := hx
  have hy1 : 1 ≤ y := hy
  show ptr y γ < ptr x γ
  rw [← Real.log_lt_log_iff (ptr_pos h (dom_of_one_le h hy)) (ptr_pos h (dom_of_one_le h hx)),
    log_ptr h hx, log_ptr h hy]
  apply div_lt_div_of_pos_right _ (by linarith)
  apply lpt_strictAnti h
  · exact one_le_pow₀ hx1
  · exact one_le_pow₀ hy1
  · nlinarith

theorem Pt_ratio_ok_default {M : ℝ} (hM : 1 ≤ M) :
    Pt_ratio M DefaultGas.gamma0 = .ok (ptr M DefaultGas.gamma0) := by
  have h := one_lt_gamma0
  have hd := dom_of_one_le h hM
  unfold Pt_ratio
  rw [Ps_ratio_ok h, Py.ok_bind, downstream_Mn_ok h hd, Py.ok_bind, PtPs_Mach_ok h, Py.ok_bind,
    PtPs_Mach_ok h, Py.ok_bind, Py.div_ok]
  · rfl
  · exact (Real.rpow_pos_of_pos (tt_pos h) _).ne'

end Aerokit.ShockWave
