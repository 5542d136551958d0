import Verif.Model.Isentropic
import Mathlib.Tactic.Linarith
import Mathlib.Tactic.Ring
import Mathlib.Tactic.FieldSimp
import Mathlib.Tactic.Positivity
import Mathlib.Tactic.NormNum

/-! Evaluation lemmas for the isentropic functions: closed real forms inside the domain. -/

namespace Aerokit.Isentropic

/-- `1 + (γ-1)/2 M²` -/
noncomputable def tt (M γ : ℝ) : ℝ := 1 + (γ - 1) / 2 * M ^ 2

theorem tt_pos {M γ : ℝ} (h : 1 < γ) : 0 < tt M γ := by
  unfold tt; have : 0 < γ - 1 := by linarith
  positivity

theorem one_le_tt {M γ : ℝ} (h : 1 < γ) : 1 ≤ tt M γ := by
  unfold tt; have : 0 < γ - 1 := by linarith
  have : 0 ≤ (γ - 1) / 2 * M ^ 2 := by positivity
  linarith

theorem tt_lt_tt {M N γ : ℝ} (h : 1 < γ) (hM : 0 ≤ M) (hMN : M < N) : tt M γ < tt N γ := by
  unfold tt
  have h1 : 0 < (γ - 1) / 2 := by linarith
  have : M ^ 2 < N ^ 2 := by nlinarith
  nlinarith

theorem TtTs_Mach_ok (M γ : ℝ) : TtTs_Mach M γ = .ok (tt M γ) := by
  simp only [TtTs_Mach, tt, Py.pure_eq]; congr 1
  rw [show (1.0:ℝ) = 1 by norm_num, show (0.5:ℝ) = 1 / 2 by norm_num]; ring

theorem PtPs_Mach_ok {M γ : ℝ} (h : 1 < γ) :
    PtPs_Mach M γ = .ok (tt M γ ^ (γ / (γ - 1))) := by
  have h1 : γ - 1.0 ≠ 0 := by norm_num; linarith
  have h2 : (1.0 + 0.5 * (γ - 1.0) * M ^ 2) = tt M γ := by
    unfold tt; rw [show (1.0:ℝ) = 1 by norm_num, show (0.5:ℝ) = 1 / 2 by norm_num]; ring
  rw [PtPs_Mach, Py.div_ok h1, Py.ok_bind, h2, Py.pow_ok _ (tt_pos h)]
  norm_num

theorem Mach_TtTs_ok {t γ : ℝ} (h : 1 < γ) (ht : 1 ≤ t) :
    Mach_TtTs t γ = .ok (Real.sqrt ((t - 1) * 2 / (γ - 1))) := by
  have h1 : γ - 1.0 ≠ 0 := by norm_num; linarith
  have h2 : (t - 1.0) * 2.0 / (γ - 1.0) = (t - 1) * 2 / (γ - 1) := by norm_num
  rw [Mach_TtTs, Py.div_ok h1, Py.ok_bind, h2, Py.sqrt_ok]
  apply div_nonneg <;> linarith

theorem Mach_TtTs_err {t γ : ℝ} (h : 1 < γ) (ht : t < 1) :
    Mach_TtTs t γ = .error .nonFinite := by
  have h1 : γ - 1.0 ≠ 0 := by norm_num; linarith
  have h2 : (t - 1.0) * 2.0 / (γ - 1.0) = (t - 1) * 2 / (γ - 1) := by norm_num
  rw [Mach_TtTs, Py.div_ok h1, Py.ok_bind, h2, Py.sqrt_err]
  apply div_neg_of_neg_of_pos <;> linarith

theorem Mach_PtPs_ok {p γ : ℝ} (h : 1 < γ) (hp : 1 ≤ p) :
    Mach_PtPs p γ = .ok (Real.sqrt ((p ^ ((γ - 1) / γ) - 1) * 2 / (γ - 1))) := by
  have h0 : γ ≠ 0 := by linarith
  have h1 : γ - 1.0 ≠ 0 := by norm_num; linarith
  have h2 : (p ^ ((γ - 1.0) / γ) - 1.0) * 2.0 / (γ - 1.0)
      = (p ^ ((γ - 1) / γ) - 1) * 2 / (γ - 1) := by norm_num
  rw [Mach_PtPs, Py.div_ok h0, Py.ok_bind, Py.pow_ok _ (by linarith), Py.ok_bind, Py.div_ok h1,
    Py.ok_bind, h2, Py.sqrt_ok]
  have : 1 ≤ p ^ ((γ - 1) / γ) := Real.one_le_rpow hp (by apply div_nonneg <;> linarith)
  apply div_nonneg <;> linarith

theorem Mach_PtPs_err {p γ : ℝ} (h : 1 < γ) (hp0 : 0 < p) (hp : p < 1) :
    Mach_PtPs p γ = .error .nonFinite := by
  have h0 : γ ≠ 0 := by linarith
  have h1 : γ - 1.0 ≠ 0 := by norm_num; linarith
  have h2 : (p ^ ((γ - 1.0) / γ) - 1.0) * 2.0 / (γ - 1.0)
      = (p ^ ((γ - 1) / γ) - 1) * 2 / (γ - 1) := by norm_num
  rw [Mach_PtPs, Py.div_ok h0, Py.ok_bind, Py.pow_ok _ hp0, Py.ok_bind, Py.div_ok h1,
    Py.ok_bind, h2, Py.sqrt_err]
  have : p ^ ((γ - 1) / γ) < 1 := Real.rpow_lt_one hp0.le hp (by apply div_pos <;> linarith)
  apply div_neg_of_neg_of_pos <;> linarith

theorem Velocity_MachTt_ok {M Tt r γ : ℝ} (h : 1 < γ) (hr : 0 < r) (hT : 0 ≤ Tt) :
    Velocity_MachTt M Tt r γ = .ok (M * Real.sqrt (γ * r * Tt / tt M γ)) := by
  rw [Velocity_MachTt, TtTs_Mach_ok, Py.ok_bind, Py.div_ok (tt_pos h).ne', Py.ok_bind, Py.sqrt_ok]
  · rfl
  · have := tt_pos (M := M) h; positivity

/-- `√((tt M - 1)·2/(γ-1)) = M` for `M ≥ 0` -/
theorem sqrt_tt {M γ : ℝ} (h : 1 < γ) (hM : 0 ≤ M) :
    Real.sqrt ((tt M γ - 1) * 2 / (γ - 1)) = M := by
  have h1 : γ - 1 ≠ 0 := by linarith
  have : (tt M γ - 1) * 2 / (γ - 1) = M ^ 2 := by unfold tt; field_simp; ring
  rw [this, Real.sqrt_sq hM]

theorem tt_sqrt {t γ : ℝ} (h : 1 < γ) (ht : 1 ≤ t) :
    tt (Real.sqrt ((t - 1) * 2 / (γ - 1))) γ = t := by
  have h1 : γ - 1 ≠ 0 := by linarith
  have h2 : 0 < γ - 1 := by linarith
  unfold tt
  rw [Real.sq_sqrt (by apply div_nonneg <;> linarith)]; field_simp; ring

theorem rpow_rpow_cancel {t γ : ℝ} (h : 1 < γ) (ht : 0 ≤ t) :
    (t ^ (γ / (γ - 1))) ^ ((γ - 1) / γ) = t := by
  have h1 : γ - 1 ≠ 0 := by linarith
  have h0 : γ ≠ 0 := by linarith
  rw [← Real.rpow_mul ht]
  rw [show γ / (γ - 1) * ((γ - 1) / γ) = 1 by field_simp, Real.rpow_one]

theorem rpow_rpow_cancel' {t γ : ℝ} (h : 1 < γ) (ht : 0 ≤ t) :
    (t ^ ((γ - 1) / γ)) ^ (γ / (γ - 1)) = t := by
  have h1 : γ - 1 ≠ 0 := by linarith
  have h0 : γ ≠ 0 := by linarith
  rw [← Real.rpow_mul ht]
  rw [show (γ - 1) / γ * (γ / (γ - 1)) = 1 by field_simp, Real.rpow_one]

theorem gam_exp_pos {γ : ℝ} (h : 1 < γ) : 0 < γ / (γ - 1) := by apply div_pos <;> linarith

theorem gamma0_eq : DefaultGas.gamma0 = 7 / 5 := by unfold DefaultGas.gamma0; norm_num
theorem one_lt_gamma0 : 1 < DefaultGas.gamma0 := by rw [gamma0_eq]; norm_num

end Aerokit.Isentropic
