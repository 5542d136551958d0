import Verif.Model.Thermo
import Mathlib.Analysis.SpecialFunctions.Log.Deriv
import Mathlib.Analysis.SpecialFunctions.ExpDeriv
import Mathlib.Tactic.Linarith
import Mathlib.Tactic.FieldSimp

/-! # Property C74 : `aerokit/aero/ThermoRealGas.py`, `aerokit/aero/ThermoKerosen.py` -/

namespace Aerokit.Props

/-- `h` evaluates, around `T`, to a function with derivative `d` at `T` -/
def PyDeriv (h : ℝ → Py ℝ) (d T : ℝ) : Prop :=
  ∃ g : ℝ → ℝ, (∀ t, 0 < t → h t = .ok (g t)) ∧ HasDerivAt g d T

section RealGas
open ThermoRealGas

/-- vibrational heat capacity / r -/
noncomputable def vib (T : ℝ) : ℝ := (3090 / T) ^ 2 * Real.exp (3090 / T) / (Real.exp (3090 / T) - 1) ^ 2

theorem exp_sub_pos {T : ℝ} (hT : 0 < T) : 0 < Real.exp (3090 / T) - 1 := by
  have : 0 < 3090 / T := by positivity
  have := Real.add_one_lt_exp this.ne'
  linarith

theorem Cp_ok {T : ℝ} (hT : 0 < T) :
    Cp T = .ok (rconst * (3.5 + (-2.8e-5 + 2.240e-8 * T) * T + vib T)) := by
  have h1 := exp_sub_pos hT
  have e1 : (1.0 : ℝ) = 1 := by norm_num
  have e2 : (3090.0 : ℝ) = 3090 := by norm_num
  unfold Cp
  rw [e1, e2, Py.div_ok hT.ne']
  simp only [Py.ok_bind]
  rw [Py.div_ok (pow_ne_zero _ h1.ne')]
  rfl

/-- C74 (real gas): `Gamma = Cp / (Cp - r)` and it is > 1. -/
theorem C74_gamma (T : ℝ) (hT : 0 < T) :
    ∃ g c, Gamma T = .ok g ∧ Cp T = .ok c ∧ g = c / (c - rconst) ∧ 1 < g ∧ rconst < c := by
  have h1 := exp_sub_pos hT
  have e1 : (1.0 : ℝ) = 1 := by norm_num
  have e2 : (3090.0 : ℝ) = 3090 := by norm_num
  have hr : (0:ℝ) < rconst := by unfold rconst; norm_num
  have hv : 0 < vib T := by unfold vib; positivity
  obtain ⟨c, hc⟩ : ∃ c, c = 3.5 + (-2.8e-5 + 2.240e-8 * T) * T + vib T := ⟨_, rfl⟩
  have hc1 : 1 < c := by
    rw [hc]
    norm_num
    nlinarith [sq_nonneg (T - 625)]
  have hg : Gamma T = .ok (c / (c - 1)) := by
    unfold Gamma
    rw [e1, e2, Py.div_ok hT.ne']
    simp only [Py.ok_bind]
    rw [Py.div_ok (pow_ne_zero _ h1.ne')]
    simp only [Py.ok_bind]
    have : 3.5 + (-2.8e-5 + 2.240e-8 * T) * T + (3090 / T) ^ 2 * Real.exp (3090 / T) /
      (Real.exp (3090 / T) - 1) ^ 2 = c := by rw [hc]; rfl
    rw [this, Py.div_ok (by linarith)]
  refine ⟨_, _, hg, Cp_ok hT, ?_, ?_, ?_⟩
  · rw [← hc]
    have : c - 1 ≠ 0 := by linarith
    have h3 : rconst * c - rconst = rconst * (c - 1) := by ring
    rw [h3, mul_div_mul_left _ _ hr.ne']
  · rw [one_lt_div (by linarith)]; linarith
  · rw [← hc]; nlinarith

theorem hasDerivAt_div3090 {T : ℝ} (hT : 0 < T) : HasDerivAt (fun t : ℝ => 3090 / t) (-(3090 / T ^ 2)) T := by
  have := (_root_.hasDerivAt_inv hT.ne').const_mul (3090:ℝ)
  refine (this.congr_of_eventuallyEq (Filter.Eventually.of_forall fun t => ?_)).congr_deriv ?_
  · rw [div_eq_mul_inv]
  · rw [div_eq_mul_inv]; ring

/-- C74 (real gas): the derivative of `Enthalpy` is `Cp` up to the rounding of the tabulated
coefficient, exactly `r·10⁻¹²·T²`. (The full claim `= Cp` is false, next theorem.) -/
theorem C74_enthalpy_partial (T : ℝ) (hT : 0 < T) :
    ∃ c, Cp T = .ok c ∧ PyDeriv Enthalpy (c + rconst * 1e-12 * T ^ 2) T := by
  refine ⟨_, Cp_ok hT, fun t => rconst * ((3.5 + (-1.4e-5 + 7.467e-9 * t) * t) * t +
    3090 / (Real.exp (3090 / t) - 1)), fun t ht => ?_, ?_⟩
  · have h1 := exp_sub_pos ht
    have e1 : (1.0 : ℝ) = 1 := by norm_num
    have e2 : (3090.0 : ℝ) = 3090 := by norm_num
    unfold Enthalpy
    rw [e1, e2, Py.div_ok ht.ne']
    simp only [Py.ok_bind]
    rw [Py.div_ok h1.ne']
    rfl
  · have h1 := exp_sub_pos hT
    have hid := hasDerivAt_id T
    have hp : HasDerivAt (fun t : ℝ => (3.5 + (-1.4e-5 + 7.467e-9 * t) * t) * t) _ T :=
      ((((hid.const_mul 7.467e-9).const_add (-1.4e-5)).mul hid).const_add 3.5).mul hid
    have he : HasDerivAt (fun t : ℝ => 3090 / (Real.exp (3090 / t) - 1)) _ T :=
      (hasDerivAt_const T (3090:ℝ)).div ((hasDerivAt_div3090 hT).exp.sub_const 1) h1.ne'
    refine ((hp.add he).const_mul rconst).congr_deriv ?_
    unfold vib
    simp only [id]
    obtain ⟨E, hE⟩ : ∃ E, E = Real.exp (3090 / T) := ⟨_, rfl⟩
    rw [← hE] at h1 ⊢
    have := h1.ne'
    norm_num
    field_simp
    ring

/-- C74 is false as stated for the real gas: `Cp` is not the derivative of `Enthalpy`. -/
theorem C74_enthalpy_false : ∃ T c, 0 < T ∧ Cp T = .ok c ∧ ¬ PyDeriv Enthalpy c T := by
  obtain ⟨c, hc, g, hg, hd⟩ := C74_enthalpy_partial 300 (by norm_num)
  refine ⟨300, c, by norm_num, hc, ?_⟩
  rintro ⟨g', hg', hd'⟩
  have hcongr : HasDerivAt g c 300 := by
    refine hd'.congr_of_eventuallyEq ?_
    filter_upwards [lt_mem_nhds (show (0:ℝ) < 300 by norm_num)] with t ht
    have := (hg t ht).symm.trans (hg' t ht)
    simpa using this
  have := hd.unique hcongr
  unfold rconst at this
  norm_num at this

/-- C74 (real gas): `Phi` is exactly an integral of `Cp / (r T ln 10)`. -/
theorem C74_phi (T : ℝ) (hT : 0 < T) :
    ∃ c, Cp T = .ok c ∧ PyDeriv Phi (c / (rconst * T * Real.log 10)) T := by
  have l10 : 0 < Real.log 10 := Real.log_pos (by norm_num)
  refine ⟨_, Cp_ok hT, fun t => ((3.5 * Real.log t + (-2.8e-5 + 1.12e-8 * t) * t) +
    3090 / t / (Real.exp (3090 / t) - 1) - Real.log ((Real.exp (3090 / t) - 1) / Real.exp (3090 / t))) /
      Real.log 10, fun t ht => ?_, ?_⟩
  · have h1 := exp_sub_pos ht
    have e1 : (1.0 : ℝ) = 1 := by norm_num
    have e2 : (3090.0 : ℝ) = 3090 := by norm_num
    have e3 : (10.0 : ℝ) = 10 := by norm_num
    unfold Phi
    rw [e1, e2, e3, Py.div_ok ht.ne', Py.log_ok ht]
    simp only [Py.ok_bind]
    rw [Py.div_ok h1.ne', Py.div_ok (Real.exp_pos _).ne']
    simp only [Py.ok_bind]
    rw [Py.log_ok (by positivity), Py.log_ok (by norm_num)]
    simp only [Py.ok_bind]
    rw [Py.div_ok l10.ne']
  · have h1 := exp_sub_pos hT
    have hid := hasDerivAt_id T
    have hE := (hasDerivAt_div3090 hT).exp
    have hlog := (Real.hasDerivAt_log hT.ne').const_mul (3.5:ℝ)
    have hp : HasDerivAt (fun t : ℝ => (-2.8e-5 + 1.12e-8 * t) * t) _ T :=
      ((hid.const_mul 1.12e-8).const_add (-2.8e-5)).mul hid
    have hq := (hasDerivAt_div3090 hT).div (hE.sub_const 1) h1.ne'
    have hl := ((hE.sub_const 1).div hE (Real.exp_pos _).ne').log (div_ne_zero h1.ne' (Real.exp_pos _).ne')
    refine ((((hlog.add hp).add hq).sub hl).div_const (Real.log 10)).congr_deriv ?_
    unfold vib
    simp only [id, Pi.div_apply]
    have hEp := Real.exp_pos (3090 / T)
    obtain ⟨E, hE⟩ : ∃ E, E = Real.exp (3090 / T) := ⟨_, rfl⟩
    rw [← hE] at h1 hEp ⊢
    have := h1.ne'
    have := hEp.ne'
    have := l10.ne'
    have hr : rconst ≠ 0 := by unfold rconst; norm_num
    norm_num
    field_simp
    ring

end RealGas

section Kerosen
open ThermoKerosen

/-- C74 (kerosene): derivative of `Enthalpy`: `Cp` up to `r·4·10⁻¹²·T²`. -/
theorem C74_kerosen_enthalpy_partial (T : ℝ) :
    HasDerivAt Enthalpy (Cp T + r_air * 4e-12 * T ^ 2) T := by
  have hid := hasDerivAt_id T
  have h : HasDerivAt (fun T : ℝ => r_air * (-149.054 + (4.47659 + (4.00997e-3 - 6.12432e-7 * T) * T) * T)) _ T :=
    ((((((hid.const_mul 6.12432e-7).const_sub 4.00997e-3).mul hid).const_add 4.47659).mul hid).const_add
      (-149.054)).const_mul r_air
  refine h.congr_deriv ?_
  unfold Cp
  simp only [id]
  norm_num
  ring

/-- C74 (kerosene): `Phi` is exactly the integral of `Enthalpy' / (r T ln 10)`: the two tables are
mutually consistent. -/
theorem C74_kerosen_phi (T : ℝ) (hT : 0 < T) :
    PyDeriv Phi (deriv Enthalpy T / (r_air * T * Real.log 10)) T := by
  have l10 : 0 < Real.log 10 := Real.log_pos (by norm_num)
  refine ⟨fun t => (4.47659 * Real.log t + (8.01994e-3 - 9.18648e-7 * t) * t) / Real.log 10, fun t ht => ?_, ?_⟩
  · have e3 : (10.0 : ℝ) = 10 := by norm_num
    unfold Phi
    rw [e3, Py.log_ok ht, Py.log_ok (by norm_num)]
    simp only [Py.ok_bind]
    rw [Py.div_ok l10.ne']
  · rw [(C74_kerosen_enthalpy_partial T).deriv]
    have hid := hasDerivAt_id T
    have hp : HasDerivAt (fun t : ℝ => (8.01994e-3 - 9.18648e-7 * t) * t) _ T :=
      ((hid.const_mul 9.18648e-7).const_sub 8.01994e-3).mul hid
    refine ((((Real.hasDerivAt_log hT.ne').const_mul (4.47659:ℝ)).add hp).div_const (Real.log 10)).congr_deriv ?_
    have := l10.ne'
    have hr : r_air ≠ 0 := by unfold r_air; norm_num
    unfold Cp
    simp only [id]
    norm_num
    field_simp
    ring

/-- the heat released at `T` plus the sensible enthalpy of the burnt fuel is a constant -/
theorem C74_kerosen_heating_value (T : ℝ) :
    Pc_eff T + Enthalpy T = Pc_inf + r_air * (1607.2 - 149.054) := by
  unfold Pc_eff Enthalpy; ring

/-- the heating value is 10300 kcal/kg, that is 43.0952 MJ/kg, and the effective one is within 0.1% of it at ambient temperature -/
theorem C74_kerosen_heating_numbers : Pc_inf = 43095200 ∧ ∀ T, 280 ≤ T → T ≤ 300 → |Pc_eff T - 43095200| ≤ 43095200 / 1000 := by
  have h : Pc_inf = 43095200 := by unfold Pc_inf; norm_num
  refine ⟨h, fun T h1 h2 => ?_⟩
  unfold Pc_eff r_air
  rw [h, abs_le]
  norm_num
  constructor <;> nlinarith [mul_nonneg (show 0 ≤ T by linarith) (show 0 ≤ T by linarith), mul_nonneg (show 0 ≤ T - 280 by linarith) (show 0 ≤ 300 - T by linarith),
    mul_nonneg (mul_nonneg (show 0 ≤ T - 280 by linarith) (show 0 ≤ 300 - T by linarith)) (show 0 ≤ T by linarith)]

end Kerosen

example : ∃ g c, ThermoRealGas.Gamma 288.15 = .ok g ∧ ThermoRealGas.Cp 288.15 = .ok c ∧
    g = c / (c - ThermoRealGas.rconst) ∧ 1 < g ∧ ThermoRealGas.rconst < c := C74_gamma 288.15 (by norm_num)

end Aerokit.Props
