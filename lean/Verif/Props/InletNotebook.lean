import Verif.Model.InletNotebook
import Verif.Props.Model1D

/-! # Property C166 : the reference flows of `notebooks/aero/unsteady_inflow.ipynb` -/

namespace Aerokit.Props
open Model1D Isentropic InletNotebook
open DefaultGas (gamma0)

/-- total pressure ratio of the initial Mach number -/
private noncomputable def w0 (M0 : ℝ) : ℝ := tt M0 gamma0 ^ (gamma0 / (gamma0 - 1))

private theorem in_qi (M0 : ℝ) : qi M0 = .ok ⟨1, M0 * Real.sqrt gamma0, 1, gamma0⟩ := by
  unfold qi
  rw [Py.sqrt_ok (by norm_num), Py.ok_bind, Py.pure_eq, gamma0_eq]
  unfold State.initDefault
  rw [gamma0_eq]
  norm_num

private theorem in_tot (M0 : ℝ) : (⟨1, M0 * Real.sqrt gamma0, 1, gamma0⟩ : State).Ptot = .ok (w0 M0) ∧
    (⟨1, M0 * Real.sqrt gamma0, 1, gamma0⟩ : State).rTtot = .ok (tt M0 gamma0) := by
  have hg := one_lt_gamma0
  have ht := tt_pos (M := M0) hg
  have hw : 0 < w0 M0 := Real.rpow_pos_of_pos ht _
  obtain ⟨-, h1, h2, -⟩ := tot_of_static (M := M0) hg hw ht ⟨1, M0 * Real.sqrt gamma0, 1, gamma0⟩ (by
    have e1 : w0 M0 / tt M0 gamma0 ^ (gamma0 / (gamma0 - 1)) = 1 := div_self hw.ne'
    have e2 : tt M0 gamma0 / tt M0 gamma0 = 1 := div_self ht.ne'
    rw [e1, e2]
    norm_num)
  exact ⟨h1, h2⟩

/-- Mach number of the final state of same static pressure -/
private noncomputable def mf (M0 pi : ℝ) : ℝ := Real.sqrt ((pi ^ ((gamma0 - 1) / gamma0) * tt M0 gamma0 - 1) * 2 / (gamma0 - 1))

private theorem in_rates (M0 pi : ℝ) (hpi : 1 ≤ pi) :
    rates M0 pi = .ok (M0 * Real.sqrt gamma0, mf M0 pi * Real.sqrt (gamma0 * pi ^ ((gamma0 - 1) / gamma0)), pi * (M0 * Real.sqrt gamma0)) := by
  have hg := one_lt_gamma0
  have ht := tt_pos (M := M0) hg
  have ht1 : 1 ≤ tt M0 gamma0 := by unfold tt; nlinarith [sq_nonneg M0]
  have hw : 0 < w0 M0 := Real.rpow_pos_of_pos ht _
  have hw1 : 1 ≤ w0 M0 := Real.one_le_rpow ht1 (div_nonneg (by linarith) (by linarith))
  have hg0 : 0 < gamma0 := by linarith
  have hp0 : 0 < pi := by linarith
  set k := pi ^ ((gamma0 - 1) / gamma0) with hk
  have hk1 : 1 ≤ k := Real.one_le_rpow hpi (div_nonneg (by linarith) (by linarith))
  have hkp : 0 < k := by linarith
  have hpow : (pi * w0 M0 / 1) ^ ((gamma0 - 1) / gamma0) = k * tt M0 gamma0 := by
    rw [div_one, Real.mul_rpow hp0.le hw.le, ← hk]
    unfold w0
    rw [rpow_rpow_cancel hg ht.le]
  have hktt : 1 ≤ k * tt M0 gamma0 := by nlinarith
  have hmt : tt (mf M0 pi) gamma0 = k * tt M0 gamma0 := tt_sqrt hg hktt
  unfold rates
  rw [in_qi, Py.ok_bind, (in_tot M0).2, Py.ok_bind, (in_tot M0).1, Py.ok_bind]
  have e1 : ((⟨1, M0 * Real.sqrt gamma0, 1, gamma0⟩ : State).copy).compute_from_pt_rtt_p (pi * w0 M0) (1.0 * tt M0 gamma0) 1
      = .ok (State.initDefault k (mf M0 pi * Real.sqrt (gamma0 / k)) 1) := by
    unfold State.compute_from_pt_rtt_p State.copy
    have hM : Mach_PtPs (pi * w0 M0 / 1) gamma0 = .ok (mf M0 pi) := by
      rw [Mach_PtPs_ok hg (by rw [div_one]; nlinarith), hpow]
      rfl
    have hz : (1.0 : ℝ) * tt M0 gamma0 / (k * tt M0 gamma0) = 1 / k := by
      field_simp
      norm_num
    rw [Py.div_ok one_ne_zero, Py.ok_bind]
    simp only []
    rw [hM, Py.ok_bind, TtTs_Mach_ok, Py.ok_bind, hmt, Py.div_ok (by positivity), Py.ok_bind, hz, Py.div_ok (by positivity), Py.ok_bind,
      Py.sqrt_ok (by positivity), Py.ok_bind, Py.pure_eq]
    rw [one_div_one_div, mul_one_div]
  have e2 : ((⟨1, M0 * Real.sqrt gamma0, 1, gamma0⟩ : State).copy).compute_from_pt_rtt_M (pi * w0 M0) (1.0 * tt M0 gamma0) M0
      = .ok (State.initDefault pi (M0 * Real.sqrt gamma0) pi) := by
    have h1 : (1.0 : ℝ) * tt M0 gamma0 = tt M0 gamma0 := by norm_num
    rw [h1, compute_from_pt_rtt_M_ok (by exact hg) (by positivity) ht]
    have a1 : pi * w0 M0 / tt M0 gamma0 ^ (gamma0 / (gamma0 - 1)) = pi := mul_div_cancel_right₀ _ hw.ne'
    have a2 : tt M0 gamma0 / tt M0 gamma0 = 1 := div_self ht.ne'
    unfold State.copy
    simp only []
    rw [a1, a2, div_one, mul_one]
  rw [e1, Py.ok_bind, e2, Py.ok_bind, Py.pure_eq]
  unfold State.massflow State.initDefault
  congr 2
  · ring
  · congr 1
    have : Real.sqrt (gamma0 * k) = k * Real.sqrt (gamma0 / k) := by
      have e : gamma0 * k = k ^ 2 * (gamma0 / k) := by field_simp
      rw [e, Real.sqrt_mul (sq_nonneg k), Real.sqrt_sq hkp.le]
    rw [this]
    ring

/-- C166 (the reference flows): for every initial Mach number `M0 > 0` and every total pressure ratio `pi >= 1` the pass computes the three flow rates; the
flow of same Mach number has `pi` times the initial one; the flow of same static pressure has more than the initial one as soon as `pi > 1`, and the same at
`pi = 1`. -/
theorem C166_rates (M0 pi : ℝ) (hM : 0 < M0) (hpi : 1 ≤ pi) : ∃ m0 mf mfb, rates M0 pi = .ok (m0, mf, mfb) ∧ m0 = M0 * Real.sqrt 1.4 ∧ mfb = pi * m0 ∧
    (pi = 1 → mf = m0) ∧ (1 < pi → m0 < mf) := by
  have hg := one_lt_gamma0
  have hg0 : 0 < gamma0 := by linarith
  have h14 : (1.4 : ℝ) = gamma0 := by rw [gamma0_eq]; norm_num
  refine ⟨_, _, _, in_rates M0 pi hpi, by rw [h14], rfl, ?_, ?_⟩
  · rintro rfl
    unfold mf
    rw [Real.one_rpow, one_mul, mul_one]
    have e : (tt M0 gamma0 - 1) * 2 / (gamma0 - 1) = M0 ^ 2 := by
      have : gamma0 - 1 ≠ 0 := by linarith
      unfold tt
      field_simp
      ring
    rw [e, Real.sqrt_sq hM.le]
  · intro h
    have hk1 : 1 < pi ^ ((gamma0 - 1) / gamma0) := Real.one_lt_rpow h (div_pos (by linarith) (by linarith))
    have hs : Real.sqrt gamma0 < Real.sqrt (gamma0 * pi ^ ((gamma0 - 1) / gamma0)) := Real.sqrt_lt_sqrt hg0.le (by nlinarith)
    have hgp : 0 < gamma0 - 1 := by linarith
    have ht := tt_pos (M := M0) hg
    have : M0 < mf M0 pi := by
      unfold mf
      apply Real.lt_sqrt_of_sq_lt
      rw [lt_div_iff₀ hgp]
      have : tt M0 gamma0 < pi ^ ((gamma0 - 1) / gamma0) * tt M0 gamma0 := lt_mul_of_one_lt_left ht hk1
      have e : tt M0 gamma0 = 1 + (gamma0 - 1) / 2 * M0 ^ 2 := rfl
      linarith
    exact mul_lt_mul'' this hs hM.le (Real.sqrt_nonneg _)

/-- C166 (the normalised curves): for every ratio above 1 both normalised values exist; they are affine in the flow rate, 0 at the initial flow rate and 1 at
that of the final state (of same static pressure for the first, of same Mach number for the second). -/
theorem C166_normalised (M0 pi m : ℝ) (hM : 0 < M0) (hpi : 1 < pi) : ∃ m0 mf mfb a b, rates M0 pi = .ok (m0, mf, mfb) ∧ normalised M0 pi m = .ok (a, b) ∧
    m0 < mf ∧ m0 < mfb ∧ m = m0 + a * (mf - m0) ∧ m = m0 + b * (mfb - m0) := by
  obtain ⟨m0, mf, mfb, h, e0, eb, -, hlt⟩ := C166_rates M0 pi hM hpi.le
  have hm0 : 0 < m0 := by rw [e0]; apply mul_pos hM (Real.sqrt_pos.2 (by norm_num))
  have h1 := hlt hpi
  have h2 : 0 < (pi - 1) * m0 := mul_pos (by linarith) hm0
  have h3 : m0 < mfb := by rw [eb]; linarith
  refine ⟨m0, mf, mfb, (m - m0) / (mf - m0), (m - m0) / (mfb - m0), h, ?_, h1, h3, ?_, ?_⟩
  · unfold normalised
    rw [h, Py.ok_bind]
    simp only []
    rw [Py.div_ok (by linarith), Py.ok_bind, Py.div_ok (by linarith), Py.ok_bind, Py.pure_eq]
  · rw [div_mul_cancel₀ _ (by linarith)]
    ring
  · rw [div_mul_cancel₀ _ (by linarith)]
    ring

/-- C166 (the first point) fails: the first pressure ratio of the cell is 1, where both denominators are zero whatever the flow rate: the first point of the
four normalised curves is undefined (a NaN of numpy). -/
theorem C166_first_false (M0 m : ℝ) (hM : 0 < M0) : normalised M0 1 m = .error .nonFinite := by
  obtain ⟨m0, mf, mfb, h, -, eb, h1, -⟩ := C166_rates M0 1 hM le_rfl
  unfold normalised
  rw [h, Py.ok_bind, h1 rfl]
  simp only []
  rw [sub_self, Py.div_err]
  rfl

/-- a concrete case: Mach number .3, ratio 2 -/
example : ∃ m0 mf mfb, rates 0.3 2 = .ok (m0, mf, mfb) ∧ m0 < mf ∧ mfb = 2 * m0 := by
  obtain ⟨a, b, c, h, -, h2, -, h4⟩ := C166_rates 0.3 2 (by norm_num) (by norm_num)
  exact ⟨a, b, c, h, h4 (by norm_num), h2⟩

end Aerokit.Props
