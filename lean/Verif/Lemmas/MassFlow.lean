import Verif.Model.MassFlow
import Verif.Lemmas.Isentropic
import Verif.Lemmas.Lits
import Mathlib.Analysis.Calculus.Deriv.MeanValue
import Mathlib.Analysis.SpecialFunctions.Log.Deriv
import Mathlib.Analysis.SpecialFunctions.Pow.Deriv
import Mathlib.Topology.Order.IntermediateValue

/-! Real-valued form and calculus of `Sigma_Mach`. -/

namespace Aerokit.MassFlow
open Isentropic

/-- closed form of `Sigma_Mach` -/
noncomputable def sig (M γ : ℝ) : ℝ := (2 / (γ + 1) * tt M γ) ^ ((γ + 1) / (2 * (γ - 1))) / M

theorem tt_one {γ : ℝ} (h : 1 < γ) : 2 / (γ + 1) * tt 1 γ = 1 := by
  have : γ + 1 ≠ 0 := by linarith
  unfold tt; field_simp; ring

theorem Sigma_Mach_ok {M γ : ℝ} (h : 1 < γ) (hM : M ≠ 0) : Sigma_Mach M γ = .ok (sig M γ) := by
  have h1 : γ + 1 ≠ 0 := by linarith
  have h2 : γ - 1 ≠ 0 := by linarith
  have hp : 0 < 2 / (γ + 1) * tt M γ := mul_pos (by apply div_pos <;> linarith) (tt_pos h)
  have e1 : 2 / (γ + 1) * (1 + 1 / 2 * (γ - 1) * M ^ 2) = 2 / (γ + 1) * tt M γ := by
    unfold tt; ring
  have e2 : 1 / 2 * (γ + 1) / (γ - 1) = (γ + 1) / (2 * (γ - 1)) := by field_simp
  unfold Sigma_Mach; lits
  rw [Py.div_ok h1, Py.ok_bind, Py.div_ok h2, Py.ok_bind, e1, e2, Py.pow_ok _ hp, Py.ok_bind,
    Py.div_ok hM]
  rfl

theorem Sigma_Mach_zero {γ : ℝ} (h : 1 < γ) : Sigma_Mach 0 γ = .error .nonFinite := by
  have h1 : γ + 1 ≠ 0 := by linarith
  have h2 : γ - 1 ≠ 0 := by linarith
  unfold Sigma_Mach; lits
  rw [Py.div_ok h1, Py.ok_bind, Py.div_ok h2, Py.ok_bind, Py.pow_ok, Py.ok_bind, Py.div_err]
  simp; linarith

theorem WeightMassFlow_ok {M r γ : ℝ} (h : 1 < γ) :
    WeightMassFlow M r γ = .ok (Real.sqrt γ * M * tt M γ ^ (-(γ + 1) / (2 * (γ - 1)))) := by
  have h2 : γ - 1 ≠ 0 := by linarith
  have e1 : (1 + 1 / 2 * (γ - 1) * M ^ 2) = tt M γ := by unfold tt; ring
  have e2 : -(1 / 2) * (γ + 1) / (γ - 1) = -(γ + 1) / (2 * (γ - 1)) := by field_simp
  unfold WeightMassFlow; lits
  rw [Py.sqrt_ok (by linarith), Py.ok_bind, Py.div_ok h2, Py.ok_bind, e1, e2, Py.pow_ok _ (tt_pos h)]
  rfl

theorem base_pos {M γ : ℝ} (h : 1 < γ) : 0 < 2 / (γ + 1) * tt M γ :=
  mul_pos (by apply div_pos <;> linarith) (tt_pos h)

theorem sig_pos {M γ : ℝ} (h : 1 < γ) (hM : 0 < M) : 0 < sig M γ :=
  div_pos (Real.rpow_pos_of_pos (base_pos h) _) hM

theorem sig_neg {M γ : ℝ} (h : 1 < γ) (hM : M < 0) : sig M γ < 0 :=
  div_neg_of_pos_of_neg (Real.rpow_pos_of_pos (base_pos h) _) hM

theorem sig_one {γ : ℝ} (h : 1 < γ) : sig 1 γ = 1 := by
  unfold sig; rw [tt_one h]; simp

/-- logarithm of `sig` -/
noncomputable def lsig (M γ : ℝ) : ℝ :=
  (γ + 1) / (2 * (γ - 1)) * Real.log (2 / (γ + 1) * tt M γ) - Real.log M

theorem log_sig {M γ : ℝ} (h : 1 < γ) (hM : 0 < M) : Real.log (sig M γ) = lsig M γ := by
  unfold sig lsig
  rw [Real.log_div (Real.rpow_pos_of_pos (base_pos h) _).ne' hM.ne', Real.log_rpow (base_pos h)]

theorem hasDerivAt_tt (M γ : ℝ) : HasDerivAt (fun M => tt M γ) ((γ - 1) * M) M := by
  have h1 : HasDerivAt (fun M : ℝ => M ^ 2) (2 * M) M := by
    simpa using hasDerivAt_pow 2 M
  have h2 := (h1.const_mul ((γ - 1) / 2)).const_add 1
  have e : (γ - 1) / 2 * (2 * M) = (γ - 1) * M := by ring
  rw [e] at h2
  exact h2

theorem hasDerivAt_lsig {M γ : ℝ} (h : 1 < γ) (hM : 0 < M) :
    HasDerivAt (fun M => lsig M γ) ((M ^ 2 - 1) / (M * tt M γ)) M := by
  have h1 : γ + 1 ≠ 0 := by linarith
  have h2 : γ - 1 ≠ 0 := by linarith
  have h3 := (tt_pos (M := M) h).ne'
  have d := ((((hasDerivAt_tt M γ).const_mul (2 / (γ + 1))).log (base_pos h).ne').const_mul
    ((γ + 1) / (2 * (γ - 1)))).sub (Real.hasDerivAt_log hM.ne')
  refine d.congr_deriv ?_
  have hM' := hM.ne'
  field_simp
  unfold tt; ring

theorem lsig_strictAnti {γ : ℝ} (h : 1 < γ) : StrictAntiOn (fun M => lsig M γ) (Set.Ioc 0 1) := by
  apply strictAntiOn_of_deriv_neg (convex_Ioc 0 1)
  · intro x hx; exact (hasDerivAt_lsig h hx.1).continuousAt.continuousWithinAt
  · intro x hx
    rw [interior_Ioc] at hx
    rw [(hasDerivAt_lsig h hx.1).deriv]
    apply div_neg_of_neg_of_pos
    · nlinarith [hx.1, hx.2]
    · exact mul_pos hx.1 (tt_pos h)

theorem lsig_strictMono {γ : ℝ} (h : 1 < γ) : StrictMonoOn (fun M => lsig M γ) (Set.Ici 1) := by
  apply strictMonoOn_of_deriv_pos (convex_Ici 1)
  · intro x hx
    exact (hasDerivAt_lsig h (lt_of_lt_of_le one_pos hx)).continuousAt.continuousWithinAt
  · intro x hx
    rw [interior_Ici] at hx
    have hx1 : 1 < x := hx
    rw [(hasDerivAt_lsig h (by linarith)).deriv]
    apply div_pos
    · nlinarith
    · exact mul_pos (by linarith) (tt_pos h)

theorem sig_lt_iff {M N γ : ℝ} (h : 1 < γ) (hM : 0 < M) (hN : 0 < N) :
    sig M γ < sig N γ ↔ lsig M γ < lsig N γ := by
  rw [← log_sig h hM, ← log_sig h hN, Real.log_lt_log_iff (sig_pos h hM) (sig_pos h hN)]

theorem sig_strictAnti {γ : ℝ} (h : 1 < γ) : StrictAntiOn (fun M => sig M γ) (Set.Ioc 0 1) := by
  intro x hx y hy hxy
  exact (sig_lt_iff h hy.1 hx.1).2 (lsig_strictAnti h hx hy hxy)

theorem sig_strictMono {γ : ℝ} (h : 1 < γ) : StrictMonoOn (fun M => sig M γ) (Set.Ici 1) := by
  intro x hx y hy hxy
  exact (sig_lt_iff h (lt_of_lt_of_le one_pos hx) (lt_of_lt_of_le one_pos hy)).2
    (lsig_strictMono h hx hy hxy)

theorem one_lt_sig_sub {M γ : ℝ} (h : 1 < γ) (h0 : 0 < M) (h1 : M < 1) : 1 < sig M γ := by
  have := sig_strictAnti h ⟨h0, h1.le⟩ ⟨one_pos, le_rfl⟩ h1
  simpa [sig_one h] using this

theorem one_lt_sig_sup {M γ : ℝ} (h : 1 < γ) (h1 : 1 < M) : 1 < sig M γ := by
  have := sig_strictMono h (Set.mem_Ici.2 le_rfl) (Set.mem_Ici.2 h1.le) h1
  simpa [sig_one h] using this

theorem one_le_sig {M γ : ℝ} (h : 1 < γ) (h0 : 0 < M) : 1 ≤ sig M γ := by
  rcases lt_trichotomy M 1 with h1 | h1 | h1
  · exact (one_lt_sig_sub h h0 h1).le
  · rw [h1, sig_one h]
  · exact (one_lt_sig_sup h h1).le

theorem continuousAt_sig {M γ : ℝ} (h : 1 < γ) (h0 : M ≠ 0) :
    ContinuousAt (fun M => sig M γ) M := by
  unfold sig
  apply ContinuousAt.div _ continuousAt_id h0
  apply ContinuousAt.rpow_const
  · exact ((hasDerivAt_tt M γ).const_mul _).continuousAt
  · left; exact (base_pos h).ne'

theorem exists_sub {σ γ : ℝ} (h : 1 < γ) (hs : 1 < σ) : ∃ M, 0 < M ∧ M < 1 ∧ sig M γ = σ := by
  set e := (γ + 1) / (2 * (γ - 1)) with he
  have hepos : 0 < e := by apply div_pos <;> linarith
  set c := (2 / (γ + 1)) with hc
  have hc0 : 0 < c := by apply div_pos <;> linarith
  have hc1 : c < 1 := by rw [hc, div_lt_one] <;> linarith
  have hce : 0 < c ^ e := Real.rpow_pos_of_pos hc0 e
  have hce1 : c ^ e < 1 := Real.rpow_lt_one hc0.le hc1 hepos
  have hM0 : 0 < c ^ e / σ := by positivity
  have hM1 : c ^ e / σ < 1 := by rw [div_lt_one] <;> linarith
  have hbig : σ ≤ sig (c ^ e / σ) γ := by
    have h1 : c ^ e ≤ (c * tt (c ^ e / σ) γ) ^ e := by
      apply Real.rpow_le_rpow hc0.le _ hepos.le
      have := one_le_tt (M := c ^ e / σ) h
      nlinarith
    unfold sig
    rw [le_div_iff₀ hM0]
    calc σ * (c ^ e / σ) = c ^ e := by field_simp
      _ ≤ _ := h1
  have hcont : ContinuousOn (fun M => sig M γ) (Set.Icc (c ^ e / σ) 1) := by
    intro x hx
    exact (continuousAt_sig h (lt_of_lt_of_le hM0 hx.1).ne').continuousWithinAt
  obtain ⟨M, hM, hMs⟩ := intermediate_value_Icc' hM1.le hcont ⟨by rw [sig_one h]; exact hs.le, hbig⟩
  refine ⟨M, lt_of_lt_of_le hM0 hM.1, lt_of_le_of_ne hM.2 ?_, hMs⟩
  rintro rfl
  simp only [sig_one h] at hMs; linarith

theorem exists_sup {σ γ : ℝ} (h : 1 < γ) (hs : 1 < σ) : ∃ M, 1 < M ∧ sig M γ = σ := by
  set e := (γ + 1) / (2 * (γ - 1)) with he
  have h2 : γ - 1 ≠ 0 := by linarith
  have h1 : γ + 1 ≠ 0 := by linarith
  have hepos : 0 < e := by apply div_pos <;> linarith
  set k := (γ - 1) / (γ + 1) with hk
  have hk0 : 0 < k := by apply div_pos <;> linarith
  have hke : 0 < k ^ e := Real.rpow_pos_of_pos hk0 e
  set d := 2 / (γ - 1) with hd
  have hdpos : 0 < d := by apply div_pos <;> linarith
  have hde : 2 * e - 1 = d := by rw [he, hd]; field_simp; ring
  -- lower bound `sig M ≥ k^e M^d`
  have hlow : ∀ M, 1 ≤ M → k ^ e * M ^ d ≤ sig M γ := by
    intro M hM
    have hM0 : 0 < M := by linarith
    unfold sig
    rw [le_div_iff₀ hM0, ← he]
    have e1 : k ^ e * M ^ d * M = (k * M ^ 2) ^ e := by
      rw [Real.mul_rpow hk0.le (by positivity), ← Real.rpow_natCast, ← Real.rpow_mul hM0.le, mul_assoc]
      congr 1
      nth_rewrite 2 [← Real.rpow_one M]
      rw [← Real.rpow_add hM0]; congr 1; push_cast; linarith
    rw [e1]
    apply Real.rpow_le_rpow (by positivity) _ hepos.le
    have : 2 / (γ + 1) * tt M γ = 2 / (γ + 1) + k * M ^ 2 := by
      rw [hk]; unfold tt; field_simp
    rw [this]
    have : 0 < 2 / (γ + 1) := by apply div_pos <;> linarith
    linarith
  set N := max 1 ((σ / k ^ e) ^ (1 / d)) with hN
  have hN1 : 1 ≤ N := le_max_left _ _
  have hbig : σ ≤ sig N γ := by
    refine le_trans ?_ (hlow N hN1)
    have : σ / k ^ e ≤ N ^ d := by
      calc σ / k ^ e = ((σ / k ^ e) ^ (1 / d)) ^ d := by
            rw [← Real.rpow_mul (by positivity), one_div_mul_cancel hdpos.ne', Real.rpow_one]
        _ ≤ N ^ d := Real.rpow_le_rpow (by positivity) (le_max_right _ _) hdpos.le
    rw [div_le_iff₀ hke] at this; linarith
  have hcont : ContinuousOn (fun M => sig M γ) (Set.Icc 1 N) := by
    intro x hx
    exact (continuousAt_sig h (lt_of_lt_of_le one_pos hx.1).ne').continuousWithinAt
  obtain ⟨M, hM, hMs⟩ := intermediate_value_Icc hN1 hcont ⟨by rw [sig_one h]; exact hs.le, hbig⟩
  refine ⟨M, lt_of_le_of_ne hM.1 ?_, hMs⟩
  rintro rfl
  simp only [sig_one h] at hMs; linarith

/-- a Mach number with a given area ratio `σ ≥ 1` is positive -/
theorem pos_of_Sigma {m σ γ : ℝ} (h : 1 < γ) (hs : 1 ≤ σ) (hm : Sigma_Mach m γ = .ok σ) :
    0 < m ∧ sig m γ = σ := by
  rcases eq_or_ne m 0 with h0 | h0
  · rw [h0, Sigma_Mach_zero h] at hm; cases hm
  · rw [Sigma_Mach_ok h h0] at hm
    have hm' : sig m γ = σ := by injection hm
    refine ⟨?_, hm'⟩
    by_contra hn
    have := sig_neg h (lt_of_le_of_ne (not_lt.1 hn) h0)
    linarith

theorem residual_zero {m σ γ : ℝ} (h : sigma_residual σ γ m = .ok 0) : Sigma_Mach m γ = .ok σ := by
  unfold sigma_residual at h
  cases hs : Sigma_Mach m γ with
  | error e => rw [hs] at h; cases h
  | ok s =>
    rw [hs] at h
    simp only [Py.ok_bind, Py.pure_eq] at h
    have : s - σ = 0 := by injection h
    rw [show s = σ by linarith]

end Aerokit.MassFlow
