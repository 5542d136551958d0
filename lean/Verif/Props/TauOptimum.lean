import Verif.Model.PropuBE
import Verif.Spec.Engine
import Mathlib.Tactic

/-! # Property C105 : `calculs_tau_optimum` of `propu_be_double_corps.py` -/

namespace Aerokit.Props

open Spec.Engine PropuBE

/-- The thrust of the ideal turbofan is at most the one with equal jets. -/
theorem jets_le {lam a b c : ℝ} (hl : 0 < lam) (ha : 0 ≤ a) (hb : 0 ≤ b) (h : a + lam * b = (1 + lam) * c) :
    Real.sqrt a + lam * Real.sqrt b ≤ (1 + lam) * Real.sqrt c ∧
      (Real.sqrt a + lam * Real.sqrt b = (1 + lam) * Real.sqrt c → a = b) := by
  have hc : 0 ≤ c := by
    by_contra hc
    have : (1 + lam) * c < 0 := mul_neg_of_pos_of_neg (by linarith) (not_le.1 hc)
    nlinarith [mul_nonneg hl.le hb]
  have sa := Real.sq_sqrt ha
  have sb := Real.sq_sqrt hb
  have sc := Real.sq_sqrt hc
  have na := Real.sqrt_nonneg a
  have nb := Real.sqrt_nonneg b
  have nc := Real.sqrt_nonneg c
  obtain ⟨x, hx⟩ : ∃ x, x = Real.sqrt a := ⟨_, rfl⟩
  obtain ⟨y, hy⟩ : ∃ y, y = Real.sqrt b := ⟨_, rfl⟩
  obtain ⟨z, hz⟩ : ∃ z, z = Real.sqrt c := ⟨_, rfl⟩
  rw [← hx] at sa na ⊢
  rw [← hy] at sb nb ⊢
  rw [← hz] at sc nc ⊢
  have key : ((1 + lam) * z) ^ 2 = (x + lam * y) ^ 2 + lam * (x - y) ^ 2 := by
    have : (1 + lam) * z ^ 2 = x ^ 2 + lam * y ^ 2 := by rw [sa, sb, sc, h]
    linear_combination (1 + lam) * this
  constructor
  · rw [← pow_le_pow_iff_left₀ (by positivity) (by positivity) two_ne_zero, key]
    nlinarith [mul_nonneg hl.le (sq_nonneg (x - y))]
  · intro e
    rw [e] at key
    have : lam * (x - y) ^ 2 = 0 := by linarith
    rcases mul_eq_zero.1 this with h | h
    · linarith
    · have : x = y := by nlinarith [pow_eq_zero_iff (two_ne_zero) |>.1 h]
      rw [← sa, ← sb, this]

/-- What is optimal (independently of the code): equal jet energies, and nothing else, provided these energies are not negative. -/
theorem optimal_iff {lam T0 Tt2 Tt3 Tt4 Tt13 : ℝ} (hl : 0 < lam) : IsOptimalFan lam T0 Tt2 Tt3 Tt4 Tt13 ↔
    0 ≤ idealBypassJet T0 Tt13 ∧ idealCoreJet lam T0 Tt2 Tt3 Tt4 Tt13 = idealBypassJet T0 Tt13 := by
  obtain ⟨E, hE⟩ : ∃ E, E = (Tt4 - (Tt3 - Tt2) + lam * (Tt2 - T0) - Tt4 * (T0 / Tt3)) / (1 + lam) := ⟨_, rfl⟩
  have hl1 : (1 + lam) ≠ 0 := by linarith
  have hsum : ∀ x, idealCoreJet lam T0 Tt2 Tt3 Tt4 x + lam * idealBypassJet T0 x = (1 + lam) * E := by
    intro x; rw [hE, mul_div_cancel₀ _ hl1]; unfold idealCoreJet idealBypassJet; ring
  unfold IsOptimalFan idealJetThrust
  constructor
  · rintro ⟨h1, h2, h3⟩
    refine ⟨h2, ?_⟩
    refine (jets_le hl h1 h2 (hsum _)).2 (le_antisymm (jets_le hl h1 h2 (hsum _)).1 ?_)
    have hE0 : 0 ≤ E := by
      by_contra hc
      have : (1 + lam) * E < 0 := mul_neg_of_pos_of_neg (by linarith) (not_le.1 hc)
      have := hsum Tt13
      nlinarith [mul_nonneg hl.le h2]
    have hb : idealBypassJet T0 (T0 + E) = E := by unfold idealBypassJet; ring
    have ha : idealCoreJet lam T0 Tt2 Tt3 Tt4 (T0 + E) = E := by
      have := hsum (T0 + E); rw [hb] at this; linarith
    have := h3 (T0 + E) (by rw [ha]; exact hE0) (by rw [hb]; exact hE0)
    rw [ha, hb] at this
    linarith
  · rintro ⟨h1, h2⟩
    refine ⟨by rw [h2]; exact h1, h1, fun x hx hx' => ?_⟩
    refine (jets_le hl hx hx' (hsum x)).1.trans ?_
    have := hsum Tt13
    rw [h2] at this
    have e : idealBypassJet T0 Tt13 = E := by
      have : (1 + lam) * (idealBypassJet T0 Tt13 - E) = 0 := by linarith
      rcases mul_eq_zero.1 this with h | h
      · exact absurd h hl1
      · linarith
    rw [h2, e]; linarith

theorem tauc_ge {x : ℝ} (hx : 9 ≤ x) : 2 ≤ x ^ ((gamma - 1) / (eta_c * gamma)) := by
  have e : (gamma - 1) / (eta_c * gamma) = 20 * (1 / 63 : ℝ) := by unfold gamma eta_c; norm_num
  rw [e, Real.rpow_mul (by linarith)]
  have h2 : (2 : ℝ) = ((2 : ℝ) ^ (63 : ℝ)) ^ (1 / 63 : ℝ) := by
    rw [← Real.rpow_mul (by norm_num)]; norm_num
  conv_lhs => rw [h2]
  refine Real.rpow_le_rpow (by positivity) ?_ (by norm_num)
  have : ((9 : ℝ)) ^ (20 : ℝ) ≤ x ^ (20 : ℝ) := Real.rpow_le_rpow (by norm_num) hx (by norm_num)
  refine le_trans ?_ this
  have a : (2 : ℝ) ^ (63 : ℝ) = 2 ^ 63 := by exact_mod_cast Real.rpow_natCast 2 63
  have b : (9 : ℝ) ^ (20 : ℝ) = 9 ^ 20 := by exact_mod_cast Real.rpow_natCast 9 20
  rw [a, b]; norm_num

theorem tau_ok {lam pi_c Tt4 : ℝ} (hl : 0 ≤ lam) (hp : 0 < pi_c) :
    ∃ t, calculs_tau_optimum lam pi_c Tt4 = .ok t ∧ t.tau_r = 1.128 ∧ t.tau_c = pi_c ^ ((gamma - 1) / (eta_c * gamma)) ∧
      t.tau_lambda = (r_ * gamma_ / (gamma_ - 1)) * Tt4 / ((r * gamma / (gamma - 1)) * (T0 * 1.128)) ∧
      t.tau_f = (t.tau_lambda * t.tau_r * (t.tau_c - 1) - t.tau_lambda / (t.tau_r * t.tau_c) + lam * t.tau_r + 1) / (t.tau_r * (1 + lam)) ∧
      t.Tt13 = T0 * 1.128 * t.tau_f := by
  have hc : 0 < pi_c ^ ((gamma - 1) / (eta_c * gamma)) := Real.rpow_pos_of_pos hp _
  have hr : T0 * (1 + ((gamma - 1) / 2) * M0 ^ 2) = T0 * 1.128 := by unfold gamma M0; norm_num
  have hr' : T0 * 1.128 / T0 = 1.128 := by unfold T0; norm_num
  unfold calculs_tau_optimum
  simp only [hr]
  rw [Py.div_ok (by unfold gamma; norm_num), Py.ok_bind, Py.div_ok (by unfold gamma_; norm_num), Py.ok_bind,
    Py.div_ok (by unfold r gamma T0; norm_num), Py.ok_bind, Py.div_ok (by unfold T0; norm_num), Py.ok_bind, hr',
    Py.div_ok (by unfold eta_c gamma; norm_num), Py.ok_bind, Py.pow_ok _ hp, Py.ok_bind, Py.div_ok (by positivity), Py.ok_bind,
    Py.div_ok (by have : 0 < 1 + lam := by linarith
                  positivity), Py.ok_bind, Py.pure_eq]
  exact ⟨_, rfl, rfl, rfl, rfl, rfl, rfl⟩

/-- C105 (partial: what is correct in the printed values): the ram ratio is the total to static temperature ratio of the flight, the compressor
ratio that of a compression of polytropic efficiency `eta_c`, and the fan exit temperature `Tt13` is `tau_f` times the flight total temperature. -/
theorem C105_ratios_partial (lam pi_c Tt4 : ℝ) (hl : 0 ≤ lam) (hp : 0 < pi_c) :
    ∃ t, calculs_tau_optimum lam pi_c Tt4 = .ok t ∧ t.tau_r = 1 + (gamma - 1) / 2 * M0 ^ 2 ∧
      (∀ P T, 0 < P → 0 < T → PolytropicCompression gamma eta_c P T (P * pi_c) (T * t.tau_c)) ∧
      t.Tt13 = T0 * t.tau_r * t.tau_f := by
  obtain ⟨t, h, h1, h2, -, -, h5⟩ := tau_ok (Tt4 := Tt4) hl hp
  refine ⟨t, h, by rw [h1]; unfold gamma M0; norm_num, fun P T hP hT => ?_, by rw [h1, h5]⟩
  unfold PolytropicCompression
  rw [mul_div_cancel_left₀ _ hT.ne', mul_div_cancel_left₀ _ hP.ne', h2, Real.log_rpow hp]
  unfold gamma eta_c
  ring

/-- C105 fails: the fan exit temperature printed by `calculs_tau_optimum` is never the optimal one of the ideal turbofan it is meant for, whatever the
bypass ratio and the turbine entry temperature, for a compressor ratio above 9 (even if one takes for the turbine entry the temperature
`cp_ Tt4 / cp` that has the same enthalpy in air).  The code multiplies `tau_lambda` by `tau_r (tau_c - 1)` where the formula subtracts, and divides
`tau_lambda` by the total instead of the static temperature. -/
theorem C105_optimum_false (lam pi_c Tt4 : ℝ) (hl : 0 < lam) (hp : 9 ≤ pi_c) (hT : 0 < Tt4) :
    ∃ t, calculs_tau_optimum lam pi_c Tt4 = .ok t ∧
      ¬ IsOptimalFan lam T0 (T0 * t.tau_r) (T0 * t.tau_r * t.tau_c) Tt4 t.Tt13 ∧
      ¬ IsOptimalFan lam T0 (T0 * t.tau_r) (T0 * t.tau_r * t.tau_c)
          ((r_ * gamma_ / (gamma_ - 1)) * Tt4 / (r * gamma / (gamma - 1))) t.Tt13 := by
  obtain ⟨t, h, h1, h2, h3, h4, h5⟩ := tau_ok (Tt4 := Tt4) hl.le (by linarith : 0 < pi_c)
  have hc := tauc_ge hp
  rw [← h2] at hc
  refine ⟨t, h, ?_⟩
  have hl1 : 0 < 1 + lam := by linarith
  have e5 : t.Tt13 * (1 + lam) = T0 * (t.tau_lambda * t.tau_r * (t.tau_c - 1) - t.tau_lambda / (t.tau_r * t.tau_c) + lam * t.tau_r + 1) := by
    rw [h5, h4, h1]; field_simp
  have main : ∀ X, X ≤ t.tau_lambda * t.tau_r * T0 → 0 < X → t.tau_lambda * t.tau_r * T0 ≤ 1.2 * X →
      ¬ IsOptimalFan lam T0 (T0 * t.tau_r) (T0 * t.tau_r * t.tau_c) X t.Tt13 := by
    intro X hX hX0 hX2 hopt
    have heq := ((optimal_iff hl).1 hopt).2
    unfold idealCoreJet idealBypassJet at heq
    have hT0 : (0:ℝ) < T0 := by unfold T0; norm_num
    have e6 : T0 / (T0 * t.tau_r * t.tau_c) = 1 / (t.tau_r * t.tau_c) := by
      rw [h1]; field_simp
    rw [e6, h1] at heq
    rw [h1] at e5 hX hX2
    obtain ⟨c, hcc⟩ : ∃ c, c = t.tau_c := ⟨_, rfl⟩
    obtain ⟨L, hLL⟩ : ∃ L, L = t.tau_lambda := ⟨_, rfl⟩
    rw [← hcc] at heq e5 hc
    rw [← hLL] at e5 hX hX2
    have hq : 1 / (1.128 * c) ≤ 1 / 2.256 := one_div_le_one_div_of_le (by norm_num) (by linarith)
    have hq0 : 0 < 1 / (1.128 * c) := by positivity
    have e7 : L / (1.128 * c) = L * (1 / (1.128 * c)) := by ring
    rw [e7] at e5
    obtain ⟨q, hqq⟩ : ∃ q, q = 1 / (1.128 * c) := ⟨_, rfl⟩
    rw [← hqq] at hq hq0 e5 heq
    have hY : 0 < L * T0 := by nlinarith
    -- X - 1.128 T0 (c-1) - X q = 1.128 L T0 (c-1) - L T0 q
    have hfin : X - T0 * 1.128 * (c - 1) - X * q = (L * T0) * 1.128 * (c - 1) - (L * T0) * q := by
      linear_combination heq + e5
    obtain ⟨Y, hYY⟩ : ∃ Y, Y = L * T0 := ⟨_, rfl⟩
    have hX' : X ≤ 1.128 * Y := by rw [hYY]; linarith
    have hX2' : 1.128 * Y ≤ 1.2 * X := by rw [hYY]; linarith
    rw [← hYY] at hfin hY
    have a1 : Y * 1.128 * 1 ≤ Y * 1.128 * (c - 1) := mul_le_mul_of_nonneg_left (by linarith) (by positivity)
    have a2 : T0 * 1.128 * 1 ≤ T0 * 1.128 * (c - 1) := mul_le_mul_of_nonneg_left (by linarith) (by positivity)
    have hT0v : T0 = 217 := by unfold T0; norm_num
    nlinarith
  have hk : t.tau_lambda * t.tau_r * T0 = (r_ * gamma_ / (gamma_ - 1)) * Tt4 / (r * gamma / (gamma - 1)) := by
    rw [h3, h1]
    have hT0 : (0:ℝ) < T0 := by unfold T0; norm_num
    field_simp
  have hk2 : (r_ * gamma_ / (gamma_ - 1)) * Tt4 / (r * gamma / (gamma - 1)) = (387828 / 330 / (4018 / 4)) * Tt4 := by
    have e1 : r_ * gamma_ / (gamma_ - 1) = 387828 / 330 := by unfold r_ gamma_; norm_num
    have e2 : r * gamma / (gamma - 1) = 4018 / 4 := by unfold r gamma; norm_num
    rw [e1, e2]
    ring
  rw [hk2] at hk ⊢
  constructor
  · refine main _ ?_ hT ?_ <;> rw [hk] <;> linarith
  · refine main _ hk.ge (by positivity) ?_
    rw [hk]; linarith

/-- the point of the script (bypass ratio 6.1, compressor ratio 32.8, turbine entry 1410 K) -/
example : ∃ t, calculs_tau_optimum 6.1 32.8 1410 = .ok t :=
  (C105_optimum_false 6.1 32.8 1410 (by norm_num) (by norm_num) (by norm_num)).imp fun _ h => h.1

/-- ideal engines with an optimal fan exist -/
example : IsOptimalFan 1 1 1 2 4 1.5 := (optimal_iff one_pos).2 (by unfold idealBypassJet idealCoreJet; norm_num)

end Aerokit.Props
